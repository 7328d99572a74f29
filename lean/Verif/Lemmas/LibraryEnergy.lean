import Verif.Spec.LibraryEnergy
import Verif.Lemmas.LibrarySound
import Verif.Props.Limits
import Verif.Props.Library
import Verif.Lemmas.IslandEnergy
/-
Energy in the calls of passive constraints.
-/
namespace Simu
open Mat Island Finset Contact
variable {K : Type*} [Field K] [LinearOrder K] [IsStrictOrderedRing K] [Trig K] {d : Nat}

omit [Trig K] in
theorem velocity_applyImpulse (p : Proxies K) (hi : p.i0 ≠ p.i1) (P : MVec K 6) (s : SolveState K) :
    (p.velocity (p.applyImpulse P s)).toV = fun c => (p.velocity s).toV c + p.invMassVec.at_ c * P.toV c := by
  obtain ⟨k0, k1⟩ := kick_masses p P.toV hi
  funext c
  simp only [toV, velocity_toV, Proxies.applyImpulse_vel]
  rw [k0, k1, weight_at]
  fin_cases c <;> rfl

omit [Trig K] in
/-- An impulse along the jacobian that works against the velocity it leaves, damping included, takes energy. -/
theorem post_energy {p : Proxies K} (hw : ∀ c, 0 ≤ p.invMassVec.at_ c) {m v v' : Fin 6 → K} (hB : Backed p m v) (J : Mat K d 6) (D l x : Fin d → K)
    (hD : ∀ r, 0 ≤ D r) (hv : v' = fun c => v c + p.invMassVec.at_ c * pull J x c) (hx : ∀ r, x r * (push J v' r + D r * (l r + x r)) ≤ 0) :
    energyOf m v' + ∑ r, D r * ((l r + x r) * (l r + x r)) ≤ energyOf m v + ∑ r, D r * (l r * l r) := by
  obtain ⟨-, hE⟩ := hB.step (pull J x)
  rw [← hv] at hE
  have h1 : ∑ c, pull J x c * v c = ∑ r, x r * push J v' r - inner p (pull J x) (pull J x) := by
    have : ∑ r, x r * push J v' r = ∑ c, pull J x c * v' c := by
      simp only [push, pull, Finset.mul_sum, Finset.sum_mul]
      rw [Finset.sum_comm]
      exact Finset.sum_congr rfl fun c _ => Finset.sum_congr rfl fun r _ => by ring
    rw [this, hv]
    simp only [inner, mul_add, Finset.sum_add_distrib]
    have : ∀ c, pull J x c * (p.invMassVec.at_ c * pull J x c) = p.invMassVec.at_ c * (pull J x c * pull J x c) := fun c => by ring
    simp only [this]
    ring
  have h2 : ∑ r, D r * ((l r + x r) * (l r + x r)) = ∑ r, D r * (l r * l r) + 2 * ∑ r, x r * (D r * (l r + x r)) - ∑ r, D r * (x r * x r) := by
    rw [Finset.mul_sum, ← Finset.sum_add_distrib, ← Finset.sum_sub_distrib]
    exact Finset.sum_congr rfl fun r _ => by ring
  have h3 : ∑ r, x r * push J v' r + ∑ r, x r * (D r * (l r + x r)) ≤ 0 := by
    rw [← Finset.sum_add_distrib]
    exact Finset.sum_nonpos fun r _ => by have := hx r; linarith [mul_add (x r) (push J v' r) (D r * (l r + x r))]
  have h4 := inner_nonneg p hw (pull J x)
  have h5 : 0 ≤ ∑ r, D r * (x r * x r) := Finset.sum_nonneg fun r _ => mul_nonneg (hD r) (mul_self_nonneg _)
  rw [hE, h1, h2]
  linarith

/-- What is kept in the damping of a constraint. -/
def SolverBase.store (b : SolverBase K d) : K := ∑ r, b.damping.at_ r * (b.lambda.at_ r * b.lambda.at_ r)

omit [Trig K] in
theorem SolverBase.store_nonneg {b : SolverBase K d} (h : ∀ r, 0 ≤ b.damping.at_ r) : 0 ≤ b.store :=
  Finset.sum_nonneg fun r _ => mul_nonneg (h r) (mul_self_nonneg _)

omit [Trig K] in
theorem push_after (p : Proxies K) (J : Mat K d 6) (v : Fin 6 → K) (x : MVec K d) (r : Fin d) :
    push J (fun c => v c + p.invMassVec.at_ c * pull J x.toV c) r =
      push J v r + (((J.mul p.inverseMass).mul J.transpose).mul x).at_ r := by
  rw [effectiveMass_mul]
  simp only [push, mul_add, Finset.sum_add_distrib]

omit [Trig K] in
/-- An equality constraint takes energy. -/
theorem EqualitySolver.spend {sqrt : K → K} (hs : ∀ x, 0 ≤ x → sqrt x * sqrt x = x) {p : Proxies K} (hi : p.i0 ≠ p.i1) (hw : ∀ c, 0 ≤ p.invMassVec.at_ c)
    {e e' : EqualitySolver K d} {f : CFun K d} (hf : f.Plain) (hc : e.base.Calm)
    (hk : KSolver.mk' sqrt d (effectiveMass p e.base.J e.base.damping) = .ok e.solver) {dt : K} {s s' : SolveState K} {m : Fin 6 → K}
    (hB : Backed p m (p.velocity s).toV) (h : e.solveVelocity p f dt s = .ok (e', s')) :
    energyOf m (p.velocity s').toV + e'.base.store ≤ energyOf m (p.velocity s).toV + e.base.store := by
  obtain ⟨x, hx, h⟩ := bind_ok_iff.1 h
  cases Outcome.ok.inj h
  obtain ⟨k, hk', -, hgood, hbad⟩ := KSolver.mk_spec hs (effectiveMass p e.base.J e.base.damping)
  have hke : k = e.solver := by simpa using hk'.symm.trans hk
  subst hke
  by_cases hdet : (effectiveMass p e.base.J e.base.damping).toM.det = 0
  · rw [hbad hdet] at hx; cases hx
  obtain ⟨x', hx', hA, -⟩ := hgood hdet (e.base.computeRhs p s f dt true)
  obtain rfl : x' = x := by rw [hx'] at hx; exact Outcome.ok.inj hx
  have hsub : (e.base.lambda.add x').sub e.base.lambda = x' := by apply ext_at; intro r; rw [at_sub, at_add]; ring
  have hv := velocity_applyImpulse p hi (SolverBase.impulse e.base.J x') s
  rw [toV_impulse] at hv
  have key := post_energy hw hB e.base.J e.base.damping.toV e.base.lambda.toV x'.toV hc.2 hv (fun r => by
    rw [hv, push_after]
    have := congrArg (fun y => y.at_ r) hA
    simp only [effectiveMass, add_mul_at, diag_mul_at, SolverBase.computeRhs, if_true, at_neg, at_add, at_sdiv, hf.2, hc.1] at this
    have hz : push e.base.J (p.velocity s).toV r = (e.base.J.mul (p.velocity s)).at_ r := by simp only [at_mul, push, toV]
    rw [hz]
    have h0 : (e.base.J.mul (p.velocity s)).at_ r + (((e.base.J.mul p.inverseMass).mul e.base.J.transpose).mul x').at_ r +
        e.base.damping.toV r * (e.base.lambda.toV r + x'.toV r) = 0 := by simp only [toV]; linear_combination this
    rw [h0, mul_zero])
  simp only [SolverBase.store]
  rw [hf.1, hsub]
  simp only [at_add]
  exact key

/-- What `initSolve` leaves in a constraint with limits. -/
def LimitsSolver.Prepared (sqrt : K → K) (p : Proxies K) (e : LimitsSolver K) : Prop :=
  (e.func = .equality → ∃ k, KSolver.mk' sqrt 1 (effectiveMass p e.base.J e.base.damping) = .ok k ∧ e.data = .solver k) ∧
  (e.func = .lower ∨ e.func = .upper → e.data = .effectiveMass (effectiveMass p e.base.J e.base.damping) ∧ 0 < e.base.damping.at_ 0 ∧ 0 ≤ e.base.lambda.at_ 0)

omit [Trig K] in
theorem LimitsSolver.initSolve_prepared {sqrt : K → K} {p : Proxies K} {f : CFun K 1} {e e' : LimitsSolver K} {s : SolveState K}
    (hd : 0 < e.base.damping.at_ 0 ∨ ∃ l u, e.L = some l ∧ e.U = some u ∧ l.at_ 0 = u.at_ 0) (h : e.initSolve sqrt p f s = .ok e') :
    e'.Prepared sqrt p ∧ e'.base.store = 0 := by
  obtain ⟨iJ, il, iL, iU, iF, iD, iR, iE, iM⟩ := LimitsSolver.initSolve_ok sqrt e e' p f s h
  refine ⟨⟨fun h => ?_, fun h => ?_⟩, ?_⟩
  · rw [iJ, iD]; exact iE h
  · rw [iJ, iD]
    refine ⟨iM h, ?_, by rw [il, at_zero]⟩
    rcases hd with hd | ⟨l, u, hl, hu, he⟩
    · exact hd
    · exfalso
      have : e.nextFunc p f s = .equality := by simp only [LimitsSolver.nextFunc, hl, hu, he, if_true]
      rw [iF, this] at h
      simp at h
  · simp only [SolverBase.store, il, at_zero, mul_zero, Finset.sum_const_zero]

omit [Trig K] in
/-- A constraint with limits takes energy. -/
theorem LimitsSolver.spend {sqrt : K → K} (hs : ∀ x, 0 ≤ x → sqrt x * sqrt x = x) {epsilon : K} (he : 0 ≤ epsilon) {fuel : Nat} (hfuel : 2 ≤ fuel)
    {p : Proxies K} (hi : p.i0 ≠ p.i1) (hw : ∀ c, 0 ≤ p.invMassVec.at_ c)
    {e e' : LimitsSolver K} {f : CFun K 1} (hf : f.Plain) (hc : e.base.Calm)
    (hk : e.Prepared sqrt p) {dt : K} {s s' : SolveState K} {m : Fin 6 → K}
    (hB : Backed p m (p.velocity s).toV) (h : e.solveVelocity epsilon fuel p f dt s = .ok (some (e', s'))) :
    energyOf m (p.velocity s').toV + e'.base.store ≤ energyOf m (p.velocity s).toV + e.base.store ∧ e'.Prepared sqrt p := by
  obtain ⟨base, func, L, U, data, cw⟩ := e
  obtain ⟨hkE, hkM⟩ := hk
  simp only at hkE hkM hc
  set J := base.J with hJ
  set KK := (J.mul p.inverseMass).mul J.transpose with hKK
  have hKget : (effectiveMass p J base.damping).get 0 0 = KK.get 0 0 + base.damping.at_ 0 := by
    rw [effectiveMass, get_add, get_diagonal, if_pos rfl]
  have hKn : 0 ≤ KK.get 0 0 := by
    have h1 := effectiveMass_mul p J (Mat.ofFn fun _ => 1) 0
    rw [mul_at_one, at_ofFn, mul_one] at h1
    rw [hKK, h1]
    refine Finset.sum_nonneg fun c _ => ?_
    have : pull J (Mat.ofFn fun _ => (1 : K) : MVec K 1).toV c = J.get 0 c := by simp [pull, toV, at_ofFn]
    dsimp only
    rw [this]
    have := mul_nonneg (hw c) (mul_self_nonneg (J.get 0 c))
    linarith [this, show J.get 0 c * (p.invMassVec.at_ c * J.get 0 c) = p.invMassVec.at_ c * (J.get 0 c * J.get 0 c) by ring]
  have hJv : (J.mul (p.velocity s)).at_ 0 = push J (p.velocity s).toV 0 := by rw [at_mul]; rfl
  have hcoef : ∀ C : MVec K 1, (((Mat.diagonal base.restitution).sdiv dt).mul C).at_ 0 = 0 := by
    intro C
    rw [mul_at_one, get_sdiv, get_diagonal, if_pos rfl, hc.1, zero_div, zero_mul]
  have hpush : ∀ y : MVec K 1, push J (p.velocity (p.applyImpulse (SolverBase.impulse J y) s)).toV 0 =
      push J (p.velocity s).toV 0 + KK.get 0 0 * y.at_ 0 := by
    intro y; rw [push_impulse p J (Or.inl hi), mul_at_one]
  have post : ∀ (l y : MVec K 1), y.at_ 0 * (push J (p.velocity s).toV 0 + KK.get 0 0 * y.at_ 0 + base.damping.at_ 0 * (l.at_ 0 + y.at_ 0)) ≤ 0 →
      energyOf m (p.velocity (p.applyImpulse (SolverBase.impulse J y) s)).toV + base.damping.at_ 0 * ((l.at_ 0 + y.at_ 0) * (l.at_ 0 + y.at_ 0)) ≤
        energyOf m (p.velocity s).toV + base.damping.at_ 0 * (l.at_ 0 * l.at_ 0) := by
    intro l y hy
    have hv := velocity_applyImpulse p hi (SolverBase.impulse J y) s
    rw [toV_impulse] at hv
    have key := post_energy hw hB J base.damping.toV l.toV y.toV hc.2 hv (fun r => by
      rw [Subsingleton.elim r 0, hpush]; exact hy)
    simpa [toV] using key
  unfold LimitsSolver.solveVelocity at h
  obtain ⟨err, hr, h⟩ := bind_ok_iff.1 h
  simp only [LimitsSolver.rhs] at hr
  cases func with
  | equality =>
    obtain ⟨k, hk, hdata⟩ := hkE rfl
    subst hdata
    simp only at h
    obtain ⟨x, hx, h⟩ := bind_ok_iff.1 h
    simp only [Outcome.ok.injEq, Option.some.injEq, Prod.mk.injEq] at h
    obtain ⟨rfl, rfl⟩ := h
    refine ⟨?_, fun _ => ⟨k, hk, rfl⟩, fun h => by simp at h⟩
    obtain ⟨k', hk', -, hgood, hbad⟩ := KSolver.mk_spec hs (effectiveMass p J base.damping)
    have hke : k' = k := by simpa using hk'.symm.trans hk
    subst hke
    by_cases hdet : (effectiveMass p J base.damping).toM.det = 0
    · rw [hbad hdet] at hx; cases hx
    obtain ⟨x', hx', hA, -⟩ := hgood hdet err
    obtain rfl : x' = x := by rw [hx'] at hx; exact Outcome.ok.inj hx
    have hsub : (base.lambda.add x').sub base.lambda = x' := by apply ext_at; intro r; rw [at_sub, at_add]; ring
    have h0 := congrArg (fun y => y.at_ 0) hA
    simp only [mul_at_one, hKget, ← Outcome.ok.inj hr, at_neg, at_add, ← hJ, hJv, hf.2, hcoef, get_diagonal, if_true] at h0
    have := post base.lambda x' (by
      have : push J (p.velocity s).toV 0 + KK.get 0 0 * x'.at_ 0 + base.damping.at_ 0 * (base.lambda.at_ 0 + x'.at_ 0) = 0 := by linear_combination h0
      rw [this, mul_zero])
    simp only [SolverBase.store, SolverBase.updateLambda, hf.1, hsub, at_add, Finset.univ_unique, Fin.default_eq_zero, Finset.sum_singleton]
    exact this
  | lower =>
    obtain ⟨hdata, hpos, hl0⟩ := hkM (Or.inl rfl)
    subst hdata
    obtain ⟨lv, -, hr⟩ := bind_ok_iff.1 hr
    simp only [Outcome.ok.injEq] at h
    obtain ⟨x, hx1, hx2⟩ := solveInequalities_one (effectiveMass p J base.damping) err
      (fun l => maxZero (f.clampLambda l dt)) base.lambda epsilon he fuel hfuel
    rw [hx1, Option.map_some, Option.some.injEq, Prod.mk.injEq] at h
    obtain ⟨rfl, rfl⟩ := h
    rw [hf.1, maxZero_at, at_ofFn, hKget] at hx2
    have hx2 : x.at_ 0 = max (err.at_ 0 / (KK.get 0 0 + base.damping.at_ 0)) 0 := hx2
    have hA : 0 < KK.get 0 0 + base.damping.at_ 0 := by linarith
    have herr : err.at_ 0 = -(push J (p.velocity s).toV 0 - KK.get 0 0 * base.lambda.at_ 0) := by
      simp only [← Outcome.ok.inj hr, at_neg, at_add, at_sub, ← hJ, ← hKK, hJv, hf.2, hcoef, mul_at_one, add_zero]
    have hsub : (base.lambda.add (x.sub base.lambda)).sub base.lambda = x.sub base.lambda := by apply ext_at; intro r; rw [at_sub, at_add]; ring
    have hx0 : 0 ≤ x.at_ 0 := by rw [hx2]; exact le_max_right _ _
    have hcomp : 0 ≤ (KK.get 0 0 + base.damping.at_ 0) * x.at_ 0 - err.at_ 0 ∧ x.at_ 0 * ((KK.get 0 0 + base.damping.at_ 0) * x.at_ 0 - err.at_ 0) = 0 := by
      have hd : (KK.get 0 0 + base.damping.at_ 0) * (err.at_ 0 / (KK.get 0 0 + base.damping.at_ 0)) = err.at_ 0 := mul_div_cancel₀ _ hA.ne'
      rcases le_total (err.at_ 0 / (KK.get 0 0 + base.damping.at_ 0)) 0 with hn | hn
      · have h1 : x.at_ 0 = 0 := by rw [hx2, max_eq_right hn]
        have := mul_nonpos_of_nonneg_of_nonpos hA.le hn
        rw [h1]; constructor <;> [linarith; ring]
      · rw [hx2, max_eq_left hn, hd]; simp
    have := post base.lambda (x.sub base.lambda) (by
      rw [at_sub]
      have e1 : push J (p.velocity s).toV 0 + KK.get 0 0 * (x.at_ 0 - base.lambda.at_ 0) + base.damping.at_ 0 * (base.lambda.at_ 0 + (x.at_ 0 - base.lambda.at_ 0)) =
          (KK.get 0 0 + base.damping.at_ 0) * x.at_ 0 - err.at_ 0 := by rw [herr]; ring
      rw [e1, sub_mul, hcomp.2]
      have := mul_nonneg hl0 hcomp.1
      linarith)
    refine ⟨?_, fun h => by simp at h, fun _ => ⟨rfl, hpos, ?_⟩⟩
    · simp only [SolverBase.store, SolverBase.updateLambda, hf.1, hsub, at_add, Finset.univ_unique, Fin.default_eq_zero, Finset.sum_singleton]
      exact this
    · simp only [SolverBase.updateLambda, hf.1, at_add, at_sub]
      linarith
  | upper =>
    obtain ⟨hdata, hpos, hl0⟩ := hkM (Or.inr rfl)
    subst hdata
    obtain ⟨uv, -, hr⟩ := bind_ok_iff.1 hr
    simp only [Outcome.ok.injEq] at h
    obtain ⟨x, hx1, hx2⟩ := solveInequalities_one (effectiveMass p J base.damping) err
      (fun l => maxZero (f.clampLambda l.neg dt).neg) base.lambda epsilon he fuel hfuel
    rw [hx1, Option.map_some, Option.some.injEq, Prod.mk.injEq] at h
    obtain ⟨rfl, rfl⟩ := h
    rw [hf.1, maxZero_at, at_neg, at_neg, neg_neg, at_ofFn, hKget] at hx2
    have hx2 : x.at_ 0 = max (err.at_ 0 / (KK.get 0 0 + base.damping.at_ 0)) 0 := hx2
    have hA : 0 < KK.get 0 0 + base.damping.at_ 0 := by linarith
    have herr : err.at_ 0 = push J (p.velocity s).toV 0 + KK.get 0 0 * base.lambda.at_ 0 := by
      simp only [← Outcome.ok.inj hr, at_neg, at_add, at_sub, ← hJ, ← hKK, hJv, hf.2, hcoef, mul_at_one, add_zero]
      ring
    have hx0 : 0 ≤ x.at_ 0 := by rw [hx2]; exact le_max_right _ _
    have hcomp : 0 ≤ (KK.get 0 0 + base.damping.at_ 0) * x.at_ 0 - err.at_ 0 ∧ x.at_ 0 * ((KK.get 0 0 + base.damping.at_ 0) * x.at_ 0 - err.at_ 0) = 0 := by
      have hd : (KK.get 0 0 + base.damping.at_ 0) * (err.at_ 0 / (KK.get 0 0 + base.damping.at_ 0)) = err.at_ 0 := mul_div_cancel₀ _ hA.ne'
      rcases le_total (err.at_ 0 / (KK.get 0 0 + base.damping.at_ 0)) 0 with hn | hn
      · have h1 : x.at_ 0 = 0 := by rw [hx2, max_eq_right hn]
        have := mul_nonpos_of_nonneg_of_nonpos hA.le hn
        rw [h1]; constructor <;> [linarith; ring]
      · rw [hx2, max_eq_left hn, hd]; simp
    have := post base.lambda.neg (x.sub base.lambda).neg (by
      rw [at_neg, at_neg, at_sub]
      have e1 : push J (p.velocity s).toV 0 + KK.get 0 0 * -(x.at_ 0 - base.lambda.at_ 0) + base.damping.at_ 0 * (-base.lambda.at_ 0 + -(x.at_ 0 - base.lambda.at_ 0)) =
          -((KK.get 0 0 + base.damping.at_ 0) * x.at_ 0 - err.at_ 0) := by rw [herr]; ring
      rw [e1, neg_mul_neg, sub_mul, hcomp.2]
      have := mul_nonneg hl0 hcomp.1
      linarith)
    refine ⟨?_, fun h => by simp at h, fun _ => ⟨rfl, hpos, hx0⟩⟩
    simp only [SolverBase.store, Finset.univ_unique, Fin.default_eq_zero, Finset.sum_singleton]
    simp only [at_neg, at_sub] at this
    have e1 : -base.lambda.at_ 0 + -(x.at_ 0 - base.lambda.at_ 0) = -x.at_ 0 := by ring
    rw [e1, neg_mul_neg, neg_mul_neg] at this
    exact this
  | off =>
    simp only [Outcome.ok.injEq, Option.some.injEq, Prod.mk.injEq] at h
    obtain ⟨rfl, rfl⟩ := h
    exact ⟨le_rfl, hkE, hkM⟩

/-- `initSolve` of a contact whose frame is known. -/
theorem Contact.initSolve_ready (e : Contact K) (hm : e.manifold.nContacts = e.frame.nContacts) (p : Proxies K) (s : SolveState K) :
    Ready p e.frame s.pos (e.initSolve p s) := by
  set e2 := e.computeJacobians p s true with he2
  obtain ⟨hJn, hJf, hfr, -⟩ := computeKs_eq e2 p true
  have h2 : e2.frame = e.frame := rfl
  have cJn : ∀ c i, e2.Jn.get c i = if c.val < e2.frame.nContacts then rowOf e2.frame p s.pos e2.frame.normal c i else 0 :=
    fun c i => computeJacobians_Jn e p s true c i
  have cJf : ∀ c i, (e2.Jf c).get 0 i = if c.val < e2.frame.nContacts then rowOf e2.frame p s.pos e2.frame.tangent c i else 0 := by
    intro c i
    have := computeJacobians_Jf e p s true c i
    simp only [and_true] at this
    exact this
  obtain ⟨k1, k2⟩ := computeKs_normal e2 p true s.pos hm cJn
  have hcons : e.initSolve p s = { (e2.computeKs p true).computeBounce p s with
    previousTangentLambda := (e2.computeKs p true).tangentLambda
    previousNormalLambda := (e2.computeKs p true).normalLambda
    tangentLambda := Mat.zero
    normalLambda := Mat.zero } := rfl
  have a1 : (e.initSolve p s).Jn = e2.Jn := by rw [hcons]; exact hJn
  have a2 : (e.initSolve p s).Jf = e2.Jf := by rw [hcons]; exact hJf
  have a3 : (e.initSolve p s).frame = e.frame := by rw [hcons]; exact hfr
  have a4 : (e.initSolve p s).normalSolver = (e2.computeKs p true).normalSolver := by rw [hcons]; rfl
  have a5 : (e.initSolve p s).invTangentKs = (e2.computeKs p true).invTangentKs := by rw [hcons]; rfl
  constructor
  · exact a3
  · intro c i; rw [a2, cJf, h2]
  · intro c i; rw [a1, cJn, h2]
  · intro c hc
    rw [a5, a2]
    exact computeKs_tangent e2 p s.pos cJf c hc
  · intro h; rw [a4, a1]; exact k1 h
  · intro h; rw [a4, a1]; exact k2 h

/-- A contact without restitution and friction, prepared. -/
def Contact.Prepared (p : Proxies K) (e : Contact K) : Prop :=
  ∃ f pos, Ready p f pos e ∧ Solvable f p ∧ (f.nContacts = 1 ∨ f.nContacts = 2) ∧ e.friction = 0 ∧
    ∀ c : Fin 2, e.bounce.at_ c = 0 ∧ 0 ≤ e.normalLambda.at_ c ∧ (c.val < f.nContacts → e.tangentLambda.at_ c = 0)

theorem Contact.spend {p : Proxies K} (hi : p.i0 ≠ p.i1) {e e' : Contact K} (h : e.Prepared p) {s s' : SolveState K} {m : Fin 6 → K}
    (hB : Backed p m (p.velocity s).toV) (hsol : e.solveVelocities p s = .ok (e', s')) :
    energyOf m (p.velocity s').toV ≤ energyOf m (p.velocity s).toV ∧ e'.Prepared p := by
  obtain ⟨f, pos, hr, hs, hn, hfr, hc⟩ := h
  obtain ⟨hK, hdet⟩ := hs.positive hr
  obtain ⟨l1, v1, hn1, he', hs'⟩ := solveVelocities_eq e p s hsol
  obtain ⟨ln, v', hsn, hcomp⟩ := solveNormal_complement hr hn hK hdet (e.frictionLoop p (p.velocity s)).2
  obtain ⟨rfl, rfl⟩ : ln = l1 ∧ v' = v1 := by
    rw [hsn] at hn1
    simp only [Outcome.ok.injEq, Prod.mk.injEq] at hn1
    exact hn1
  have hv := velocity_setVel p hi s v'
  rw [← hs'] at hv
  obtain ⟨hB1, hE1⟩ := frictionLoop_energy hr hs.weights (p.velocity s) _ hB (fun c hc' => by rw [hfr, (hc c).2.2 hc', zero_mul, abs_zero])
  obtain ⟨_, d, hd, hE2⟩ := solveNormal_energy e p _ hsn _ hB1
  constructor
  · rw [hv, hE2]
    have hq := inner_nonneg p hs.weights (pull e.Jn d)
    have hw : ∀ c : Fin 2, push e.Jn v'.toV c * d c ≤ 0 := by
      intro c
      by_cases hcn : c.val < f.nContacts
      · obtain ⟨a1, a2, a3⟩ := hcomp c hcn
        rw [(hc c).1, add_zero] at a2 a3
        rw [hd c]
        have := mul_nonneg a2 (hc c).2.1
        linarith
      · have : push e.Jn v'.toV c = 0 := by simp [push, hr.Jn, hcn]
        rw [this, zero_mul]
    have := hw 0; have := hw 1
    linarith
  · refine ⟨f, pos, hr.solveVelocities s hsol, hs, hn, by rw [he']; exact hfr, fun c => ?_⟩
    rw [he']
    refine ⟨(hc c).1, solveNormal_nonneg e p _ hsn (fun c => (hc c).2.1) c, fun hcn => ?_⟩
    have := (frictionLoop_bound e p (p.velocity s) c).1 (by rw [hr.frame]; exact hcn) (by rw [hfr, zero_mul])
    rw [hfr, zero_mul] at this
    exact abs_eq_zero.1 (le_antisymm this (abs_nonneg _))

/-! ### Passive constraints stay passive -/

theorem EqualitySolver.calm_of {e e' : EqualitySolver K d} (h : e.base.Calm) (hr : e'.base.restitution = e.base.restitution)
    (hd : e'.base.damping = e.base.damping) : e'.base.Calm := by
  unfold SolverBase.Calm; rw [hr, hd]; exact h

omit [IsStrictOrderedRing K] in
theorem Contact.solvePositions_keeps {e e' : Contact K} {p : Proxies K} {s s' : SolveState K} (h : e.solvePositions p s = .ok (e', s')) :
    e'.manifold = e.manifold ∧ e'.frame = e.manifold.frame ![(s.pos p.i0).toWorldSpace, (s.pos p.i1).toWorldSpace] ∧
      e'.restitution = e.restitution ∧ e'.friction = e.friction := by
  unfold Contact.solvePositions at h
  dsimp only at h
  set e1 : Contact K := { e with frame := e.manifold.frame ![(s.pos p.i0).toWorldSpace, (s.pos p.i1).toWorldSpace] } with he1
  obtain ⟨-, -, hfr, hma, -, -, hre, hfi, -⟩ := Contact.computeKs_eq (e1.computeJacobians p s false) p false
  set e2 := (e1.computeJacobians p s false).computeKs p false
  have key : e2.manifold = e.manifold ∧ e2.frame = e.manifold.frame ![(s.pos p.i0).toWorldSpace, (s.pos p.i1).toWorldSpace] ∧
      e2.restitution = e.restitution ∧ e2.friction = e.friction := ⟨hma, hfr, hre, hfi⟩
  clear_value e2
  split at h
  · cases Outcome.ok.inj h; exact key
  · split at h
    · obtain ⟨k, -, h⟩ := bind_ok_iff.1 h
      cases Outcome.ok.inj h; exact key
    · split at h
      · obtain ⟨k, -, h⟩ := bind_ok_iff.1 h
        obtain ⟨x, -, h⟩ := bind_ok_iff.1 h
        cases Outcome.ok.inj h; exact key
      · cases Outcome.ok.inj h; exact key

omit [IsStrictOrderedRing K] in
theorem Contact.initSolve_keeps (e : Contact K) (p : Proxies K) (s : SolveState K) :
    (e.initSolve p s).manifold = e.manifold ∧ (e.initSolve p s).frame = e.frame ∧ (e.initSolve p s).restitution = e.restitution ∧
      (e.initSolve p s).friction = e.friction ∧ (e.restitution = 0 → ∀ c, (e.initSolve p s).bounce.at_ c = 0) ∧
      (e.initSolve p s).normalLambda = Mat.zero ∧ (e.initSolve p s).tangentLambda = Mat.zero := by
  obtain ⟨-, -, hfr, hma, -, -, hre, hfi, -⟩ := Contact.computeKs_eq (e.computeJacobians p s true) p true
  refine ⟨hma, hfr, hre, hfi, fun h c => ?_, rfl, rfl⟩
  have hb : (e.initSolve p s).bounce = (forFin 2 (fun c b => if c.val < ((e.computeJacobians p s true).computeKs p true).manifold.nContacts then
    if -1 < b.at_ c then b.setAt c 0 else b else b) (((e.computeJacobians p s true).computeKs p true).Jn.mul (p.velocity s))).smul
      ((e.computeJacobians p s true).computeKs p true).restitution := rfl
  rw [hb, at_smul, hre]
  show _ * e.restitution = 0
  rw [h, mul_zero]

theorem Kind.act_passive (c : CallCfg K) {m : InvMasses K} (k : Kind K) (e e' : k.State) (h : k.Passive m e) (ph : Phase) (i0 i1 : Nat) (ps : Nat → Pose K)
    (vs : Nat → Velocity K) {s' : SolveState K} (ha : k.act c ph ⟨i0, i1, m⟩ e ⟨fun i => (ps i).1, vs⟩ = .ok (e', s')) : k.Passive m e' := by
  obtain ⟨s, hse⟩ : ∃ s : SolveState K, s = ⟨fun i => (ps i).1, vs⟩ := ⟨_, rfl⟩
  rw [← hse] at ha
  cases k with
  | equality d f =>
    obtain ⟨hf, hc⟩ := h
    refine ⟨hf, ?_⟩
    cases ph with
    | initSolve =>
      obtain ⟨e1, h1, ha⟩ := bind_ok_iff.1 ha
      obtain ⟨rfl, -⟩ := Prod.mk.inj (Outcome.ok.inj ha)
      obtain ⟨-, -, -, hda, hre, -⟩ := EqualitySolver.initSolve_ok c.sqrt e _ _ f _ h1
      exact EqualitySolver.calm_of hc hre hda
    | warmstart => cases Outcome.ok.inj ha; exact EqualitySolver.calm_of hc rfl rfl
    | solveVelocities =>
      obtain ⟨x, -, ha⟩ := bind_ok_iff.1 ha
      cases Outcome.ok.inj ha; exact EqualitySolver.calm_of hc rfl rfl
    | solvePositions =>
      obtain ⟨x, -, ha⟩ := bind_ok_iff.1 ha
      obtain ⟨y, -, ha⟩ := bind_ok_iff.1 ha
      cases Outcome.ok.inj ha; exact EqualitySolver.calm_of hc rfl rfl
  | mouse f => exact h.elim
  | inequality d f => exact h.elim
  | limits f =>
    obtain ⟨hf, hc, hd⟩ := h
    suffices hkeep : (e' : LimitsSolver K).base.restitution = (e : LimitsSolver K).base.restitution ∧
        (e' : LimitsSolver K).base.damping = (e : LimitsSolver K).base.damping ∧ (e' : LimitsSolver K).L = (e : LimitsSolver K).L ∧
        (e' : LimitsSolver K).U = (e : LimitsSolver K).U by
      obtain ⟨k1, k2, k3, k4⟩ := hkeep
      refine ⟨hf, ?_, ?_⟩
      · unfold SolverBase.Calm; rw [k1, k2]; exact hc
      · rw [k2, k3, k4]; exact hd
    cases ph with
    | initSolve =>
      obtain ⟨e1, h1, ha⟩ := bind_ok_iff.1 ha
      obtain ⟨rfl, -⟩ := Prod.mk.inj (Outcome.ok.inj ha)
      obtain ⟨-, -, hL, hU, -, hda, hre, -⟩ := LimitsSolver.initSolve_ok c.sqrt e _ _ f _ h1
      exact ⟨hre, hda, hL, hU⟩
    | warmstart =>
      have ha : LimitsSolver.warmstart e ⟨i0, i1, m⟩ f c.dt s = (e', s') := Outcome.ok.inj ha
      unfold LimitsSolver.warmstart at ha
      split at ha
      · split at ha
        · cases ha; exact ⟨rfl, rfl, rfl, rfl⟩
        · cases ha; exact ⟨rfl, rfl, rfl, rfl⟩
      · cases ha; exact ⟨rfl, rfl, rfl, rfl⟩
    | solveVelocities =>
      obtain ⟨o, ho, ha⟩ := bind_ok_iff.1 ha
      cases o with
      | none => cases ha
      | some r =>
        cases Outcome.ok.inj ha
        unfold LimitsSolver.solveVelocity at ho
        obtain ⟨err, -, ho⟩ := bind_ok_iff.1 ho
        split at ho
        · obtain ⟨x, -, ho⟩ := bind_ok_iff.1 ho
          cases Option.some.inj (Outcome.ok.inj ho); exact ⟨rfl, rfl, rfl, rfl⟩
        · obtain ⟨x, -, ho⟩ := Option.map_eq_some_iff.1 (Outcome.ok.inj ho)
          cases ho; exact ⟨rfl, rfl, rfl, rfl⟩
        · obtain ⟨x, -, ho⟩ := Option.map_eq_some_iff.1 (Outcome.ok.inj ho)
          cases ho; exact ⟨rfl, rfl, rfl, rfl⟩
        · cases Option.some.inj (Outcome.ok.inj ho); exact ⟨rfl, rfl, rfl, rfl⟩
        · cases ho
    | solvePositions =>
      obtain ⟨o, ho, ha⟩ := bind_ok_iff.1 ha
      cases o with
      | none => cases ha
      | some r =>
        cases Outcome.ok.inj ha
        unfold LimitsSolver.solvePosition at ho
        dsimp only at ho
        split at ho
        · obtain ⟨x, -, ho⟩ := bind_ok_iff.1 ho
          obtain ⟨y, -, ho⟩ := bind_ok_iff.1 ho
          obtain ⟨z, -, ho⟩ := bind_ok_iff.1 ho
          cases Option.some.inj (Outcome.ok.inj ho); exact ⟨rfl, rfl, rfl, rfl⟩
        · obtain ⟨x, -, ho⟩ := bind_ok_iff.1 ho
          obtain ⟨x, -, ho⟩ := Option.map_eq_some_iff.1 (Outcome.ok.inj ho)
          cases ho; exact ⟨rfl, rfl, rfl, rfl⟩
        · obtain ⟨x, -, ho⟩ := bind_ok_iff.1 ho
          obtain ⟨x, -, ho⟩ := Option.map_eq_some_iff.1 (Outcome.ok.inj ho)
          cases ho; exact ⟨rfl, rfl, rfl, rfl⟩
        · cases Option.some.inj (Outcome.ok.inj ho); exact ⟨rfl, rfl, rfl, rfl⟩
  | contact =>
    have hp := h
    obtain ⟨⟨P0, P1, hfr⟩, hn, hsv, hre, hfi⟩ := h
    cases ph with
    | initSolve =>
      obtain ⟨rfl, -⟩ := Prod.mk.inj (Outcome.ok.inj ha)
      obtain ⟨k1, k2, k3, k4, -⟩ := Contact.initSolve_keeps e ⟨i0, i1, m⟩ s
      refine ⟨⟨P0, P1, ?_⟩, ?_, ?_, ?_, ?_⟩
      · rw [k1, k2]; exact hfr
      · rw [k1]; exact hn
      · rw [k1]; exact hsv
      · rw [k3]; exact hre
      · rw [k4]; exact hfi
    | warmstart => cases Outcome.ok.inj ha; exact hp
    | solveVelocities =>
      obtain ⟨l, v', -, he', -⟩ := Contact.solveVelocities_eq e ⟨i0, i1, m⟩ s ha
      rw [he']
      exact hp
    | solvePositions =>
      obtain ⟨k1, k2, k3, k4⟩ := Contact.solvePositions_keeps ha
      refine ⟨⟨ps i0, ps i1, ?_⟩, ?_, ?_, ?_, ?_⟩
      · rw [k1, k2, hse]
      · rw [k1]; exact hn
      · rw [k1]; exact hsv
      · rw [k3]; exact hre
      · rw [k4]; exact hfi

/-- What `initSolve` leaves in a passive constraint. -/
def Kind.Prepared (sqrt : K → K) (p : Proxies K) : (k : Kind K) → k.State → Prop
  | .equality d _, e => KSolver.mk' sqrt d (effectiveMass p (e : EqualitySolver _ _).base.J (e : EqualitySolver _ _).base.damping) = .ok (e : EqualitySolver _ _).solver
  | .limits _, e => (e : LimitsSolver _).Prepared sqrt p
  | .contact, e => (e : Contact _).Prepared p
  | .inequality _ _, _ => True
  | .mouse _, _ => True

/-- What a constraint keeps of the energy. -/
def Kind.store : (k : Kind K) → k.State → K
  | .equality _ _, e => (e : EqualitySolver _ _).base.store
  | .limits _, e => (e : LimitsSolver _).base.store
  | .contact, _ => 0
  | .inequality _ _, _ => 0
  | .mouse _, _ => 0

theorem Kind.store_nonneg {m : InvMasses K} (k : Kind K) (e : k.State) (h : k.Passive m e) : 0 ≤ k.store e := by
  cases k with
  | equality d f => exact SolverBase.store_nonneg h.2.2
  | limits f => exact SolverBase.store_nonneg h.2.1.2
  | contact => exact le_rfl
  | inequality d f => exact le_rfl
  | mouse f => exact le_rfl

theorem Kind.init_spend (c : CallCfg K) {m : InvMasses K} (k : Kind K) (e e' : k.State) (h : k.Passive m e) (i0 i1 : Nat) {s s' : SolveState K}
    (ha : k.act c .initSolve ⟨i0, i1, m⟩ e s = .ok (e', s')) : s' = s ∧ k.Prepared c.sqrt ⟨i0, i1, m⟩ e' ∧ k.store e' = 0 := by
  cases k with
  | equality d f =>
    obtain ⟨e1, h1, ha⟩ := bind_ok_iff.1 ha
    cases Outcome.ok.inj ha
    obtain ⟨hJ, hl, -, hda, -, hk, -⟩ := EqualitySolver.initSolve_ok c.sqrt e e' _ f s h1
    refine ⟨rfl, ?_, ?_⟩
    · show KSolver.mk' c.sqrt d (effectiveMass _ (e' : EqualitySolver K d).base.J (e' : EqualitySolver K d).base.damping) = _
      rw [hJ, hda]; exact hk
    · show SolverBase.store _ = 0
      simp only [SolverBase.store, hl, at_zero, mul_zero, Finset.sum_const_zero]
  | limits f =>
    obtain ⟨e1, h1, ha⟩ := bind_ok_iff.1 ha
    cases Outcome.ok.inj ha
    exact ⟨rfl, LimitsSolver.initSolve_prepared h.2.2 h1⟩
  | contact =>
    cases Outcome.ok.inj ha
    obtain ⟨⟨P0, P1, hfr⟩, hn, hsv, hre, hfi⟩ := h
    have hm : (e : Contact K).manifold.nContacts = (e : Contact K).frame.nContacts := by rw [hfr]; rfl
    obtain ⟨k1, k2, k3, k4, k5, k6, k7⟩ := Contact.initSolve_keeps e ⟨i0, i1, m⟩ s
    refine ⟨rfl, ⟨(e : Contact K).frame, s.pos, Contact.initSolve_ready e hm _ s, ?_, by rw [← hm]; exact hn, k4.trans hfi, fun c => ⟨k5 hre c, ?_, fun _ => ?_⟩⟩, rfl⟩
    · obtain ⟨a0, a1, a2, a3, a4, a5, a6⟩ := hsv P0 P1
      rw [← hfr] at a5 a6
      exact ⟨a0, a1, a2, a3, a4, a5, a6⟩
    · rw [k6, at_zero]
    · rw [k7, at_zero]
  | inequality d f => exact h.elim
  | mouse f => exact h.elim

theorem Kind.velocity_spend {c : CallCfg K} (hs : ∀ x, 0 ≤ x → c.sqrt x * c.sqrt x = x) (he : 0 ≤ c.epsilon) (hfuel : 2 ≤ c.fuel) {m : InvMasses K} (hm : m.Nonneg)
    (k : Kind K) (e e' : k.State) (h : k.Passive m e) {i0 i1 : Nat} (hi : i0 ≠ i1) (hp : k.Prepared c.sqrt ⟨i0, i1, m⟩ e) {s s' : SolveState K} {w : Fin 6 → K}
    (hB : Backed ⟨i0, i1, m⟩ w ((⟨i0, i1, m⟩ : Proxies K).velocity s).toV)
    (ha : k.act c .solveVelocities ⟨i0, i1, m⟩ e s = .ok (e', s')) :
    energyOf w ((⟨i0, i1, m⟩ : Proxies K).velocity s').toV + k.store e' ≤ energyOf w ((⟨i0, i1, m⟩ : Proxies K).velocity s).toV + k.store e ∧
      k.Prepared c.sqrt ⟨i0, i1, m⟩ e' := by
  have hw := hm.vec i0 i1
  cases k with
  | equality d f =>
    refine ⟨EqualitySolver.spend hs hi hw h.1 h.2 hp hB ha, ?_⟩
    obtain ⟨x, -, ha⟩ := bind_ok_iff.1 ha
    cases Outcome.ok.inj ha
    exact hp
  | limits f =>
    obtain ⟨o, ho, ha⟩ := bind_ok_iff.1 ha
    cases o with
    | none => cases ha
    | some r =>
      cases Outcome.ok.inj ha
      exact LimitsSolver.spend hs he hfuel hi hw h.1 h.2.1 hp hB ho
  | contact =>
    obtain ⟨h1, h2⟩ := Contact.spend hi hp hB ha
    exact ⟨by show _ + (0 : K) ≤ _ + (0 : K); linarith, h2⟩
  | inequality d f => exact h.elim
  | mouse f => exact h.elim

omit [IsStrictOrderedRing K] in
/-- Position solving leaves velocities. -/
theorem Kind.positions_vel (c : CallCfg K) (k : Kind K) (e e' : k.State) (p : Proxies K) {s s' : SolveState K}
    (ha : k.act c .solvePositions p e s = .ok (e', s')) : s'.vel = s.vel := by
  have hpc : ∀ (P : MVec K 6), (p.applyPositionCorrection P s).vel = s.vel := fun P => rfl
  cases k with
  | equality d f =>
    obtain ⟨x, -, ha⟩ := bind_ok_iff.1 ha
    obtain ⟨y, -, ha⟩ := bind_ok_iff.1 ha
    cases Outcome.ok.inj ha; rfl
  | mouse f => cases Outcome.ok.inj ha; rfl
  | inequality d f =>
    unfold Kind.act InequalitySolver.solvePosition at ha
    dsimp only at ha
    obtain ⟨x, -, ha⟩ := bind_ok_iff.1 ha
    split at ha
    · obtain ⟨y, -, ha⟩ := bind_ok_iff.1 ha
      cases Outcome.ok.inj ha; rfl
    · cases Outcome.ok.inj ha; rfl
  | limits f =>
    obtain ⟨o, ho, ha⟩ := bind_ok_iff.1 ha
    cases o with
    | none => cases ha
    | some r =>
      cases Outcome.ok.inj ha
      unfold LimitsSolver.solvePosition at ho
      dsimp only at ho
      split at ho
      · obtain ⟨x, -, ho⟩ := bind_ok_iff.1 ho
        obtain ⟨y, -, ho⟩ := bind_ok_iff.1 ho
        obtain ⟨z, -, ho⟩ := bind_ok_iff.1 ho
        cases Option.some.inj (Outcome.ok.inj ho); rfl
      · obtain ⟨x, -, ho⟩ := bind_ok_iff.1 ho
        obtain ⟨x, -, ho⟩ := Option.map_eq_some_iff.1 (Outcome.ok.inj ho)
        cases ho; rfl
      · obtain ⟨x, -, ho⟩ := bind_ok_iff.1 ho
        obtain ⟨x, -, ho⟩ := Option.map_eq_some_iff.1 (Outcome.ok.inj ho)
        cases ho; rfl
      · cases Option.some.inj (Outcome.ok.inj ho); rfl
  | contact =>
    unfold Kind.act Contact.solvePositions at ha
    dsimp only at ha
    split at ha
    · cases Outcome.ok.inj ha; rfl
    · split at ha
      · obtain ⟨k, -, h⟩ := bind_ok_iff.1 ha
        cases Outcome.ok.inj h; rfl
      · split at ha
        · obtain ⟨k, -, h⟩ := bind_ok_iff.1 ha
          obtain ⟨x, -, h⟩ := bind_ok_iff.1 h
          cases Outcome.ok.inj h; rfl
        · cases Outcome.ok.inj ha; rfl

end Simu
