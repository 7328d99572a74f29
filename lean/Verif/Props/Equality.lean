import Verif.Props.Momentum
import Verif.Lemmas.Samples
import Mathlib.LinearAlgebra.Matrix.ToLinearEquiv
/-
C34: an equality constraint solved alone is satisfied exactly.
C48: limits.
C49: motors reach their target velocity or are at their bound.
C50: composite constraint functions are concatenations.
-/
namespace Simu
open Mat
variable {K : Type*} [Field K] [LinearOrder K] [IsStrictOrderedRing K] {d : Nat}

/-! ### C34 -/

omit [LinearOrder K] [IsStrictOrderedRing K] in
theorem diag_mul_at (v x : MVec K d) (r : Fin d) : ((Mat.diagonal v).mul x).at_ r = v.at_ r * x.at_ r := by
  simp only [at_mul, get_diagonal, ite_mul, zero_mul, Finset.sum_ite_eq, Finset.mem_univ, if_true]

omit [LinearOrder K] [IsStrictOrderedRing K] in
theorem add_mul_at (A B : Mat K d d) (x : MVec K d) (r : Fin d) :
    ((A.add B).mul x).at_ r = (A.mul x).at_ r + (B.mul x).at_ r := by
  simp only [at_mul, get_add, add_mul, Finset.sum_add_distrib]

/-- The effective mass of a constraint. -/
def effectiveMass (p : Proxies K) (J : Mat K d 6) (damping : MVec K d) : Mat K d d :=
  ((J.mul p.inverseMass).mul J.transpose).add (Mat.diagonal damping)

/-- What one velocity solve of an equality constraint does, clamping included. -/
theorem EqualitySolver.solveVelocity_spec {sqrt : K → K} (hs : ∀ x, 0 ≤ x → sqrt x * sqrt x = x)
    (e e' e'' : EqualitySolver K d) (p : Proxies K) (f : CFun K d) (dt : K) (s s1 : SolveState K)
    (l : List (SolveEvent K)) (h : e.initSolve sqrt p f s = .ok e')
    (hr : EqualitySolver.runEvents p f dt l (e', s) = .ok (e'', s1)) :
    ∃ e3 s3 x, e''.solveVelocity p f dt s1 = .ok (e3, s3) ∧
      (∀ r, ((effectiveMass p (f.jacobian p s) e.base.damping).mul x).at_ r =
        -(push (f.jacobian p s) (p.velocity s1).toV r + (f.bias p s1).at_ r +
          e.base.restitution.at_ r * (f.eval p s1).at_ r / dt + e.base.damping.at_ r * e''.base.lambda.at_ r)) ∧
      e3.base.lambda = f.clampLambda (e''.base.lambda.add x) dt ∧
      s3 = p.applyImpulse (SolverBase.impulse (f.jacobian p s) (e3.base.lambda.sub e''.base.lambda)) s1 := by
  obtain ⟨hJ, hl, _, hd, hrest, hk, hv⟩ := EqualitySolver.initSolve_ok sqrt e e' p f s h
  have h0 : ∀ i, s.vel i = s.vel i + kick p (pull e'.base.J e'.base.lambda.toV) i := by
    intro i; rw [hl, pull_zero', kick_zero, add_zero]
  obtain ⟨_, hJ2, _, hsol, hd2, hrest2⟩ := EqualitySolver.runEvents_telescope p f dt l e' e'' s s1 s.vel h0 hr
  obtain ⟨k, hk', hvalid, hx, _⟩ := KSolver.mk_spec hs (effectiveMass p (f.jacobian p s) e.base.damping)
  have hke : k = e'.solver := by
    have := hk'.symm.trans hk
    simpa using this
  subst hke
  obtain ⟨x, hx1, hx2, _⟩ := hx (hvalid.1 hv) (e''.base.computeRhs p s1 f dt true)
  refine ⟨{ e'' with base := (e''.base.updateLambda p f dt x s1).1 }, (e''.base.updateLambda p f dt x s1).2, x, ?_, ?_, rfl, ?_⟩
  · rw [EqualitySolver.solveVelocity, hsol, hx1]; rfl
  · intro r
    rw [hx2]
    simp only [SolverBase.computeRhs, if_true, at_neg, at_add, at_sdiv, diag_mul_at, hd2, hd, hrest2, hrest, hJ2, hJ]
    simp only [at_mul, push, toV]
  · simp only [SolverBase.updateLambda, hJ2, hJ]

/-- C34: whatever happened before in the step (warm start, previous iterations, other constraints), one more velocity
solve of an equality constraint succeeds and makes the constrained relative velocity exactly what is asked for: minus
the bias, minus the position error's share, minus the give of the damping. -/
theorem C34_solved {sqrt : K → K} (hs : ∀ x, 0 ≤ x → sqrt x * sqrt x = x)
    (e e' e'' : EqualitySolver K d) (p : Proxies K) (f : CFun K d) (hf : ∀ l dt, f.clampLambda l dt = l) (dt : K)
    (s s1 : SolveState K) (hind : p.i0 ≠ p.i1 ∨ FirstOnly (f.jacobian p s)) (l : List (SolveEvent K))
    (h : e.initSolve sqrt p f s = .ok e') (hr : EqualitySolver.runEvents p f dt l (e', s) = .ok (e'', s1)) :
    ∃ e3 s3, e''.solveVelocity p f dt s1 = .ok (e3, s3) ∧ ∀ r,
      push (f.jacobian p s) (p.velocity s3).toV r + (f.bias p s1).at_ r +
        e.base.restitution.at_ r * (f.eval p s1).at_ r / dt + e.base.damping.at_ r * e3.base.lambda.at_ r = 0 := by
  obtain ⟨e3, s3, x, h1, h2, h3, h4⟩ := EqualitySolver.solveVelocity_spec hs e e' e'' p f dt s s1 l h hr
  refine ⟨e3, s3, h1, fun r => ?_⟩
  rw [hf] at h3
  have hsub : e3.base.lambda.sub e''.base.lambda = x := by
    rw [h3]; apply ext_at; intro r; rw [at_sub, at_add]; ring
  rw [h4, hsub, push_impulse p _ hind]
  have := h2 r
  rw [effectiveMass, add_mul_at, diag_mul_at] at this
  rw [h3, at_add]
  linear_combination this

/-- C34, with neither damping nor restitution (the default of every constraint of the library): the relative velocity is
minus the bias. -/
theorem C34_bias {sqrt : K → K} (hs : ∀ x, 0 ≤ x → sqrt x * sqrt x = x)
    (e e' e'' : EqualitySolver K d) (p : Proxies K) (f : CFun K d) (hf : ∀ l dt, f.clampLambda l dt = l) (dt : K)
    (s s1 : SolveState K) (hind : p.i0 ≠ p.i1 ∨ FirstOnly (f.jacobian p s)) (l : List (SolveEvent K))
    (h : e.initSolve sqrt p f s = .ok e') (hr : EqualitySolver.runEvents p f dt l (e', s) = .ok (e'', s1))
    (h0 : e.base.restitution = Mat.zero) (h1 : e.base.damping = Mat.zero) :
    ∃ e3 s3, e''.solveVelocity p f dt s1 = .ok (e3, s3) ∧ ∀ r,
      push (f.jacobian p s) (p.velocity s3).toV r = -(f.bias p s1).at_ r := by
  obtain ⟨e3, s3, ha, hb⟩ := C34_solved hs e e' e'' p f hf dt s s1 hind l h hr
  refine ⟨e3, s3, ha, fun r => ?_⟩
  have := hb r
  rw [h0, h1, at_zero] at this
  linear_combination this

/-- The quadratic form of the effective mass. -/
theorem effectiveMass_quadratic (p : Proxies K) (J : Mat K d 6) (damping : MVec K d) (x : MVec K d) :
    ∑ r, x.at_ r * ((effectiveMass p J damping).mul x).at_ r =
      (∑ c, p.invMassVec.at_ c * (pull J x.toV c * pull J x.toV c)) + ∑ r, damping.at_ r * (x.at_ r * x.at_ r) := by
  simp only [effectiveMass, add_mul_at, diag_mul_at, effectiveMass_mul, mul_add, Finset.sum_add_distrib]
  congr 1
  · simp only [push, Finset.mul_sum]
    rw [Finset.sum_comm]
    refine Finset.sum_congr rfl fun c _ => ?_
    have : ∀ r, x.at_ r * (J.get r c * (p.invMassVec.at_ c * pull J x.toV c)) =
        p.invMassVec.at_ c * pull J x.toV c * (J.get r c * x.toV r) := fun r => by simp only [toV]; ring
    simp only [this, ← Finset.mul_sum]
    rw [mul_assoc]; rfl
  · exact Finset.sum_congr rfl fun r _ => by ring

/-- The effective mass is invertible exactly when no multiplier but zero is without effect. -/
theorem effectiveMass_det (p : Proxies K) (hm : ∀ c, 0 ≤ p.invMassVec.at_ c) (J : Mat K d 6) (damping : MVec K d)
    (hd : ∀ r, 0 ≤ damping.at_ r) : (effectiveMass p J damping).toM.det ≠ 0 ↔
      ∀ x : MVec K d, (∀ c, p.invMassVec.at_ c * pull J x.toV c = 0) → (∀ r, damping.at_ r * x.at_ r = 0) → x = Mat.zero := by
  rw [← not_iff_not, not_ne_iff, ← Matrix.exists_mulVec_eq_zero_iff]
  push Not
  constructor
  · rintro ⟨v, hv, h⟩
    set x : MVec K d := Mat.ofFn v with hx
    have hxv : x.toV = v := by funext r; simp only [hx, toV, at_ofFn]
    have hmul : ∀ r, ((effectiveMass p J damping).mul x).at_ r = 0 := by
      intro r
      have := congrFun (toV_mul (effectiveMass p J damping) x) r
      rw [hxv, h] at this
      simpa [toV] using this
    have hq := effectiveMass_quadratic p J damping x
    simp only [hmul, mul_zero, Finset.sum_const_zero] at hq
    have n1 : ∀ c, 0 ≤ p.invMassVec.at_ c * (pull J x.toV c * pull J x.toV c) :=
      fun c => mul_nonneg (hm c) (mul_self_nonneg _)
    have n2 : ∀ r, 0 ≤ damping.at_ r * (x.at_ r * x.at_ r) := fun r => mul_nonneg (hd r) (mul_self_nonneg _)
    have z1 : ∑ c, p.invMassVec.at_ c * (pull J x.toV c * pull J x.toV c) = 0 :=
      le_antisymm (by linarith [Finset.sum_nonneg fun r (_ : r ∈ Finset.univ) => n2 r])
        (Finset.sum_nonneg fun c _ => n1 c)
    have z2 : ∑ r, damping.at_ r * (x.at_ r * x.at_ r) = 0 := by linarith
    rw [Finset.sum_eq_zero_iff_of_nonneg fun c _ => n1 c] at z1
    rw [Finset.sum_eq_zero_iff_of_nonneg fun c _ => n2 c] at z2
    refine ⟨x, fun c => ?_, fun r => ?_, fun h0 => hv ?_⟩
    · rcases mul_eq_zero.1 (z1 c (Finset.mem_univ _)) with h | h
      · rw [h, zero_mul]
      · rw [mul_self_eq_zero.1 h, mul_zero]
    · rcases mul_eq_zero.1 (z2 r (Finset.mem_univ _)) with h | h
      · rw [h, zero_mul]
      · rw [mul_self_eq_zero.1 h, mul_zero]
    · rw [← hxv, h0]; funext r; simp [toV, at_zero]
  · rintro ⟨x, h1, h2, h3⟩
    refine ⟨x.toV, fun h0 => h3 ?_, ?_⟩
    · apply ext_at; intro r; rw [at_zero]; exact congrFun h0 r
    · rw [← toV_mul]
      funext r
      simp only [toV, effectiveMass, add_mul_at, diag_mul_at, effectiveMass_mul, h2 r, add_zero, Pi.zero_apply]
      have h1' : ∀ c, p.invMassVec.at_ c * pull J x.toV c = 0 := h1
      simp only [push, toV] at h1' ⊢
      simp only [h1', mul_zero, Finset.sum_const_zero]

/-- C34: when a constraint can be solved. `initSolve` accepts it exactly when every non-zero multiplier changes some
velocity (or meets some damping); otherwise it throws. -/
theorem C34_valid {sqrt : K → K} (hs : ∀ x, 0 ≤ x → sqrt x * sqrt x = x) (e : EqualitySolver K d) (p : Proxies K)
    (hm : ∀ c, 0 ≤ p.invMassVec.at_ c) (hd : ∀ r, 0 ≤ e.base.damping.at_ r) (f : CFun K d) (s : SolveState K) :
    ((∀ x : MVec K d, (∀ c, p.invMassVec.at_ c * pull (f.jacobian p s) x.toV c = 0) →
        (∀ r, e.base.damping.at_ r * x.at_ r = 0) → x = Mat.zero) → ∃ e', e.initSolve sqrt p f s = .ok e') ∧
    ((∃ x : MVec K d, (∀ c, p.invMassVec.at_ c * pull (f.jacobian p s) x.toV c = 0) ∧
        (∀ r, e.base.damping.at_ r * x.at_ r = 0) ∧ x ≠ Mat.zero) → e.initSolve sqrt p f s = .throw) := by
  obtain ⟨k, hk, hv, _⟩ := KSolver.mk_spec hs (effectiveMass p (f.jacobian p s) e.base.damping)
  have hdet := effectiveMass_det p hm (f.jacobian p s) e.base.damping hd
  have hi : e.initSolve sqrt p f s = (Outcome.check k.isValid).bind fun _ =>
      .ok ⟨(e.base.initBase.computeEffectiveMass p s f true).1, k⟩ := by
    simp only [EqualitySolver.initSolve, SolverBase.computeEffectiveMass, SolverBase.initBase, if_true]
    have hk' : KSolver.mk' sqrt d ((((f.jacobian p s).mul p.inverseMass).mul (f.jacobian p s).transpose).add
      (Mat.diagonal e.base.damping)) = .ok k := hk
    rw [hk', Outcome.bind_ok]
  constructor
  · intro h
    have : k.isValid = true := hv.2 (hdet.2 h)
    exact ⟨_, by rw [hi, this]; rfl⟩
  · rintro ⟨x, h1, h2, h3⟩
    have : k.isValid = false := by
      rw [Bool.eq_false_iff]
      intro ht
      exact h3 (hdet.1 (hv.1 ht) x h1 h2)
    rw [hi, this]; rfl

omit [LinearOrder K] [IsStrictOrderedRing K] in
theorem invMassVec_at (p : Proxies K) : p.invMassVec.at_ 0 = p.masses.m0 ∧ p.invMassVec.at_ 1 = p.masses.m0 ∧
    p.invMassVec.at_ 2 = p.masses.I0 ∧ p.invMassVec.at_ 3 = p.masses.m1 ∧ p.invMassVec.at_ 4 = p.masses.m1 ∧
    p.invMassVec.at_ 5 = p.masses.I1 := ⟨rfl, rfl, rfl, rfl, rfl, rfl⟩

/-- C34: the library's equality constraints and motors can be solved, in any state, between bodies one of which is movable
(a motor: on a movable body). -/
theorem C34_library_valid [Trig K] {sqrt : K → K} (hs : ∀ x, 0 ≤ x → sqrt x * sqrt x = x) (p : Proxies K)
    (hm : ∀ c, 0 ≤ p.invMassVec.at_ c) (s : SolveState K) :
    (∀ a (e : EqualitySolver K 1), (∀ r, 0 ≤ e.base.damping.at_ r) → p.masses.I0 ≠ 0 ∨ p.masses.I1 ≠ 0 →
      ∃ e', e.initSolve sqrt p (rotationFun a) s = .ok e') ∧
    (∀ l0 l1 (e : EqualitySolver K 2), (∀ r, 0 ≤ e.base.damping.at_ r) → p.masses.m0 ≠ 0 ∨ p.masses.m1 ≠ 0 →
      ∃ e', e.initSolve sqrt p (hingeFun l0 l1) s = .ok e') ∧
    (∀ bodies b (e : EqualitySolver K 3), (∀ r, 0 ≤ e.base.damping.at_ r) →
      (p.masses.m0 ≠ 0 ∧ p.masses.I0 ≠ 0) ∨ (p.masses.m1 ≠ 0 ∧ p.masses.I1 ≠ 0) →
      ∃ e', e.initSolve sqrt p (weldFunOf bodies b) s = .ok e') ∧
    (∀ m (e : EqualitySolver K 1), (∀ r, 0 ≤ e.base.damping.at_ r) → p.masses.I0 ≠ 0 →
      ∃ e', e.initSolve sqrt p (rotationMotor m) s = .ok e') ∧
    (∀ m (e : EqualitySolver K 2), (∀ r, 0 ≤ e.base.damping.at_ r) → p.masses.m0 ≠ 0 →
      ∃ e', e.initSolve sqrt p (translationMotor m) s = .ok e') := by
  obtain ⟨v0, v1, v2, v3, v4, v5⟩ := invMassVec_at p
  refine ⟨fun a e hd h => ?_, fun l0 l1 e hd h => ?_, fun bodies b e hd h => ?_, fun m e hd h => ?_, fun m e hd h => ?_⟩
  · refine (C34_valid hs e p hm hd _ s).1 fun x hx _ => ext_at fun r => ?_
    have h2 := hx 2
    have h5 := hx 5
    simp only [pull, rotation_get, v2, v5, toV] at h2 h5
    fin_cases r
    rw [at_zero]
    rcases h with h | h
    · simpa [h] using h2
    · simpa [h] using h5
  · refine (C34_valid hs e p hm hd _ s).1 fun x hx _ => ext_at fun r => ?_
    have h0 := hx 0
    have h1 := hx 1
    have h3 := hx 3
    have h4 := hx 4
    simp only [pull, hinge_get, v0, v1, v3, v4, toV, Fin.sum_univ_two] at h0 h1 h3 h4
    rw [at_zero]
    rcases h with h | h
    · fin_cases r
      · simpa [h] using h0
      · simpa [h] using h1
    · fin_cases r
      · simpa [h] using h3
      · simpa [h] using h4
  · refine (C34_valid hs e p hm hd _ s).1 fun x hx _ => ?_
    have hj : ∀ (r : Fin 3) (c : Fin 6), ((weldFunOf bodies b).jacobian p s).get r c =
        Fin.addCases (m := 2) (n := 1) (fun i => ((hingeFunOf bodies b
          (((bodies b.i0).centroid + (bodies b.i1).centroid).sdiv 2)).jacobian p s).get i c)
          (fun i => ((rotationFunOf bodies b).jacobian p s).get i c) r := by
      intro r c
      rw [weldFunOf, stackFun]
      exact stack_rows (a := 2) (b := 1) _ _ _ r c
    have f0 : ∀ (g : Fin 2 → K) (h : Fin 1 → K), (Fin.addCases (m := 2) (n := 1) (motive := fun _ => K) g h (0 : Fin 3)) = g 0 :=
      fun _ _ => rfl
    have f1 : ∀ (g : Fin 2 → K) (h : Fin 1 → K), (Fin.addCases (m := 2) (n := 1) (motive := fun _ => K) g h (1 : Fin 3)) = g 1 :=
      fun _ _ => rfl
    have f2 : ∀ (g : Fin 2 → K) (h : Fin 1 → K), (Fin.addCases (m := 2) (n := 1) (motive := fun _ => K) g h (2 : Fin 3)) = h 0 :=
      fun _ _ => rfl
    have h0 := hx 0
    have h1 := hx 1
    have h2 := hx 2
    have h3 := hx 3
    have h4 := hx 4
    have h5 := hx 5
    simp only [pull, hj, Fin.sum_univ_three, f0, f1, f2, hingeFunOf, rotationFunOf, hinge_get, rotation_get, v0, v1, v2, v3,
      v4, v5, toV] at h0 h1 h2 h3 h4 h5
    have key : x.at_ 0 = 0 ∧ x.at_ 1 = 0 ∧ x.at_ 2 = 0 := by
      rcases h with ⟨ha, hb⟩ | ⟨ha, hb⟩
      · have e0 : x.at_ 0 = 0 := by simpa [ha] using h0
        have e1 : x.at_ 1 = 0 := by simpa [ha] using h1
        exact ⟨e0, e1, by simpa [hb, e0, e1] using h2⟩
      · have e0 : x.at_ 0 = 0 := by simpa [ha] using h3
        have e1 : x.at_ 1 = 0 := by simpa [ha] using h4
        exact ⟨e0, e1, by simpa [hb, e0, e1] using h5⟩
    apply ext_at
    intro r
    rw [at_zero]
    fin_cases r
    · exact key.1
    · exact key.2.1
    · exact key.2.2
  · refine (C34_valid hs e p hm hd _ s).1 fun x hx _ => ext_at fun r => ?_
    have h2 := hx 2
    fin_cases r
    simp only [pull, v2, toV, Finset.univ_unique, Fin.default_eq_zero, Finset.sum_singleton] at h2
    have hg : ((rotationMotor m).jacobian p s).get 0 2 = 1 := rfl
    rw [hg] at h2
    rw [at_zero]
    simpa [h] using h2
  · refine (C34_valid hs e p hm hd _ s).1 fun x hx _ => ext_at fun r => ?_
    have h0 := hx 0
    have h1 := hx 1
    simp only [pull, v0, v1, toV, Fin.sum_univ_two] at h0 h1
    have g00 : ((translationMotor m).jacobian p s).get 0 0 = 1 := rfl
    have g10 : ((translationMotor m).jacobian p s).get 1 0 = 0 := rfl
    have g01 : ((translationMotor m).jacobian p s).get 0 1 = 0 := rfl
    have g11 : ((translationMotor m).jacobian p s).get 1 1 = 1 := rfl
    rw [g00, g10] at h0
    rw [g01, g11] at h1
    rw [at_zero]
    fin_cases r
    · simpa [h] using h0
    · simpa [h] using h1

/-- C34: once `initSolve` has accepted the constraint, nothing throws for the rest of the step. -/
theorem C34_no_throw {sqrt : K → K} (hs : ∀ x, 0 ≤ x → sqrt x * sqrt x = x) (e e' : EqualitySolver K d) (p : Proxies K)
    (f : CFun K d) (dt : K) (s : SolveState K) (h : e.initSolve sqrt p f s = .ok e') (l : List (SolveEvent K)) :
    ∃ e'' s'', EqualitySolver.runEvents p f dt l (e', s) = .ok (e'', s'') := by
  obtain ⟨_, _, _, _, _, hk, hv⟩ := EqualitySolver.initSolve_ok sqrt e e' p f s h
  obtain ⟨k, hk', hvalid, hx, _⟩ := KSolver.mk_spec hs (effectiveMass p (f.jacobian p s) e.base.damping)
  have hke : k = e'.solver := by simpa using hk'.symm.trans hk
  subst hke
  have hsol : ∀ b, ∃ x, e'.solver.solve b = .ok x := fun b => (hx (hvalid.1 hv) b).imp fun x h => h.1
  suffices key : ∀ (l : List (SolveEvent K)) (e' : EqualitySolver K d) (s : SolveState K),
      (∀ b, ∃ x, e'.solver.solve b = .ok x) → ∃ e'' s'', EqualitySolver.runEvents p f dt l (e', s) = .ok (e'', s'') from
    key l e' s hsol
  clear h hk hv hk' hvalid hx hsol
  intro l
  induction l with
  | nil => exact fun e' s _ => ⟨e', s, rfl⟩
  | cons ev l ih =>
    intro e' s hsol
    cases ev with
    | warmstart => exact ih _ _ hsol
    | solve =>
      obtain ⟨x, hx⟩ := hsol (e'.base.computeRhs p s f dt true)
      simp only [EqualitySolver.runEvents, EqualitySolver.solveVelocity, hx, Outcome.bind_ok]
      exact ih { e' with base := (e'.base.updateLambda p f dt x s).1 } _ hsol
    | other c => exact ih _ _ hsol

/-! ### Cases for C32, C33 and C34 -/

theorem sqrt_lawful : ∀ x : ℝ, 0 ≤ x → Real.sqrt x * Real.sqrt x = x := fun _ h => Real.mul_self_sqrt h

theorem sample_nonneg (c : Fin 6) : 0 ≤ sampleBodies.proxies.invMassVec.at_ c := by
  have := sampleBodies_masses
  fin_cases c <;> simp [Proxies.invMassVec, Bodies.proxies, this, at_ofFn] <;> norm_num

/-- Some events: warm start, two solves, and another constraint pushing body 1 in between. -/
noncomputable def sampleEvents : List (SolveEvent ℝ) := [.warmstart, .solve, .other fun i => if i = 1 then ⟨⟨0, 5⟩, -1⟩ else 0, .solve]

/-- A weld between the sample bodies goes through `initSolve` and the sample events. -/
theorem sample_weld : ∃ e' e'' s', (sampleSolver 3).initSolve Real.sqrt sampleBodies.proxies (weldFunOf sampleBody sampleBodies) sampleState = .ok e' ∧
    EqualitySolver.runEvents sampleBodies.proxies (weldFunOf sampleBody sampleBodies) (1 / 60) sampleEvents (e', sampleState) = .ok (e'', s') := by
  have hm := sampleBodies_masses
  obtain ⟨e', h⟩ := (C34_library_valid sqrt_lawful sampleBodies.proxies sample_nonneg sampleState).2.2.1 sampleBody sampleBodies
    (sampleSolver 3) (fun r => le_refl (0 : ℝ)) (Or.inl (by simp [Bodies.proxies, hm]))
  obtain ⟨e'', s', h'⟩ := C34_no_throw sqrt_lawful _ e' _ _ (1 / 60) _ h sampleEvents
  exact ⟨e', e'', s', h, h'⟩

/-- Case for `C33_velocity_change_equality`: body 0, then body 1 which was also pushed by another constraint. -/
example : ∃ e'' : EqualitySolver ℝ 3, ∃ s' : SolveState ℝ,
    s'.vel 1 = (0 + (⟨⟨0, 5⟩, -1⟩ : Velocity ℝ)) + kick sampleBodies.proxies
      (pull ((weldFunOf sampleBody sampleBodies).jacobian sampleBodies.proxies sampleState) e''.base.lambda.toV) 1 := by
  obtain ⟨e', e'', s', h, hr⟩ := sample_weld
  refine ⟨e'', s', ?_⟩
  have := (C33_velocity_change_equality Real.sqrt _ e' e'' _ _ _ _ _ _ h hr 1).1
  simpa [sampleEvents, others, sampleState] using this

/-- Case for `C32_solved`: the momentum of the welded bodies is what it was, plus the other constraint's. -/
example : ∃ s' : SolveState ℝ, momentum 2 2 0 1 s' = ⟨2, 14⟩ := by
  obtain ⟨e', e'', s', h, hr⟩ := sample_weld
  refine ⟨s', ?_⟩
  have := C32_solved Real.sqrt sampleBody 0 1 (by decide) none (Or.inr ⟨rfl, rfl, rfl⟩) (by norm_num [Body.mass, sampleBody])
    (by norm_num [Body.mass, sampleBody]) (weldFunOf sampleBody sampleBodies) (fun p s => (C32_opposite p s).2.2.2.1 _ _)
    _ e' e'' _ _ s' _ h hr
  have hm : ∀ i, (sampleBody i).mass = 2 := fun i => rfl
  rw [hm, hm] at this
  rw [this]
  ext <;> simp [momentum, momentumChange, sampleEvents, others, sampleState] <;> norm_num

/-- Case for `C34_valid`: a hinge between two bodies that cannot be moved is refused. -/
example : (sampleSolver 2).initSolve Real.sqrt ⟨0, 1, ⟨0, 0, 0, 0⟩⟩ (hingeFun ⟨1, 2⟩ ⟨3, 4⟩) sampleState = .throw := by
  refine (C34_valid sqrt_lawful (sampleSolver 2) ⟨0, 1, ⟨0, 0, 0, 0⟩⟩ ?_ (fun r => le_refl (0 : ℝ)) _ _).2
    ⟨Mat.ofFn ![1, 0], ?_, fun r => zero_mul _, fun h => ?_⟩
  · intro c; fin_cases c <;> simp [Proxies.invMassVec, at_ofFn]
  · intro c; fin_cases c <;> simp [Proxies.invMassVec, at_ofFn]
  · have := congrArg (fun v : MVec ℝ 2 => v.at_ 0) h
    simp [at_ofFn, at_zero] at this

/-! ### C50 -/

omit [IsStrictOrderedRing K] in
theorem assignRows_clamp {a b : Nat} (F : MVec K a → MVec K a) (G : MVec K b → MVec K b) (l : MVec K (a + b)) (r : Fin (a + b)) :
    (let l' := assignRows 0 (by omega) (F (extractRows a 0 (by omega) l)) l;
      assignRows a (le_refl _) (G (extractRows b a (le_refl _) l')) l').at_ r =
    Fin.addCases (fun i => (F (Mat.ofFn fun j => l.at_ (Fin.castAdd b j))).at_ i)
      (fun i => (G (Mat.ofFn fun j => l.at_ (Fin.natAdd a j))).at_ i) r := by
  have e1 : extractRows a 0 (by omega) l = Mat.ofFn fun j => l.at_ (Fin.castAdd b j) := by
    apply ext_at; intro r
    rw [at_eq_get, extractRows_get, at_ofFn, at_eq_get]
    congr 1; ext; simp
  have e2 : extractRows b a (le_refl _) (assignRows 0 (by omega) (F (extractRows a 0 (by omega) l)) l) =
      Mat.ofFn fun j => l.at_ (Fin.natAdd a j) := by
    apply ext_at; intro r
    rw [at_eq_get, extractRows_get, at_ofFn, at_eq_get, assignRows_get, dif_neg (by simp)]
    rfl
  simp only [e2]
  rw [e1]
  simp only [at_eq_get]
  exact stack_rows _ _ _ r 0

/-- C50: a composite constraint function has the values, biases and Jacobians of its parts one above the other, and clamps
each part's multipliers with that part's rule, independently of the other's. -/
theorem C50_composite {a b : Nat} (f : CFun K a) (g : CFun K b) (p : Proxies K) (s : SolveState K) :
    (∀ i, ((stackFun f g).eval p s).at_ (Fin.castAdd b i) = (f.eval p s).at_ i) ∧
    (∀ i, ((stackFun f g).eval p s).at_ (Fin.natAdd a i) = (g.eval p s).at_ i) ∧
    (∀ i, ((stackFun f g).bias p s).at_ (Fin.castAdd b i) = (f.bias p s).at_ i) ∧
    (∀ i, ((stackFun f g).bias p s).at_ (Fin.natAdd a i) = (g.bias p s).at_ i) ∧
    (∀ i c, ((stackFun f g).jacobian p s).get (Fin.castAdd b i) c = (f.jacobian p s).get i c) ∧
    (∀ i c, ((stackFun f g).jacobian p s).get (Fin.natAdd a i) c = (g.jacobian p s).get i c) ∧
    (∀ l dt i, ((stackFun f g).clampLambda l dt).at_ (Fin.castAdd b i) =
      (f.clampLambda (Mat.ofFn fun j => l.at_ (Fin.castAdd b j)) dt).at_ i) ∧
    (∀ l dt i, ((stackFun f g).clampLambda l dt).at_ (Fin.natAdd a i) =
      (g.clampLambda (Mat.ofFn fun j => l.at_ (Fin.natAdd a j)) dt).at_ i) ∧
    (∀ l i, ((stackFun f g).clampPositionLambda l).at_ (Fin.castAdd b i) =
      (f.clampPositionLambda (Mat.ofFn fun j => l.at_ (Fin.castAdd b j))).at_ i) ∧
    (∀ l i, ((stackFun f g).clampPositionLambda l).at_ (Fin.natAdd a i) =
      (g.clampPositionLambda (Mat.ofFn fun j => l.at_ (Fin.natAdd a j))).at_ i) := by
  refine ⟨?_, ?_, ?_, ?_, ?_, ?_, ?_, ?_, ?_, ?_⟩
  · intro i; rw [at_eq_get, stackFun, stack_rows, Fin.addCases_left, at_eq_get]
  · intro i; rw [at_eq_get, stackFun, stack_rows, Fin.addCases_right, at_eq_get]
  · intro i; rw [at_eq_get, stackFun, stack_rows, Fin.addCases_left, at_eq_get]
  · intro i; rw [at_eq_get, stackFun, stack_rows, Fin.addCases_right, at_eq_get]
  · intro i c; rw [stackFun, stack_rows, Fin.addCases_left]
  · intro i c; rw [stackFun, stack_rows, Fin.addCases_right]
  · intro l dt i
    exact (assignRows_clamp (fun l => f.clampLambda l dt) (fun l => g.clampLambda l dt) l _).trans (Fin.addCases_left _)
  · intro l dt i
    exact (assignRows_clamp (fun l => f.clampLambda l dt) (fun l => g.clampLambda l dt) l _).trans (Fin.addCases_right _)
  · intro l i
    exact (assignRows_clamp f.clampPositionLambda g.clampPositionLambda l _).trans (Fin.addCases_left _)
  · intro l i
    exact (assignRows_clamp f.clampPositionLambda g.clampPositionLambda l _).trans (Fin.addCases_right _)

/-- C50 and C34: solving a weld stops the relative motion of the shared point and the relative rotation together. -/
theorem C50_weld_solved [Trig K] {sqrt : K → K} (hs : ∀ x, 0 ≤ x → sqrt x * sqrt x = x) (bodies : Nat → Body K) (b : Bodies K)
    (e e' e'' : EqualitySolver K 3) (dt : K) (s s1 : SolveState K) (hind : b.i0 ≠ b.i1) (l : List (SolveEvent K))
    (h : e.initSolve sqrt b.proxies (weldFunOf bodies b) s = .ok e')
    (hr : EqualitySolver.runEvents b.proxies (weldFunOf bodies b) dt l (e', s) = .ok (e'', s1))
    (h0 : e.base.restitution = Mat.zero) (h1 : e.base.damping = Mat.zero) :
    ∃ e3 s3, e''.solveVelocity b.proxies (weldFunOf bodies b) dt s1 = .ok (e3, s3) ∧
      (∀ r, push ((hingeFunOf bodies b (((bodies b.i0).centroid + (bodies b.i1).centroid).sdiv 2)).jacobian b.proxies s)
        (b.proxies.velocity s3).toV r = 0) ∧ (s3.vel b.i0).angular = (s3.vel b.i1).angular := by
  have hf : ∀ l dt, (weldFunOf bodies b).clampLambda l dt = l := by
    intro l dt
    apply ext_at
    intro r
    refine Fin.addCases (m := 2) (n := 1) (fun i => ?_) (fun i => ?_) r
    · exact ((C50_composite (hingeFunOf bodies b (((bodies b.i0).centroid + (bodies b.i1).centroid).sdiv 2))
        (rotationFunOf bodies b) b.proxies s).2.2.2.2.2.2.1 l dt i).trans (at_ofFn (fun j => l.at_ (Fin.castAdd 1 j)) i)
    · exact ((C50_composite (hingeFunOf bodies b (((bodies b.i0).centroid + (bodies b.i1).centroid).sdiv 2))
        (rotationFunOf bodies b) b.proxies s).2.2.2.2.2.2.2.1 l dt i).trans (at_ofFn (fun j : Fin 1 => l.at_ (Fin.natAdd 2 j)) i)
  obtain ⟨e3, s3, ha, hb⟩ := C34_bias hs e e' e'' b.proxies (weldFunOf bodies b) hf dt s s1 (Or.inl hind) l h hr h0 h1
  obtain ⟨_, _, cb0, cb1, cj0, cj1, _⟩ := C50_composite (hingeFunOf bodies b
    (((bodies b.i0).centroid + (bodies b.i1).centroid).sdiv 2)) (rotationFunOf bodies b) b.proxies s1
  obtain ⟨_, _, _, _, dj0, dj1, _⟩ := C50_composite (hingeFunOf bodies b
    (((bodies b.i0).centroid + (bodies b.i1).centroid).sdiv 2)) (rotationFunOf bodies b) b.proxies s
  refine ⟨e3, s3, ha, fun r => ?_, ?_⟩
  · have := hb (Fin.castAdd 1 r)
    have hz := cb0 r
    simp only [weldFunOf, push] at this hz
    rw [hz] at this
    simp only [dj0] at this
    rw [push, this]
    simp [hingeFunOf, hingeFun, at_zero]
  · have := hb (Fin.natAdd 2 (0 : Fin 1))
    have hz := cb1 0
    simp only [weldFunOf, push] at this hz
    rw [hz] at this
    simp only [dj1] at this
    simp only [rotationFunOf, rotation_get, Fin.sum_univ_six, toV, velocity_toV] at this
    have hz' : ((rotationFun ((bodies b.i1).position.orient.theta - (bodies b.i0).position.orient.theta)).bias b.proxies s1).at_ 0 = 0 := rfl
    rw [hz'] at this
    simp at this
    have e0 : b.proxies.i0 = b.i0 := rfl
    have e1 : b.proxies.i1 = b.i1 := rfl
    rw [e0, e1] at this
    linear_combination -this

/-- Case for `C50_weld_solved`, `C34_bias` and `C34_solved`: after the sample events, another solve stops the relative motion. -/
example : ∃ (e'' e3 : EqualitySolver ℝ 3) (s1 s3 : SolveState ℝ),
    e''.solveVelocity sampleBodies.proxies (weldFunOf sampleBody sampleBodies) (1 / 60) s1 = .ok (e3, s3) ∧
    (s3.vel 0).angular = (s3.vel 1).angular := by
  obtain ⟨e', e'', s', h, hr⟩ := sample_weld
  obtain ⟨e3, s3, h1, _, h3⟩ := C50_weld_solved sqrt_lawful sampleBody sampleBodies _ e' e'' _ _ s' (by decide) _ h hr rfl rfl
  exact ⟨e'', e3, s', s3, h1, h3⟩

/-! ### C49 -/

omit [Field K] [IsStrictOrderedRing K] in
theorem clamp_cases {lo hi x : K} (h : lo ≤ hi) :
    (Algo.clamp x lo hi = x ∧ lo ≤ x ∧ x ≤ hi) ∨ (Algo.clamp x lo hi = lo ∧ x < lo) ∨ (Algo.clamp x lo hi = hi ∧ hi < x) := by
  simp only [Algo.clamp]
  split_ifs with h1 h2 h2
  · exact Or.inr (Or.inl ⟨le_antisymm h (le_of_lt h2) ▸ rfl, h1⟩)
  · exact Or.inr (Or.inl ⟨rfl, h1⟩)
  · exact Or.inr (Or.inr ⟨rfl, h2⟩)
  · exact Or.inl ⟨rfl, not_lt.1 h1, not_lt.1 h2⟩

/-- The interval in which the impulse of a motor along one axis is kept. -/
def Motor.lo (m : Motor K d) (dt : K) (r : Fin d) : K := min 0 (m.direction.at_ r * m.throttle * m.maxForce * dt)
def Motor.hi (m : Motor K d) (dt : K) (r : Fin d) : K := max 0 (m.direction.at_ r * m.throttle * m.maxForce * dt)

theorem Motor.clampLambda_at (m : Motor K d) (l : MVec K d) (dt : K) (r : Fin d) :
    (m.clampLambda l dt).at_ r = Algo.clamp (l.at_ r) (m.lo dt r) (m.hi dt r) := by
  simp only [Motor.clampLambda]
  rw [forFin_setAt (fun i x => if (((m.direction.smul m.throttle).smul m.maxForce).smul dt).at_ i < 0 then
        Algo.clamp x ((((m.direction.smul m.throttle).smul m.maxForce).smul dt).at_ i) 0
        else Algo.clamp x 0 ((((m.direction.smul m.throttle).smul m.maxForce).smul dt).at_ i))]
  simp only [at_smul, Motor.lo, Motor.hi]
  have e : m.direction.at_ r * m.throttle * m.maxForce * dt = m.direction.at_ r * m.throttle * m.maxForce * dt := rfl
  split_ifs with h
  · rw [min_eq_right (le_of_lt h), max_eq_left (le_of_lt h)]
  · rw [min_eq_left (not_lt.1 h), max_eq_right (not_lt.1 h)]

/-- C49 for any motor whose Jacobian picks one velocity of the body per row. -/
theorem motor_solved {sqrt : K → K} (hs : ∀ x, 0 ≤ x → sqrt x * sqrt x = x) (m : Motor K d) (J : Mat K d 6)
    (hJ : FirstOnly J) (e e' e'' : EqualitySolver K d) (p : Proxies K) (k : K) (hk : 0 < k)
    (hdiag : ∀ (x : MVec K d) r, (((J.mul p.inverseMass).mul J.transpose).mul x).at_ r = k * x.at_ r) (dt : K)
    (s s1 : SolveState K) (l : List (SolveEvent K)) (h : e.initSolve sqrt p (m.toFun J) s = .ok e')
    (hr : EqualitySolver.runEvents p (m.toFun J) dt l (e', s) = .ok (e'', s1)) (hd : e.base.damping = Mat.zero) :
    ∃ e3 s3, e''.solveVelocity p (m.toFun J) dt s1 = .ok (e3, s3) ∧ ∀ r,
      m.lo dt r ≤ e3.base.lambda.at_ r ∧ e3.base.lambda.at_ r ≤ m.hi dt r ∧
      (push J (p.velocity s3).toV r = m.maxVelocity * m.direction.at_ r ∨
       (push J (p.velocity s3).toV r < m.maxVelocity * m.direction.at_ r ∧ e3.base.lambda.at_ r = m.hi dt r) ∨
       (m.maxVelocity * m.direction.at_ r < push J (p.velocity s3).toV r ∧ e3.base.lambda.at_ r = m.lo dt r)) := by
  obtain ⟨e3, s3, x, h1, h2, h3, h4⟩ := EqualitySolver.solveVelocity_spec hs e e' e'' p (m.toFun J) dt s s1 l h hr
  refine ⟨e3, s3, h1, fun r => ?_⟩
  have hj : (m.toFun J).jacobian p s = J := rfl
  have hlo : m.lo dt r ≤ m.hi dt r := le_trans (min_le_left _ _) (le_max_left _ _)
  have hx := h2 r
  rw [effectiveMass, hd, add_mul_at, diag_mul_at, at_zero, hj, hdiag] at hx
  have hb : ((m.toFun J).bias p s1).at_ r = -m.maxVelocity * m.direction.at_ r := by
    simp only [Motor.toFun, Motor.bias, at_smul]; ring
  have hev : ((m.toFun J).eval p s1).at_ r = 0 := by simp only [Motor.toFun, at_zero]
  rw [hb, hev] at hx
  have hl : e3.base.lambda.at_ r = Algo.clamp (e''.base.lambda.at_ r + x.at_ r) (m.lo dt r) (m.hi dt r) := by
    rw [h3]
    have := Motor.clampLambda_at m (e''.base.lambda.add x) dt r
    rw [at_add] at this
    exact this
  have hv : push J (p.velocity s3).toV r = push J (p.velocity s1).toV r + k * (e3.base.lambda.at_ r - e''.base.lambda.at_ r) := by
    rw [h4, hj, push_impulse p J (Or.inr hJ), hdiag, at_sub]
  have hgap : push J (p.velocity s3).toV r - m.maxVelocity * m.direction.at_ r =
      k * (e3.base.lambda.at_ r - (e''.base.lambda.at_ r + x.at_ r)) := by
    rw [hv]; linear_combination hx
  rcases clamp_cases (x := e''.base.lambda.at_ r + x.at_ r) hlo with ⟨hc, ha, hb⟩ | ⟨hc, ha⟩ | ⟨hc, ha⟩
  · rw [hc] at hl
    refine ⟨hl ▸ ha, hl ▸ hb, Or.inl ?_⟩
    rw [hl, sub_self, mul_zero] at hgap
    linarith
  · rw [hc] at hl
    refine ⟨hl.ge, hl ▸ hlo, Or.inr (Or.inr ⟨?_, hl⟩)⟩
    rw [hl] at hgap
    have := mul_pos hk (sub_pos.2 ha)
    linarith
  · rw [hc] at hl
    refine ⟨hl ▸ hlo, hl.le, Or.inr (Or.inl ⟨?_, hl⟩)⟩
    rw [hl] at hgap
    have : k * (m.hi dt r - (e''.base.lambda.at_ r + x.at_ r)) < 0 := mul_neg_of_pos_of_neg hk (sub_neg.2 ha)
    linarith

/-- C49: a rotation motor gives its body exactly the target angular velocity, or it falls short with all the torque that is
allowed, or the body is faster than the target and the motor does not brake beyond its bound (zero in the direction asked for). -/
theorem C49_rotation_motor {sqrt : K → K} (hs : ∀ x, 0 ≤ x → sqrt x * sqrt x = x) (m : Motor K 1)
    (e e' e'' : EqualitySolver K 1) (p : Proxies K) (hI : 0 < p.masses.I0) (dt : K)
    (s s1 : SolveState K) (l : List (SolveEvent K)) (h : e.initSolve sqrt p (rotationMotor m) s = .ok e')
    (hr : EqualitySolver.runEvents p (rotationMotor m) dt l (e', s) = .ok (e'', s1)) (hd : e.base.damping = Mat.zero) :
    ∃ e3 s3, e''.solveVelocity p (rotationMotor m) dt s1 = .ok (e3, s3) ∧
      m.lo dt 0 ≤ e3.base.lambda.at_ 0 ∧ e3.base.lambda.at_ 0 ≤ m.hi dt 0 ∧
      ((s3.vel p.i0).angular = m.maxVelocity * m.direction.at_ 0 ∨
       ((s3.vel p.i0).angular < m.maxVelocity * m.direction.at_ 0 ∧ e3.base.lambda.at_ 0 = m.hi dt 0) ∨
       (m.maxVelocity * m.direction.at_ 0 < (s3.vel p.i0).angular ∧ e3.base.lambda.at_ 0 = m.lo dt 0)) := by
  have g : ∀ c, (⟨![0, 0, 1, 0, 0, 0]⟩ : Mat K 1 6).get 0 c = (![0, 0, 1, 0, 0, 0] : Fin 6 → K) c := by
    intro c; fin_cases c <;> rfl
  obtain ⟨e3, s3, h1, h2⟩ := motor_solved hs m ⟨![0, 0, 1, 0, 0, 0]⟩
    (by intro r; fin_cases r; exact ⟨rfl, rfl, rfl⟩) e e' e'' p p.masses.I0 hI (by
      intro x r
      fin_cases r
      simp only [Fin.zero_eta]
      rw [effectiveMass_mul]
      simp only [push, pull, Fin.sum_univ_six, g, Finset.univ_unique, Fin.default_eq_zero, Finset.sum_singleton,
        (invMassVec_at p).2.2.1, toV]
      simp) dt s s1 l h hr hd
  refine ⟨e3, s3, h1, ?_⟩
  have := h2 0
  have hp : push (⟨![0, 0, 1, 0, 0, 0]⟩ : Mat K 1 6) (p.velocity s3).toV 0 = (s3.vel p.i0).angular := by
    simp only [push, Fin.sum_univ_six, g, toV, velocity_toV]
    simp
  rwa [hp] at this

/-- C49: a translation motor does so along both axes independently. -/
theorem C49_translation_motor {sqrt : K → K} (hs : ∀ x, 0 ≤ x → sqrt x * sqrt x = x) (m : Motor K 2)
    (e e' e'' : EqualitySolver K 2) (p : Proxies K) (hm : 0 < p.masses.m0) (dt : K)
    (s s1 : SolveState K) (l : List (SolveEvent K)) (h : e.initSolve sqrt p (translationMotor m) s = .ok e')
    (hr : EqualitySolver.runEvents p (translationMotor m) dt l (e', s) = .ok (e'', s1)) (hd : e.base.damping = Mat.zero) :
    ∃ e3 s3, e''.solveVelocity p (translationMotor m) dt s1 = .ok (e3, s3) ∧
      ∀ r : Fin 2, let v := (![(s3.vel p.i0).linear.x, (s3.vel p.i0).linear.y] : Fin 2 → K) r
      m.lo dt r ≤ e3.base.lambda.at_ r ∧ e3.base.lambda.at_ r ≤ m.hi dt r ∧
      (v = m.maxVelocity * m.direction.at_ r ∨
       (v < m.maxVelocity * m.direction.at_ r ∧ e3.base.lambda.at_ r = m.hi dt r) ∨
       (m.maxVelocity * m.direction.at_ r < v ∧ e3.base.lambda.at_ r = m.lo dt r)) := by
  have g : ∀ r c, (⟨![1, 0, 0, 0, 0, 0, 0, 1, 0, 0, 0, 0]⟩ : Mat K 2 6).get r c =
      (![![1, 0, 0, 0, 0, 0], ![0, 1, 0, 0, 0, 0]] : Fin 2 → Fin 6 → K) r c := by
    intro r c; fin_cases r <;> fin_cases c <;> rfl
  obtain ⟨e3, s3, h1, h2⟩ := motor_solved hs m ⟨![1, 0, 0, 0, 0, 0, 0, 1, 0, 0, 0, 0]⟩
    (by intro r; fin_cases r <;> exact ⟨rfl, rfl, rfl⟩) e e' e'' p p.masses.m0 hm (by
      intro x r
      rw [effectiveMass_mul]
      simp only [push, pull, Fin.sum_univ_six, g, Fin.sum_univ_two, (invMassVec_at p).1, (invMassVec_at p).2.1, toV]
      fin_cases r <;> simp) dt s s1 l h hr hd
  refine ⟨e3, s3, h1, fun r => ?_⟩
  have := h2 r
  have hp : push (⟨![1, 0, 0, 0, 0, 0, 0, 1, 0, 0, 0, 0]⟩ : Mat K 2 6) (p.velocity s3).toV r =
      (![(s3.vel p.i0).linear.x, (s3.vel p.i0).linear.y] : Fin 2 → K) r := by
    simp only [push, Fin.sum_univ_six, g, toV, velocity_toV]
    fin_cases r <;> simp
  rwa [hp] at this

/-- C49: a motor specified by an acceleration changes the velocity of its body by at most that acceleration times the time
step, over the whole step (warm start included), whatever the inertia of the body. -/
theorem C49_acceleration {sqrt : K → K} (hs : ∀ x, 0 ≤ x → sqrt x * sqrt x = x) (bodies : Nat → Body K) (i : Nat)
    (hI : 0 < (bodies i).inertia) (maxVelocity maxAccel : K) (m : Motor K 1)
    (hm : rotationMotorOf (bodies i) (MotorSpecs.fromAccel maxVelocity maxAccel none) = .ok m)
    (throttle : K) (dir : MVec K 1) (e e' e'' : EqualitySolver K 1) (dt : K) (hdt : 0 ≤ dt) (s s' : SolveState K)
    (l : List (SolveEvent K))
    (h : e.initSolve sqrt (Bodies.singleBody bodies i).proxies (rotationMotor ((m.setThrottle throttle).setDirection sqrt dir)) s = .ok e')
    (hr : EqualitySolver.runEvents (Bodies.singleBody bodies i).proxies (rotationMotor ((m.setThrottle throttle).setDirection sqrt dir)) dt l (e', s) =
      .ok (e'', s')) :
    |(s'.vel i).angular - ((s.vel i).angular + (others l i).angular)| ≤ |maxAccel| * dt := by
  simp only [rotationMotorOf, MotorSpecs.fromAccel, MotorSpecs.forceFor, Outcome.bind_ok, Outcome.ok.injEq] at hm
  subst hm
  set M := ((Motor.make maxVelocity (maxAccel * (bodies i).inertia) : Motor K 1).setThrottle throttle).setDirection sqrt dir with hM
  have hreach : M.Reachable sqrt := .setDirection _ (.setThrottle _ (.make _ _))
  obtain ⟨_, _, _, hb⟩ := C33_motor sqrt hs M hreach _ e e' e'' _ dt hdt s s' l h hr 0
  have hforce : M.maxForce = |maxAccel * (bodies i).inertia| := by
    rw [hM]; simp only [Motor.setDirection]; split_ifs <;> rfl
  have hv := (C33_velocity_change_equality sqrt e e' e'' _ _ dt s s' l h hr i).1
  have hang : (s'.vel i).angular = (s.vel i).angular + (others l i).angular + 1 / (bodies i).inertia * e''.base.lambda.at_ 0 := by
    rw [hv]
    have h0 : (Bodies.singleBody bodies i).proxies.i0 = i := rfl
    have h1 : (Bodies.singleBody bodies i).proxies.i1 = i := rfl
    have hI0 : (Bodies.singleBody bodies i).proxies.masses.I0 = 1 / (bodies i).inertia := by
      simp [Bodies.singleBody, Bodies.make, Bodies.proxies, Body.invInertia]
    have g2 : ((rotationMotor M).jacobian (Bodies.singleBody bodies i).proxies s).get 0 2 = 1 := rfl
    have g5 : ((rotationMotor M).jacobian (Bodies.singleBody bodies i).proxies s).get 0 5 = 0 := rfl
    simp only [kick, h0, h1, if_true, Velocity.add_angular, hI0, pull, Finset.univ_unique, Fin.default_eq_zero,
      Finset.sum_singleton, g2, g5, toV]
    ring
  rw [hang, add_sub_cancel_left, abs_mul, abs_of_pos (one_div_pos.2 hI)]
  rw [hforce, abs_mul, abs_of_pos hI] at hb
  rw [div_mul_eq_mul_div, one_mul, div_le_iff₀ hI]
  linarith

/-- Case for `C49_acceleration` and `C49_rotation_motor`. -/
example : ∃ (m : Motor ℝ 1) (e' e'' : EqualitySolver ℝ 1) (s' : SolveState ℝ),
    rotationMotorOf (sampleBody 0) (MotorSpecs.fromAccel 5 4 none) = .ok m ∧ m.maxForce = 12 ∧
    (sampleSolver 1).initSolve Real.sqrt (Bodies.singleBody sampleBody 0).proxies
      (rotationMotor ((m.setThrottle 2).setDirection Real.sqrt (Mat.ofFn ![-3]))) sampleState = .ok e' ∧
    EqualitySolver.runEvents (Bodies.singleBody sampleBody 0).proxies
      (rotationMotor ((m.setThrottle 2).setDirection Real.sqrt (Mat.ofFn ![-3]))) (1 / 60) [.warmstart, .solve, .solve] (e', sampleState) = .ok (e'', s') ∧
    |(s'.vel 0).angular - 3| ≤ 4 * (1 / 60) := by
  have hmass : (Bodies.singleBody sampleBody 0).masses = ⟨1 / 2, 1 / 3, 1 / 2, 1 / 3⟩ := by
    simp [Bodies.singleBody, Bodies.make, Body.invMass, Body.invInertia, Body.mass, Body.inertia, sampleBody]
  obtain ⟨e', h⟩ := (C34_library_valid sqrt_lawful (Bodies.singleBody sampleBody 0).proxies (by
    intro c; fin_cases c <;> simp [Proxies.invMassVec, Bodies.proxies, hmass, at_ofFn] <;> norm_num) sampleState).2.2.2.1
    (((Motor.make 5 (4 * (sampleBody 0).inertia) : Motor ℝ 1).setThrottle 2).setDirection Real.sqrt (Mat.ofFn ![-3]))
    (sampleSolver 1) (fun r => le_refl (0 : ℝ)) (by simp [Bodies.proxies, hmass])
  obtain ⟨e'', s', hr⟩ := C34_no_throw sqrt_lawful _ e' _ _ (1 / 60) _ h [.warmstart, .solve, .solve]
  refine ⟨_, e', e'', s', rfl, ?_, h, hr, ?_⟩
  · simp [Motor.make, Body.inertia, sampleBody]; norm_num
  · have := C49_acceleration sqrt_lawful sampleBody 0 (by norm_num [Body.inertia, sampleBody]) 5 4 _ rfl 2 (Mat.ofFn ![-3])
      _ e' e'' (1 / 60) (by norm_num) _ s' _ h hr
    simpa [others, sampleState] using this

/-- C49: a rotation motor specified by a force at a distance from the centroid changes the angular velocity of its body by at most what that force, applied at that distance and at a right angle,
does in the time step, over the whole step (warm start included). -/
theorem C49_target_force {sqrt : K → K} (hs : ∀ x, 0 ≤ x → sqrt x * sqrt x = x) (bodies : Nat → Body K) (i : Nat)
    (hI : 0 < (bodies i).inertia) (maxVelocity radius targetForce : K) (m : Motor K 1)
    (hm : rotationMotorOf (bodies i) (MotorSpecs.fromTargetForce maxVelocity radius targetForce) = .ok m)
    (throttle : K) (dir : MVec K 1) (e e' e'' : EqualitySolver K 1) (dt : K) (hdt : 0 ≤ dt) (s s' : SolveState K)
    (l : List (SolveEvent K))
    (h : e.initSolve sqrt (Bodies.singleBody bodies i).proxies (rotationMotor ((m.setThrottle throttle).setDirection sqrt dir)) s = .ok e')
    (hr : EqualitySolver.runEvents (Bodies.singleBody bodies i).proxies (rotationMotor ((m.setThrottle throttle).setDirection sqrt dir)) dt l (e', s) =
      .ok (e'', s')) :
    |(s'.vel i).angular - ((s.vel i).angular + (others l i).angular)| ≤
      |((bodies i).applyForce ⟨0, targetForce⟩ dt ⟨radius, 0⟩).angular - (bodies i).angular| := by
  have hgoal : |((bodies i).applyForce ⟨0, targetForce⟩ dt ⟨radius, 0⟩).angular - (bodies i).angular| = |radius * targetForce| * dt / (bodies i).inertia := by
    simp only [Body.applyForce, Body.applyImpulse, Body.setAngularVelocity, Body.setVelocity, Body.invInertia, Body.inertia, Vec2.cross, Vec2.smul_x, Vec2.smul_y]
    rw [add_sub_cancel_left]
    have e : (radius * (targetForce * dt) - 0 * (0 * dt)) * (1 / (bodies i).colliders.properties.I) = radius * targetForce * dt / (bodies i).colliders.properties.I := by ring
    rw [e, abs_div, abs_mul, abs_of_nonneg hdt, abs_of_pos (show 0 < (bodies i).colliders.properties.I from hI)]
  rw [hgoal]
  simp only [rotationMotorOf, MotorSpecs.fromTargetForce, MotorSpecs.fromForce, MotorSpecs.forceFor, Outcome.bind_ok, Outcome.ok.injEq] at hm
  subst hm
  set M := ((Motor.make maxVelocity (radius * targetForce) : Motor K 1).setThrottle throttle).setDirection sqrt dir with hM
  have hreach : M.Reachable sqrt := .setDirection _ (.setThrottle _ (.make _ _))
  obtain ⟨_, _, _, hb⟩ := C33_motor sqrt hs M hreach _ e e' e'' _ dt hdt s s' l h hr 0
  have hforce : M.maxForce = |radius * targetForce| := by
    rw [hM]; simp only [Motor.setDirection]; split_ifs <;> rfl
  have hv := (C33_velocity_change_equality sqrt e e' e'' _ _ dt s s' l h hr i).1
  have hang : (s'.vel i).angular = (s.vel i).angular + (others l i).angular + 1 / (bodies i).inertia * e''.base.lambda.at_ 0 := by
    rw [hv]
    have h0 : (Bodies.singleBody bodies i).proxies.i0 = i := rfl
    have h1 : (Bodies.singleBody bodies i).proxies.i1 = i := rfl
    have hI0 : (Bodies.singleBody bodies i).proxies.masses.I0 = 1 / (bodies i).inertia := by
      simp [Bodies.singleBody, Bodies.make, Bodies.proxies, Body.invInertia]
    have g2 : ((rotationMotor M).jacobian (Bodies.singleBody bodies i).proxies s).get 0 2 = 1 := rfl
    have g5 : ((rotationMotor M).jacobian (Bodies.singleBody bodies i).proxies s).get 0 5 = 0 := rfl
    simp only [kick, h0, h1, if_true, Velocity.add_angular, hI0, pull, Finset.univ_unique, Fin.default_eq_zero,
      Finset.sum_singleton, g2, g5, toV]
    ring
  rw [hang, add_sub_cancel_left, abs_mul, abs_of_pos (one_div_pos.2 hI)]
  rw [hforce] at hb
  rw [div_mul_eq_mul_div, one_mul]
  exact div_le_div_of_nonneg_right hb hI.le

/-- Case for `C49_target_force`: a force of 4 at a distance of 1/2 on a body of inertia 3. -/
example : ∃ (m : Motor ℝ 1) (e' e'' : EqualitySolver ℝ 1) (s' : SolveState ℝ),
    rotationMotorOf (sampleBody 0) (MotorSpecs.fromTargetForce 5 (1 / 2) 4) = .ok m ∧ m.maxForce = 2 ∧
    (sampleSolver 1).initSolve Real.sqrt (Bodies.singleBody sampleBody 0).proxies
      (rotationMotor ((m.setThrottle 2).setDirection Real.sqrt (Mat.ofFn ![-3]))) sampleState = .ok e' ∧
    EqualitySolver.runEvents (Bodies.singleBody sampleBody 0).proxies
      (rotationMotor ((m.setThrottle 2).setDirection Real.sqrt (Mat.ofFn ![-3]))) (1 / 60) [.warmstart, .solve, .solve] (e', sampleState) = .ok (e'', s') ∧
    |(s'.vel 0).angular - 3| ≤ |((sampleBody 0).applyForce ⟨0, 4⟩ (1 / 60) ⟨1 / 2, 0⟩).angular - (sampleBody 0).angular| := by
  have hmass : (Bodies.singleBody sampleBody 0).masses = ⟨1 / 2, 1 / 3, 1 / 2, 1 / 3⟩ := by
    simp [Bodies.singleBody, Bodies.make, Body.invMass, Body.invInertia, Body.mass, Body.inertia, sampleBody]
  obtain ⟨e', h⟩ := (C34_library_valid sqrt_lawful (Bodies.singleBody sampleBody 0).proxies (by
    intro c; fin_cases c <;> simp [Proxies.invMassVec, Bodies.proxies, hmass, at_ofFn] <;> norm_num) sampleState).2.2.2.1
    (((Motor.make 5 (1 / 2 * 4) : Motor ℝ 1).setThrottle 2).setDirection Real.sqrt (Mat.ofFn ![-3]))
    (sampleSolver 1) (fun r => le_refl (0 : ℝ)) (by simp [Bodies.proxies, hmass])
  obtain ⟨e'', s', hr⟩ := C34_no_throw sqrt_lawful _ e' _ _ (1 / 60) _ h [.warmstart, .solve, .solve]
  refine ⟨_, e', e'', s', rfl, ?_, h, hr, ?_⟩
  · simp [Motor.make]; norm_num
  · have := C49_target_force sqrt_lawful sampleBody 0 (by norm_num [Body.inertia, sampleBody]) 5 (1 / 2) 4 _ rfl 2 (Mat.ofFn ![-3])
      _ e' e'' (1 / 60) (by norm_num) _ s' _ h hr
    simpa [others, sampleState] using this

end Simu
