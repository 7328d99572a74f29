import Verif.Spec.Converged
import Verif.Lemmas.LibrarySound
/-
Constraints whose velocity solve changes nothing.
-/
namespace Simu
open Mat
variable {K : Type*} [Field K] [LinearOrder K] [IsStrictOrderedRing K]

theorem best_of_projection {P : K → K} (hP : IsProjection P) {k : K} (hk : 0 < k) (x u : K) :
    P (x + -u / k) = x ↔ Best {y | ∃ w, P w = y} x u := by
  constructor
  · intro h
    refine ⟨⟨_, h⟩, ?_⟩
    rintro m ⟨w, rfl⟩
    have := hP (x + -u / k) w
    rw [h] at this
    have e : u * (P w - x) = -(k * ((x + -u / k - x) * (P w - x))) := by field_simp; ring
    rw [e]
    nlinarith
  · rintro ⟨⟨w, hw⟩, hb⟩
    have h1 := hP (x + -u / k) w
    have h2 := hb (P (x + -u / k)) ⟨_, rfl⟩
    rw [hw] at h1
    set z := P (x + -u / k)
    have e : k * ((x + -u / k - z) * (x - z)) = k * ((x - z) * (x - z)) + u * (z - x) := by field_simp; ring
    have h3 : k * ((x + -u / k - z) * (x - z)) ≤ 0 := mul_nonpos_of_nonneg_of_nonpos hk.le h1
    have h4 : k * ((x - z) * (x - z)) ≤ 0 := by linarith
    have h5 : (x - z) * (x - z) ≤ 0 := by
      by_contra hn
      rw [not_le] at hn
      have := mul_pos hk hn
      linarith
    have h6 := mul_self_eq_zero.1 (le_antisymm h5 (mul_self_nonneg _))
    linarith

theorem best_univ (l u : K) : Best Set.univ l u ↔ u = 0 := by
  constructor
  · rintro ⟨-, h⟩
    have h1 := h (l + 1) trivial
    have h2 := h (l - 1) trivial
    linarith
  · rintro rfl
    exact ⟨trivial, fun m _ => by rw [zero_mul]⟩

theorem best_nonneg (l u : K) : Best {m | 0 ≤ m} l u ↔ 0 ≤ l ∧ 0 ≤ u ∧ l * u = 0 := by
  constructor
  · rintro ⟨h0, h⟩
    have h0' : 0 ≤ l := h0
    have h1 := h (l + 1) (show 0 ≤ l + 1 by linarith)
    have h2 := h 0 (le_refl (0 : K))
    have hu : 0 ≤ u := by linarith
    refine ⟨h0', hu, le_antisymm (by linarith) (mul_nonneg h0' hu)⟩
  · rintro ⟨h0, hu, hc⟩
    refine ⟨h0, fun m hm => ?_⟩
    have := mul_nonneg hu (show 0 ≤ m from hm)
    linarith

theorem best_nonpos (l u : K) : Best {m | m ≤ 0} (-l) u ↔ 0 ≤ l ∧ u ≤ 0 ∧ l * u = 0 := by
  constructor
  · rintro ⟨h0, h⟩
    have h0' : -l ≤ 0 := h0
    have h1 := h (-l - 1) (show -l - 1 ≤ 0 by linarith)
    have h2 := h 0 (le_refl (0 : K))
    have hu : u ≤ 0 := by linarith
    have hl : 0 ≤ l := by linarith
    refine ⟨hl, hu, le_antisymm (mul_nonpos_of_nonneg_of_nonpos hl hu) (by linarith)⟩
  · rintro ⟨h0, hu, hc⟩
    refine ⟨show -l ≤ 0 by linarith, fun m hm => ?_⟩
    have := mul_nonneg_of_nonpos_of_nonpos hu (show m ≤ 0 from hm)
    linarith

theorem best_between (lo hi l u : K) (hlh : lo ≤ hi) :
    Best {m | lo ≤ m ∧ m ≤ hi} l u ↔ lo ≤ l ∧ l ≤ hi ∧ (u = 0 ∨ (0 < u ∧ l = lo) ∨ (u < 0 ∧ l = hi)) := by
  constructor
  · rintro ⟨⟨h0, h1⟩, h⟩
    refine ⟨h0, h1, ?_⟩
    rcases lt_trichotomy u 0 with hu | hu | hu
    · right; right
      refine ⟨hu, le_antisymm h1 ?_⟩
      by_contra hn
      have := mul_neg_of_neg_of_pos hu (sub_pos.2 (not_le.1 hn))
      linarith [h hi ⟨hlh, le_rfl⟩]
    · exact Or.inl hu
    · right; left
      refine ⟨hu, le_antisymm ?_ h0⟩
      by_contra hn
      have := mul_neg_of_pos_of_neg hu (sub_neg.2 (not_le.1 hn))
      linarith [h lo ⟨le_rfl, hlh⟩]
  · rintro ⟨h0, h1, h⟩
    refine ⟨⟨h0, h1⟩, fun m hm => ?_⟩
    rcases h with rfl | ⟨hu, rfl⟩ | ⟨hu, rfl⟩
    · rw [zero_mul]
    · exact mul_nonneg hu.le (sub_nonneg.2 hm.1)
    · exact mul_nonneg_of_nonpos_of_nonpos hu.le (sub_nonpos.2 hm.2)

theorem clamp_projection {lo hi : K} (h : lo ≤ hi) : IsProjection (fun x => Algo.clamp x lo hi) := by
  have e : (fun x => Algo.clamp x lo hi) = fun z => max lo (min z hi) := by
    funext x
    simp only [Algo.clamp]
    rcases clamp_three x lo hi h with ⟨a, hc⟩ | ⟨a, hc⟩ | hc
    all_goals
      simp only [Algo.clamp] at hc
      rw [hc]
    · rw [min_eq_left (le_of_lt (lt_of_lt_of_le a h)), max_eq_left a.le]
    · rw [min_eq_right a.le, max_eq_right h]
    · split_ifs at hc with h1 h2 h2
      · rw [← hc, min_self, max_eq_right h]
      · rw [← hc] at h1 ⊢; exact absurd h1 (lt_irrefl _)
      · rw [← hc, min_self, max_eq_right h]
      · rw [min_eq_left (not_lt.1 h2), max_eq_right (not_lt.1 h1)]
  rw [e]
  exact isProjection_clamp lo hi h

theorem clamp_range {lo hi : K} (h : lo ≤ hi) : {y | ∃ w, Algo.clamp w lo hi = y} = {m | lo ≤ m ∧ m ≤ hi} := by
  ext m
  constructor
  · rintro ⟨w, rfl⟩
    simp only [Algo.clamp, Set.mem_setOf_eq]
    split_ifs with h1 h2 h2
    · exact ⟨h, le_rfl⟩
    · exact ⟨le_rfl, h⟩
    · exact ⟨h, le_rfl⟩
    · exact ⟨not_lt.1 h1, not_lt.1 h2⟩
  · rintro ⟨h1, h2⟩
    refine ⟨m, ?_⟩
    simp only [Algo.clamp]
    rw [if_neg (not_lt.2 h1), if_neg (not_lt.2 h2)]

variable {d : Nat}

theorem sub_self_vec (a : MVec K d) : a.sub a = Mat.zero := by
  apply ext_at; intro r; rw [at_sub, at_zero, sub_self]

theorem neg_zero_vec : (Mat.zero : MVec K d).neg = Mat.zero := by
  apply ext_at; intro r; rw [at_neg, at_zero, neg_zero]

theorem applyImpulse_nothing (p : Proxies K) (J : Mat K d 6) (s : SolveState K) :
    p.applyImpulse (SolverBase.impulse J Mat.zero) s = s := by
  have hp := Proxies.applyImpulse_pos p (SolverBase.impulse J Mat.zero) s
  have hv : (p.applyImpulse (SolverBase.impulse J Mat.zero) s).vel = s.vel := by
    funext i
    rw [Proxies.applyImpulse_vel, toV_impulse]
    rw [pull_zero', kick_zero, add_zero]
  revert hp hv
  generalize p.applyImpulse (SolverBase.impulse J Mat.zero) s = s'
  intro hp hv
  cases s; cases s'; simp_all

/-- Multipliers that do not change leave the bodies alone. -/
theorem updateLambda_fixed (b : SolverBase K d) (p : Proxies K) (f : CFun K d) (dt : K) (dl : MVec K d) (s : SolveState K)
    (h : f.clampLambda (b.lambda.add dl) dt = b.lambda) : b.updateLambda p f dt dl s = (b, s) := by
  have : b.updateLambda p f dt dl s = ({ b with lambda := f.clampLambda (b.lambda.add dl) dt },
      p.applyImpulse (SolverBase.impulse b.J ((f.clampLambda (b.lambda.add dl) dt).sub b.lambda)) s) := rfl
  rw [this, h, sub_self_vec, applyImpulse_nothing]

theorem allowed_of_rowWise {f : CFun K d} {dt : K} {P : Fin d → K → K} (h : ∀ l r, (f.clampLambda l dt).at_ r = P r (l.at_ r)) (r : Fin d) :
    f.allowed dt r = {y | ∃ w, P r w = y} := by
  ext y
  constructor
  · rintro ⟨l, hl⟩
    exact ⟨l.at_ r, by rw [← h, hl]⟩
  · rintro ⟨w, hw⟩
    exact ⟨Mat.ofFn fun _ => w, by rw [h, at_ofFn, hw]⟩

theorem allowed_of_free {f : CFun K d} {dt : K} (h : ∀ l, f.clampLambda l dt = l) (r : Fin d) : f.allowed dt r = Set.univ := by
  ext y
  simp only [Set.mem_univ, iff_true]
  exact ⟨Mat.ofFn fun _ => y, by rw [h, at_ofFn]⟩

theorem effectiveMass_diag_nonneg (p : Proxies K) (hm : ∀ c, 0 ≤ p.invMassVec.at_ c) (J : Mat K d 6) {D : MVec K d} (hd : ∀ r, 0 ≤ D.at_ r)
    (r : Fin d) : 0 ≤ (effectiveMass p J D).get r r := by
  have h := effectiveMass_quadratic p J D (Mat.ofFn fun i => if i = r then 1 else 0)
  have hl : ∑ i, (Mat.ofFn fun i => if i = r then (1 : K) else 0 : MVec K d).at_ i *
      ((effectiveMass p J D).mul (Mat.ofFn fun i => if i = r then (1 : K) else 0)).at_ i = (effectiveMass p J D).get r r := by
    simp only [at_mul, at_ofFn, ite_mul, one_mul, zero_mul, mul_ite, mul_one, mul_zero, Finset.sum_ite_eq', Finset.mem_univ, if_true]
  rw [hl] at h
  rw [h]
  exact add_nonneg (Finset.sum_nonneg fun c _ => mul_nonneg (hm c) (mul_self_nonneg _))
    (Finset.sum_nonneg fun i _ => mul_nonneg (hd i) (mul_self_nonneg _))

/-- Velocity solve of an equality constraint: nothing changes exactly when its law holds. -/
theorem EqualitySolver.fixed_iff {sqrt : K → K} (hs : ∀ x, 0 ≤ x → sqrt x * sqrt x = x) {e : EqualitySolver K d} {p : Proxies K}
    (hm : ∀ c, 0 ≤ p.invMassVec.at_ c) {f : CFun K d} {c : CallCfg K} {s0 : SolveState K} (hJ : e.base.J = f.jacobian p s0)
    (hk : KSolver.mk' sqrt d (effectiveMass p (f.jacobian p s0) e.base.damping) = .ok e.solver) (hv : e.solver.isValid = true)
    (hd : ∀ r, 0 ≤ e.base.damping.at_ r) (hrow : f.RowWise c.dt)
    (hcase : (∀ l, f.clampLambda l c.dt = l) ∨ ∀ r r' : Fin d, r ≠ r' → (effectiveMass p (f.jacobian p s0) e.base.damping).get r r' = 0)
    (s : SolveState K) :
    (e.solveVelocity p f c.dt s = .ok (e, s) ↔ ∀ r, Best (f.allowed c.dt r) (e.base.lambda.at_ r)
      (rowError c p f e.base.restitution s0 s r + e.base.damping.at_ r * e.base.lambda.at_ r)) ∧
    ∀ s', e.solveVelocity p f c.dt s = .ok (e, s') → s' = s := by
  obtain ⟨k, hk', hvalid, hx, -⟩ := KSolver.mk_spec hs (effectiveMass p (f.jacobian p s0) e.base.damping)
  have hke : k = e.solver := by simpa using hk'.symm.trans hk
  subst hke
  have hdet := hvalid.1 hv
  set M := effectiveMass p (f.jacobian p s0) e.base.damping with hM
  obtain ⟨x, hx1, hx2, hx3⟩ := hx hdet (e.base.computeRhs p s f c.dt true)
  have hrhs : ∀ r, (e.base.computeRhs p s f c.dt true).at_ r =
      -(rowError c p f e.base.restitution s0 s r + e.base.damping.at_ r * e.base.lambda.at_ r) := by
    intro r
    simp only [SolverBase.computeRhs, if_true, at_neg, at_add, diag_mul_at, at_sdiv, rowError, hJ]
    rw [at_mul]
    rfl
  have hsv : e.solveVelocity p f c.dt s = .ok ({ e with base := (e.base.updateLambda p f c.dt x s).1 }, (e.base.updateLambda p f c.dt x s).2) := by
    simp only [EqualitySolver.solveVelocity, hx1, Outcome.bind_ok]
  have hlam : (e.base.updateLambda p f c.dt x s).1.lambda = f.clampLambda (e.base.lambda.add x) c.dt := rfl
  have key : (e.solveVelocity p f c.dt s = .ok (e, s) ↔ f.clampLambda (e.base.lambda.add x) c.dt = e.base.lambda) ∧
      ∀ s', e.solveVelocity p f c.dt s = .ok (e, s') → s' = s := by
    have fwd : ∀ s', e.solveVelocity p f c.dt s = .ok (e, s') → f.clampLambda (e.base.lambda.add x) c.dt = e.base.lambda := by
      intro s' h
      rw [hsv, Outcome.ok.injEq, Prod.mk.injEq] at h
      rw [← hlam]
      exact congrArg (fun z : EqualitySolver K d => z.base.lambda) h.1
    refine ⟨⟨fwd s, fun h => ?_⟩, fun s' h => ?_⟩
    · rw [hsv, updateLambda_fixed e.base p f c.dt x s h]
    · have h' := fwd s' h
      rw [hsv, updateLambda_fixed e.base p f c.dt x s h', Outcome.ok.injEq, Prod.mk.injEq] at h
      exact h.2.symm
  refine ⟨key.1.trans ?_, key.2⟩
  rcases hcase with hfree | hdiag
  · rw [hfree]
    simp only [allowed_of_free hfree, best_univ]
    have hzero : e.base.lambda.add x = e.base.lambda ↔ x = Mat.zero := by
      constructor
      · intro h
        apply ext_at; intro r
        have := congrArg (fun v => v.at_ r) h
        simp only [at_add] at this
        rw [at_zero]; linarith
      · rintro rfl
        apply ext_at; intro r; rw [at_add, at_zero, add_zero]
    rw [hzero]
    constructor
    · intro h r
      have := congrArg (fun v => v.at_ r) hx2
      rw [h] at this
      simp only [at_mul, at_zero, mul_zero, Finset.sum_const_zero, hrhs] at this
      linarith
    · intro h
      refine (hx3 Mat.zero ?_).symm
      apply ext_at; intro r
      rw [hrhs, h r, at_mul]
      simp only [at_zero, mul_zero, Finset.sum_const_zero, neg_zero]
  · obtain ⟨P, hP, hPr⟩ := hrow
    have hMdiag : ∀ r (y : MVec K d), (M.mul y).at_ r = M.get r r * y.at_ r := by
      intro r y
      rw [at_mul, Finset.sum_eq_single r]
      · intro b _ hb; rw [hdiag r b hb.symm, zero_mul]
      · intro h; exact absurd (Finset.mem_univ r) h
    have hMne : ∀ r, M.get r r ≠ 0 := by
      intro r h0
      have hz : M.mul (Mat.ofFn fun i => if i = r then (1 : K) else 0) = Mat.zero := by
        apply ext_at; intro i
        rw [hMdiag, at_ofFn, at_zero]
        split_ifs with hi
        · rw [hi, h0, zero_mul]
        · rw [mul_zero]
      obtain ⟨y, -, -, hy⟩ := hx hdet Mat.zero
      have h1 := hy _ hz
      have h2 := hy Mat.zero (by apply ext_at; intro i; rw [hMdiag, at_zero, mul_zero])
      have := congrArg (fun v => v.at_ r) (h1.trans h2.symm)
      simp only [at_ofFn, at_zero, if_true] at this
      exact one_ne_zero this
    have hMpos : ∀ r, 0 < M.get r r := fun r => lt_of_le_of_ne (effectiveMass_diag_nonneg p hm _ hd r) (Ne.symm (hMne r))
    have hxr : ∀ r, x.at_ r = -(rowError c p f e.base.restitution s0 s r + e.base.damping.at_ r * e.base.lambda.at_ r) / M.get r r := by
      intro r
      rw [eq_div_iff (hMne r), mul_comm, ← hMdiag, hx2, hrhs]
    constructor
    · intro h r
      rw [allowed_of_rowWise hPr, ← best_of_projection (hP r) (hMpos r), ← hxr, ← at_add, ← hPr, h]
    · intro h
      apply ext_at; intro r
      have := h r
      rwa [allowed_of_rowWise hPr, ← best_of_projection (hP r) (hMpos r), ← hxr, ← at_add, ← hPr] at this

end Simu
