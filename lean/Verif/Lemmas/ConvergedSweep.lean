import Verif.Lemmas.Converged
/-
Inequality constraints and limits whose velocity solve changes nothing.
-/
namespace Simu
open Mat
variable {K : Type*} [Field K] [LinearOrder K] [IsStrictOrderedRing K] {n d : Nat}

/-- The loop does not raise the energy. -/
theorem gsLoop_energy (A : Mat K n n) (h : SPD A.toM) (b : MVec K n) (P : Fin n → K → K) (hP : ∀ i, IsProjection (P i)) (epsilon : K) (fuel : Nat)
    (y : MVec K n) (hy : ∀ i, ∃ w, y.at_ i = P i w) (eps : K) (x : MVec K n)
    (hx : gsLoop A b.neg (fun x i => P i (x.at_ i)) epsilon fuel y eps = some x) : energy A.toM b.toV x.toV ≤ energy A.toM b.toV y.toV := by
  obtain ⟨a, ha, hab⟩ := exists_diag_bound h
  induction fuel generalizing y eps with
  | zero =>
    by_cases hst : epsilon < eps
    · rw [gsLoop, if_pos hst] at hx; cases hx
    · rw [gsLoop, if_neg hst, Option.some.injEq] at hx; rw [hx]
  | succ fuel ih =>
    by_cases hst : epsilon < eps
    · rw [gsLoop_succ _ _ _ _ _ _ _ hst] at hx
      have hsp := sweep_spec A b P y
      have hen := sweep_energy A h b P hP y hy a hab
      dsimp only at hsp hen
      have := ih _ (fun i => ⟨_, hsp.1 i⟩) _ hx
      have hn : 0 ≤ a * (sweep A b.neg (fun x i => P i (x.at_ i)) y).2 ^ 2 / 2 := by positivity
      linarith
    · rw [gsLoop, if_neg hst, Option.some.injEq] at hx; rw [hx]

/-- The loop returns the point it started from exactly when that is a solution. -/
theorem solveInequalities_fixed (A : Mat K n n) (h : SPD A.toM) (b : MVec K n) (P : Fin n → K → K) (hP : ∀ i, IsProjection (P i)) {epsilon : K}
    (he : 0 ≤ epsilon) {fuel : Nat} (hfuel : 1 ≤ fuel) (x : MVec K n) :
    solveInequalities A b (fun x i => P i (x.at_ i)) x epsilon fuel = some x ↔
      ∀ i, Best {y | ∃ w, P i w = y} (x.at_ i) ((A.mul x).at_ i - b.at_ i) := by
  have hdiag := h.diag_pos
  have hrow : ∀ i, rowValue A.toM b.toV x.toV i = x.at_ i + -((A.mul x).at_ i - b.at_ i) / A.toM i i := by
    intro i
    have := rowValue_residual A.toM b.toV x.toV i (hdiag i).ne'
    have e1 : A.toM.mulVec x.toV i = (A.mul x).at_ i := (congrFun (toV_mul A x) i).symm
    rw [e1] at this
    have e2 : b.toV i = b.at_ i := rfl
    have e3 : x.toV i = x.at_ i := rfl
    rw [e2, e3] at this
    rw [this, neg_div, mul_div_cancel_left₀ _ (hdiag i).ne']
    ring
  have hfix : ∀ i, P i (rowValue A.toM b.toV x.toV i) = x.at_ i ↔ Best {y | ∃ w, P i w = y} (x.at_ i) ((A.mul x).at_ i - b.at_ i) := by
    intro i
    rw [hrow, best_of_projection (hP i) (hdiag i)]
  have hmix : ∀ i, rowValue A.toM b.toV (mixed x.toV x.toV i) i = rowValue A.toM b.toV x.toV i := by
    intro i
    congr 1
    funext j
    simp only [mixed, ite_self]
  have hstart : epsilon < 1 + epsilon := by linarith
  obtain ⟨fuel, rfl⟩ : ∃ m, fuel = m + 1 := ⟨fuel - 1, by omega⟩
  have hsp := sweep_spec A b P x
  dsimp only at hsp
  constructor
  · intro hx
    unfold solveInequalities at hx
    have hproj : ∀ i, ∃ w, x.at_ i = P i w := by
      obtain ⟨y, hy, -⟩ := gsLoop_result _ _ _ _ _ _ _ hstart _ hx
      have hy' := sweep_spec A b P y
      dsimp only at hy'
      intro i
      rw [hy]
      exact ⟨_, hy'.1 i⟩
    rw [gsLoop_succ _ _ _ _ _ _ _ hstart] at hx
    obtain ⟨a, ha, hab⟩ := exists_diag_bound h
    have hen := sweep_energy A h b P hP x hproj a hab
    dsimp only at hen
    have h2 := gsLoop_energy A h b P hP epsilon fuel _ (fun i => ⟨_, hsp.1 i⟩) _ _ hx
    set st := sweep A b.neg (fun x i => P i (x.at_ i)) x
    have h0 : st.2 = 0 := by
      have : a * st.2 ^ 2 / 2 ≤ 0 := by linarith
      by_contra hne
      have h3 : 0 < st.2 ^ 2 := by positivity
      have := mul_pos ha h3
      linarith
    have hsame : ∀ i, st.1.at_ i = x.at_ i := by
      intro i
      have := hsp.2.1 i
      rw [h0] at this
      exact sub_eq_zero.1 (abs_eq_zero.1 (le_antisymm this (abs_nonneg _)))
    have hst : st.1 = x := ext_at hsame
    intro i
    rw [← hfix, ← hmix]
    have := hsp.1 i
    rw [hst] at this
    exact this.symm
  · intro hb
    have hsame : ∀ m : Nat, ∀ i : Fin n, i.val < m → (sweep A b.neg (fun x i => P i (x.at_ i)) x).1.at_ i = x.at_ i := by
      intro m
      induction m with
      | zero => intro i hi; omega
      | succ m ih =>
        intro i hi
        rw [hsp.1 i, ← (hfix i).2 (hb i)]
        congr 1
        rw [← hmix]
        congr 1
        funext j
        simp only [mixed]
        split_ifs with hj
        · exact ih j (by have : j.val < i.val := hj; omega)
        · rfl
    have hst : (sweep A b.neg (fun x i => P i (x.at_ i)) x).1 = x := ext_at fun i => hsame n i i.isLt
    have h0 : (sweep A b.neg (fun x i => P i (x.at_ i)) x).2 = 0 := by
      by_contra hne
      have hpos := lt_of_le_of_ne hsp.2.2.1 (Ne.symm hne)
      refine hne (hsp.2.2.2 fun i => ?_)
      rw [hst, sub_self, abs_zero]
      exact hpos
    unfold solveInequalities
    rw [gsLoop_succ _ _ _ _ _ _ _ hstart, gsLoop_stop _ _ _ _ _ _ _ (by rw [h0]; exact not_lt.2 he), hst]

omit [IsStrictOrderedRing K] in
theorem add_sub_vec (a b : MVec K d) : a.add (b.sub a) = b := by
  apply ext_at; intro r; rw [at_add, at_sub]; ring

/-- Velocity solve of an inequality constraint: nothing changes exactly when its law holds. -/
theorem InequalitySolver.fixed_iff {e : InequalitySolver K d} {p : Proxies K} {f : CFun K d} {c : CallCfg K} {s0 : SolveState K}
    (he : 0 ≤ c.epsilon) (hfuel : 1 ≤ c.fuel) (hJ : e.base.J = f.jacobian p s0)
    (hM : e.effectiveMass = Simu.effectiveMass p (f.jacobian p s0) e.base.damping)
    (hA : SPD (Simu.effectiveMass p (f.jacobian p s0) e.base.damping).toM) (hrow : f.RowWise c.dt) (s : SolveState K) :
    (e.solveVelocity c.epsilon c.fuel p f c.dt s = some (e, s) ↔
      ∀ r, Best (f.allowed c.dt r) (e.base.lambda.at_ r) (rowError c p f e.base.restitution s0 s r)) ∧
    ∀ s', e.solveVelocity c.epsilon c.fuel p f c.dt s = some (e, s') → s' = s := by
  obtain ⟨P, hP, hPr⟩ := hrow
  have hproj : (fun (x : MVec K d) i => ((fun l => f.clampLambda l c.dt) x).at_ i) = fun x i => P i (x.at_ i) := by
    funext x i; exact hPr x i
  set b : MVec K d := (e.base.computeRhs p s f c.dt false).add (e.effectiveMass.mul e.base.lambda) with hb
  have hbr : ∀ r, (e.effectiveMass.mul e.base.lambda).at_ r - b.at_ r = rowError c p f e.base.restitution s0 s r := by
    intro r
    have : (e.base.computeRhs p s f c.dt false).at_ r = -rowError c p f e.base.restitution s0 s r := by
      simp only [SolverBase.computeRhs, Bool.false_eq_true, if_false, at_neg, at_add, diag_mul_at, at_sdiv, rowError, hJ, at_zero, add_zero]
      rw [at_mul]
      rfl
    rw [hb, at_add, this]; ring
  rw [← hM] at hA
  have hsol := solveInequalities_fixed e.effectiveMass hA b P hP he hfuel e.base.lambda
  simp only [hbr] at hsol
  have hlaw : (∀ r, Best (f.allowed c.dt r) (e.base.lambda.at_ r) (rowError c p f e.base.restitution s0 s r)) ↔
      solveInequalities e.effectiveMass b (fun x i => P i (x.at_ i)) e.base.lambda c.epsilon c.fuel = some e.base.lambda := by
    rw [hsol]
    constructor
    · intro h r; rw [← allowed_of_rowWise hPr]; exact h r
    · intro h r; rw [allowed_of_rowWise hPr]; exact h r
  have hcl : ∀ l, solveInequalities e.effectiveMass b (fun x i => P i (x.at_ i)) e.base.lambda c.epsilon c.fuel = some l →
      ∀ r, ∃ w, l.at_ r = P r w := by
    intro l hl
    obtain ⟨y, hy, -⟩ := gsLoop_result _ _ _ _ _ _ _ (by linarith : c.epsilon < 1 + c.epsilon) _ hl
    have hy' := sweep_spec e.effectiveMass b P y
    dsimp only at hy'
    intro r
    rw [hy]
    exact ⟨_, hy'.1 r⟩
  have hidem : ∀ l : MVec K d, (∀ r, ∃ w, l.at_ r = P r w) → f.clampLambda l c.dt = l := by
    intro l hl
    apply ext_at; intro r
    obtain ⟨w, hw⟩ := hl r
    rw [hPr, hw]
    have := hP r (P r w) w
    have h2 := mul_self_nonneg (P r w - P r (P r w))
    have := mul_self_eq_zero.1 (le_antisymm this h2)
    linarith
  have hsv : e.solveVelocity c.epsilon c.fuel p f c.dt s =
      (solveInequalities e.effectiveMass b (fun x i => P i (x.at_ i)) e.base.lambda c.epsilon c.fuel).map fun lambda =>
        ({ e with base := (e.base.updateLambda p f c.dt (lambda.sub e.base.lambda) s).1 }, (e.base.updateLambda p f c.dt (lambda.sub e.base.lambda) s).2) := by
    unfold InequalitySolver.solveVelocity solveInequalitiesVec
    rw [← hproj]
  have fwd : ∀ s', e.solveVelocity c.epsilon c.fuel p f c.dt s = some (e, s') →
      solveInequalities e.effectiveMass b (fun x i => P i (x.at_ i)) e.base.lambda c.epsilon c.fuel = some e.base.lambda := by
    intro s' h
    rw [hsv] at h
    cases hl : solveInequalities e.effectiveMass b (fun x i => P i (x.at_ i)) e.base.lambda c.epsilon c.fuel with
    | none => simp [hl] at h
    | some l =>
      rw [hl, Option.map_some, Option.some.injEq, Prod.mk.injEq] at h
      have h1 : f.clampLambda (e.base.lambda.add (l.sub e.base.lambda)) c.dt = e.base.lambda :=
        congrArg (fun z : InequalitySolver K d => z.base.lambda) h.1
      rw [add_sub_vec, hidem l (hcl l hl)] at h1
      rw [h1]
  have bwd : solveInequalities e.effectiveMass b (fun x i => P i (x.at_ i)) e.base.lambda c.epsilon c.fuel = some e.base.lambda →
      e.solveVelocity c.epsilon c.fuel p f c.dt s = some (e, s) := by
    intro h
    have hfixed := updateLambda_fixed e.base p f c.dt (e.base.lambda.sub e.base.lambda) s (by
      rw [add_sub_vec, hidem _ (hcl _ h)])
    rw [hsv, h, Option.map_some, hfixed]
  refine ⟨⟨fun h => hlaw.2 (fwd s h), fun h => bwd (hlaw.1 h)⟩, fun s' h => ?_⟩
  have := (bwd (fwd s' h)).symm.trans h
  simp only [Option.some.injEq, Prod.mk.injEq, true_and] at this
  exact this.symm

end Simu
