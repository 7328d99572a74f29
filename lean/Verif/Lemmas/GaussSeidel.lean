import Verif.Lemmas.Solver
import Mathlib.LinearAlgebra.Matrix.ToLinearEquiv
import Mathlib.Algebra.Order.Archimedean.Basic
import Mathlib.Algebra.Order.BigOperators.Group.Finset
/-
Projected Gauss-Seidel: effect of a sweep, decrease of the energy, termination.
-/
set_option linter.unusedSectionVars false
namespace Simu
open Mat Matrix
variable {K : Type*} [Field K] [LinearOrder K] [IsStrictOrderedRing K] {n : Nat}

theorem sum_split {T : Type*} [AddCommGroup T] (g : Fin n → T) (r : Fin n) :
    (∑ j with j.val < r.val, g j) + (∑ j with r.val + 1 ≤ j.val, g j) = ∑ j ∈ Finset.univ.erase r, g j := by
  rw [← Finset.sum_union]
  · congr 1
    ext j
    simp only [Finset.mem_union, Finset.mem_filter, Finset.mem_univ, true_and, Finset.mem_erase, and_true, ne_eq, Fin.ext_iff]
    omega
  · rw [Finset.disjoint_left]
    intro j
    simp only [Finset.mem_filter, Finset.mem_univ, true_and]
    omega

theorem rowSolution_eq (A : Mat K n n) (b x : MVec K n) (r : Fin n) :
    rowSolution A b.neg x r = rowValue A.toM b.toV x.toV r := by
  unfold rowSolution rowValue
  simp only [forTo_sum, forFrom_sum, zero_add]
  rw [sum_split (fun j => A.get r j * x.at_ j) r, at_neg]
  simp only [toM, toV, of_apply]
  ring

/-- The right hand side of row `i` during a sweep from `y` to `x`: unknowns before `i` are new. -/
def mixed (x y : Fin n → K) (i : Fin n) : Fin n → K := fun j => if j < i then x j else y j

/-- A sweep with a projection acting on each unknown separately. -/
theorem sweep_spec (A : Mat K n n) (b : MVec K n) (P : Fin n → K → K) (y : MVec K n) :
    let s := sweep A b.neg (fun x i => P i (x.at_ i)) y
    (∀ i, s.1.at_ i = P i (rowValue A.toM b.toV (mixed s.1.toV y.toV i) i)) ∧
    (∀ i, |s.1.at_ i - y.at_ i| ≤ s.2) ∧ 0 ≤ s.2 ∧ ((∀ i, |s.1.at_ i - y.at_ i| < s.2) → s.2 = 0) := by
  have := forFin_induct (n := n) (fun c (s : MVec K n × K) =>
    (∀ i : Fin n, i.val < c → s.1.at_ i = P i (rowValue A.toM b.toV (mixed s.1.toV y.toV i) i)) ∧
    (∀ i : Fin n, c ≤ i.val → s.1.at_ i = y.at_ i) ∧
    (∀ i : Fin n, i.val < c → |s.1.at_ i - y.at_ i| ≤ s.2) ∧ 0 ≤ s.2 ∧ ((∀ i : Fin n, i.val < c → |s.1.at_ i - y.at_ i| < s.2) → s.2 = 0))
    (sweepRow A b.neg (fun x i => P i (x.at_ i))) (y, 0)
    ⟨fun i hi => by omega, fun i _ => rfl, fun i hi => by omega, le_rfl, fun _ => rfl⟩ ?_
  · exact ⟨fun i => this.1 i i.isLt, fun i => this.2.2.1 i i.isLt, this.2.2.2.1,
      fun h => this.2.2.2.2 fun i _ => h i⟩
  · intro row s ⟨h1, h2, h3, h4, h5⟩
    have hx : ∀ i, (sweepRow A b.neg (fun x i => P i (x.at_ i)) row s).1.at_ i =
        if i = row then P row (rowValue A.toM b.toV s.1.toV row) else s.1.at_ i := by
      intro i
      simp only [sweepRow, at_setAt, if_true, rowSolution_eq]
    have he : (sweepRow A b.neg (fun x i => P i (x.at_ i)) row s).2 =
        if s.2 < |P row (rowValue A.toM b.toV s.1.toV row) - y.at_ row|
        then |P row (rowValue A.toM b.toV s.1.toV row) - y.at_ row| else s.2 := by
      simp only [sweepRow, at_setAt, if_true, rowSolution_eq]
      rw [h2 row le_rfl]
    set s' := sweepRow A b.neg (fun x i => P i (x.at_ i)) row s
    clear_value s'
    have hle : s.2 ≤ s'.2 := by rw [he]; split_ifs with h <;> [exact le_of_lt h; exact le_rfl]
    have hne : ∀ i : Fin n, i.val < row.val → i ≠ row := by rintro i hi rfl; omega
    refine ⟨?_, ?_, ?_, le_trans h4 hle, ?_⟩
    · intro i hi
      have hmix : mixed s'.1.toV y.toV i = mixed s.1.toV y.toV i := by
        funext j
        unfold mixed
        by_cases hj : j < i
        · rw [if_pos hj, if_pos hj]
          have : j ≠ row := by
            rintro rfl
            have : j.val < i.val := hj
            omega
          simp [toV, hx, this]
        · rw [if_neg hj, if_neg hj]
      by_cases hr : i = row
      · subst hr
        rw [hx, if_pos rfl, hmix]
        congr 1
        unfold rowValue
        congr 2
        refine Finset.sum_congr rfl fun j hj => ?_
        unfold mixed
        by_cases hj' : j < i
        · rw [if_pos hj']
        · rw [if_neg hj']
          have : s.1.at_ j = y.at_ j := h2 j (not_lt.1 hj')
          simp [toV, this]
      · have : i.val ≠ row.val := fun e => hr (Fin.ext e)
        rw [hx, if_neg hr, hmix]
        exact h1 i (by omega)
    · intro i hi
      rw [hx, if_neg (by rintro rfl; omega)]
      exact h2 i (by omega)
    · intro i hi
      by_cases hr : i = row
      · subst hr
        rw [hx, if_pos rfl, he]
        split_ifs with h
        · exact le_rfl
        · exact not_lt.1 h
      · have : i.val ≠ row.val := fun e => hr (Fin.ext e)
        rw [hx, if_neg hr]
        exact le_trans (h3 i (by omega)) hle
    · intro hall
      have hrow := hall row (by omega)
      rw [hx, if_pos rfl, he] at hrow
      split_ifs at hrow with h
      · exact absurd hrow (lt_irrefl _)
      · rw [he, if_neg h]
        refine h5 fun i hi => ?_
        have := hall i (by omega)
        rwa [hx, if_neg (hne i hi), he, if_neg h] at this

/-! ### Energy -/

/-- `½ xᵀAx - bᵀx`. -/
def energy (A : Matrix (Fin n) (Fin n) K) (b x : Fin n → K) : K := (x ⬝ᵥ A.mulVec x) / 2 - b ⬝ᵥ x

theorem symm_dot {A : Matrix (Fin n) (Fin n) K} (h : A.transpose = A) (x y : Fin n → K) :
    x ⬝ᵥ A.mulVec y = y ⬝ᵥ A.mulVec x := by
  rw [Matrix.dotProduct_mulVec, ← Matrix.mulVec_transpose, h, dotProduct_comm]

theorem energy_step {A : Matrix (Fin n) (Fin n) K} (h : A.transpose = A) (b x : Fin n → K) (i : Fin n) (d : K) :
    energy A b (x + Pi.single i d) = energy A b x + A i i * d ^ 2 / 2 + d * (A.mulVec x i - b i) := by
  unfold energy
  rw [Matrix.mulVec_add, dotProduct_add, add_dotProduct, add_dotProduct, dotProduct_add,
    symm_dot h x (Pi.single i d), single_dotProduct, single_dotProduct, dotProduct_single]
  have : (A.mulVec (Pi.single i d)) i = A i i * d := by
    rw [Matrix.mulVec_single]; simp [mul_comm]
  rw [this]; ring

theorem SPD.diag_pos {A : Matrix (Fin n) (Fin n) K} (h : SPD A) (i : Fin n) : 0 < A i i := by
  have := h.2 (Pi.single i 1) (by simp)
  rw [single_dotProduct, Matrix.mulVec_single] at this
  simpa using this

theorem SPD.nonneg {A : Matrix (Fin n) (Fin n) K} (h : SPD A) (x : Fin n → K) : 0 ≤ x ⬝ᵥ A.mulVec x := by
  by_cases hx : x = 0
  · simp [hx]
  · exact (h.2 x hx).le

theorem SPD.exists_solution {A : Matrix (Fin n) (Fin n) K} (h : SPD A) (b : Fin n → K) : ∃ y, A.mulVec y = b := by
  have hdet : A.det ≠ 0 := by
    intro h0
    obtain ⟨v, hv, hv0⟩ := Matrix.exists_mulVec_eq_zero_iff.2 h0
    have := h.2 v hv
    rw [hv0, dotProduct_zero] at this
    exact lt_irrefl _ this
  refine ⟨A⁻¹.mulVec b, ?_⟩
  rw [Matrix.mulVec_mulVec, Matrix.mul_nonsing_inv _ (isUnit_iff_ne_zero.2 hdet), Matrix.one_mulVec]

theorem SPD.energy_bounded {A : Matrix (Fin n) (Fin n) K} (h : SPD A) (b : Fin n → K) : ∃ m, ∀ x, m ≤ energy A b x := by
  obtain ⟨y, hy⟩ := h.exists_solution b
  refine ⟨-(y ⬝ᵥ A.mulVec y) / 2, fun x => ?_⟩
  have := h.nonneg (x - y)
  rw [Matrix.mulVec_sub, dotProduct_sub, sub_dotProduct, sub_dotProduct, symm_dot h.1 y x, hy] at this
  unfold energy
  rw [hy] 
  have e : x ⬝ᵥ b = b ⬝ᵥ x := dotProduct_comm _ _
  rw [e] at this
  linarith

theorem rowValue_residual (A : Matrix (Fin n) (Fin n) K) (b x : Fin n → K) (i : Fin n) (hd : A i i ≠ 0) :
    A.mulVec x i - b i = A i i * (x i - rowValue A b x i) := by
  unfold rowValue
  rw [mul_sub, mul_div_cancel₀ _ hd]
  have : A.mulVec x i = A i i * x i + ∑ j ∈ Finset.univ.erase i, A i j * x j := by
    rw [Finset.add_sum_erase _ (fun j => A i j * x j) (Finset.mem_univ i)]; rfl
  rw [this]; ring

/-- One projected relaxation lowers the energy by at least `½ A_ii δ²`. -/
theorem relax_energy {A : Matrix (Fin n) (Fin n) K} (h : SPD A) (b x : Fin n → K) (i : Fin n) {P : K → K}
    (hP : IsProjection P) (hx : ∃ w, x i = P w) :
    energy A b (Function.update x i (P (rowValue A b x i))) +
      A i i * (P (rowValue A b x i) - x i) ^ 2 / 2 ≤ energy A b x := by
  have hd := h.diag_pos i
  set z := rowValue A b x i with hz
  have e : Function.update x i (P z) = x + Pi.single i (P z - x i) := by
    funext j
    by_cases hj : j = i
    · subst hj; simp
    · simp [hj]
  rw [e, energy_step h.1, rowValue_residual A b x i hd.ne', ← hz]
  obtain ⟨w, hw⟩ := hx
  have := hP z w
  rw [← hw] at this
  nlinarith

/-- One sweep from a projected point lowers the energy. -/
theorem sweep_energy (A : Mat K n n) (h : SPD A.toM) (b : MVec K n) (P : Fin n → K → K) (hP : ∀ i, IsProjection (P i))
    (y : MVec K n) (hy : ∀ i, ∃ w, y.at_ i = P i w) (a : K) (ha : ∀ i, a ≤ A.toM i i) :
    let s := sweep A b.neg (fun x i => P i (x.at_ i)) y
    energy A.toM b.toV s.1.toV + a * s.2 ^ 2 / 2 ≤ energy A.toM b.toV y.toV := by
  have := forFin_induct (n := n) (fun c (s : MVec K n × K) =>
    (∀ i : Fin n, ∃ w, s.1.at_ i = P i w) ∧ energy A.toM b.toV s.1.toV ≤ energy A.toM b.toV y.toV ∧
    energy A.toM b.toV s.1.toV + a * s.2 ^ 2 / 2 ≤ energy A.toM b.toV y.toV)
    (sweepRow A b.neg (fun x i => P i (x.at_ i))) (y, 0) ⟨hy, le_rfl, by simp⟩ ?_
  · exact this.2.2
  · intro row s ⟨h1, h2, h3⟩
    have hx : (sweepRow A b.neg (fun x i => P i (x.at_ i)) row s).1.toV =
        Function.update s.1.toV row (P row (rowValue A.toM b.toV s.1.toV row)) := by
      funext i
      simp only [toV, sweepRow, at_setAt, if_true, Function.update_apply]
      simp only [rowSolution_eq]
    have he : (sweepRow A b.neg (fun x i => P i (x.at_ i)) row s).2 =
        if s.2 < |P row (rowValue A.toM b.toV s.1.toV row) - s.1.at_ row|
        then |P row (rowValue A.toM b.toV s.1.toV row) - s.1.at_ row| else s.2 := by
      simp only [sweepRow, at_setAt, if_true, rowSolution_eq]
    have hen := relax_energy h b.toV s.1.toV row (hP row) (h1 row)
    have hA := ha row
    have hdp := h.diag_pos row
    have hsq : 0 ≤ (P row (rowValue A.toM b.toV s.1.toV row) - s.1.toV row) ^ 2 := sq_nonneg _
    rw [hx, he]
    refine ⟨?_, ?_, ?_⟩
    · intro i
      simp only [sweepRow, at_setAt, if_true]
      by_cases hi : i = row
      · subst hi; exact ⟨_, by rw [if_pos rfl]⟩
      · rw [if_neg hi]; exact h1 i
    · nlinarith
    · split_ifs with hlt
      · rw [sq_abs]
        change energy A.toM b.toV (Function.update s.1.toV row (P row (rowValue A.toM b.toV s.1.toV row))) +
          a * (P row (rowValue A.toM b.toV s.1.toV row) - s.1.toV row) ^ 2 / 2 ≤ _
        nlinarith
      · nlinarith

theorem gsLoop_succ (A : Mat K n n) (mb : MVec K n) (proj : MVec K n → Fin n → K) (epsilon : K) (fuel : Nat)
    (x : MVec K n) (eps : K) (h : epsilon < eps) :
    gsLoop A mb proj epsilon (fuel + 1) x eps =
      gsLoop A mb proj epsilon fuel (sweep A mb proj x).1 (sweep A mb proj x).2 := by
  rw [gsLoop, if_pos h]

theorem gsLoop_stop (A : Mat K n n) (mb : MVec K n) (proj : MVec K n → Fin n → K) (epsilon : K) (fuel : Nat)
    (x : MVec K n) (eps : K) (h : ¬ epsilon < eps) : gsLoop A mb proj epsilon fuel x eps = some x := by
  cases fuel <;> rw [gsLoop, if_neg h]

/-- What is known when the loop stops. -/
theorem gsLoop_result (A : Mat K n n) (mb : MVec K n) (proj : MVec K n → Fin n → K) (epsilon : K) (fuel : Nat)
    (x0 : MVec K n) (eps : K) (h : epsilon < eps) (x : MVec K n) (hx : gsLoop A mb proj epsilon fuel x0 eps = some x) :
    ∃ y, x = (sweep A mb proj y).1 ∧ (sweep A mb proj y).2 ≤ epsilon := by
  induction fuel generalizing x0 eps with
  | zero => rw [gsLoop, if_pos h] at hx; cases hx
  | succ fuel ih =>
    rw [gsLoop_succ _ _ _ _ _ _ _ h] at hx
    by_cases h' : epsilon < (sweep A mb proj x0).2
    · exact ih _ _ h' hx
    · rw [gsLoop_stop _ _ _ _ _ _ _ h'] at hx
      exact ⟨x0, (Option.some.inj hx).symm, not_lt.1 h'⟩

theorem exists_diag_bound {A : Matrix (Fin n) (Fin n) K} (h : SPD A) : ∃ a, 0 < a ∧ ∀ i, a ≤ A i i := by
  rcases n with _ | n
  · exact ⟨1, one_pos, fun i => i.elim0⟩
  · obtain ⟨i, hi⟩ := Finite.exists_min fun i => A i i
    exact ⟨A i i, h.diag_pos i, hi⟩

theorem gsLoop_terminates [Archimedean K] (A : Mat K n n) (h : SPD A.toM) (b : MVec K n) (P : Fin n → K → K)
    (hP : ∀ i, IsProjection (P i)) (epsilon : K) (he : 0 < epsilon) (x0 : MVec K n) (eps : K) :
    ∃ fuel x, gsLoop A b.neg (fun x i => P i (x.at_ i)) epsilon fuel x0 eps = some x := by
  obtain ⟨m, hm⟩ := h.energy_bounded b.toV
  obtain ⟨a, ha, hab⟩ := exists_diag_bound h
  -- bounded number of sweeps from a projected point
  have key : ∀ (N : Nat) (x : MVec K n) (eps : K), (∀ i, ∃ w, x.at_ i = P i w) →
      energy A.toM b.toV x.toV - m < N * (a * epsilon ^ 2 / 2) →
      ∃ fuel y, gsLoop A b.neg (fun x i => P i (x.at_ i)) epsilon fuel x eps = some y := by
    intro N
    induction N with
    | zero =>
      intro x eps _ hlt
      have := hm x.toV
      simp at hlt
      linarith
    | succ N ih =>
      intro x eps hx hlt
      by_cases hstop : epsilon < eps
      · have hs := sweep_spec A b P x
        have hen := sweep_energy A h b P hP x hx a hab
        dsimp only at hs hen
        by_cases h2 : epsilon < (sweep A b.neg (fun x i => P i (x.at_ i)) x).2
        · have hsq : epsilon ^ 2 ≤ (sweep A b.neg (fun x i => P i (x.at_ i)) x).2 ^ 2 := by
            have := h2.le
            nlinarith
          obtain ⟨fuel, y, hy⟩ := ih (sweep A b.neg (fun x i => P i (x.at_ i)) x).1
            (sweep A b.neg (fun x i => P i (x.at_ i)) x).2 (fun i => ⟨_, hs.1 i⟩) (by
              push_cast at hlt
              nlinarith)
          exact ⟨fuel + 1, y, by rw [gsLoop_succ _ _ _ _ _ _ _ hstop]; exact hy⟩
        · exact ⟨1, _, by rw [gsLoop_succ _ _ _ _ _ _ _ hstop, gsLoop_stop _ _ _ _ _ _ _ h2]⟩
      · exact ⟨0, x, gsLoop_stop _ _ _ _ _ _ _ hstop⟩
  by_cases hstop : epsilon < eps
  · have hs := sweep_spec A b P x0
    dsimp only at hs
    have hpos : 0 < a * epsilon ^ 2 / 2 := by positivity
    set x1 := (sweep A b.neg (fun x i => P i (x.at_ i)) x0).1 with hx1
    obtain ⟨N, hN⟩ := exists_nat_gt ((energy A.toM b.toV x1.toV - m) / (a * epsilon ^ 2 / 2))
    obtain ⟨fuel, y, hy⟩ := key N x1 (sweep A b.neg (fun x i => P i (x.at_ i)) x0).2
      (fun i => ⟨_, hs.1 i⟩) (by rwa [div_lt_iff₀ hpos] at hN)
    exact ⟨fuel + 1, y, by rw [gsLoop_succ _ _ _ _ _ _ _ hstop]; exact hy⟩
  · exact ⟨0, x0, gsLoop_stop _ _ _ _ _ _ _ hstop⟩

end Simu
