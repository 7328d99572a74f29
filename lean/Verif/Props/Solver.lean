import Verif.Lemmas.GaussSeidel
import Verif.Props.Matrix
/-
C10 (2x2 solver), C11 (n x n solver), C12 (two contact LCP), C13 (projected Gauss-Seidel).
-/
namespace Simu
open Mat Matrix

/-! ### C10 -/
section C10
variable {K : Type*} [Field K] [DecidableEq K]

/-- C10: validity is non-singularity, the solution is exact and unique, an invalid solver throws. -/
theorem C10_solver2 (A : Mat K 2 2) :
    ((Solver2.mk' A).isValid = true ↔ A.toM.det ≠ 0) ∧ (Solver2.mk' A).original = A ∧
    (A.toM.det ≠ 0 → ∀ b, ∃ x, (Solver2.mk' A).solve b = .ok x ∧ A.mul x = b ∧ ∀ y, A.mul y = b → y = x) ∧
    (A.toM.det = 0 → ∀ b, (Solver2.mk' A).solve b = .throw) := by
  have hdet : A.toM.det = A.get 0 0 * A.get 1 1 - A.get 0 1 * A.get 1 0 := by
    rw [Matrix.det_fin_two]; rfl
  rw [hdet]
  refine ⟨by simp [Solver2.mk'], rfl, ?_, ?_⟩
  · intro hd b
    have hinv := inv_mul_cancel₀ hd
    refine ⟨_, by simp only [Solver2.solve, Solver2.mk', decide_eq_true hd, Outcome.check, if_true, Outcome.bind_ok]; rfl, ?_, ?_⟩
    · apply ext_at
      intro i
      simp only [at_mul, Fin.sum_univ_two, at_smul, at_ofFn, ne_eq, decide_not, hd, decide_false, Bool.not_false,
        if_true]
      fin_cases i
      · simp; linear_combination (b.at_ 0) * hinv
      · simp; linear_combination (b.at_ 1) * hinv
    · intro y hy
      apply ext_at
      subst hy
      intro i
      simp only [at_mul, Fin.sum_univ_two, at_smul, at_ofFn, ne_eq, decide_not, hd, decide_false, Bool.not_false,
        if_true]
      fin_cases i
      · simp; linear_combination -(y.at_ 0) * hinv
      · simp; linear_combination -(y.at_ 1) * hinv
  · intro hd b
    simp [Solver2.solve, Solver2.mk', hd, Outcome.check]

/-- C10: `invert` gives a two-sided inverse of a non-singular matrix and throws for a singular one. -/
theorem C10_invert2 (A : Mat K 2 2) :
    (A.toM.det ≠ 0 → ∃ B, invert2 A = .ok B ∧ A.mul B = identity ∧ B.mul A = identity) ∧
    (A.toM.det = 0 → invert2 A = .throw) := by
  obtain ⟨_, _, h3, h4⟩ := C10_solver2 A
  constructor
  · intro hd
    obtain ⟨B, hB, h⟩ := invertWith_ok A (Solver2.mk' A).solve fun b => by
      obtain ⟨x, hx, hx', _⟩ := h3 hd b
      exact ⟨x, hx, hx'⟩
    refine ⟨B, hB, toM_inj ?_, toM_inj ?_⟩
    · rw [toM_mul, toM_identity, h]
    · rw [toM_mul, toM_identity, mul_eq_one_comm.1 h]
  · intro hd
    have : (Solver2.mk' A).solve = fun _ => .throw := funext (h4 hd)
    rw [invert2, this, invertWith_throw (by norm_num)]

/-- A concrete non-singular matrix. -/
def sample22 : Mat ℚ 2 2 := ⟨![2, 1, 1, 3]⟩

#guard (match (Solver2.mk' sample22).solve (ofFn ![5, 10]) with | .ok x => x.at_ 0 = 1 ∧ x.at_ 1 = 3 | _ => false)
example : sample22.toM.det ≠ 0 := by rw [Matrix.det_fin_two]; decide +kernel
example : ((Solver2.mk' (⟨![1, 2, 2, 4]⟩ : Mat ℚ 2 2)).solve (ofFn ![5, 10])) = .throw :=
  (C10_solver2 _).2.2.2 (by rw [Matrix.det_fin_two]; decide +kernel) _

end C10

/-! ### C11 -/

/-- C11: the solver is valid exactly for invertible matrices; then `original` gives the matrix back
and `solve` the unique solution; otherwise `solve` throws. -/
theorem C11_solverN {n : Nat} (A : Mat ℝ n n) : ∃ s, SolverN.mk' Real.sqrt A = .ok s ∧
    (s.isValid = true ↔ A.toM.det ≠ 0) ∧
    (A.toM.det ≠ 0 → s.original = .ok A ∧
      ∀ b, ∃ x, s.solve b = .ok x ∧ A.mul x = b ∧ ∀ y, A.mul y = b → y = x) ∧
    (A.toM.det = 0 → ∀ b, s.solve b = .throw) := by
  have hs : ∀ x : ℝ, 0 ≤ x → Real.sqrt x * Real.sqrt x = x := fun x hx => Real.mul_self_sqrt hx
  rcases solverN_mk hs A with ⟨R, hmk, hdet⟩ | ⟨QT, R, hmk, hA, hQ, hu, hd⟩
  · refine ⟨_, hmk, by simp [hdet], fun h => absurd hdet h, fun _ b => rfl⟩
  · have hRdet : R.toM.det ≠ 0 := by
      rw [Matrix.det_of_isUpperTriangular (M := R.toM) (fun i j hij => hu i j hij)]
      exact Finset.prod_ne_zero_iff.2 fun i _ => hd i
    have hQ' : QT.toM.transpose * QT.toM = 1 := mul_eq_one_comm.1 hQ
    have hdet : A.toM.det ≠ 0 := by
      rw [hA, Matrix.det_mul]
      refine mul_ne_zero ?_ hRdet
      intro h0
      have := congrArg Matrix.det hQ
      rw [Matrix.det_mul, h0, mul_zero, Matrix.det_one] at this
      exact zero_ne_one this
    refine ⟨_, hmk, by simp [hdet], fun _ => ⟨?_, ?_⟩, fun h => absurd h hdet⟩
    · simp only [SolverN.original]
      congr 1
      apply toM_inj
      rw [toM_mul, hA]
      congr 1
      ext i j; simp [toM]
    · intro b
      refine ⟨(forDown n (backStep R) (QT.mul b, Mat.zero)).2, by simp only [SolverN.solve, Outcome.check, if_true, Outcome.bind_ok], ?_⟩
      have hback := back_substitution R (QT.mul b) hu hd
      set x := (forDown n (backStep R) (QT.mul b, Mat.zero)).2
      clear_value x
      have hAx : A.mul x = b := by
        apply toV_inj
        have h1 : R.toM.mulVec x.toV = QT.toM.mulVec b.toV := by
          rw [← toV_mul QT b]
          funext i
          exact hback i
        rw [toV_mul, hA, ← Matrix.mulVec_mulVec, h1, Matrix.mulVec_mulVec, hQ', Matrix.one_mulVec]
      refine ⟨hAx, ?_⟩
      intro y hy
      apply toV_inj
      have h2 : A.toM.mulVec y.toV = A.toM.mulVec x.toV := by
        rw [← toV_mul, ← toV_mul, hy, hAx]
      have := congrArg (A.toM⁻¹.mulVec) h2
      rwa [Matrix.mulVec_mulVec, Matrix.mulVec_mulVec,
        Matrix.nonsing_inv_mul _ (isUnit_iff_ne_zero.2 hdet), Matrix.one_mulVec, Matrix.one_mulVec] at this

/-- C11: `invert` in any dimension. -/
theorem C11_invert {n : Nat} (A : Mat ℝ n n) :
    (A.toM.det ≠ 0 → ∃ B, invertN Real.sqrt A = .ok B ∧ A.mul B = identity ∧ B.mul A = identity) ∧
    (A.toM.det = 0 → invertN Real.sqrt A = .throw) := by
  obtain ⟨s, hmk, _, h3, h4⟩ := C11_solverN A
  constructor
  · intro hd
    obtain ⟨B, hB, h⟩ := invertWith_ok A s.solve fun b => by
      obtain ⟨x, hx, hx', _⟩ := (h3 hd).2 b
      exact ⟨x, hx, hx'⟩
    refine ⟨B, by rw [invertN, hmk, Outcome.bind_ok, hB], toM_inj ?_, toM_inj ?_⟩
    · rw [toM_mul, toM_identity, h]
    · rw [toM_mul, toM_identity, mul_eq_one_comm.1 h]
  · intro hd
    have hn : 0 < n := by
      rcases n with _ | n
      · simp at hd
      · omega
    have : s.solve = fun _ => .throw := funext (h4 hd)
    rw [invertN, hmk, Outcome.bind_ok, this, invertWith_throw hn]

/-- C11, disagreement: `original()` of an invalid solver reads the uninitialised `QT_`. -/
theorem C11_original_of_singular_disagreement {n : Nat} (A : Mat ℝ n n) (h : A.toM.det = 0) :
    ∃ s, SolverN.mk' Real.sqrt A = .ok s ∧ s.isValid = false ∧ s.original = .ub := by
  have hs : ∀ x : ℝ, 0 ≤ x → Real.sqrt x * Real.sqrt x = x := fun x hx => Real.mul_self_sqrt hx
  rcases solverN_mk hs A with ⟨R, hmk, _⟩ | ⟨QT, R, hmk, hA, hQ, hu, hd⟩
  · exact ⟨_, hmk, rfl, rfl⟩
  · obtain ⟨s, hmk', hv, _⟩ := C11_solverN A
    rw [hmk] at hmk'
    cases hmk'
    simp [h] at hv

/-- A 3x3 matrix whose Gram-Schmidt norms are 5, 2 and 3. -/
def sample33 : Mat ℚ 3 3 := ⟨![3, 1, 4, 4, 2, 0, 0, 0, 3]⟩
/-- A square root of the squares used by the sample. -/
def sampleSqrt (x : ℚ) : ℚ := if x = 25 then 5 else if x = 4 / 25 then 2 / 5 else if x = 9 then 3 else 0

-- the model runs: the solver of a 3x3 matrix solves a system
#guard (match SolverN.mk' sampleSqrt sample33 with
  | .ok s => s.isValid && (match s.solve (ofFn ![8, 6, 3]) with
    | .ok x => decide (x.at_ 0 = 1 ∧ x.at_ 1 = 1 ∧ x.at_ 2 = 1)
    | _ => false)
  | _ => false)

/-- A 3x3 real matrix meeting the hypothesis of `C11_solverN`. -/
example : (⟨![3, 1, 4, 4, 2, 0, 0, 0, 3]⟩ : Mat ℝ 3 3).toM.det ≠ 0 := by
  rw [Matrix.det_fin_three]
  norm_num [toM, Mat.get, Mat.idx]

/-- A singular one. -/
example : (⟨![1, 2, 3, 2, 4, 6, 0, 0, 3]⟩ : Mat ℝ 3 3).toM.det = 0 := by
  rw [Matrix.det_fin_three]
  norm_num [toM, Mat.get, Mat.idx]

/-! ### C12 -/
section C12
variable {K : Type*} [Field K] [LinearOrder K] [IsStrictOrderedRing K]

/-- `x` solves the linear complementarity problem `x >= 0`, `A x - b >= 0`, `x . (A x - b) = 0`. -/
def SolvesLcp (A : Mat K 2 2) (b x : MVec K 2) : Prop :=
  (∀ i, 0 ≤ x.at_ i) ∧ (∀ i, 0 ≤ (A.mul x).at_ i - b.at_ i) ∧ ∀ i, x.at_ i * ((A.mul x).at_ i - b.at_ i) = 0

/-- C12: the result is the only solution of the complementarity problem. -/
theorem C12_lcp (A : Mat K 2 2) (h0 : 0 < A.get 0 0) (h1 : 0 < A.get 1 1) (hd : 0 < A.toM.det) (b : MVec K 2) :
    ∃ x, (LcpSolver.mk' A).solve b = .ok x ∧ SolvesLcp A b x ∧ ∀ y, SolvesLcp A b y → y = x := by
  obtain ⟨_, _, hsol, _⟩ := C10_solver2 A
  obtain ⟨x, hx, hAx, _⟩ := hsol hd.ne' b
  have hdet : A.toM.det = A.get 0 0 * A.get 1 1 - A.get 0 1 * A.get 1 0 := by
    rw [Matrix.det_fin_two]; rfl
  have hvalid : (LcpSolver.mk' A).solver.solve b = .ok x := by
    have : (LcpSolver.mk' A).solver = Solver2.mk' A := by
      simp [LcpSolver.mk', h0.ne', h1.ne']
    rw [this, hx]
  rw [hdet] at hd
  have uniq : ∀ x y, SolvesLcp A b x → SolvesLcp A b y → y = x := by
    rintro x y ⟨hx0, hxw, hxc⟩ ⟨hy0, hyw, hyc⟩
    have e0 : (y.at_ 0 - x.at_ 0) * (A.get 0 0 * (y.at_ 0 - x.at_ 0) + A.get 0 1 * (y.at_ 1 - x.at_ 1)) ≤ 0 := by
      have a1 := hxc 0; have a2 := hyc 0
      have a3 := mul_nonneg (hx0 0) (hyw 0)
      have a4 := mul_nonneg (hy0 0) (hxw 0)
      simp only [at_mul, Fin.sum_univ_two] at a1 a2 a3 a4
      linarith
    have e1 : (y.at_ 1 - x.at_ 1) * (A.get 1 0 * (y.at_ 0 - x.at_ 0) + A.get 1 1 * (y.at_ 1 - x.at_ 1)) ≤ 0 := by
      have a1 := hxc 1; have a2 := hyc 1
      have a3 := mul_nonneg (hx0 1) (hyw 1)
      have a4 := mul_nonneg (hy0 1) (hxw 1)
      simp only [at_mul, Fin.sum_univ_two] at a1 a2 a3 a4
      linarith
    set z0 := y.at_ 0 - x.at_ 0 with hz0
    set z1 := y.at_ 1 - x.at_ 1 with hz1
    have hz : z0 = 0 ∧ z1 = 0 := by
      by_contra hne
      have p0 : 0 ≤ A.get 0 0 * z0 ^ 2 := by positivity
      have p1 : 0 ≤ A.get 1 1 * z1 ^ 2 := by positivity
      by_cases c0 : z0 = 0
      · have : z1 ≠ 0 := fun h => hne ⟨c0, h⟩
        have : 0 < A.get 1 1 * z1 ^ 2 := by positivity
        rw [c0] at e1; nlinarith
      · by_cases c1 : z1 = 0
        · have : 0 < A.get 0 0 * z0 ^ 2 := by positivity
          rw [c1] at e0; nlinarith
        · have q0 : A.get 0 0 * z0 ^ 2 ≤ -(A.get 0 1 * z0 * z1) := by nlinarith
          have q1 : A.get 1 1 * z1 ^ 2 ≤ -(A.get 1 0 * z0 * z1) := by nlinarith
          have q2 := mul_le_mul q0 q1 p1 (le_trans p0 q0)
          have : 0 < (A.get 0 0 * A.get 1 1 - A.get 0 1 * A.get 1 0) * (z0 ^ 2 * z1 ^ 2) := by positivity
          nlinarith
    apply ext_at
    intro i
    fin_cases i
    · exact sub_eq_zero.1 hz.1
    · exact sub_eq_zero.1 hz.2
  suffices h : ∃ x, (LcpSolver.mk' A).solve b = .ok x ∧ SolvesLcp A b x by
    obtain ⟨x, h1, h2⟩ := h
    exact ⟨x, h1, h2, fun y hy => uniq x y h2 hy⟩
  have hb0 : A.get 0 0 * x.at_ 0 + A.get 0 1 * x.at_ 1 = b.at_ 0 := by
    have := congrArg (fun v => v.at_ 0) hAx
    simpa [at_mul, Fin.sum_univ_two] using this
  have hb1 : A.get 1 0 * x.at_ 0 + A.get 1 1 * x.at_ 1 = b.at_ 1 := by
    have := congrArg (fun v => v.at_ 1) hAx
    simpa [at_mul, Fin.sum_univ_two] using this
  unfold LcpSolver.solve
  rw [hvalid, Outcome.bind_ok]
  dsimp only
  have i11 : (LcpSolver.mk' A).invA11 = 1 / A.get 0 0 := rfl
  have i22 : (LcpSolver.mk' A).invA22 = 1 / A.get 1 1 := rfl
  have iA : (LcpSolver.mk' A).solver.A = A := rfl
  simp only [i11, i22, iA]
  split_ifs with c1 c2 c3
  · refine ⟨x, rfl, ?_, ?_, ?_⟩
    · intro i; fin_cases i
      · exact c1.1
      · exact c1.2
    · intro i; rw [hAx, sub_self]
    · intro i; rw [hAx, sub_self, mul_zero]
  · refine ⟨_, rfl, ?_, ?_, ?_⟩ <;> simp only [Fin.forall_fin_two, at_mul, Fin.sum_univ_two, at_ofFn] at c2 ⊢ <;>
      simp only [Matrix.cons_val_zero, Matrix.cons_val_one] at c2 ⊢
    · exact ⟨c2.1, le_rfl⟩
    · refine ⟨le_of_eq ?_, ?_⟩
      · field_simp; ring
      · linarith [c2.2, mul_comm (A.get 1 0) (b.at_ 0 * (1 / A.get 0 0))]
    · refine ⟨?_, zero_mul _⟩
      field_simp; ring
  · refine ⟨_, rfl, ?_, ?_, ?_⟩ <;> simp only [Fin.forall_fin_two, at_mul, Fin.sum_univ_two, at_ofFn] at c3 ⊢ <;>
      simp only [Matrix.cons_val_zero, Matrix.cons_val_one] at c3 ⊢
    · exact ⟨le_rfl, c3.1⟩
    · refine ⟨?_, le_of_eq ?_⟩
      · linarith [c3.2, mul_comm (A.get 0 1) (b.at_ 1 * (1 / A.get 1 1))]
      · field_simp; ring
    · refine ⟨zero_mul _, ?_⟩
      field_simp; ring
  · simp only [at_ofFn, Matrix.cons_val_zero, Matrix.cons_val_one] at c2 c3
    set a := A.get 0 0
    set p := A.get 0 1
    set q := A.get 1 0
    set d := A.get 1 1
    set u := b.at_ 0
    set v := b.at_ 1
    set s := x.at_ 0
    set t := x.at_ 1
    -- no other case applies: `b <= 0`
    have c2' : 0 ≤ u → u * q - v * a < 0 := by
      intro hu
      by_contra hc
      refine c2 ⟨by positivity, ?_⟩
      have : u * (1 / a) * q - v = (u * q - v * a) / a := by field_simp
      rw [this]
      exact div_nonneg (not_lt.1 hc) h0.le
    have c3' : 0 ≤ v → v * p - u * d < 0 := by
      intro hv
      by_contra hc
      refine c3 ⟨by positivity, ?_⟩
      have : v * (1 / d) * p - u = (v * p - u * d) / d := by field_simp
      rw [this]
      exact div_nonneg (not_lt.1 hc) h1.le
    have es : (a * d - p * q) * s = u * d - v * p := by rw [← hb0, ← hb1]; ring
    have et : (a * d - p * q) * t = v * a - u * q := by rw [← hb0, ← hb1]; ring
    have hs_pos : 0 < u * d - v * p → 0 < s := fun h => by
      rw [← es] at h; exact (pos_iff_pos_of_mul_pos h).1 hd
    have ht_pos : 0 < v * a - u * q → 0 < t := fun h => by
      rw [← et] at h; exact (pos_iff_pos_of_mul_pos h).1 hd
    have hu : u ≤ 0 := by
      by_contra hu
      push Not at hu
      have g1 := c2' hu.le
      have ht := ht_pos (by linarith)
      rcases le_or_gt 0 v with hv | hv
      · exact c1 ⟨(hs_pos (by linarith [c3' hv])).le, ht.le⟩
      · rcases lt_or_ge 0 (u * d - v * p) with h | h
        · exact c1 ⟨(hs_pos h).le, ht.le⟩
        · -- u d <= v p, u q < v a < 0
          have hp : p < 0 := by
            by_contra hp
            have e1 : 0 < u * d := mul_pos hu h1
            have e2 : v * p ≤ 0 := mul_nonpos_of_nonpos_of_nonneg hv.le (not_lt.1 hp)
            linarith
          have k1 : u * d * a ≤ v * p * a := mul_le_mul_of_nonneg_right (by linarith) h0.le
          have k2 : p * (v * a) < p * (u * q) := mul_lt_mul_of_neg_left (by linarith) hp
          have k3 : 0 < u * (a * d - p * q) := mul_pos hu hd
          linarith
    have hv : v ≤ 0 := by
      by_contra hv
      push Not at hv
      have g1 := c3' hv.le
      have hs := hs_pos (by linarith)
      rcases le_or_gt 0 u with hu' | hu'
      · exact c1 ⟨hs.le, (ht_pos (by linarith [c2' hu'])).le⟩
      · rcases lt_or_ge 0 (v * a - u * q) with h | h
        · exact c1 ⟨hs.le, (ht_pos h).le⟩
        · have hq : q < 0 := by
            by_contra hq
            have e1 : 0 < v * a := mul_pos hv h0
            have e2 : u * q ≤ 0 := mul_nonpos_of_nonpos_of_nonneg hu'.le (not_lt.1 hq)
            linarith
          have k1 : v * a * d ≤ u * q * d := mul_le_mul_of_nonneg_right (by linarith) h1.le
          have k2 : q * (u * d) < q * (v * p) := mul_lt_mul_of_neg_left (by linarith) hq
          have k3 : 0 < v * (a * d - p * q) := mul_pos hv hd
          linarith
    refine ⟨_, rfl, ?_, ?_, ?_⟩ <;> simp only [Fin.forall_fin_two, at_mul, Fin.sum_univ_two, at_zero]
    · exact ⟨le_rfl, le_rfl⟩
    · constructor
      · change 0 ≤ a * 0 + p * 0 - u
        linarith
      · change 0 ≤ q * 0 + d * 0 - v
        linarith
    · exact ⟨zero_mul _, zero_mul _⟩

/-- C12: a matrix that is singular or has a zero on the diagonal is refused. -/
theorem C12_refuses (A : Mat K 2 2) (h : A.toM.det = 0 ∨ A.get 0 0 = 0 ∨ A.get 1 1 = 0) (b : MVec K 2) :
    (LcpSolver.mk' A).solve b = .throw := by
  have hdet : A.toM.det = A.get 0 0 * A.get 1 1 - A.get 0 1 * A.get 1 0 := by
    rw [Matrix.det_fin_two]; rfl
  rw [hdet] at h
  have : (LcpSolver.mk' A).solver.isValid = false := by
    rcases h with h | h | h <;> simp [LcpSolver.mk', Solver2.mk', h]
  simp [LcpSolver.solve, Solver2.solve, this, Outcome.check]

/-- C12: outside its domain (here: a matrix that is not a P-matrix) the solver returns zero although
zero is not a solution, without any error. -/
theorem C12_wrong_outside_domain : ∃ (A : Mat ℚ 2 2) (b : MVec ℚ 2), ∃ x,
    (LcpSolver.mk' A).solve b = .ok x ∧ ¬ SolvesLcp A b x := by
  refine ⟨⟨![-1, 0, 0, 1]⟩, ofFn ![1, 0], Mat.zero, ?_, ?_⟩
  · have : (LcpSolver.mk' (⟨![-1, 0, 0, 1]⟩ : Mat ℚ 2 2)).solve (ofFn ![1, 0]) = .ok (ofFn ![0, 0]) := by
      obtain ⟨_, _, hsol, _⟩ := C10_solver2 (⟨![-1, 0, 0, 1]⟩ : Mat ℚ 2 2)
      norm_num [LcpSolver.solve, LcpSolver.mk', Solver2.solve, Solver2.mk', Outcome.check, Mat.get, Mat.idx, at_smul, at_ofFn]
      apply ext_at; intro i; fin_cases i <;> rfl
    rw [this]
    congr 1
    apply ext_at; intro i; fin_cases i <;> rfl
  · rintro ⟨_, h, _⟩
    have := h 0
    simp only [at_mul, Fin.sum_univ_two, at_zero, at_ofFn] at this
    norm_num at this

/-- A typical contact matrix: positive diagonal and determinant. -/
example : 0 < (⟨![2, 1, 1, 2]⟩ : Mat ℚ 2 2).get 0 0 ∧ 0 < (⟨![2, 1, 1, 2]⟩ : Mat ℚ 2 2).get 1 1 ∧
    0 < (⟨![2, 1, 1, 2]⟩ : Mat ℚ 2 2).toM.det := by
  rw [Matrix.det_fin_two]; decide +kernel
#guard (match (LcpSolver.mk' (⟨![2, 1, 1, 2]⟩ : Mat ℚ 2 2)).solve (ofFn ![4, 1]) with
  | .ok x => decide (x.at_ 0 = 2 ∧ x.at_ 1 = 0) | _ => false)

end C12

/-! ### C13 -/
section C13
variable {K : Type*} [Field K] [LinearOrder K] [IsStrictOrderedRing K] {n : Nat}

/-- C13: for symmetric positive definite systems and projections acting on each unknown, the loop ends
from every starting point. -/
theorem C13_terminates [Archimedean K] (A : Mat K n n) (hA : SPD A.toM) (b : MVec K n) (P : Fin n → K → K)
    (hP : ∀ i, IsProjection (P i)) (x0 : MVec K n) (epsilon : K) (he : 0 < epsilon) :
    ∃ fuel x, solveInequalities A b (fun x i => P i (x.at_ i)) x0 epsilon fuel = some x :=
  gsLoop_terminates A hA b P hP epsilon he x0 _

/-- C13: whenever the loop ends, every unknown is a projected value, computed from the equation of its
row with unknowns that are within `epsilon` of the returned ones. -/
theorem C13_result (A : Mat K n n) (b : MVec K n) (P : Fin n → K → K) (x0 : MVec K n) (epsilon : K) (fuel : Nat)
    (x : MVec K n) (hx : solveInequalities A b (fun x i => P i (x.at_ i)) x0 epsilon fuel = some x) :
    ∃ y : Fin n → K, (∀ i, |x.at_ i - y i| ≤ epsilon) ∧
      ∀ i, x.at_ i = P i (rowValue A.toM b.toV (fun j => if j < i then x.at_ j else y j) i) := by
  obtain ⟨y, rfl, hy⟩ := gsLoop_result _ _ _ _ _ _ _ (by linarith) _ hx
  obtain ⟨h1, h2, _⟩ := sweep_spec A b P y
  exact ⟨y.toV, fun i => le_trans (h2 i) hy, fun i => h1 i⟩

/-- C13: with the constraint `x >= 0`, the result solves the complementarity problem up to `epsilon`:
the residual of row `i` is at least `-epsilon Σ_{j>i} |A_ij|`, and at most that in absolute value when
`x_i > 0`. -/
theorem C13_lcp_residual (A : Mat K n n) (hd : ∀ i, 0 < A.get i i) (b : MVec K n) (x0 : MVec K n) (epsilon : K)
    (fuel : Nat) (x : MVec K n)
    (hx : solveInequalities A b (fun x i => max 0 (x.at_ i)) x0 epsilon fuel = some x) (i : Fin n) :
    0 ≤ x.at_ i ∧
    -(epsilon * ∑ j with i < j, |A.get i j|) ≤ (A.mul x).at_ i - b.at_ i ∧
    (0 < x.at_ i → (A.mul x).at_ i - b.at_ i ≤ epsilon * ∑ j with i < j, |A.get i j|) := by
  obtain ⟨y, hy, hxy⟩ := C13_result A b (fun _ => max 0) x0 epsilon fuel x hx
  set m : Fin n → K := fun j => if j < i then x.at_ j else y j with hm
  set z := rowValue A.toM b.toV m i with hz
  have hxi : x.at_ i = max 0 z := hxy i
  have hres : (A.mul x).at_ i - b.at_ i = A.get i i * (x.at_ i - z) + ∑ j with i < j, A.get i j * (x.at_ j - y j) := by
    have e1 : b.at_ i = A.get i i * z + ∑ j ∈ Finset.univ.erase i, A.get i j * m j := by
      rw [hz, rowValue]
      simp only [toM, toV, of_apply]
      rw [mul_div_cancel₀ _ (hd i).ne']; ring
    have e2 : (A.mul x).at_ i = A.get i i * x.at_ i + ∑ j ∈ Finset.univ.erase i, A.get i j * x.at_ j := by
      rw [at_mul, Finset.add_sum_erase _ (fun j => A.get i j * x.at_ j) (Finset.mem_univ i)]
    have e3 : (∑ j ∈ Finset.univ.erase i, A.get i j * x.at_ j) - (∑ j ∈ Finset.univ.erase i, A.get i j * m j) =
        ∑ j with i < j, A.get i j * (x.at_ j - y j) := by
      rw [← Finset.sum_sub_distrib, Finset.sum_filter, ← Finset.add_sum_erase _ _ (Finset.mem_univ i),
        if_neg (lt_irrefl i), zero_add]
      refine Finset.sum_congr rfl fun j hj => ?_
      rcases lt_or_gt_of_ne (Finset.ne_of_mem_erase hj) with h | h
      · rw [hm]; simp [h, not_lt.2 h.le]
      · rw [hm]; simp [h, not_lt.2 h.le]; ring
    rw [e2, e1, ← e3]; ring
  have hbound : |∑ j with i < j, A.get i j * (x.at_ j - y j)| ≤ epsilon * ∑ j with i < j, |A.get i j| := by
    refine le_trans (Finset.abs_sum_le_sum_abs _ _) ?_
    rw [Finset.mul_sum]
    refine Finset.sum_le_sum fun j _ => ?_
    rw [abs_mul, mul_comm]
    exact mul_le_mul_of_nonneg_right (hy j) (abs_nonneg _)
  rw [abs_le] at hbound
  rw [hres]
  refine ⟨by rw [hxi]; exact le_max_left _ _, ?_, ?_⟩
  · have : 0 ≤ A.get i i * (x.at_ i - z) := mul_nonneg (hd i).le (by rw [hxi]; linarith [le_max_right 0 z])
    linarith
  · intro hpos
    have : x.at_ i = z := by
      rw [hxi] at hpos ⊢
      rcases le_total 0 z with h | h
      · exact max_eq_right h
      · rw [max_eq_left h] at hpos; exact absurd hpos (lt_irrefl _)
    rw [this, sub_self, mul_zero]
    linarith

/-- C13: for a symmetric matrix that is not positive definite the loop may never end. -/
theorem C13_may_diverge (epsilon : ℚ) (he : epsilon < 3) (fuel : Nat) :
    solveInequalities (⟨![1, 2, 2, 1]⟩ : Mat ℚ 2 2) (ofFn ![0, 0]) (fun x i => x.at_ i) (ofFn ![1, 1]) epsilon fuel = none := by
  have key : ∀ (fuel : Nat) (x : MVec ℚ 2) (eps : ℚ), epsilon < eps → 1 ≤ |x.at_ 1| →
      gsLoop (⟨![1, 2, 2, 1]⟩ : Mat ℚ 2 2) (ofFn ![0, 0]).neg (fun x i => x.at_ i) epsilon fuel x eps = none := by
    intro fuel
    induction fuel with
    | zero => intro x eps h _; rw [gsLoop, if_pos h]
    | succ fuel ih =>
      intro x eps h hx
      rw [gsLoop, if_pos h]
      obtain ⟨h1, h2, h3, _⟩ := sweep_spec (⟨![1, 2, 2, 1]⟩ : Mat ℚ 2 2) (ofFn ![0, 0]) (fun _ => id) x
      simp only [id] at h1 h2 h3
      set s := sweep (⟨![1, 2, 2, 1]⟩ : Mat ℚ 2 2) (ofFn ![0, 0]).neg (fun x i => x.at_ i) x
      have e0 := h1 0
      have e1 := h1 1
      have hx0 : (Finset.univ : Finset (Fin 2)).erase 0 = {1} := by decide
      have hx1 : (Finset.univ : Finset (Fin 2)).erase 1 = {0} := by decide
      simp only [rowValue, hx0, hx1, Finset.sum_singleton, mixed, toM, toV, of_apply, Mat.get, Mat.idx, at_ofFn] at e0 e1
      norm_num at e0 e1
      rw [e0] at e1
      have hs1 : s.1.at_ 1 = 4 * x.at_ 1 := by rw [e1]; ring
      have hd := h2 1
      rw [hs1, show 4 * x.at_ 1 - x.at_ 1 = 3 * x.at_ 1 by ring, abs_mul, abs_of_pos (by norm_num : (0:ℚ) < 3)] at hd
      refine ih _ _ (by linarith) ?_
      rw [hs1, abs_mul, abs_of_pos (by norm_num : (0:ℚ) < 4)]
      linarith
  exact key fuel _ _ (by linarith) (by simp)

/-- Clamping to an interval is a projection. -/
theorem isProjection_clamp (lo hi : K) (h : lo ≤ hi) : IsProjection fun z => max lo (min z hi) := by
  intro z w
  dsimp only
  have k1 : lo ≤ max lo (min w hi) := le_max_left _ _
  have k2 : max lo (min w hi) ≤ hi := max_le h (min_le_right _ _)
  rcases le_total z hi with h1 | h1
  · rw [min_eq_left h1]
    rcases le_total lo z with h2 | h2
    · rw [max_eq_right h2]; simp
    · rw [max_eq_left h2]; nlinarith
  · rw [min_eq_right h1, max_eq_right h]; nlinarith

/-- The hypotheses of `C13_terminates` are met by a 2x2 contact matrix with clamped unknowns. -/
theorem sample_spd : SPD (⟨![2, 1, 1, 2]⟩ : Mat ℚ 2 2).toM := by
  constructor
  · ext i j; fin_cases i <;> fin_cases j <;> rfl
  · intro x hx
    have e : x ⬝ᵥ (⟨![2, 1, 1, 2]⟩ : Mat ℚ 2 2).toM.mulVec x = x 0 ^ 2 + x 1 ^ 2 + (x 0 + x 1) ^ 2 := by
      simp [dotProduct, Matrix.mulVec, toM, Mat.get, Mat.idx, Fin.sum_univ_two]; ring
    rw [e]
    have : x 0 ≠ 0 ∨ x 1 ≠ 0 := by
      by_contra h
      push Not at h
      exact hx (by funext i; fin_cases i <;> simp [h])
    rcases this with h | h <;> positivity

example (x0 : MVec ℚ 2) : ∃ fuel x, solveInequalities (⟨![2, 1, 1, 2]⟩ : Mat ℚ 2 2) (ofFn ![4, 1])
    (fun x i => max 0 (min (x.at_ i) 10)) x0 (1 / 1000) fuel = some x :=
  C13_terminates _ sample_spd _ (fun _ z => max 0 (min z 10)) (fun _ => isProjection_clamp 0 10 (by norm_num)) _ _ (by norm_num)

#guard (solveInequalities (⟨![2, 1, 1, 2]⟩ : Mat ℚ 2 2) (ofFn ![4, 1]) (fun x i => max 0 (x.at_ i)) (ofFn ![1, 1])
  (1 / 1000) 10).isSome

end C13
end Simu
