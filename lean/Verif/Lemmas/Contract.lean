import Mathlib.LinearAlgebra.Matrix.ToLin
import Mathlib.LinearAlgebra.Basis.VectorSpace
import Mathlib.Tactic.Linarith
import Mathlib.Tactic.Ring
import Mathlib.Tactic.FieldSimp
import Mathlib.Tactic.Positivity
/-
Block Gauss-Seidel iteration for a positive semidefinite matrix.
-/
namespace Simu
open Matrix
variable {K : Type*} [Field K] {ι κ : Type*} [Fintype ι]

/-- Each block of `ls` in turn is changed such that its residuals vanish. -/
def Sweep (A : Matrix ι ι K) (blk : ι → κ) : List κ → (ι → K) → (ι → K) → Prop
  | [], x, y => y = x
  | l :: ls, x, y => ∃ z, (∀ i, blk i ≠ l → z i = x i) ∧ (∀ i, blk i = l → (A *ᵥ z) i = 0) ∧ Sweep A blk ls z y

/-- Twice the energy of the form. -/
def quad (A : Matrix ι ι K) (x : ι → K) : K := x ⬝ᵥ A *ᵥ x

theorem quad_symm {A : Matrix ι ι K} (hA : A.transpose = A) (x y : ι → K) : x ⬝ᵥ A *ᵥ y = y ⬝ᵥ A *ᵥ x := by
  rw [Matrix.dotProduct_mulVec, ← Matrix.mulVec_transpose, hA, dotProduct_comm]

/-- A generalized inverse. -/
theorem generalized_inverse [DecidableEq ι] (A : Matrix ι ι K) : ∃ G : Matrix ι ι K, ∀ x, A *ᵥ (G *ᵥ (A *ᵥ x)) = A *ᵥ x := by
  obtain ⟨g, hg⟩ := LinearMap.exists_rightInverse_of_surjective (Matrix.toLin' A).rangeRestrict (LinearMap.range_rangeRestrict _)
  obtain ⟨g', hg'⟩ := LinearMap.exists_extend g
  refine ⟨LinearMap.toMatrix' g', fun x => ?_⟩
  have h1 : LinearMap.toMatrix' g' *ᵥ (A *ᵥ x) = g' (A *ᵥ x) := by
    rw [LinearMap.toMatrix'_mulVec]
  have h2 : g' (A *ᵥ x) = g ((Matrix.toLin' A).rangeRestrict x) := by
    rw [← hg']; rfl
  rw [h1, h2]
  have h3 := congrArg Subtype.val (LinearMap.congr_fun hg ((Matrix.toLin' A).rangeRestrict x))
  exact h3

variable [LinearOrder K] [IsStrictOrderedRing K]

theorem quad_add {A : Matrix ι ι K} (hA : A.transpose = A) (x y : ι → K) (t : K) :
    quad A (x + t • y) = quad A x + 2 * t * (y ⬝ᵥ A *ᵥ x) + t * t * quad A y := by
  have := quad_symm hA x y
  simp only [quad, Matrix.mulVec_add, Matrix.mulVec_smul, add_dotProduct, dotProduct_add, smul_dotProduct, dotProduct_smul, smul_eq_mul]
  rw [this]; ring

/-- Cauchy-Schwarz for a semidefinite form. -/
theorem quad_cauchy {A : Matrix ι ι K} (hA : A.transpose = A) (hp : ∀ x, 0 ≤ quad A x) (x y : ι → K) :
    (y ⬝ᵥ A *ᵥ x) * (y ⬝ᵥ A *ᵥ x) ≤ quad A y * quad A x := by
  have h := fun t : K => hp (x + t • y)
  simp only [quad_add hA] at h
  set a := quad A x
  set b := y ⬝ᵥ A *ᵥ x
  set c := quad A y with hc
  by_cases h0 : c = 0
  · have hb : b = 0 := by
      by_contra hb
      have := h (-(a + 1) / (2 * b))
      rw [h0] at this
      have e : 2 * (-(a + 1) / (2 * b)) * b = -(a + 1) := by field_simp
      rw [e] at this
      linarith
    rw [hb, h0]; simp
  · have hcp : 0 < c := lt_of_le_of_ne (hp y) (Ne.symm h0)
    have := h (-b / c)
    have e : a + 2 * (-b / c) * b + -b / c * (-b / c) * c = a - b * b / c := by field_simp; ring
    rw [e] at this
    have h2 : b * b / c ≤ a := by linarith
    rw [div_le_iff₀ hcp] at h2
    linarith

omit [LinearOrder K] [IsStrictOrderedRing K] in
theorem single_quad [DecidableEq ι] (A : Matrix ι ι K) (i : ι) (x : ι → K) : (Pi.single i 1 : ι → K) ⬝ᵥ A *ᵥ x = (A *ᵥ x) i := by
  rw [single_one_dotProduct]

/-- One block: the energy decreases by the energy of the change. -/
theorem block_drop {A : Matrix ι ι K} (hA : A.transpose = A) {x z : ι → K} {B : ι → Prop} (h1 : ∀ i, ¬B i → z i = x i) (h2 : ∀ i, B i → (A *ᵥ z) i = 0) :
    quad A x = quad A z + quad A (z - x) := by
  have h : (z - x) ⬝ᵥ A *ᵥ z = 0 := by
    refine Finset.sum_eq_zero fun i _ => ?_
    by_cases hb : B i
    · rw [h2 i hb, mul_zero]
    · rw [Pi.sub_apply, h1 i hb, sub_self, zero_mul]
  have hx : x = z + (-1 : K) • (z - x) := by funext i; simp
  conv_lhs => rw [hx]
  rw [quad_add hA, h]; ring

theorem sweep_drop [DecidableEq ι] {A : Matrix ι ι K} (hA : A.transpose = A) (hp : ∀ x, 0 ≤ quad A x) (blk : ι → κ) :
    ∀ (ls : List κ) {x y : ι → K}, Sweep A blk ls x y → quad A y ≤ quad A x ∧
      (∀ i, ((A *ᵥ y) i - (A *ᵥ x) i) * ((A *ᵥ y) i - (A *ᵥ x) i) ≤ 2 ^ ls.length * quad A (Pi.single i 1) * (quad A x - quad A y)) ∧
      (∀ i, blk i ∈ ls → (A *ᵥ y) i * (A *ᵥ y) i ≤ 2 ^ ls.length * quad A (Pi.single i 1) * (quad A x - quad A y))
  | [], x, y, h => by
    have h : y = x := h
    subst h
    exact ⟨le_rfl, fun i => by simp, fun i hi => (List.not_mem_nil hi).elim⟩
  | l :: ls, x, y, ⟨z, h1, h2, h3⟩ => by
    obtain ⟨i1, i2, i3⟩ := sweep_drop hA hp blk ls h3
    have hd := block_drop hA (B := fun i => blk i = l) h1 h2
    have hz := hp (z - x)
    have hC : ∀ i, (0 : K) ≤ 2 ^ ls.length * quad A (Pi.single i 1) := fun i => mul_nonneg (by positivity) (hp _)
    have hup : ∀ i, 2 ^ ls.length * quad A (Pi.single i 1) * (quad A z - quad A y) ≤
        2 ^ (l :: ls).length * quad A (Pi.single i 1) * (quad A x - quad A y) := by
      intro i
      have : (2 : K) ^ (l :: ls).length = 2 * 2 ^ ls.length := by rw [List.length_cons, pow_succ]; ring
      rw [this]
      have e1 := mul_nonneg (hC i) (sub_nonneg.2 i1)
      have e2 := mul_nonneg (hC i) hz
      rw [hd]
      nlinarith
    refine ⟨by linarith, fun i => ?_, fun i hi => ?_⟩
    · have a1 := i2 i
      have a2 := quad_cauchy hA hp (z - x) (Pi.single i 1)
      rw [single_quad, Matrix.mulVec_sub, Pi.sub_apply] at a2
      set a := (A *ᵥ z) i - (A *ᵥ x) i
      set b := (A *ᵥ y) i - (A *ᵥ z) i
      have e : (A *ᵥ y) i - (A *ᵥ x) i = a + b := by ring
      rw [e]
      have : (2 : K) ^ (l :: ls).length = 2 * 2 ^ ls.length := by rw [List.length_cons, pow_succ]; ring
      rw [this, hd]
      have s1 : (a + b) * (a + b) ≤ 2 * (a * a) + 2 * (b * b) := by nlinarith [mul_self_nonneg (a - b)]
      have s2 : quad A (Pi.single i 1) * quad A (z - x) ≤ 2 ^ ls.length * quad A (Pi.single i 1) * quad A (z - x) := by
        have : (1 : K) ≤ 2 ^ ls.length := one_le_pow₀ (by norm_num)
        have h0 := mul_nonneg (hp (Pi.single i 1)) hz
        nlinarith
      have s3 : 2 * 2 ^ ls.length * quad A (Pi.single i 1) * (quad A z + quad A (z - x) - quad A y) =
        2 * (2 ^ ls.length * quad A (Pi.single i 1) * quad A (z - x)) + 2 * (2 ^ ls.length * quad A (Pi.single i 1) * (quad A z - quad A y)) := by ring
      rw [s3]
      linarith
    · by_cases hm : blk i ∈ ls
      · exact (i3 i hm).trans (hup i)
      · have hb : blk i = l := (List.mem_cons.1 hi).resolve_right hm
        have a1 := i2 i
        rw [h2 i hb, sub_zero] at a1
        exact a1.trans (hup i)

/-- The energy is bounded by the squares of the residuals. -/
theorem quad_le_residuals [DecidableEq ι] {A : Matrix ι ι K} (hA : A.transpose = A) :
    ∃ C : K, 0 ≤ C ∧ ∀ x, quad A x ≤ C * ∑ i, (A *ᵥ x) i * (A *ᵥ x) i := by
  obtain ⟨G, hG⟩ := generalized_inverse A
  refine ⟨∑ i, ∑ j, |G i j|, Finset.sum_nonneg fun i _ => Finset.sum_nonneg fun j _ => abs_nonneg _, fun x => ?_⟩
  set w := A *ᵥ x with hw
  have h1 : quad A x = w ⬝ᵥ G *ᵥ w := by
    rw [quad, ← hG x, quad_symm hA, dotProduct_comm]
  have hS : ∀ i, w i * w i ≤ ∑ k, w k * w k := fun i => Finset.single_le_sum (f := fun k => w k * w k) (fun k _ => mul_self_nonneg _) (Finset.mem_univ i)
  rw [h1, Finset.sum_mul]
  refine Finset.sum_le_sum fun i _ => ?_
  rw [Matrix.mulVec, dotProduct, Finset.mul_sum, Finset.sum_mul]
  refine Finset.sum_le_sum fun j _ => ?_
  have e1 : w i * (G i j * w j) ≤ |G i j| * (|w i| * |w j|) := by
    refine (le_abs_self _).trans (le_of_eq ?_)
    rw [abs_mul, abs_mul]; ring
  refine e1.trans (mul_le_mul_of_nonneg_left ?_ (abs_nonneg _))
  have e2 := hS i
  have e3 := hS j
  rw [← abs_mul_abs_self (w i)] at e2
  rw [← abs_mul_abs_self (w j)] at e3
  nlinarith [mul_self_nonneg (|w i| - |w j|)]

/-- Every sweep reduces the energy by a constant factor. -/
theorem sweep_contracts [DecidableEq ι] {A : Matrix ι ι K} (hA : A.transpose = A) (hp : ∀ x, 0 ≤ quad A x) (blk : ι → κ) (ls : List κ)
    (hall : ∀ i, blk i ∈ ls) : ∃ ρ : K, 0 ≤ ρ ∧ ρ < 1 ∧ ∀ x y, Sweep A blk ls x y → quad A y ≤ ρ * quad A x := by
  obtain ⟨C, hC, hq⟩ := quad_le_residuals hA
  set D := C * ∑ i, 2 ^ ls.length * quad A (Pi.single i 1) with hD
  have hD0 : 0 ≤ D := mul_nonneg hC (Finset.sum_nonneg fun i _ => mul_nonneg (by positivity) (hp _))
  refine ⟨D / (1 + D), by positivity, (div_lt_one (by linarith)).2 (by linarith), fun x y h => ?_⟩
  obtain ⟨h1, -, h3⟩ := sweep_drop hA hp blk ls h
  have h4 : quad A y ≤ D * (quad A x - quad A y) := by
    refine (hq y).trans ?_
    rw [hD, mul_assoc, Finset.sum_mul]
    exact mul_le_mul_of_nonneg_left (Finset.sum_le_sum fun i _ => h3 i (hall i)) hC
  rw [div_mul_eq_mul_div, le_div_iff₀ (by linarith)]
  linarith

end Simu
