import Verif.Model.Solver
import Mathlib.Data.Matrix.Mul
/-
Vocabulary for stating the properties of matrices: the mathematical matrix stored in a `Mat`.
-/
namespace Simu

/-- The mathematical matrix an object stores, read with `operator()`. -/
def Mat.toM {T : Type*} {m n : Nat} (A : Mat T m n) : Matrix (Fin m) (Fin n) T := Matrix.of fun i j => A.get i j

/-- The mathematical vector an object stores, read with `operator[]`. -/
def Mat.toV {T : Type*} {n : Nat} (v : MVec T n) : Fin n → T := fun i => v.at_ i

end Simu

namespace Simu
variable {K : Type*} [Field K] [LinearOrder K] {n : Nat}

/-- `P` projects a number on a closed convex set of numbers: `P z` is the point of the image nearest
to `z` (variational form). Clamping to an interval, `max 0` and the identity are such. -/
def IsProjection (P : K → K) : Prop := ∀ z w, (z - P z) * (P w - P z) ≤ 0

/-- Symmetric positive definite. -/
def SPD (A : Matrix (Fin n) (Fin n) K) : Prop :=
  A.transpose = A ∧ ∀ x : Fin n → K, x ≠ 0 → 0 < x ⬝ᵥ A.mulVec x

/-- The value of unknown `i` that satisfies equation `i` of `A x = b`, given the other unknowns. -/
def rowValue (A : Matrix (Fin n) (Fin n) K) (b x : Fin n → K) (i : Fin n) : K :=
  (b i - ∑ j ∈ Finset.univ.erase i, A i j * x j) / A i i

end Simu
