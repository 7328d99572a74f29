import Verif.Model.Transform
import Verif.Lemmas.Vec2
import Verif.Lemmas.Matrix
import Mathlib.Algebra.BigOperators.Fin
import Mathlib.Tactic.LinearCombination
import Mathlib.Tactic.FinCases
/-
3x3 matrices given by their entries.
-/
namespace Simu
variable {K : Type*} [Field K]

/-- The 3x3 matrix with the given entries. -/
def m9 (a b c d e f g h i : K) : Mat K 3 3 := ⟨![a, b, c, d, e, f, g, h, i]⟩

theorem ofList9 (a b c d e f g h i : K) :
    (Mat.ofList [a, b, c, d, e, f, g, h, i] : Outcome (Mat K 3 3)) = .ok (m9 a b c d e f g h i) := by
  rw [Mat.ofList, dif_pos (by rfl)]
  congr 1
  simp only [m9, Mat.mk.injEq]
  funext k
  match k with
  | ⟨0, _⟩ => rfl | ⟨1, _⟩ => rfl | ⟨2, _⟩ => rfl | ⟨3, _⟩ => rfl | ⟨4, _⟩ => rfl
  | ⟨5, _⟩ => rfl | ⟨6, _⟩ => rfl | ⟨7, _⟩ => rfl | ⟨8, _⟩ => rfl

theorem m9_app (a b c d e f g h i : K) (p : Vec2 K) :
    mat3App (m9 a b c d e f g h i) p = ⟨a * p.x + b * p.y + c, d * p.x + e * p.y + f⟩ := by
  ext <;> simp only [mat3App, Mat.at_eq_get, Mat.get_mul, Fin.sum_univ_three]
  · show a * p.x + b * p.y + c * 1 = _; ring
  · show d * p.x + e * p.y + f * 1 = _; ring

theorem m9_mul (a b c d e f g h i a' b' c' d' e' f' g' h' i' : K) :
    (m9 a b c d e f g h i).mul (m9 a' b' c' d' e' f' g' h' i') =
    m9 (a * a' + b * d' + c * g') (a * b' + b * e' + c * h') (a * c' + b * f' + c * i')
      (d * a' + e * d' + f * g') (d * b' + e * e' + f * h') (d * c' + e * f' + f * i')
      (g * a' + h * d' + i * g') (g * b' + h * e' + i * h') (g * c' + h * f' + i * i') := by
  apply Mat.ext_get
  intro r c
  rw [Mat.get_mul, Fin.sum_univ_three]
  fin_cases r <;> fin_cases c <;> rfl

theorem diagonal9 (a b c : K) : Mat.diagonal (Mat.ofFn ![a, b, c]) = m9 a 0 0 0 b 0 0 0 c := by
  apply Mat.ext_get
  intro r k
  rw [Mat.get_diagonal]
  fin_cases r <;> fin_cases k <;> rfl

theorem identity9 : (Mat.identity : Mat K 3 3) = m9 1 0 0 0 1 0 0 0 1 := by
  apply Mat.ext_get
  intro r c
  rw [Mat.get_identity]
  fin_cases r <;> fin_cases c <;> rfl

end Simu
