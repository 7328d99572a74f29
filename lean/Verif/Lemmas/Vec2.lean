import Verif.Model.Base
import Mathlib.Algebra.Module.Defs
import Mathlib.Tactic.Ring
/-
`Vec2 K` as a vector space, with the operations of the model.
-/
namespace Simu.Vec2
variable {K : Type*} [Field K]

instance : AddCommGroup (Vec2 K) where
  add_assoc a b c := by ext <;> simp [add_assoc]
  zero_add a := by ext <;> simp
  add_zero a := by ext <;> simp
  add_comm a b := by ext <;> simp [add_comm]
  neg_add_cancel a := by ext <;> simp
  sub_eq_add_neg a b := by ext <;> simp [sub_eq_add_neg]
  nsmul := nsmulRec
  zsmul := zsmulRec

instance : Module K (Vec2 K) where
  one_smul a := by ext <;> simp
  mul_smul a b c := by ext <;> simp <;> ring
  smul_zero a := by ext <;> simp
  smul_add a b c := by ext <;> simp <;> ring
  add_smul a b c := by ext <;> simp <;> ring
  zero_smul a := by ext <;> simp

end Simu.Vec2
