import Verif.Model.ExtBox
import Mathlib.Order.WithBot
/-
Meaning of floats that may be infinite or not a number, and of boxes with such coordinates.
-/
namespace Simu
variable {K : Type*} [Field K] [LinearOrder K]

/-- The number on the extended line, if it is one. -/
def Ext.val : Ext K → Option (WithBot (WithTop K))
  | .fin x => some ((x : WithTop K) : WithBot (WithTop K))
  | .pinf => some ((⊤ : WithTop K) : WithBot (WithTop K))
  | .ninf => some ⊥
  | .nan => none

/-- Both are numbers and in this order. -/
def Ext.Le (a b : Ext K) : Prop := ∃ x y, a.val = some x ∧ b.val = some y ∧ x ≤ y

/-- It is a finite number. -/
def Ext.Finite (a : Ext K) : Prop := ∃ x : K, a.val = some ((x : WithTop K) : WithBot (WithTop K))

/-- The coordinates are numbers, and the box is not inverted. -/
def ExtBox.Proper (b : ExtBox K) : Prop := b.min.x.Le b.max.x ∧ b.min.y.Le b.max.y

/-- The number `p` is between two bounds. -/
def Ext.Between (lo hi : Ext K) (p : K) : Prop := lo.Le (.fin p) ∧ (Ext.fin p).Le hi

/-- The point is in the box. -/
def ExtBox.Has (b : ExtBox K) (p : Vec2 K) : Prop := Ext.Between b.min.x b.max.x p.x ∧ Ext.Between b.min.y b.max.y p.y

/-- Every side of the box is bounded on both ends or on none. -/
def ExtBox.Whole (b : ExtBox K) : Prop :=
  ((b.min.x.Finite ∧ b.max.x.Finite) ∨ b.min.x = .ninf ∧ b.max.x = .pinf) ∧ ((b.min.y.Finite ∧ b.max.y.Finite) ∨ b.min.y = .ninf ∧ b.max.y = .pinf)

/-- The bounds of `b` are numbers around those of `a`. -/
def ExtBox.Inside (a b : ExtBox K) : Prop := b.min.x.Le a.min.x ∧ a.max.x.Le b.max.x ∧ b.min.y.Le a.min.y ∧ a.max.y.Le b.max.y

end Simu
