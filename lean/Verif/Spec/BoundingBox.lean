import Verif.Model.BoundingBox
/-
Set meaning of intervals and boxes: the values / points they stand for.
-/
namespace Simu.Spec
variable {K : Type*} [LinearOrder K]

/-- The closed interval `[lo, hi]` (empty when `hi < lo`). -/
def inInterval (i : Interval K) (v : K) : Prop := i.lo ≤ v ∧ v ≤ i.hi

/-- The closed rectangle with corners `min` and `max` (empty when a coordinate is inverted). -/
def inBox (b : BoundingBox K) (p : Vec2 K) : Prop :=
  (b.min.x ≤ p.x ∧ p.x ≤ b.max.x) ∧ (b.min.y ≤ p.y ∧ p.y ≤ b.max.y)

/-- Two boxes stand for the same set of points. -/
def sameBox (a b : BoundingBox K) : Prop := ∀ p, inBox a p ↔ inBox b p

/-- Every point of `a` is a point of `b`. -/
def subBox (a b : BoundingBox K) : Prop := ∀ p, inBox a p → inBox b p

end Simu.Spec
