import Verif.Spec.Geometry
import Verif.Spec.Overlap
import Verif.Spec.BoundingBox
/-
What a picture made of triangles shows.
-/
namespace Simu
variable {K : Type*} [Field K] [LinearOrder K]

/-- The point is shown: it is in one of the triangles, borders included. -/
def Shows (triangles : List (Vec2 K × Vec2 K × Vec2 K)) (p : Vec2 K) : Prop := ∃ t ∈ triangles, InTriangle t.1 t.2.1 t.2.2 p

/-- The point is inside the triangle, not on its border, whichever way the triangle is given. -/
def WithinTriangle (t : Vec2 K × Vec2 K × Vec2 K) (p : Vec2 K) : Prop :=
  ∃ a b c : K, 0 < a ∧ 0 < b ∧ 0 < c ∧ a + b + c = 1 ∧ p = a • t.1 + b • t.2.1 + c • t.2.2 ∧ twiceArea t.1 t.2.1 t.2.2 ≠ 0

/-- No point is painted over by two triangles. -/
def PaintedOnce (triangles : List (Vec2 K × Vec2 K × Vec2 K)) : Prop :=
  ∀ (i j : Nat) (t u : Vec2 K × Vec2 K × Vec2 K) (p : Vec2 K), triangles[i]? = some t → triangles[j]? = some u → WithinTriangle t p → WithinTriangle u p → i = j

end Simu
