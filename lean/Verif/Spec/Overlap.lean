import Verif.Spec.Gjk
/-
Vocabulary for convex polygons that overlap.
-/
namespace Simu
variable {K : Type*} [Field K] [LinearOrder K]

/-- The vertices, in this order, are those of a convex polygon that turns to the left at every vertex: all the others are strictly on the left of each edge. -/
def StrictlyConvex (l : List (Vec2 K)) : Prop :=
  3 ≤ l.length ∧ ∀ i k a b c, l[i]? = some a → l[(i + 1) % l.length]? = some b → l[k]? = some c → k ≠ i → k ≠ (i + 1) % l.length → 0 < twiceArea a b c

/-- No angle of the polygon is obtuse: triangles that are acute or right, and rectangles. -/
def NoObtuse (l : List (Vec2 K)) : Prop :=
  ∀ i a b c, l[i]? = some a → l[(i + 1) % l.length]? = some b → l[(i + 2) % l.length]? = some c → Vec2.dot (b - a) (c - b) ≤ 0

/-- A shortest translation of the second polygon after which a line has them on each side. -/
def Shortest (A B : List (Vec2 K)) (μ : Vec2 K) : Prop :=
  Gjk.Cleared A B μ ∧ ∀ μ', Gjk.Cleared A B μ' → μ.normSquared ≤ μ'.normSquared

/-- No vertex of `l` is further than `v` in direction `d`. -/
def Furthest (l : List (Vec2 K)) (d v : Vec2 K) : Prop := v ∈ l ∧ ∀ w ∈ l, Vec2.dot w d ≤ Vec2.dot v d

/-- An edge of the polygon faces direction `d`: two of its vertices are furthest. -/
def LiesFlat (l : List (Vec2 K)) (d : Vec2 K) : Prop := ∃ v w, v ≠ w ∧ Furthest l d v ∧ Furthest l d w

end Simu
