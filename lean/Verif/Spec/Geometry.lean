import Verif.Model.Base
import Verif.Lemmas.Vec2
/-
Independent vocabulary for the geometry properties: hulls, segments, triangles, distances, and the
textbook area / centroid / second moment of a fan of triangles.
-/
namespace Simu
variable {K : Type*} [Field K] [LinearOrder K]

/-- Convex hull: the vertices, closed under taking points of segments. -/
inductive Hull (l : List (Vec2 K)) : Vec2 K → Prop
  | vertex {p : Vec2 K} (h : p ∈ l) : Hull l p
  | segment {p q : Vec2 K} (t : K) (h0 : 0 ≤ t) (h1 : t ≤ 1) (hp : Hull l p) (hq : Hull l q) :
      Hull l ((1 - t) • p + t • q)

/-- `P` is a point of the segment `AB`. -/
def OnSegment (A B P : Vec2 K) : Prop := ∃ t : K, 0 ≤ t ∧ t ≤ 1 ∧ P = (1 - t) • A + t • B

/-- `P` is a point of the (full) triangle `ABC`. -/
def InTriangle (A B C P : Vec2 K) : Prop :=
  ∃ a b c : K, 0 ≤ a ∧ 0 ≤ b ∧ 0 ≤ c ∧ a + b + c = 1 ∧ P = a • A + b • B + c • C

/-- Squared distance. -/
def distSq (P Q : Vec2 K) : K := (P.x - Q.x) * (P.x - Q.x) + (P.y - Q.y) * (P.y - Q.y)

/-- Twice the signed area of a triangle, by the determinant of two sides. -/
def twiceArea (A B C : Vec2 K) : K := (B.x - A.x) * (C.y - A.y) - (B.y - A.y) * (C.x - A.x)

/-- Signed area of a triangle. -/
def triArea (A B C : Vec2 K) : K := twiceArea A B C / 2
/-- Centroid of a triangle. -/
def triCentroid (A B C : Vec2 K) : Vec2 K := ⟨(A.x + B.x + C.x) / 3, (A.y + B.y + C.y) / 3⟩
/-- (Signed) polar second moment of area of a triangle about its centroid. -/
def triMoment (A B C : Vec2 K) : K := triArea A B C * (distSq A B + distSq B C + distSq C A) / 36

/-- The triangles `(o, a_i, a_{i+1})` covering the loop `o, a_0, a_1, …`. -/
def fanOf (o : Vec2 K) : List (Vec2 K) → List (Vec2 K × Vec2 K × Vec2 K)
  | [] => []
  | [_] => []
  | a :: b :: t => (o, a, b) :: fanOf o (b :: t)

/-- Sum of `f` over a list of triangles. -/
def sumTri {M : Type*} [Add M] [Zero M] (f : Vec2 K → Vec2 K → Vec2 K → M) : List (Vec2 K × Vec2 K × Vec2 K) → M
  | [] => 0
  | t :: ts => f t.1 t.2.1 t.2.2 + sumTri f ts

end Simu
