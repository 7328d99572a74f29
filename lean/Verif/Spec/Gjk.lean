import Verif.Spec.Geometry
/-
Vocabulary for collisions of convex hulls of vertices.
-/
namespace Simu.Gjk
variable {K : Type*} [Field K] [LinearOrder K]

/-- The hulls share a point. -/
def Common (A B : List (Vec2 K)) : Prop := ∃ q, Hull A q ∧ Hull B q

/-- After the second geometry is moved by `m`, some line has them on each side (they may touch). -/
def Cleared (A B : List (Vec2 K)) (m : Vec2 K) : Prop := ∃ n : Vec2 K, n ≠ 0 ∧ ∀ a ∈ A, ∀ b ∈ B, Vec2.dot (a - (b + m)) n ≤ 0

/-- After the second geometry is moved by `m`, the hulls share a point. -/
def Touching (A B : List (Vec2 K)) (m : Vec2 K) : Prop := ∃ q, Hull A q ∧ ∃ q', Hull B q' ∧ q = q' + m

/-- Three of the vertices are not on a line. -/
def Proper (A : List (Vec2 K)) : Prop := ∃ a ∈ A, ∃ b ∈ A, ∃ c ∈ A, twiceArea a b c ≠ 0

end Simu.Gjk
