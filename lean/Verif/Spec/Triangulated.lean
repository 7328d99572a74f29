import Verif.Spec.Geometry
/-
Loops of vertices that are cut into triangles.
-/
namespace Simu
variable {K : Type*} [Field K] [LinearOrder K]

/-- The loop (from any of its vertices) is cut into the given positively oriented triangles, by cutting one ear at a time. Concave loops qualify; convexity is not asked for. -/
inductive Triangulated : List (Vec2 K) → List (Vec2 K × Vec2 K × Vec2 K) → Prop
  | triangle {a b c : Vec2 K} (h : 0 < twiceArea a b c) : Triangulated [a, b, c] [(a, b, c)]
  | ear {a b c : Vec2 K} {l ts} (h : 0 < twiceArea a b c) (ht : Triangulated (a :: c :: l) ts) : Triangulated (a :: b :: c :: l) ((a, b, c) :: ts)
  | start {l ts} (k : Nat) (ht : Triangulated l ts) : Triangulated (l.rotate k) ts

/-- Strict convexity, seen from the first vertex: it sees the others in positive order. -/
def StarShaped (o : Vec2 K) : List (Vec2 K) → Prop
  | [] => True
  | [_] => True
  | a :: b :: t => 0 < twiceArea o a b ∧ StarShaped o (b :: t)

end Simu
