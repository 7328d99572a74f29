import Verif.Model.Library
import Verif.Spec.Constraint
/-
Vocabulary for worlds made of the constraints of the library.
-/
namespace Simu
open Island
variable {K : Type*} [Field K] [LinearOrder K] [Trig K]

/-- Constraints between two bodies: the linear parts of the function are opposite (hinge, rotation, weld and distance, and the same as inequalities:
`C32_opposite`), or it is a contact. -/
def Kind.Opposite : Kind K → Prop
  | .equality _ f => ∀ p s, OppositeLinear (f.jacobian p s)
  | .inequality _ f => ∀ p s, OppositeLinear (f.jacobian p s)
  | .limits f => ∀ p s, OppositeLinear (f.jacobian p s)
  | .mouse _ => False
  | .contact => True

/-- The Jacobian kept since the last call is that of such a function: it is zero for a new constraint and recomputed by every `initSolve`. -/
def Kind.Fit : (k : Kind K) → k.State → Prop
  | .equality _ _, e => OppositeLinear (e : EqualitySolver _ _).base.J
  | .inequality _ _, e => OppositeLinear (e : InequalitySolver _ _).base.J
  | .limits _, e => OppositeLinear (e : LimitsSolver _).base.J
  | .mouse _, _ => True
  | .contact, e => OppositeLinear (e : Contact _).Jn ∧ ∀ c, OppositeLinear ((e : Contact _).Jf c)

/-- All constraints of the network are in such a state. -/
def Library.Fit (L : Library K) (s : (l : Link) → (L.kind l).State) : Prop := ∀ l, (L.kind l).Opposite → (L.kind l).Fit (s l)

/-- The constraints were made for these bodies (which have masses), those on a single body with equal dominances (Bodies.hpp:184-192). -/
def Library.MadeFor (L : Library K) (body : Nat → Body K) : Prop :=
  ∀ l, ∃ dom : Option (Vec2 K), L.bodies l = Bodies.make body (L.bodies l).i0 (L.bodies l).i1 dom ∧
    (body (L.bodies l).i0).mass ≠ 0 ∧ (body (L.bodies l).i1).mass ≠ 0 ∧
    ((L.bodies l).i0 = (L.bodies l).i1 → ∀ d, dom = some d → d.x = d.y)

/-- A constraint between two bodies which both react to it fully: dominances 1. -/
def Library.Mutual (L : Library K) (body : Nat → Body K) (l : Link) : Prop :=
  (L.bodies l).i0 ≠ (L.bodies l).i1 ∧ (L.kind l).Opposite ∧
    (L.bodies l).masses = ⟨1 / (body (L.bodies l).i0).mass, 1 / (body (L.bodies l).i0).inertia,
      1 / (body (L.bodies l).i1).mass, 1 / (body (L.bodies l).i1).inertia⟩

end Simu
