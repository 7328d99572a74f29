import Verif.Spec.LibrarySound
/-
Constraints of the library that are satisfied by bodies at rest.
-/
namespace Simu
open Island Mat
variable {K : Type*} [Field K] [LinearOrder K] [Trig K]

/-- The value of the function for bodies of inverse masses `m` at the positions `p` and `q`. -/
def CFun.HasValue {d : Nat} (f : CFun K d) (m : InvMasses K) (p q : Position K) (C : MVec K d) : Prop :=
  ∀ i0 i1 s, s.pos i0 = p → s.pos i1 = q → f.eval ⟨i0, i1, m⟩ s = C

/-- A function that asks for no velocity and no multiplier by itself: anything but a motor that runs. -/
structure CFun.Undriven {d : Nat} (f : CFun K d) : Prop where
  bias : ∀ p s, f.bias p s = Mat.zero
  clamp : ∀ dt, f.clampLambda Mat.zero dt = Mat.zero
  clampPosition : f.clampPositionLambda Mat.zero = Mat.zero

/-- A function of an inequality: only positive multipliers pass. -/
structure CFun.OneSided {d : Nat} (f : CFun K d) : Prop where
  clamp : ∀ dt l, (∀ r, l.at_ r ≤ 0) → f.clampLambda l dt = Mat.zero
  clampPosition : ∀ l, (∀ r, l.at_ r ≤ 0) → f.clampPositionLambda l = Mat.zero

/-- The effective mass of each row of the function is defined for bodies at the positions `p` and `q`. -/
def CFun.Moves {d : Nat} (f : CFun K d) (m : InvMasses K) (p q : Position K) : Prop :=
  ∀ i0 i1 s, s.pos i0 = p → s.pos i1 = q → ∀ r,
    0 < (((f.jacobian ⟨i0, i1, m⟩ s).mul (⟨i0, i1, m⟩ : Proxies K).inverseMass).mul (f.jacobian ⟨i0, i1, m⟩ s).transpose).get r r

/-- A constraint that is satisfied by bodies at the positions `p` and `q` and holds no impulse from the step before (a new one holds none): joints whose function is zero, inequalities
which hold (systems of several ones with equality, see ConstraintSolver.hpp:243-269), limits which are respected, contacts that are not deeper than what is corrected. The other conditions
only exclude divisions by zero. -/
def Kind.Satisfied (m : InvMasses K) (p q : Position K) : (k : Kind K) → k.State → Prop
  | .equality _ f, e => f.Undriven ∧ f.HasValue m p q Mat.zero ∧ (e : EqualitySolver _ _).base.lambda = Mat.zero
  | .mouse f, e => f.Undriven ∧ f.HasValue m p q Mat.zero ∧ (e : EqualitySolver _ _).base.lambda = Mat.zero
  | .inequality d f, e => f.Undriven ∧ f.OneSided ∧ f.Moves m p q ∧
    (∃ C, f.HasValue m p q C ∧ (∀ r, 0 ≤ C.at_ r) ∧ (d = 1 ∨ C = Mat.zero)) ∧
    (∀ r, 0 ≤ (e : InequalitySolver _ _).base.restitution.at_ r) ∧ (∀ r, 0 ≤ (e : InequalitySolver _ _).base.damping.at_ r) ∧ (e : InequalitySolver _ _).base.lambda = Mat.zero
  | .limits f, e => f.Undriven ∧ f.Moves m p q ∧ 0 ≤ (e : LimitsSolver _).base.damping.at_ 0 ∧ (e : LimitsSolver _).base.lambda = Mat.zero ∧
    ((e : LimitsSolver _).L ≠ none ∨ (e : LimitsSolver _).U ≠ none) ∧
    ∃ C, f.HasValue m p q C ∧ (∀ l, (e : LimitsSolver _).L = some l → l.at_ 0 ≤ C.at_ 0) ∧ ∀ u, (e : LimitsSolver _).U = some u → C.at_ 0 ≤ u.at_ 0
  | .contact, e =>
    let f := (e : Contact _).manifold.frame ![p.toWorldSpace, q.toWorldSpace]
    (e : Contact _).frame.nContacts = (e : Contact _).manifold.nContacts ∧ Solvable f ⟨0, 1, m⟩ ∧ f.tangent ≠ 0 ∧ (e : Contact _).tangentLambda = Mat.zero ∧ (e : Contact _).normalLambda = Mat.zero ∧ 0 < (e : Contact _).manifold.minPen ∧
    ∀ c : Fin 2, c.val < f.nContacts → -3 * (e : Contact _).manifold.minPen < Vec2.dot f.normal (f.contacts 0 c - f.contacts 1 c)

/-- The constraint `l` is satisfied by bodies at the positions `pos`. -/
def Library.Satisfied (L : Library K) (pos : Nat → Pose K) (s : (l : Link) → (L.kind l).State) (l : Link) : Prop :=
  (L.kind l).Satisfied (L.bodies l).masses (pos (L.bodies l).i0).1 (pos (L.bodies l).i1).1 (s l)

end Simu
