import Verif.Spec.LibrarySound
/-
Constraints of the library that cannot add energy to their bodies.
-/
namespace Simu
open Island Mat
variable {K : Type*} [Field K] [LinearOrder K] [Trig K]

/-- A function that asks for nothing but to stay constant: no bias, no bounds on the multipliers. -/
def CFun.Plain {d : Nat} (f : CFun K d) : Prop := (∀ l dt, f.clampLambda l dt = l) ∧ ∀ p s r, (f.bias p s).at_ r = 0

/-- Settings without a reason to add energy: no restitution, no negative damping. -/
def SolverBase.Calm {d : Nat} (b : SolverBase K d) : Prop := (∀ r, b.restitution.at_ r = 0) ∧ ∀ r, 0 ≤ b.damping.at_ r

/-- Constraints that only resist: joints without bias, restitution or negative damping (those with limits have equal limits or positive damping, for which
their effective mass is not zero), contacts without restitution and friction which can be solved wherever the bodies are. Not the mouse, which pulls; constraints solved as
systems of inequalities are left out. -/
def Kind.Passive (m : InvMasses K) : (k : Kind K) → k.State → Prop
  | .equality _ f, e => f.Plain ∧ (e : EqualitySolver _ _).base.Calm
  | .limits f, e => f.Plain ∧ (e : LimitsSolver _).base.Calm ∧
    (0 < (e : LimitsSolver _).base.damping.at_ 0 ∨ ∃ l u, (e : LimitsSolver _).L = some l ∧ (e : LimitsSolver _).U = some u ∧ l.at_ 0 = u.at_ 0)
  | .contact, e =>
    (∃ P0 P1 : Pose K, (e : Contact _).frame = (e : Contact _).manifold.frame ![P0.1.toWorldSpace, P1.1.toWorldSpace]) ∧
      ((e : Contact _).manifold.nContacts = 1 ∨ (e : Contact _).manifold.nContacts = 2) ∧
      (∀ P0 P1 : Pose K, Solvable ((e : Contact _).manifold.frame ![P0.1.toWorldSpace, P1.1.toWorldSpace]) ⟨0, 1, m⟩) ∧
      (e : Contact _).restitution = 0 ∧ (e : Contact _).friction = 0
  | .inequality _ _, _ => False
  | .mouse _, _ => False

/-- Twice the kinetic energy of a body moving with velocity `v`. -/
def Body.energy (body : Body K) (v : Velocity K) : K := body.mass * v.linear.normSquared + body.inertia * (v.angular * v.angular)

/-- The body `b` takes part in a constraint with the inverse masses `m` and `I`: with its own mass and inertia, or (`still b`) as one that cannot be moved. -/
def Partakes (body : Body K) (still : Prop) (m I : K) : Prop :=
  (¬ still ∧ body.mass * m = 1 ∧ body.inertia * I = 1) ∨ (still ∧ m = 0 ∧ I = 0)

/-- A passive constraint between two bodies, those of `still` being immovable. -/
structure Library.Resists (L : Library K) (body : Nat → Body K) (still : Nat → Prop) (s : (l : Link) → (L.kind l).State) (l : Link) : Prop where
  two : (L.bodies l).i0 ≠ (L.bodies l).i1
  nonneg : (L.bodies l).masses.Nonneg
  first : Partakes (body (L.bodies l).i0) (still (L.bodies l).i0) (L.bodies l).masses.m0 (L.bodies l).masses.I0
  second : Partakes (body (L.bodies l).i1) (still (L.bodies l).i1) (L.bodies l).masses.m1 (L.bodies l).masses.I1
  passive : (L.kind l).Passive (L.bodies l).masses (s l)

end Simu
