import Verif.Spec.Unique
/-
Islands of joints, and how far from settled they are.
-/
namespace Simu
open Mat Island
variable {K : Type*} [Field K]

/-- A constraint that holds its bodies with whatever impulse it takes; if it holds only one body, it does not depend on a second one. -/
def Kind.IsJoint (c : CallCfg K) (p : Proxies K) (s0 : SolveState K) : Kind K → Prop
  | .equality _ f => (∀ l, f.clampLambda l c.dt = l) ∧ (p.i0 ≠ p.i1 ∨ FirstOnly (f.jacobian p s0))
  | .mouse f => (∀ l, f.clampLambda l c.dt = l) ∧ (p.i0 ≠ p.i1 ∨ FirstOnly (f.jacobian p s0))
  | _ => False

/-- Number of multipliers of a joint. -/
def Kind.rows : Kind K → Nat
  | .equality d _ => d
  | .mouse _ => 2
  | _ => 0

/-- The multipliers of a joint. -/
def Kind.mult : (k : Kind K) → k.State → Fin k.rows → K
  | .equality _ _, e => (e : EqualitySolver _ _).base.lambda.at_
  | .mouse _, e => (e : EqualitySolver _ _).base.lambda.at_
  | .inequality _ _, _ => fun _ => 0
  | .limits _, _ => fun _ => 0
  | .contact, _ => fun _ => 0

/-- The damping of a joint. -/
def Kind.damp : (k : Kind K) → k.State → Fin k.rows → K
  | .equality _ _, e => (e : EqualitySolver _ _).base.damping.at_
  | .mouse _, e => (e : EqualitySolver _ _).base.damping.at_
  | .inequality _ _, _ => fun _ => 0
  | .limits _, _ => fun _ => 0
  | .contact, _ => fun _ => 0

/-- Twice the kinetic energy of the difference of two velocities of a body with the inverse mass and inertia `m`. A body that cannot be moved always has its own velocity. -/
def Velocity.apart (m : K × K) (v w : Velocity K) : K :=
  ((v.linear.x - w.linear.x) * (v.linear.x - w.linear.x) + (v.linear.y - w.linear.y) * (v.linear.y - w.linear.y)) / m.1 +
    (v.angular - w.angular) * (v.angular - w.angular) / m.2

/-- Twice the kinetic energy of the differences of the velocities of `n` bodies, and what the dampers of the joints hold of it. -/
def Island.apart [Trig K] (L : Library K) (M : Nat → K × K) (n : Nat) (links : List Link)
    (x y : St (Pose K) (Velocity K) ((l : Link) → (L.kind l).State) × Isl (Pose K) (Velocity K)) : K :=
  ∑ i ∈ Finset.range n, Velocity.apart (M i) (x.2.vs i) (y.2.vs i) +
    ∑ l ∈ links.toFinset, ∑ r, (L.kind l).damp (y.1.s l) r * (((L.kind l).mult (x.1.s l) r - (L.kind l).mult (y.1.s l) r) *
      ((L.kind l).mult (x.1.s l) r - (L.kind l).mult (y.1.s l) r))

end Simu
