import Verif.Model.Island
import Verif.Model.Contact
import Verif.Model.Constraint
import Verif.Spec.Transform
/-
The constraints of the library behind their common interface (include/Simu/physics/ConstraintInterfaces.hpp:58-117, Constraint.hpp:41-86,
154-368, include/Simu/app/MouseConstraint.hpp), and the network of Model/Island.lean made of them.

`float` is a field; loops without an evident bound take a number of iterations. A loop still running after them is given the
outcome `ub`: such a call does not return, and the theorems speak of calls that do.
-/
namespace Simu
open Island
variable {K : Type*} [Field K] [LinearOrder K] [Trig K]

/-- MouseConstraint.hpp:32-81 `MouseConstraintFunction`: `anchor` is `localBodyPos_`, `mouse` is `mousePos_`. -/
def mouseFun (anchor mouse : Vec2 K) : CFun K 2 where
  eval p s := ((s.pos p.i0).toWorldSpace.app anchor - mouse).toMVec
  bias _ _ := Mat.zero
  jacobian p s :=
    let r := (s.pos p.i0).toWorldSpace.app anchor - (s.pos p.i0).centroid
    ⟨![1, 0, -r.y, 0, 0, 0,
       0, 1, r.x, 0, 0, 0]⟩
  clampLambda l _ := l
  clampPositionLambda l := l

omit [LinearOrder K] in
/-- MouseConstraint.hpp:38-42: constructor. -/
def mouseFunOf (body : Body K) (pos : Vec2 K) : CFun K 2 := mouseFun (body.position.toLocalSpace.app pos) pos

omit [LinearOrder K] [Trig K] in
/-- MouseConstraint.hpp:88-97: the base of the solver of a new `MouseConstraint`. -/
def mouseBase : SolverBase K 2 := { SolverBase.init with restitution := Mat.ofFn fun _ => 1 / 10, damping := Mat.ofFn fun _ => 1 }

/-- The classes of constraints: `ConstraintImplementation` (Constraint.hpp:41-86) with each of the three solvers, `MouseConstraint`
(MouseConstraint.hpp:84-108) and `ContactConstraint` (Constraint.hpp:170-605). The function does not change while solving. -/
inductive Kind (K : Type*) where
  | equality (d : Nat) (f : CFun K d)
  | inequality (d : Nat) (f : CFun K d)
  | limits (f : CFun K 1)
  | mouse (f : CFun K 2)
  | contact

/-- The members that change while solving. -/
def Kind.State : Kind K → Type _
  | .equality d _ => EqualitySolver K d
  | .inequality d _ => InequalitySolver K d
  | .limits _ => LimitsSolver K
  | .mouse _ => EqualitySolver K 2
  | .contact => Contact K

/-- What a call needs besides the constraint: dt (Island.hpp:120), `std::sqrt`, `simu::EPSILON` and the number of iterations after which a
loop is given up. -/
structure CallCfg (K : Type*) where
  dt : K
  sqrt : K → K
  epsilon : K
  fuel : Nat

/-- A call that does not return is not followed further. -/
def returned {α : Type*} : Option α → Outcome α
  | some a => .ok a
  | none => .ub

/-- The virtual functions (Constraint.hpp:63-79 for `ConstraintImplementation`, MouseConstraint.hpp:107, Constraint.hpp:217-368). -/
def Kind.act (c : CallCfg K) : (k : Kind K) → Phase → Proxies K → k.State → SolveState K → Outcome (k.State × SolveState K)
  | .equality _ f, .initSolve, p, e, s => (EqualitySolver.initSolve c.sqrt e p f s).bind fun e => .ok (e, s)
  | .equality _ f, .warmstart, p, e, s => .ok (EqualitySolver.warmstart e p f c.dt s)
  | .equality _ f, .solveVelocities, p, e, s => EqualitySolver.solveVelocity e p f c.dt s
  | .equality _ f, .solvePositions, p, e, s => EqualitySolver.solvePosition c.sqrt e p f s
  | .inequality _ f, .initSolve, p, e, s => .ok (InequalitySolver.initSolve e p f s, s)
  | .inequality _ f, .warmstart, p, e, s => .ok (InequalitySolver.warmstart e p f c.dt s)
  | .inequality _ f, .solveVelocities, p, e, s => returned (InequalitySolver.solveVelocity c.epsilon c.fuel e p f c.dt s)
  | .inequality _ f, .solvePositions, p, e, s => InequalitySolver.solvePosition c.sqrt e p f s
  | .limits f, .initSolve, p, e, s => (LimitsSolver.initSolve c.sqrt e p f s).bind fun e => .ok (e, s)
  | .limits f, .warmstart, p, e, s => .ok (LimitsSolver.warmstart e p f c.dt s)
  | .limits f, .solveVelocities, p, e, s => (LimitsSolver.solveVelocity c.epsilon c.fuel e p f c.dt s).bind returned
  | .limits f, .solvePositions, p, e, s => (LimitsSolver.solvePosition c.sqrt c.epsilon c.fuel e p f s).bind returned
  | .mouse f, .initSolve, p, e, s => (EqualitySolver.initSolve c.sqrt e p f s).bind fun e => .ok (e, s)
  | .mouse f, .warmstart, p, e, s => .ok (EqualitySolver.warmstart e p f c.dt s)
  | .mouse f, .solveVelocities, p, e, s => EqualitySolver.solveVelocity e p f c.dt s
  | .mouse _, .solvePositions, _, e, s => .ok (e, s)
  | .contact, .initSolve, p, e, s => .ok (Contact.initSolve e p s, s)
  | .contact, .warmstart, p, e, s => .ok (Contact.warmstart e p s)
  | .contact, .solveVelocities, p, e, s => Contact.solveVelocities e p s
  | .contact, .solvePositions, p, e, s => Contact.solvePositions e p s

/-- `isActive` (Constraint.hpp:54-61, 211-215). -/
def Kind.isActive : (k : Kind K) → Proxies K → k.State → SolveState K → k.State × Bool
  | .limits f, p, e, s => (e, LimitsSolver.isActive e p f s)
  | .contact, p, e, s => Contact.isActive e p s
  | .equality _ _, _, e, _ => (e, true)
  | .inequality _ _, _, e, _ => (e, true)
  | .mouse _, _, e, _ => (e, true)

/-- Positions as bodies hold them: cosine and sine are those of the angle (Transform.hpp: `Rotation` has no other constructor). -/
abbrev Pose (K : Type*) [Field K] [Trig K] := { p : Position K // p.orient.WF }

omit [LinearOrder K] in
/-- A position as a body holds it. The positions the constraints produce are already of this form (`Kind.act_acts`), so that this changes nothing. -/
def Pose.of (p : Position K) : Pose K := ⟨{ p with orient := .ofAngle p.orient.theta }, rfl, rfl⟩

/-- A network of constraints of the library: of each constraint its class and its `Bodies` (of which `masses` is computed when it is made), of
each body the constraints and contacts it is in. -/
structure Library (K : Type*) where
  kind : Link → Kind K
  bodies : Link → Bodies K
  joints : Nat → List Nat
  contacts : Nat → List Nat

/-- The network seen by `solveIslands` (Model/Island.lean). In `isActive` the two bodies are at places 0 and 1 of the vectors (at place 0 both, for a
constraint on one body). `structuralIn` is only asked for bodies of the constraint (Bodies.inl.hpp:98-108). -/
def Library.net (L : Library K) (c : CallCfg K) : Net (Pose K) (Velocity K) ((l : Link) → (L.kind l).State) where
  ends l := ((L.bodies l).i0, (L.bodies l).i1)
  joints := L.joints
  contacts := L.contacts
  structuralIn l b := match (L.bodies l).isBodyStructural b with
    | .ok r => r
    | _ => false
  isRest v := decide (v.linear.x = 0 ∧ v.linear.y = 0 ∧ v.angular = 0)
  isActive l s p q :=
    let r := (L.kind l).isActive ⟨0, 1, (L.bodies l).masses⟩ (s l) ⟨fun i => if i = 0 then p.1 else q.1, fun _ => ⟨0, 0⟩⟩
    (Function.update s l r.1, r.2)
  act ph l i0 i1 s ps vs :=
    ((L.kind l).act c ph ⟨i0, i1, (L.bodies l).masses⟩ (s l) ⟨fun i => (ps i).1, vs⟩).bind fun r =>
      .ok (Function.update s l r.1, fun i => Pose.of (r.2.pos i), r.2.vel)
  advance p v := Pose.of (p.1.advance (c.dt • v.linear) (v.angular * c.dt))

end Simu
