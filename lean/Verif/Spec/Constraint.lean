import Verif.Model.Constraint
import Verif.Spec.Transform
import Verif.Spec.Matrix
import Verif.Lemmas.Vec2
/-
Vocabulary for stating the properties of constraints.
-/
namespace Simu
variable {K : Type*} [Field K]

instance : Zero (Velocity K) := ⟨⟨0, 0⟩⟩
instance : Add (Velocity K) := ⟨fun a b => ⟨a.linear + b.linear, a.angular + b.angular⟩⟩

/-- The six generalised coordinates of a pair of bodies: linear (2) and angular (1) part of each. -/
abbrev Six (K : Type*) := Fin 6 → K

/-- Change of the velocities of all bodies when the generalised impulse `P` acts on the bodies `i0` (first three
coordinates) and `i1` (last three) with the given inverse masses. -/
def kick (p : Proxies K) (P : Six K) : Nat → Velocity K := fun i =>
  (if i = p.i0 then ⟨⟨p.masses.m0 * P 0, p.masses.m0 * P 1⟩, p.masses.I0 * P 2⟩ else 0) +
  (if i = p.i1 then ⟨⟨p.masses.m1 * P 3, p.masses.m1 * P 4⟩, p.masses.I1 * P 5⟩ else 0)

/-- `Jᵀ λ`. -/
def pull {d : Nat} (J : Mat K d 6) (l : Fin d → K) : Six K := fun c => ∑ r, J.get r c * l r

/-- Relative velocity of the constraint: `J v`. -/
def push {d : Nat} (J : Mat K d 6) (v : Six K) : Fin d → K := fun r => ∑ c, J.get r c * v c

/-- The linear parts of the two bodies are opposite in each row. -/
def OppositeLinear {d : Nat} (J : Mat K d 6) : Prop := ∀ r, J.get r 3 = -J.get r 0 ∧ J.get r 4 = -J.get r 1

/-- Nothing acts on the second body. -/
def FirstOnly {d : Nat} (J : Mat K d 6) : Prop := ∀ r, J.get r 3 = 0 ∧ J.get r 4 = 0 ∧ J.get r 5 = 0

/-- Linear momentum of two bodies of masses `m0`, `m1`. -/
def momentum (m0 m1 : K) (i0 i1 : Nat) (s : SolveState K) : Vec2 K :=
  ⟨m0 * (s.vel i0).linear.x + m1 * (s.vel i1).linear.x, m0 * (s.vel i0).linear.y + m1 * (s.vel i1).linear.y⟩

/-- Angular momentum about the origin of two bodies of masses `m0`, `m1` and inertias `I0`, `I1`, whose centroids are
at `c0` and `c1`. -/
def angularMomentum (m0 m1 I0 I1 : K) (c0 c1 : Vec2 K) (v0 v1 : Velocity K) : K :=
  m0 * Vec2.cross c0 v0.linear + I0 * v0.angular + (m1 * Vec2.cross c1 v1.linear + I1 * v1.angular)

/-- What can happen to the velocities while a constraint is being solved: the constraint is warm started or solved,
or something else (another constraint) changes the velocities. -/
inductive SolveEvent (K : Type*) where
  | warmstart
  | solve
  | other (change : Nat → Velocity K)

/-- Sum of the velocity changes made by others. -/
def others : List (SolveEvent K) → Nat → Velocity K
  | [], _ => 0
  | .other c :: es, i => c i + others es i
  | _ :: es, i => others es i

/-- A change of velocities by others. -/
def SolveState.change (s : SolveState K) (c : Nat → Velocity K) : SolveState K :=
  { s with vel := fun i => s.vel i + c i }

variable [LinearOrder K]

/-- An `EqualitySolver` going through events. -/
def EqualitySolver.runEvents {d : Nat} (p : Proxies K) (f : CFun K d) (dt : K) :
    List (SolveEvent K) → EqualitySolver K d × SolveState K → Outcome (EqualitySolver K d × SolveState K)
  | [], es => .ok es
  | .warmstart :: l, es => EqualitySolver.runEvents p f dt l (es.1.warmstart p f dt es.2)
  | .solve :: l, es => (es.1.solveVelocity p f dt es.2).bind (EqualitySolver.runEvents p f dt l)
  | .other c :: l, es => EqualitySolver.runEvents p f dt l (es.1, es.2.change c)

/-- An `InequalitySolver` going through events. -/
def InequalitySolver.runEvents {d : Nat} (epsilon : K) (fuel : Nat) (p : Proxies K) (f : CFun K d) (dt : K) :
    List (SolveEvent K) → InequalitySolver K d × SolveState K → Option (InequalitySolver K d × SolveState K)
  | [], es => some es
  | .warmstart :: l, es => InequalitySolver.runEvents epsilon fuel p f dt l (es.1.warmstart p f dt es.2)
  | .solve :: l, es => (es.1.solveVelocity epsilon fuel p f dt es.2).bind (InequalitySolver.runEvents epsilon fuel p f dt l)
  | .other c :: l, es => InequalitySolver.runEvents epsilon fuel p f dt l (es.1, es.2.change c)

/-- A `LimitsSolver` going through events. The `none` inside stands for an inequality loop that needs more than `fuel`
iterations. -/
def LimitsSolver.runEvents (epsilon : K) (fuel : Nat) (p : Proxies K) (f : CFun K 1) (dt : K) :
    List (SolveEvent K) → LimitsSolver K × SolveState K → Outcome (Option (LimitsSolver K × SolveState K))
  | [], es => .ok (some es)
  | .warmstart :: l, es => LimitsSolver.runEvents epsilon fuel p f dt l (es.1.warmstart p f dt es.2)
  | .solve :: l, es => (es.1.solveVelocity epsilon fuel p f dt es.2).bind fun r =>
      match r with
      | none => .ok none
      | some es => LimitsSolver.runEvents epsilon fuel p f dt l es
  | .other c :: l, es => LimitsSolver.runEvents epsilon fuel p f dt l (es.1, es.2.change c)

/-- Sign with which the multiplier of a limit acts: upper limits pull. -/
def Func.sign : Func → K
  | .upper => -1
  | _ => 1

/-- Everything that can happen to a `LimitsSolver` over any number of steps, with arbitrary states of the bodies: the
solver that results. Calls that throw end the history. -/
inductive LimitsSolver.Reachable [Trig K] (sqrt : K → K) (epsilon : K) (fuel : Nat) (f : CFun K 1) :
    LimitsSolver K → Prop
  | make : Reachable sqrt epsilon fuel f LimitsSolver.make
  | setLower {e} (l) : Reachable sqrt epsilon fuel f e → Reachable sqrt epsilon fuel f (e.setLowerLimit l).1
  | setUpper {e} (u) : Reachable sqrt epsilon fuel f e → Reachable sqrt epsilon fuel f (e.setUpperLimit u).1
  | initSolve {e e'} (p s) : Reachable sqrt epsilon fuel f e → e.initSolve sqrt p f s = .ok e' →
      Reachable sqrt epsilon fuel f e'
  | warmstart {e} (p dt s) : Reachable sqrt epsilon fuel f e → Reachable sqrt epsilon fuel f (e.warmstart p f dt s).1
  | solveVelocity {e e' s'} (p dt s) : Reachable sqrt epsilon fuel f e →
      e.solveVelocity epsilon fuel p f dt s = .ok (some (e', s')) → Reachable sqrt epsilon fuel f e'
  | solvePosition {e e' s'} (p s) : Reachable sqrt epsilon fuel f e →
      e.solvePosition sqrt epsilon fuel p f s = .ok (some (e', s')) → Reachable sqrt epsilon fuel f e'

end Simu
