import Verif.Model.Motion
/-
The same joints with their two bodies named in the other order.
-/
namespace Simu
open Island

section
variable {K : Type*} [Field K]

/-- The inverse masses of two bodies named in the other order. -/
def InvMasses.swap (m : InvMasses K) : InvMasses K := ⟨m.m1, m.I1, m.m0, m.I0⟩

/-- The two bodies of a constraint in the other order, while solving. -/
def Proxies.swap (p : Proxies K) : Proxies K := ⟨p.i1, p.i0, p.masses.swap⟩

/-- The two bodies of a constraint in the other order. -/
def Bodies.swap (b : Bodies K) : Bodies K := ⟨b.i1, b.i0, b.masses.swap⟩

/-- The place of a column that belongs to a body when the two bodies change places. -/
def otherSide (j : Fin 6) : Fin 6 := ![3, 4, 5, 0, 1, 2] j

/-- The columns of a Jacobian for the two bodies in the other order. -/
def Mat.swapSides {n : Nat} (J : Mat K n 6) : Mat K n 6 := ⟨fun k => J.get ⟨k.val / 6, by have := k.isLt; omega⟩ (otherSide ⟨k.val % 6, by omega⟩)⟩

/-- The function with its values multiplied by `σ` (1 or -1: a difference changes sign, a distance does not) for the two bodies in the other order. -/
def CFun.reverse {n : Nat} (σ : K) (f : CFun K n) : CFun K n where
  eval p s := (f.eval p.swap s).smul σ
  bias p s := (f.bias p.swap s).smul σ
  jacobian p s := (f.jacobian p.swap s).swapSides.smul σ
  clampLambda l dt := (f.clampLambda (l.smul σ) dt).smul σ
  clampPositionLambda l := (f.clampPositionLambda (l.smul σ)).smul σ

/-- What a solver remembers, for the two bodies in the other order. -/
def SolverBase.reverse {n : Nat} (σ : K) (b : SolverBase K n) : SolverBase K n :=
  { b with lambda := b.lambda.smul σ, previousLambda := b.previousLambda.smul σ, J := b.J.swapSides.smul σ }

/-- The solver that is asked about `σ` times the right hand side. -/
def KSolver.reverse {n : Nat} (σ : K) (s : KSolver K n) : KSolver K n := ⟨s.isValid, fun b => (s.solve (b.smul σ)).bind fun x => .ok (x.smul σ)⟩

/-- The state of an equality for the two bodies in the other order. -/
def EqualitySolver.reverse {n : Nat} (e : EqualitySolver K n) : EqualitySolver K n := ⟨e.base.reverse (-1), e.solver.reverse (-1)⟩

/-- The state of an inequality for the two bodies in the other order. -/
def InequalitySolver.reverse {n : Nat} (e : InequalitySolver K n) : InequalitySolver K n := ⟨e.base.reverse 1, e.effectiveMass⟩

/-- The state of a constraint with limits for the two bodies in the other order. -/
def LimitsSolver.reverse (e : LimitsSolver K) : LimitsSolver K := { e with base := e.base.reverse 1 }

end

section
variable {K : Type*} [Field K] [LinearOrder K]

/-- The constraint with its two bodies in the other order; constraints on one body and contacts stay as they are. -/
def Kind.reverse : Kind K → Kind K
  | .equality d f => .equality d (f.reverse (-1))
  | .inequality d f => .inequality d (f.reverse 1)
  | .limits f => .limits (f.reverse 1)
  | .mouse f => .mouse f
  | .contact => .contact

/-- Its state. -/
def Kind.reverseState : (k : Kind K) → k.State → k.reverse.State
  | .equality _ _, e => EqualitySolver.reverse e
  | .inequality _ _, e => InequalitySolver.reverse e
  | .limits _, e => LimitsSolver.reverse e
  | .mouse _, e => e
  | .contact, e => e

/-- The constraints that can be reversed: those between two bodies. -/
def Kind.Joint : Kind K → Prop
  | .equality _ _ => True
  | .inequality _ _ => True
  | .limits f => ∀ p p' s s', p'.masses = p.masses → s'.pos p'.i0 = s.pos p.i0 → s'.pos p'.i1 = s.pos p.i1 → f.eval p' s' = f.eval p s
  | .mouse _ => False
  | .contact => False

/-- Reversed or not. -/
def Kind.reverseIf (k : Kind K) : Bool → Kind K
  | true => k.reverse
  | false => k

/-- Its state. -/
def Kind.reverseStateIf (k : Kind K) : (b : Bool) → k.State → (k.reverseIf b).State
  | true => k.reverseState
  | false => id

/-- The bodies of a constraint, reversed or not. -/
def Bodies.swapIf (b : Bodies K) : Bool → Bodies K
  | true => b.swap
  | false => b

/-- The joints to reverse among all constraints. -/
def amongJoints (J : Nat → Bool) : Link → Bool
  | .joint n => J n
  | .contact _ => false

/-- The network in which the joints of `J` were made with their two bodies in the other order. -/
def Library.reverse (L : Library K) (J : Nat → Bool) : Library K where
  kind l := (L.kind l).reverseIf (amongJoints J l)
  bodies l := (L.bodies l).swapIf (amongJoints J l)
  joints := L.joints
  contacts := L.contacts

/-- The same bodies, with the joints of `J` reversed. -/
def Motion.reverse {L : Library K} (m : Motion L) (J : Nat → Bool) : Motion (L.reverse J) where
  body := m.body
  timeImmobile := m.timeImmobile
  s l := (L.kind l).reverseStateIf (amongJoints J l) (m.s l)

/-- The joints of `J` are between two bodies, and bodies know the constraints they are in. -/
structure Library.CanReverse (L : Library K) (J : Nat → Bool) : Prop where
  joint : ∀ n, J n = true → (L.kind (.joint n)).Joint
  two : ∀ n, J n = true → (L.bodies (.joint n)).i0 ≠ (L.bodies (.joint n)).i1
  own : ∀ b, ∀ n ∈ L.joints b, b = (L.bodies (.joint n)).i0 ∨ b = (L.bodies (.joint n)).i1
  ownContact : ∀ b, ∀ n ∈ L.contacts b, b = (L.bodies (.contact n)).i0 ∨ b = (L.bodies (.contact n)).i1

/-- A step, and what happens before it: the bodies and their clocks are changed in any way (`edit`), and so are the contacts (`touch`). -/
structure Round (L : Library K) where
  c : CallCfg K
  cfg : Island.Settings
  sl : Sleep.Settings K
  fields : List (ForceField K)
  tree : List (Nat × Collider K)
  world : List Nat
  fuel : Nat
  edit : (Nat → Body K) × (Nat → K) → (Nat → Body K) × (Nat → K)
  touch : (Nat → Body K) → ((n : Nat) → (L.kind (.contact n)).State) → (n : Nat) → (L.kind (.contact n)).State

/-- The same round for reversed joints. -/
def Round.reverse {L : Library K} (r : Round L) (J : Nat → Bool) : Round (L.reverse J) :=
  ⟨r.c, r.cfg, r.sl, r.fields, r.tree, r.world, r.fuel, r.edit, r.touch⟩

/-- What a round does before its step. -/
def Motion.ready {L : Library K} (m : Motion L) (r : Round L) : Motion L where
  body := (r.edit (m.body, m.timeImmobile)).1
  timeImmobile := (r.edit (m.body, m.timeImmobile)).2
  s l := match l with
    | .joint n => m.s (.joint n)
    | .contact n => r.touch (r.edit (m.body, m.timeImmobile)).1 (fun n => m.s (.contact n)) n

/-- Any number of rounds; `none`: a loop is still running, a failed step ends the run. -/
def Motion.rounds {L : Library K} [IsStrictOrderedRing K] [Trig K] : List (Round L) → Motion L → Option (Outcome (Motion L))
  | [], m => some (.ok m)
  | r :: rs, m =>
    match (m.ready r).step r.c r.cfg r.sl r.fields r.tree r.world r.fuel with
    | none => none
    | some .throw => some .throw
    | some .ub => some .ub
    | some (.ok x) => Motion.rounds rs x.1

end
end Simu
