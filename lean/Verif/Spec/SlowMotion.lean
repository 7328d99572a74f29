import Verif.Spec.LibraryMoved
/-
The same group of bodies in two worlds, in one of which everything happens `σ` times as fast.
-/
namespace Simu
open Island

section
variable {K : Type*} [Field K]

/-- The velocity, `σ` times as large. -/
def Velocity.faster (v : Velocity K) (σ : K) : Velocity K := ⟨σ • v.linear, v.angular * σ⟩

/-- Two bodies are at the same places in two worlds, and `σ` times as fast in the second one. -/
structure SeesFaster (σ : K) (p : Proxies K) (s t : SolveState K) : Prop where
  pos0 : t.pos p.i0 = s.pos p.i0
  pos1 : t.pos p.i1 = s.pos p.i1
  vel0 : t.vel p.i0 = (s.vel p.i0).faster σ
  vel1 : t.vel p.i1 = (s.vel p.i1).faster σ

/-- The body, `σ` times as fast and otherwise the same. -/
def Body.faster (b : Body K) (σ : K) : Body K := { b with velocity := σ • b.velocity, angular := b.angular * σ }

/-- The force field that accelerates to `σ` times the velocity in a `σ`-th of the time. -/
def ForceField.faster (f : ForceField K) (σ : K) : ForceField K :=
  match f with
  | .linear force region => .linear (σ ^ 2 • force) region
  | .gravity a => .gravity (σ ^ 2 • a)

/-- The settings that let bodies fall asleep a `σ`-th of the time after they got slower than `σ` times the velocity. -/
def Sleep.Settings.faster (s : Sleep.Settings K) (σ : K) : Sleep.Settings K :=
  ⟨s.enableSleeping, s.velocitySleepThreshold * σ, s.angularVelocitySleepThreshold * σ, s.inactivitySleepDelay / σ⟩

/-- The calls for a step that takes a `σ`-th of the time. -/
def CallCfg.faster (c : CallCfg K) (σ : K) : CallCfg K := { c with dt := c.dt / σ }

/-- The state of a constraint between faster bodies: impulses are larger. -/
def SolverBase.faster {n : Nat} (b : SolverBase K n) (σ : K) : SolverBase K n := { b with lambda := b.lambda.smul σ, previousLambda := b.previousLambda.smul σ }

/-- The solver that gives `σ` times what the given one gives for a `σ`-th of the right hand side. For a solver made from a matrix it is the same solver. -/
def KSolver.faster {n : Nat} (s : KSolver K n) (σ : K) : KSolver K n := ⟨s.isValid, fun b => (s.solve (b.sdiv σ)).bind fun x => .ok (x.smul σ)⟩

/-- The state of an equality between faster bodies. -/
def EqualitySolver.faster {n : Nat} (e : EqualitySolver K n) (σ : K) : EqualitySolver K n := ⟨e.base.faster σ, e.solver.faster σ⟩

/-- The state of an inequality between faster bodies. -/
def InequalitySolver.faster {n : Nat} (e : InequalitySolver K n) (σ : K) : InequalitySolver K n := ⟨e.base.faster σ, e.effectiveMass⟩

/-- The members of the union, for faster bodies. -/
def LimitsUnion.faster (d : LimitsUnion K) (σ : K) : LimitsUnion K :=
  match d with
  | .effectiveMass M => .effectiveMass M
  | .solver s => .solver (s.faster σ)

/-- The state of a constraint with limits between faster bodies. -/
def LimitsSolver.faster (e : LimitsSolver K) (σ : K) : LimitsSolver K := { e with base := e.base.faster σ, data := e.data.faster σ }

/-- The state of a contact between faster bodies: impulses are larger. -/
def Contact.faster (e : Contact K) (σ : K) : Contact K :=
  { e with tangentLambda := e.tangentLambda.smul σ, previousTangentLambda := e.previousTangentLambda.smul σ, normalLambda := e.normalLambda.smul σ, previousNormalLambda := e.previousNormalLambda.smul σ, bounce := e.bounce.smul σ }

/-- Two constraint functions of which the second one has the same values and wants `σ` times the velocity (the bias of a motor), and bounds impulses to `σ` times as much in a `σ`-th of the time. -/
structure CFun.Faster {n : Nat} (σ : K) (f f' : CFun K n) : Prop where
  eval : ∀ p s t, SeesFaster σ p s t → f'.eval p t = f.eval p s
  bias : ∀ p s t, SeesFaster σ p s t → f'.bias p t = (f.bias p s).smul σ
  jacobian : ∀ p s t, SeesFaster σ p s t → f'.jacobian p t = f.jacobian p s
  clampLambda : ∀ l dt, f'.clampLambda (l.smul σ) (dt / σ) = (f.clampLambda l dt).smul σ
  clampPositionLambda : ∀ l, f'.clampPositionLambda l = f.clampPositionLambda l

/-- The two constraints are of the same class with such functions, and in the same state but for the size of the impulses. Inequalities have one dimension: with more of them the number of iterations depends on the size
of the impulses (`C101_inequalities_disagreement`). Contacts do not bounce: whether one does depends on the unit of velocities (`C101_bounce_disagreement`). -/
inductive Kind.Faster (σ : K) : (Σ k : Kind K, k.State) → (Σ k : Kind K, k.State) → Prop
  | equality {n : Nat} {f f' : CFun K n} (h : f.Faster σ f') (e : EqualitySolver K n) : Kind.Faster σ ⟨.equality n f, e⟩ ⟨.equality n f', e.faster σ⟩
  | inequality {f f' : CFun K 1} (h : f.Faster σ f') (e : InequalitySolver K 1) : Kind.Faster σ ⟨.inequality 1 f, e⟩ ⟨.inequality 1 f', e.faster σ⟩
  | limits {f f' : CFun K 1} (h : f.Faster σ f') (e : LimitsSolver K) : Kind.Faster σ ⟨.limits f, e⟩ ⟨.limits f', e.faster σ⟩
  | mouse {f f' : CFun K 2} (h : f.Faster σ f') (e : EqualitySolver K 2) : Kind.Faster σ ⟨.mouse f, e⟩ ⟨.mouse f', e.faster σ⟩
  | contact (e : Contact K) (h : e.restitution = 0) : Kind.Faster σ ⟨.contact, e⟩ ⟨.contact, e.faster σ⟩

end

section
variable {K : Type*} [Field K] [LinearOrder K] [IsStrictOrderedRing K] [Trig K]

/-- A group and its constraints are in the same state in two worlds, but for the velocities, the clocks and the impulses. -/
structure AsFast (σ : K) (group : Finset Nat) (own : Link → Prop) (S S' : Snapshot K) : Prop where
  bodies : ∀ b ∈ group, S'.body b = (S.body b).faster σ
  clocks : ∀ b ∈ group, S'.timeImmobile b = S.timeImmobile b / σ
  links : ∀ l, own l → Kind.Faster σ (S.link l) (S'.link l)

/-- Before a step the same group of bodies, awake, is in two worlds, of which the rest may differ. Its bodies come in the same order and their colliders in the trees too; those that are not anchored list the same
constraints between bodies of the group, in the same order, and no active constraint (as `A` and `A'` tell) to other bodies. -/
structure Timed {L L' : Library K} (c c' : CallCfg K) (A A' : Link → Bool) (tree tree' : List (Nat × Collider K)) (world world' : List Nat) (group : Finset Nat) (m : Motion L) (m' : Motion L') : Prop where
  wellFormed : WellFormed (L.net c) world
  wellFormed' : WellFormed (L'.net c') world'
  made : L.MadeFor m.body
  made' : L'.MadeFor m'.body
  inside : ∀ b ∈ group, b ∈ world ∧ b ∈ world'
  awake : ∀ b ∈ group, (m.body b).asleep = false
  order : world.filter (· ∈ group) = world'.filter (· ∈ group)
  colliders : tree'.filter (·.1 ∈ group) = tree.filter (·.1 ∈ group)
  solid : ∀ b ∈ group, (∀ l ∈ linksOf (L.net c) b, (L.net c).structuralIn l b = true) ↔ ∀ l ∈ linksOf (L'.net c') b, (L'.net c').structuralIn l b = true
  enclosed : ∀ b ∈ group, ¬ Anchored c m b → ∀ l ∈ linksOf (L.net c) b, A l = true → (L.bodies l).i0 ∈ group ∧ (L.bodies l).i1 ∈ group
  enclosed' : ∀ b ∈ group, ¬ Anchored c' m' b → ∀ l ∈ linksOf (L'.net c') b, A' l = true → (L'.bodies l).i0 ∈ group ∧ (L'.bodies l).i1 ∈ group
  links : ∀ b ∈ group, ¬ Anchored c m b → (linksOf (L.net c) b).filter (fun l => (L.bodies l).i0 ∈ group ∧ (L.bodies l).i1 ∈ group) =
    (linksOf (L'.net c') b).filter (fun l => (L'.bodies l).i0 ∈ group ∧ (L'.bodies l).i1 ∈ group)
  masses : ∀ l, L.Own group l → L'.bodies l = L.bodies l

/-- How a constraint gets into its state before a step, in both worlds: it is left as it was (`o`), or given in corresponding states, or is a contact that does not bounce, between colliders at the same places of the
same bodies of the group, that is made anew (World.cpp:109-123) or updated (Constraint.hpp:209). -/
inductive ReadiedFaster (sqrt : K → K) (penetration : List (Vec2 K) → List (Vec2 K) → Vec2 K → Outcome (Vec2 K)) (σ : K) (group : Finset Nat) (B B' : Nat → Body K) :
    Option ((Σ k : Kind K, k.State) × Σ k : Kind K, k.State) → (Σ k : Kind K, k.State) → (Σ k : Kind K, k.State) → Prop
  | kept (x y : Σ k : Kind K, k.State) : ReadiedFaster sqrt penetration σ group B B' (some (x, y)) x y
  | given (o : Option ((Σ k : Kind K, k.State) × Σ k : Kind K, k.State)) {x y : Σ k : Kind K, k.State} (h : Kind.Faster σ x y) : ReadiedFaster sqrt penetration σ group B B' o x y
  | made (o : Option ((Σ k : Kind K, k.State) × Σ k : Kind K, k.State)) (bodies cols : Fin 2 → Nat) {colliders colliders' : Fin 2 → Collider K} (inGroup : ∀ i, bodies i ∈ group)
      (collider : ∀ i, (B (bodies i)).colliders.list[cols i]? = some (colliders i)) (collider' : ∀ i, (B' (bodies i)).colliders.list[cols i]? = some (colliders' i)) {e e' : Contact K}
      (h : Contact.make sqrt penetration (colliders 0).material (colliders 1).material (fun i => ⟨(colliders i).geom, (B (bodies i)).position⟩) = .ok e)
      (h' : Contact.make sqrt penetration (colliders' 0).material (colliders' 1).material (fun i => ⟨(colliders' i).geom, (B' (bodies i)).position⟩) = .ok e')
      (dead : e.restitution = 0) : ReadiedFaster sqrt penetration σ group B B' o ⟨.contact, e⟩ ⟨.contact, e'⟩
  | updated {e e' e1 e1' : Contact K} (bodies cols : Fin 2 → Nat) {sides sides' : Fin 2 → Side K} (inGroup : ∀ i, bodies i ∈ group)
      (side : ∀ i, (B (bodies i)).side (cols i) = some (sides i)) (side' : ∀ i, (B' (bodies i)).side (cols i) = some (sides' i))
      (h : e.updateContacts sqrt penetration sides = .ok e1) (h' : e'.updateContacts sqrt penetration sides' = .ok e1') :
      ReadiedFaster sqrt penetration σ group B B' (some (⟨.contact, e⟩, ⟨.contact, e'⟩)) ⟨.contact, e1⟩ ⟨.contact, e1'⟩

/-- `n` steps of two worlds, from the snapshots `S0`, `S0'` to `S`, `S'`, each of which takes a `σ`-th of the time in the second world: before each step the bodies of the group are as the last step left them and its
constraints are readied; the force fields of the second world pull more. Everything else may be changed at will between the steps. -/
inductive InTempo (sqrt : K → K) (penetration : List (Vec2 K) → List (Vec2 K) → Vec2 K → Outcome (Vec2 K)) (σ : K) (group : Finset Nat) :
    Nat → (Link → Prop) → Snapshot K → Snapshot K → (Link → Prop) → Snapshot K → Snapshot K → Prop
  | start (own : Link → Prop) (S S' : Snapshot K) : InTempo sqrt penetration σ group 0 own S S' own S S'
  | step {n : Nat} {own0 own : Link → Prop} {S0 S0' S S' : Snapshot K} (before : InTempo sqrt penetration σ group n own0 S0 S0' own S S') {L L' : Library K} {m m1 : Motion L}
      {m' m1' : Motion L'} {c : CallCfg K} {cfg : Island.Settings} {sl : Sleep.Settings K} {fields : List (ForceField K)} {tree tree' : List (Nat × Collider K)} {world world' : List Nat}
      {fuel fuel' : Nat} {A A' : Link → Bool} {log log' : List Record} {evals evals' : List (Link × Bool)} (lawful : ∀ x, 0 ≤ x → c.sqrt x * c.sqrt x = x)
      (kept : ∀ b ∈ group, m.body b = S.body b ∧ m.timeImmobile b = S.timeImmobile b) (kept' : ∀ b ∈ group, m'.body b = S'.body b ∧ m'.timeImmobile b = S'.timeImmobile b)
      (readied : ∀ l, L.Own group l → ∃ o, (∀ x, o = some x → own l ∧ x = (S.link l, S'.link l)) ∧
        ReadiedFaster sqrt penetration σ group m.body m'.body o (m.snapshot.link l) (m'.snapshot.link l))
      (timed : Timed c (c.faster σ) A A' tree tree' world world' group m m')
      (stepped : m.step c cfg sl fields tree world fuel = some (.ok (m1, log, evals)))
      (stepped' : m'.step (c.faster σ) cfg (sl.faster σ) (fields.map (·.faster σ)) tree' world' fuel' = some (.ok (m1', log', evals')))
      (active : ∀ e ∈ evals, e.2 = A e.1) (active' : ∀ e ∈ evals', e.2 = A' e.1) :
      InTempo sqrt penetration σ group (n + 1) own0 S0 S0' (L.Own group) m1.snapshot m1'.snapshot

end

end Simu
