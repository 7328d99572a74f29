import Verif.Spec.IslandTwin
import Verif.Model.Motion
import Verif.Spec.Library
/-
Constraints that only see their own bodies.
-/
namespace Simu
open Island
variable {K : Type*} [Field K]

/-- The bodies of a constraint are at the same positions with the same velocities in two states. -/
structure SeesSame (p : Proxies K) (s t : SolveState K) : Prop where
  pos0 : s.pos p.i0 = t.pos p.i0
  pos1 : s.pos p.i1 = t.pos p.i1
  vel0 : s.vel p.i0 = t.vel p.i0
  vel1 : s.vel p.i1 = t.vel p.i1

/-- A constraint function that only looks at its own bodies. -/
structure CFun.Local {d : Nat} (f : CFun K d) : Prop where
  eval : ∀ p s t, SeesSame p s t → f.eval p s = f.eval p t
  bias : ∀ p s t, SeesSame p s t → f.bias p s = f.bias p t
  jacobian : ∀ p s t, SeesSame p s t → f.jacobian p s = f.jacobian p t

/-- A constraint whose function only looks at its own bodies. -/
def Kind.Local : Kind K → Prop
  | .equality _ f => f.Local
  | .inequality _ f => f.Local
  | .limits f => f.Local
  | .mouse f => f.Local
  | .contact => True

/-- The same call in two worlds ends in the same way. -/
def SameEnd {α : Type*} (p : Proxies K) : Outcome (α × SolveState K) → Outcome (α × SolveState K) → Prop
  | .ok a, .ok b => a.1 = b.1 ∧ SeesSame p a.2 b.2
  | .throw, .throw => True
  | .ub, .ub => True
  | _, _ => False

section
variable [LinearOrder K] [IsStrictOrderedRing K] [Trig K]

/-- A body that no constraint and no field can move: it is at rest, and structural for itself and for all its constraints (a ground for example). -/
def Anchored {L : Library K} (c : CallCfg K) (m : Motion L) (b : Nat) : Prop := Fixed (L.net c) m.start b ∧ (m.body b).dominance = 0

/-- A constraint or contact between two bodies of the group. -/
def Library.Own (L : Library K) (group : Finset Nat) (l : Link) : Prop :=
  (∃ b ∈ group, l ∈ linksOf (L.net ⟨0, id, 0, 0⟩) b) ∧ (L.bodies l).i0 ∈ group ∧ (L.bodies l).i1 ∈ group

/-- What the steps leave: the bodies, how long they have been immobile, the constraints and contacts with their states. -/
structure Snapshot (K : Type*) where
  body : Nat → Body K
  timeImmobile : Nat → K
  link : Link → Σ k : Kind K, k.State

/-- What there is of a world. -/
def Motion.snapshot {L : Library K} (m : Motion L) : Snapshot K := ⟨m.body, m.timeImmobile, fun l => ⟨L.kind l, m.s l⟩⟩

/-- A group and its constraints are in the same state in two worlds. -/
structure Agree (group : Finset Nat) (own : Link → Prop) (S S' : Snapshot K) : Prop where
  bodies : ∀ b ∈ group, S.body b = S'.body b ∧ S.timeImmobile b = S'.timeImmobile b
  links : ∀ l, own l → S.link l = S'.link l

/-- Before a step the same group of bodies is in two worlds, of which the rest may differ. Its bodies come in the same order and have the same colliders in the trees; those that are not
anchored list the same constraints between bodies of the group, in the same order, and no active constraint (as `A` and `A'` tell) to other bodies. -/
structure Alongside {L L' : Library K} (c : CallCfg K) (A A' : Link → Bool) (tree tree' : List (Nat × Collider K)) (world world' : List Nat) (group : Finset Nat) (m : Motion L)
    (m' : Motion L') : Prop where
  wellFormed : WellFormed (L.net c) world
  wellFormed' : WellFormed (L'.net c) world'
  made : L.MadeFor m.body
  made' : L'.MadeFor m'.body
  inside : ∀ b ∈ group, b ∈ world ∧ b ∈ world'
  order : world.filter (· ∈ group) = world'.filter (· ∈ group)
  colliders : tree.filter (·.1 ∈ group) = tree'.filter (·.1 ∈ group)
  solid : ∀ b ∈ group, (∀ l ∈ linksOf (L.net c) b, (L.net c).structuralIn l b = true) ↔ ∀ l ∈ linksOf (L'.net c) b, (L'.net c).structuralIn l b = true
  enclosed : ∀ b ∈ group, ¬ Anchored c m b → ∀ l ∈ linksOf (L.net c) b, A l = true → (L.bodies l).i0 ∈ group ∧ (L.bodies l).i1 ∈ group
  enclosed' : ∀ b ∈ group, ¬ Anchored c m' b → ∀ l ∈ linksOf (L'.net c) b, A' l = true → (L'.bodies l).i0 ∈ group ∧ (L'.bodies l).i1 ∈ group
  links : ∀ b ∈ group, ¬ Anchored c m b → (linksOf (L.net c) b).filter (fun l => (L.bodies l).i0 ∈ group ∧ (L.bodies l).i1 ∈ group) =
    (linksOf (L'.net c) b).filter (fun l => (L'.bodies l).i0 ∈ group ∧ (L'.bodies l).i1 ∈ group)
  alike : ∀ l, L.Own group l → L'.bodies l = L.bodies l ∧ (L.kind l).Local

/-- Two worlds make `n` steps with the same settings, while the same group of bodies, always awake, is in both, and its constraints `own`. Between the steps the bodies of the group are left
alone, and what is done to its constraints (contacts are updated, for example) is the same in both; constraints that come to the group are the same in both. Everything else may change. -/
inductive SideBySide (group : Finset Nat) : Nat → (Link → Prop) → Snapshot K → Snapshot K → (Link → Prop) → Snapshot K → Snapshot K → Prop
  | start (own : Link → Prop) (S S' : Snapshot K) : SideBySide group 0 own S S' own S S'
  | step {n : Nat} {own0 own : Link → Prop} {S0 S0' S S' : Snapshot K} (before : SideBySide group n own0 S0 S0' own S S') {L L' : Library K} {m m1 : Motion L} {m' m1' : Motion L'}
      {c : CallCfg K} {cfg : Island.Settings} {sl : Sleep.Settings K} {fields : List (ForceField K)} {tree tree' : List (Nat × Collider K)} {world world' : List Nat}
      {fuel fuel' : Nat} {A A' : Link → Bool} {log log' : List Record} {evals evals' : List (Link × Bool)}
      (kept : ∀ b ∈ group, m.body b = S.body b ∧ m.timeImmobile b = S.timeImmobile b) (kept' : ∀ b ∈ group, m'.body b = S'.body b ∧ m'.timeImmobile b = S'.timeImmobile b)
      (treated : ∀ l, L.Own group l → m.snapshot.link l = m'.snapshot.link l ∨ (own l ∧ ∃ f : (Σ k : Kind K, k.State) → Σ k : Kind K, k.State, m.snapshot.link l = f (S.link l) ∧ m'.snapshot.link l = f (S'.link l)))
      (awake : ∀ b ∈ group, (m.body b).asleep = false) (alongside : Alongside c A A' tree tree' world world' group m m')
      (stepped : m.step c cfg sl fields tree world fuel = some (.ok (m1, log, evals))) (stepped' : m'.step c cfg sl fields tree' world' fuel' = some (.ok (m1', log', evals')))
      (active : ∀ e ∈ evals, e.2 = A e.1) (active' : ∀ e ∈ evals', e.2 = A' e.1) : SideBySide group (n + 1) own0 S0 S0' (L.Own group) m1.snapshot m1'.snapshot

end

end Simu
