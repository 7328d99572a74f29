import Verif.Model.Motion
import Verif.Spec.Library
import Verif.Spec.IslandMomentum
import Verif.Props.BodyMotion
/-
Bodies in flight: groups of bodies that only gravity acts on from outside, over many steps.
-/
namespace Simu
open Island Finset
variable {K : Type*} [Field K] [LinearOrder K] [IsStrictOrderedRing K] [Trig K]

/-- Before a step: the group is made of awake bodies that can move, with their colliders in the tree, and its active constraints (as `A` tells) are between its own bodies, which both
react fully. The constraints were made for the masses the bodies have. Nothing is said of the other bodies. -/
structure Launched {L : Library K} (c : CallCfg K) (tree : List (Nat × Collider K)) (world : List Nat) (A : Link → Bool) (group : Finset Nat) (m : Motion L) : Prop where
  wellFormed : WellFormed (L.net c) world
  made : L.MadeFor m.body
  fit : L.Fit m.s
  inside : ∀ b ∈ group, b ∈ world
  isolated : Isolated (L.net c) A group
  fully : ∀ b ∈ group, ∀ l ∈ linksOf (L.net c) b, A l = true → L.Mutual m.body l
  awake : ∀ b ∈ group, (m.body b).asleep = false
  movable : ∀ b ∈ group, (m.body b).dominance ≠ 0
  solid : ∀ b ∈ group, ∃ ps, InWorld b tree m.body ps

/-- The tree after a step: the colliders have followed their bodies. -/
def followed (tree : List (Nat × Collider K)) (body : Nat → Body K) : List (Nat × Collider K) :=
  tree.map fun e => (e.1, { e.2 with geom := e.2.geom.update (body e.1).position.toWorldSpace.app })

/-- `n` steps of duration `dt` of a group in a field of gravity `g`. Between the steps the group is left alone; everything else (other bodies, constraints, contacts, settings)
may change. -/
inductive Flight (group : Finset Nat) (dt : K) (g : Vec2 K) : Nat → (Nat → Body K) → (Nat → Body K) → Prop
  | start (B : Nat → Body K) : Flight group dt g 0 B B
  | step {n : Nat} {B B' : Nat → Body K} (before : Flight group dt g n B B') {L : Library K} {m m' : Motion L} {c : CallCfg K} {cfg : Island.Settings} {sl : Sleep.Settings K}
      {tree : List (Nat × Collider K)} {world : List Nat} {fuel : Nat} {A : Link → Bool} {log : List Record} {evals : List (Link × Bool)} (duration : c.dt = dt)
      (same : ∀ b ∈ group, m.body b = B' b) (launched : Launched c tree world A group m)
      (stepped : m.step c cfg sl [.gravity g] tree world fuel = some (.ok (m', log, evals))) (active : ∀ e ∈ evals, e.2 = A e.1) : Flight group dt g (n + 1) B m'.body

end Simu
