import Verif.Spec.Motion
import Verif.Spec.LibraryStill
/-
Groups of bodies at rest.
-/
namespace Simu
open Island Finset
variable {K : Type*} [Field K] [LinearOrder K] [IsStrictOrderedRing K] [Trig K]

/-- The bodies of the group do not move and their active constraints (as `A` tells) are satisfied. -/
structure AtRest {L : Library K} (c : CallCfg K) (A : Link → Bool) (group : Finset Nat) (m : Motion L) : Prop where
  velocity : ∀ b ∈ group, (m.body b).velocity = 0 ∧ (m.body b).angular = 0
  orient : ∀ b ∈ group, (m.body b).position.orient.WF
  satisfied : ∀ b ∈ group, ∀ l ∈ linksOf (L.net c) b, A l = true → L.Satisfied (fun b => Pose.of (m.body b).position) m.s l

/-- In this step nothing acts on the group from outside: its active constraints are between its own bodies, no field acts on them (they are asleep, or structural, or outside of the regions
of the fields). -/
structure LeftAlone {L : Library K} (c : CallCfg K) (fields : List (ForceField K)) (tree : List (Nat × Collider K)) (world : List Nat) (A : Link → Bool) (group : Finset Nat)
    (m : Motion L) : Prop where
  sqrt : ∀ x, 0 ≤ x → c.sqrt x * c.sqrt x = x
  forward : 0 < c.dt
  wellFormed : WellFormed (L.net c) world
  made : L.MadeFor m.body
  inside : ∀ b ∈ group, b ∈ world
  isolated : Isolated (L.net c) A group
  unforced : ∀ b ∈ group, (m.body b).asleep = true ∨ (m.body b).dominance = 0 ∨ ∀ f ∈ fields, ∀ e ∈ tree, e.1 = b → inRegion f.region e = false

/-- `n` steps of duration `dt` in which the group and its constraints are left alone, also between the steps. Everything else may change. -/
inductive Undisturbed {L : Library K} (A : Link → Bool) (group : Finset Nat) (dt : K) (sl : Sleep.Settings K) : Nat → Motion L → Motion L → Prop
  | start (m : Motion L) : Undisturbed A group dt sl 0 m m
  | step {n : Nat} {m0 m1 : Motion L} (before : Undisturbed A group dt sl n m0 m1) {m m' : Motion L} {c : CallCfg K} {cfg : Island.Settings}
      {fields : List (ForceField K)} {tree : List (Nat × Collider K)} {world : List Nat} {fuel : Nat} {log : List Record} {evals : List (Link × Bool)} (duration : c.dt = dt)
      (same : ∀ b ∈ group, m.body b = m1.body b ∧ m.timeImmobile b = m1.timeImmobile b) (states : ∀ b ∈ group, ∀ l ∈ linksOf (L.net c) b, m.s l = m1.s l)
      (alone : LeftAlone c fields tree world A group m)
      (stepped : m.step c cfg sl fields tree world fuel = some (.ok (m', log, evals))) (active : ∀ e ∈ evals, e.2 = A e.1) : Undisturbed A group dt sl (n + 1) m0 m'

end Simu
