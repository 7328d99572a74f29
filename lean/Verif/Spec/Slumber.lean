import Verif.Spec.Standing
/-
Structures that sleep in equilibrium.
-/
namespace Simu
open Island Mat
variable {K : Type*} [Field K] [LinearOrder K] [Trig K]

/-- The group does not move and sleeps, and its active constraints have nothing to correct; they remember any impulses. -/
structure Dormant {L : Library K} (c : CallCfg K) (A : Link → Bool) (group : Finset Nat) (m : Motion L) : Prop where
  velocity : ∀ b ∈ group, (m.body b).velocity = 0 ∧ (m.body b).angular = 0
  orient : ∀ b ∈ group, (m.body b).position.orient.WF
  carrying : ∀ b ∈ group, ¬ L.Propped c (fun _ => ⟨0, 0⟩) b → ∀ l ∈ linksOf (L.net c) b, A l = true →
    ∃ Q : Link → Six K, L.Carrying c (fun b => Pose.of (m.body b).position) (fun _ => ⟨0, 0⟩) Q m.s l

/-- In this step the group sleeps, and its active constraints are between its own bodies. There may be any forces. -/
structure Sleeping [IsStrictOrderedRing K] {L : Library K} (c : CallCfg K) (world : List Nat) (A : Link → Bool) (group : Finset Nat) (m : Motion L) : Prop where
  sqrt : ∀ x, 0 ≤ x → c.sqrt x * c.sqrt x = x
  epsilon : 0 ≤ c.epsilon
  fuel : 1 ≤ c.fuel
  wellFormed : WellFormed (L.net c) world
  made : L.MadeFor m.body
  inside : ∀ b ∈ group, b ∈ world
  asleep : ∀ b ∈ group, (m.body b).asleep = true
  enclosed : ∀ b ∈ group, ¬ L.Propped c (fun _ => ⟨0, 0⟩) b → ∀ l ∈ linksOf (L.net c) b, A l = true → (L.bodies l).i0 ∈ group ∧ (L.bodies l).i1 ∈ group

/-- `n` steps without warm starting during which the group sleeps and nothing happens to it and its constraints between them. Everything else may change. -/
inductive Slumber [IsStrictOrderedRing K] {L : Library K} (c : CallCfg K) (A : Link → Bool) (group : Finset Nat) : Nat → Motion L → Motion L → Prop
  | start (m : Motion L) : Slumber c A group 0 m m
  | step {n : Nat} {m0 m1 : Motion L} (before : Slumber c A group n m0 m1) {m m' : Motion L} {cfg : Island.Settings} {sl : Sleep.Settings K}
      {fields : List (ForceField K)} {tree : List (Nat × Collider K)} {world : List Nat} {fuel : Nat} {log : List Record} {evals : List (Link × Bool)}
      (cold : cfg.enableWarmstarting = false) (same : ∀ b ∈ group, m.body b = m1.body b)
      (states : ∀ b ∈ group, ∀ l ∈ linksOf (L.net c) b, m.s l = m1.s l) (sleeping : Sleeping c world A group m)
      (stepped : m.step c cfg sl fields tree world fuel = some (.ok (m', log, evals))) (active : ∀ e ∈ evals, e.2 = A e.1) : Slumber c A group (n + 1) m0 m'

end Simu
