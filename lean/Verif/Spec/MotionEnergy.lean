import Verif.Spec.Motion
import Verif.Spec.LibraryEnergy
/-
The mechanical energy of bodies in flight.
-/
namespace Simu
open Island Finset
variable {K : Type*} [Field K] [LinearOrder K] [IsStrictOrderedRing K] [Trig K]

/-- Kinetic energy plus potential energy in the field of gravity `g`. -/
def Body.mechanical (b : Body K) (g : Vec2 K) : K := b.energy ⟨b.velocity, b.angular⟩ / 2 - b.mass * Vec2.dot g b.centroid

/-- Besides `Launched`: no warmstarting, and the active constraints of the group only resist. The square root of the solvers is exact; 2 iterations suffice for the loops of those
constraints. -/
structure Calmly {L : Library K} (c : CallCfg K) (cfg : Island.Settings) (A : Link → Bool) (group : Finset Nat) (m : Motion L) : Prop where
  cold : cfg.enableWarmstarting = false
  sqrt : ∀ x, 0 ≤ x → c.sqrt x * c.sqrt x = x
  epsilon : 0 ≤ c.epsilon
  fuel : 2 ≤ c.fuel
  resists : ∀ b ∈ group, ∀ l ∈ linksOf (L.net c) b, A l = true → L.Resists m.body (fun _ => False) m.s l

/-- `n` steps as in `Flight`, all of them calm. -/
inductive CalmFlight (group : Finset Nat) (dt : K) (g : Vec2 K) : Nat → (Nat → Body K) → (Nat → Body K) → Prop
  | start (B : Nat → Body K) : CalmFlight group dt g 0 B B
  | step {n : Nat} {B B' : Nat → Body K} (before : CalmFlight group dt g n B B') {L : Library K} {m m' : Motion L} {c : CallCfg K} {cfg : Island.Settings} {sl : Sleep.Settings K}
      {tree : List (Nat × Collider K)} {world : List Nat} {fuel : Nat} {A : Link → Bool} {log : List Record} {evals : List (Link × Bool)} (duration : c.dt = dt)
      (same : ∀ b ∈ group, m.body b = B' b) (launched : Launched c tree world A group m) (calmly : Calmly c cfg A group m)
      (stepped : m.step c cfg sl [.gravity g] tree world fuel = some (.ok (m', log, evals))) (active : ∀ e ∈ evals, e.2 = A e.1) : CalmFlight group dt g (n + 1) B m'.body

end Simu
