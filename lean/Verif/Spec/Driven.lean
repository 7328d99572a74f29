import Verif.Spec.LibraryStill
import Verif.Spec.Motion
import Verif.Props.Equality
/-
Bodies that nothing pushes, turned by a motor.
-/
namespace Simu
open Island Mat
variable {K : Type*} [Field K] [LinearOrder K] [IsStrictOrderedRing K] [Trig K]

/-- The constraint is the rotation motor `mo`, without damping. It may remember any impulse. -/
def Kind.Drives (mo : Motor K 1) : (k : Kind K) → k.State → Prop
  | .equality 1 f, e => f = rotationMotor mo ∧ (e : EqualitySolver K 1).base.damping = Mat.zero
  | _, _ => False

/-- The speed of a motor. -/
def Motor.speed (mo : Motor K 1) : K := mo.maxVelocity * mo.direction.at_ 0

/-- The body `b` of dominance zero is turned by the motor `l`, which is made for it alone; it has inertia. It is not moved by its other constraints and contacts (those with bodies whose dominance is
not zero). -/
structure Driven {L : Library K} (c : CallCfg K) (world : List Nat) (A : Link → Bool) (mo : Motor K 1) (b : Nat) (l : Link) (m : Motion L) : Prop where
  sqrt : ∀ x, 0 ≤ x → c.sqrt x * c.sqrt x = x
  wellFormed : WellFormed (L.net c) world
  made : L.MadeFor m.body
  inside : b ∈ world
  orient : (m.body b).position.orient.WF
  dominance : (m.body b).dominance = 0
  inertia : 0 < (m.body b).inertia
  single : L.bodies l = Bodies.singleBody m.body b
  listed : l ∈ linksOf (L.net c) b
  motor : (L.kind l).Drives mo (m.s l)
  active : A l = true
  others : ∀ k ∈ linksOf (L.net c) b, k ≠ l → (L.net c).structuralIn k b = true

/-- The body before and after `n` steps with the motor `mo`. Nothing happens to the body between the steps; everything else may change, also the constraints and contacts. -/
inductive Turned (c : CallCfg K) (mo : Motor K 1) : Nat → Body K → Body K → Prop
  | start (x : Body K) : Turned c mo 0 x x
  | step {n : Nat} {x : Body K} {L : Library K} {m m' : Motion L} {b : Nat} {l : Link} {A : Link → Bool} {cfg : Island.Settings} {sl : Sleep.Settings K} {fields : List (ForceField K)}
      {tree : List (Nat × Collider K)} {world : List Nat} {fuel : Nat} {log : List Record} {evals : List (Link × Bool)} (before : Turned c mo n x (m.body b)) (iterations : 1 ≤ cfg.nVelocityIterations)
      (driven : Driven c world A mo b l m) (stepped : m.step c cfg sl fields tree world fuel = some (.ok (m', log, evals))) (active : ∀ e ∈ evals, e.2 = A e.1) : Turned c mo (n + 1) x (m'.body b)

end Simu
