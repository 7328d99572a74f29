import Verif.Model.Library
import Verif.Model.Sleep
/-
Model of what `World::step` does to the bodies (src/Simu/physics/World.cpp:76-94 for a positive time step): forces, constraints and integration, sleeping.
The creation and removal of contacts is the subject of Model/World.lean: here the constraints and contacts of the world (a `Library`) are those of the step.
-/
namespace Simu
open Island
variable {K : Type*} [Field K] [LinearOrder K] [Trig K]

/-- What a step moves: the bodies (Body.hpp:415-428), their `timeImmobile_` and the states of the constraints. -/
structure Motion (L : Library K) where
  body : Nat → Body K
  timeImmobile : Nat → K
  s : (l : Link) → (L.kind l).State

/-- The members of the bodies that `solveIslands` reads; between steps no body has an index (Body.hpp:428) and no constraint has proxies (Bodies.hpp:259). -/
def Motion.start {L : Library K} (m : Motion L) : St (Pose K) (Velocity K) ((l : Link) → (L.kind l).State) where
  body b := ⟨.of (m.body b).position, ⟨(m.body b).velocity, (m.body b).angular⟩, (m.body b).asleep, none⟩
  proxies _ := none
  s := m.s
  evals := []
  moved := []

/-- Island.hpp:166-172: a body after `endSolve`: its position and velocity are changed and its colliders updated. -/
def Body.settle (b : Body K) (x : BodyState (Pose K) (Velocity K)) : Body K :=
  { b with position := x.pos.1, velocity := x.vel.linear, angular := x.vel.angular, asleep := x.asleep }.update

/-- World.cpp:270-284: the beginning of `updateBodies` for a body. -/
def Body.rest (b : Body K) (sl : Sleep.Settings K) (dt t : K) : Body K × K :=
  let clock := Sleep.update sl dt b.velocity.x b.velocity.y b.angular ⟨b.asleep, t⟩
  ({ b with asleep := clock.asleep }, clock.timeImmobile)

/-- World.cpp:76-94: the bodies `world` of the world during a step of duration `c.dt`, for force fields `fields` and a collider tree whose elements are `tree`. Also gives the
islands and the answers of the constraints asked whether they are active. -/
def Motion.step {L : Library K} [IsStrictOrderedRing K] (c : CallCfg K) (cfg : Island.Settings) (sl : Sleep.Settings K) (fields : List (ForceField K)) (tree : List (Nat × Collider K))
    (world : List Nat) (fuel : Nat) (m : Motion L) : Option (Outcome (Motion L × List Record × List (Link × Bool))) :=
  match applyForces fields c.dt tree m.body with
  | .throw => some .throw
  | .ub => some .ub
  | .ok body =>
    let m := { m with body := body }
    match solveIslands (L.net c) cfg fuel (.of (body 0).position) ⟨0, 0⟩ world m.start with
    | none => none
    | some .throw => some .throw
    | some .ub => some .ub
    | some (.ok (st, log)) =>
      let after := fun b => if b ∈ world then ((m.body b).settle (st.body b)).rest sl c.dt (m.timeImmobile b) else (m.body b, m.timeImmobile b)
      some (.ok (⟨fun b => (after b).1, fun b => (after b).2, st.s⟩, log, st.evals))

end Simu
