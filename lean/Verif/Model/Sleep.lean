import Verif.Model.Base
import Mathlib.Algebra.Order.Field.Basic
/-
Model of the sleeping of bodies: include/Simu/physics/Body.hpp:351, 392-412 and src/Simu/physics/World.cpp:272-284.
Only the members of `Body` that matter are kept; `float` is a linearly ordered field.
-/
namespace Simu.Sleep
variable {K : Type*} [Field K] [LinearOrder K]

/-- World.hpp:262-287: the settings used. -/
structure Settings (K : Type*) where
  enableSleeping : Bool
  velocitySleepThreshold : K
  angularVelocitySleepThreshold : K
  inactivitySleepDelay : K

/-- Body.hpp:421-422: `isAsleep_`, `timeImmobile_`, with their initial values. -/
structure Clock (K : Type*) where
  asleep : Bool
  timeImmobile : K

/-- Body.hpp:421-422: a new body. -/
def Clock.new : Clock K := ⟨false, 0⟩

/-- Body.hpp:392-396 `isImmobile`: the angular velocity is compared with its sign. -/
def isImmobile (s : Settings K) (vx vy w : K) : Bool :=
  decide (vx * vx + vy * vy < s.velocitySleepThreshold * s.velocitySleepThreshold) && decide (w < s.angularVelocitySleepThreshold)

/-- Body.hpp:398-405 `updateTimeImmobile`. -/
def updateTimeImmobile (s : Settings K) (dt vx vy w : K) (c : Clock K) : Clock K :=
  { c with timeImmobile := if isImmobile s vx vy w then c.timeImmobile + dt else 0 }

/-- Body.hpp:407-410 `canSleep`. -/
def canSleep (s : Settings K) (c : Clock K) : Bool := decide (s.inactivitySleepDelay ≤ c.timeImmobile)

/-- Body.hpp:412 `sleep`. -/
def sleep (c : Clock K) : Clock K := { c with asleep := true }

/-- Body.hpp:351 `wake`. -/
def wake (c : Clock K) : Clock K := { c with asleep := false }

/-- World.cpp:272-284: the beginning of `updateBodies` for one body, whose velocities after solving are given. -/
def update (s : Settings K) (dt vx vy w : K) (c : Clock K) : Clock K :=
  if s.enableSleeping then
    let c := updateTimeImmobile s dt vx vy w c
    if canSleep s c then sleep c else c
  else c

/-- What happens to the members of a body: the end of a step, or a call of `wake` (by the user, by a new constraint or contact, or by its island). -/
inductive Event (K : Type*) where
  | step (s : Settings K) (dt vx vy w : K)
  | wake

/-- One event. -/
def Clock.on (c : Clock K) : Event K → Clock K
  | .step s dt vx vy w => update s dt vx vy w c
  | .wake => Sleep.wake c

/-- A history, the oldest event first. -/
def Clock.run (c : Clock K) (es : List (Event K)) : Clock K := es.foldl Clock.on c

end Simu.Sleep
