import Verif.Model.Sleep
import Mathlib.Algebra.BigOperators.Group.List.Basic
/-
When a body may sleep, in terms of the history of its steps.
-/
namespace Simu.Sleep
variable {K : Type*} [Field K] [LinearOrder K]

/-- The time during which the event tests a body for sleeping. -/
def Event.time : Event K → K
  | .step s dt _ _ _ => if s.enableSleeping then dt else 0
  | .wake => 0

/-- The event is not a step (with sleeping enabled) at the end of which the body is faster than the thresholds; the angular velocity counts
with its sign. -/
def Event.Slow : Event K → Prop
  | .step s _ vx vy w => s.enableSleeping = true →
      vx * vx + vy * vy < s.velocitySleepThreshold * s.velocitySleepThreshold ∧ w < s.angularVelocitySleepThreshold
  | .wake => True

/-- As `Slow`, with the absolute value of the angular velocity. -/
def Event.Still : Event K → Prop
  | .step s _ vx vy w => s.enableSleeping = true →
      vx * vx + vy * vy < s.velocitySleepThreshold * s.velocitySleepThreshold ∧ |w| < s.angularVelocitySleepThreshold
  | .wake => True

/-- The total time. -/
def duration (es : List (Event K)) : K := (es.map Event.time).sum

end Simu.Sleep
