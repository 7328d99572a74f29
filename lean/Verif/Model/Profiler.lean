import Mathlib.Algebra.Field.Defs
import Mathlib.Order.Defs.LinearOrder
import Verif.Model.Base
/-
Model of include/Simu/physics/Profiler.hpp (compiled with SIMU_PROFILE). The clock is a parameter. The number of measures is unbounded (it is a
64 bit integer in the code).
-/
namespace Simu

/-- Profiler.hpp:71-75: members of `TimeEntry`. -/
@[ext] structure TimeEntry (K : Type*) where
  last : K
  average : K
  max : K
  nMeasures : Nat

namespace TimeEntry
section
variable {K : Type*} [Field K] [LinearOrder K]

/-- Profiler.hpp:44, 71-75: initial values. -/
def init : TimeEntry K := ⟨0, 0, 0, 0⟩

/-- Profiler.hpp:62-69 `addMeasure`; `std::max(a, b)` is `a < b ? b : a`. -/
def addMeasure (e : TimeEntry K) (seconds : K) : TimeEntry K :=
  let total := e.average * e.nMeasures
  let n := e.nMeasures + 1
  { last := seconds
    max := if e.max < seconds then seconds else e.max
    average := (total + seconds) / n
    nMeasures := n }

/-- Profiler.hpp:56 `startPartial`. -/
def startPartial (e : TimeEntry K) : TimeEntry K := { e with last := 0 }

/-- Profiler.hpp:58 `commitPartial`. -/
def commitPartial (e : TimeEntry K) : TimeEntry K := e.addMeasure e.last

end
end TimeEntry

/-- Profiler.hpp:111-113: a timer: does it point to its entry, when was it started (not initialised by the move constructor), is it partial. -/
structure ScopedTimer (K : Type*) where
  entry : Bool
  start : Option K
  partial_ : Bool

namespace ScopedTimer
section
variable {K : Type*} [Field K] [LinearOrder K]

/-- Profiler.hpp:84-87, 120-121: `time` and `timePartial`. -/
def make (now : K) (partial_ : Bool) : ScopedTimer K := ⟨true, some now, partial_⟩

/-- Profiler.hpp:90-95: the move constructor: the new timer and what is left of the other one. `entry_` first is null, is swapped with the other one's, and is
then given the other one's (null by then). -/
def move (other : ScopedTimer K) : ScopedTimer K × ScopedTimer K :=
  let entry := false
  let (entry, otherEntry) := (other.entry, entry)
  let other := { other with entry := otherEntry }
  let entry := (fun _ : Bool => other.entry) entry
  (⟨entry, none, other.partial_⟩, other)

/-- Profiler.hpp:97-107: the destructor. Using a `start_` that was not initialised is undefined. -/
def destroy (t : ScopedTimer K) (now : K) (e : TimeEntry K) : Outcome (TimeEntry K) :=
  if t.entry then
    match t.start with
    | none => .ub
    | some start =>
      let dt := now - start
      .ok (if t.partial_ then { e with last := e.last + dt } else e.addMeasure dt)
  else .ok e

end
end ScopedTimer

namespace TimeEntry
variable {K : Type*} [Field K] [LinearOrder K]

/-- What may happen to an entry: a timer (created and destroyed at the given times), and the operations on partial measures. -/
inductive Op (K : Type*) where
  | time (start stop : K)
  | startPartial
  | timePartial (start stop : K)
  | commitPartial

/-- Effect of an operation: the functions above. -/
def apply (e : TimeEntry K) : Op K → Outcome (TimeEntry K)
  | .time start stop => (ScopedTimer.make start false).destroy stop e
  | .startPartial => .ok e.startPartial
  | .timePartial start stop => (ScopedTimer.make start true).destroy stop e
  | .commitPartial => .ok e.commitPartial

/-- A history. -/
def run (e : TimeEntry K) : List (Op K) → Outcome (TimeEntry K)
  | [] => .ok e
  | op :: ops => (e.apply op).bind fun e => e.run ops

end TimeEntry

/-- Profiler.hpp:143-155 `Profiler`. -/
structure Profiler (K : Type*) where
  treeUpdateAndCollision : TimeEntry K
  narrowPhaseCollision : TimeEntry K
  treeHeight : Nat
  islandConstruction : TimeEntry K
  solveVelocities : TimeEntry K
  solvePositions : TimeEntry K

/-- Profiler.hpp:145-155: a new profiler. -/
def Profiler.init {K : Type*} [Field K] : Profiler K := ⟨.init, .init, 0, .init, .init, .init⟩

/-- Profiler.hpp:146 `reset`. -/
def Profiler.reset {K : Type*} [Field K] (_ : Profiler K) : Profiler K := .init

end Simu
