import Verif.Model.Base
import Mathlib.Algebra.Order.Group.Abs
/-
Model of include/Simu/math/Interval.hpp, include/Simu/physics/BoundingBox.hpp and
src/Simu/physics/BoundingBox.cpp.
-/
namespace Simu

/-- Interval.hpp:43-80: `min_` and `max_`, nothing enforces `min_ <= max_`. -/
structure Interval (K : Type*) where
  lo : K
  hi : K
deriving DecidableEq, Repr

namespace Interval
variable {K : Type*} [Field K] [LinearOrder K]

/-- Interval.hpp:54. -/
def contains (i : Interval K) (v : K) : Bool := decide (i.lo ≤ v) && decide (v ≤ i.hi)

/-- Interval.hpp:56-74: twice the distance between the middles against the sum of the lengths. -/
def overlaps (i o : Interval K) : Bool :=
  let span := (i.hi - i.lo) + (o.hi - o.lo)
  let dist := |(i.hi + i.lo) - (o.hi + o.lo)|
  decide (dist ≤ span)

/-- Interval.hpp:87-92 `approx(value, epsilon)`. -/
def approx (value eps : K) : Interval K := ⟨value - |eps|, value + |eps|⟩

end Interval

/-- BoundingBox.hpp:45-127: two corners, nothing enforces their order. -/
structure BoundingBox (K : Type*) where
  min : Vec2 K
  max : Vec2 K
deriving DecidableEq, Repr

namespace BoundingBox
variable {K : Type*} [Field K] [LinearOrder K]

/-- BoundingBox.hpp:52 default constructor: an invalid box. -/
def invalid : BoundingBox K := ⟨⟨1, 0⟩, ⟨0, 0⟩⟩

/-- BoundingBox.hpp:77 `all(max_ >= min_)` where `>=` is `!(<)` (Matrix.inl.hpp:704-709). -/
def isValid (b : BoundingBox K) : Bool := !decide (b.max.x < b.min.x) && !decide (b.max.y < b.min.y)

/-- BoundingBox.hpp:92 `(max_ + min_) / 2`. -/
def center (b : BoundingBox K) : Vec2 K := Vec2.sdiv (b.max + b.min) 2

/-- BoundingBox.cpp:33-40 `scaled`. -/
def scaled (b : BoundingBox K) (ratio : K) : BoundingBox K :=
  let c := b.center
  ⟨c + ratio • (b.min - c), c + ratio • (b.max - c)⟩

/-- BoundingBox.hpp:110-116 `operator==`: all invalid boxes are equal. -/
def beq (a b : BoundingBox K) : Bool :=
  if !a.isValid && !b.isValid then true
  else (decide (a.min.x = b.min.x) && decide (a.min.y = b.min.y)) &&
       (decide (a.max.x = b.max.x) && decide (a.max.y = b.max.y))

/-- BoundingBox.cpp:43-49 `overlaps`. -/
def overlaps (a b : BoundingBox K) : Bool :=
  if !a.isValid || !b.isValid then false
  else Interval.overlaps ⟨a.min.x, a.max.x⟩ ⟨b.min.x, b.max.x⟩ &&
       Interval.overlaps ⟨a.min.y, a.max.y⟩ ⟨b.min.y, b.max.y⟩

/-- BoundingBox.cpp:60-69 `combined`. -/
def combined (a b : BoundingBox K) : BoundingBox K :=
  if !a.isValid then b
  else if !b.isValid then a
  else ⟨Vec2.min a.min b.min, Vec2.max a.max b.max⟩

/-- BoundingBox.cpp:51-57 `contains`. -/
def contains (a b : BoundingBox K) : Bool :=
  if !a.isValid || !b.isValid then false
  else (combined a b).beq a

/-- BoundingBox.hpp:130-143 constructor from a range of vertices. An empty range returns early with
both corners uninitialised (`MatrixData() = default` with a plain array, Matrix.hpp:63 and 83): any
later read is undefined, which the model reports as `ub` at construction. -/
def ofVertices : List (Vec2 K) → Outcome (BoundingBox K)
  | [] => .ub
  | p :: ps => .ok (ps.foldl (fun b v => ⟨Vec2.min b.min v, Vec2.max b.max v⟩) ⟨p, p⟩)

end BoundingBox
end Simu
