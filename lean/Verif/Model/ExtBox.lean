import Verif.Model.BoundingBox
import Verif.Model.RTree
/-
Model of the comparisons of matrices (include/Simu/math/Matrix.inl.hpp:652-766) and of intervals and bounding boxes
(include/Simu/math/Interval.hpp, include/Simu/physics/BoundingBox.hpp, src/Simu/physics/BoundingBox.cpp) for floats that may be
infinite or not a number. Rounding and overflow are not modelled.
-/
namespace Simu

/-- A `float` without rounding: a number, an infinity, or not a number. -/
inductive Ext (K : Type*) where
  | fin (x : K)
  | pinf
  | ninf
  | nan
deriving DecidableEq, Repr

namespace Ext
variable {K : Type*} [Field K] [LinearOrder K]

/-- `a + b` of IEEE 754. -/
def add : Ext K → Ext K → Ext K
  | .fin x, .fin y => .fin (x + y)
  | .nan, _ => .nan
  | _, .nan => .nan
  | .pinf, .ninf => .nan
  | .ninf, .pinf => .nan
  | .pinf, _ => .pinf
  | _, .pinf => .pinf
  | .ninf, _ => .ninf
  | _, .ninf => .ninf

/-- `-a` of IEEE 754. -/
def neg : Ext K → Ext K
  | .fin x => .fin (-x)
  | .pinf => .ninf
  | .ninf => .pinf
  | .nan => .nan

/-- `a - b` of IEEE 754. -/
def sub (a b : Ext K) : Ext K := add a (neg b)

/-- `std::abs`. -/
def abs : Ext K → Ext K
  | .fin x => .fin |x|
  | .pinf => .pinf
  | .ninf => .pinf
  | .nan => .nan

/-- `a < b` of IEEE 754: false if one of them is not a number. -/
def lt : Ext K → Ext K → Bool
  | .fin x, .fin y => decide (x < y)
  | .ninf, .fin _ => true
  | .ninf, .pinf => true
  | .fin _, .pinf => true
  | _, _ => false

/-- `a == b` of IEEE 754. -/
def eq : Ext K → Ext K → Bool
  | .fin x, .fin y => decide (x = y)
  | .pinf, .pinf => true
  | .ninf, .ninf => true
  | _, _ => false

/-- `std::min`: the first one unless the second is smaller. -/
def min (a b : Ext K) : Ext K := if lt b a then b else a

/-- `std::max`: the first one unless it is smaller. -/
def max (a b : Ext K) : Ext K := if lt a b then b else a

end Ext

/-- Matrix.hpp:400-401 `ComparisonMatrix`: the results of comparing the `s` elements of two matrices. -/
abbrev Comparison (s : Nat) := Fin s → Bool

namespace Comparison
variable {s : Nat}

/-- Matrix.inl.hpp:758-766 `operator!`. -/
def not (c : Comparison s) : Comparison s := fun i => !c i

/-- Matrix.inl.hpp:732-741 `operator&&`. -/
def and (c d : Comparison s) : Comparison s := fun i => c i && d i

/-- Matrix.inl.hpp:745-754 `operator||`. -/
def or (c d : Comparison s) : Comparison s := fun i => c i || d i

/-- The loop of `all`. -/
def allLoop : List Bool → Bool
  | [] => true
  | b :: bs => if !b then false else allLoop bs

/-- The loop of `any`. -/
def anyLoop : List Bool → Bool
  | [] => false
  | b :: bs => if b then true else anyLoop bs

/-- Matrix.inl.hpp:712-718 `all`. -/
def all (c : Comparison s) : Bool := allLoop (List.ofFn c)

/-- Matrix.inl.hpp:722-728 `any`. -/
def any (c : Comparison s) : Bool := anyLoop (List.ofFn c)

variable {K : Type*} [Field K] [LinearOrder K]

/-- Matrix.inl.hpp:652-661 `operator==`. -/
def eq (a b : Fin s → Ext K) : Comparison s := fun i => (a i).eq (b i)

/-- Matrix.inl.hpp:664-668 `operator!=`. -/
def ne (a b : Fin s → Ext K) : Comparison s := (eq a b).not

/-- Matrix.inl.hpp:672-681 `operator<`. -/
def lt (a b : Fin s → Ext K) : Comparison s := fun i => (a i).lt (b i)

/-- Matrix.inl.hpp:692-701 `operator>`. -/
def gt (a b : Fin s → Ext K) : Comparison s := fun i => (b i).lt (a i)

/-- Matrix.inl.hpp:684-688 `operator<=`: written as `!(a > b)`. -/
def le (a b : Fin s → Ext K) : Comparison s := (gt a b).not

/-- Matrix.inl.hpp:704-708 `operator>=`: written as `!(a < b)`. -/
def ge (a b : Fin s → Ext K) : Comparison s := (lt a b).not

end Comparison

/-- The elements of a vector. -/
def Vec2.elems {T : Type*} (v : Vec2 T) : Fin 2 → T := fun i => if i = 0 then v.x else v.y

/-- A bounding box whose coordinates are floats. -/
abbrev ExtBox (K : Type*) := BoundingBox (Ext K)

namespace ExtBox
variable {K : Type*} [Field K] [LinearOrder K]

/-- The box with these finite coordinates. -/
def ofBox (b : BoundingBox K) : ExtBox K := ⟨⟨.fin b.min.x, .fin b.min.y⟩, ⟨.fin b.max.x, .fin b.max.y⟩⟩

/-- BoundingBox.hpp:77. -/
def isValid (b : ExtBox K) : Bool := (Comparison.ge b.max.elems b.min.elems).all

/-- BoundingBox.cpp:43-49 `overlaps`, with Interval.hpp:56-74 for vectors. -/
def overlaps (a b : ExtBox K) : Bool :=
  if !isValid a || !isValid b then false
  else
    let span := fun i => Ext.add (Ext.sub (a.max.elems i) (a.min.elems i)) (Ext.sub (b.max.elems i) (b.min.elems i))
    let dist := fun i => Ext.abs (Ext.sub (Ext.add (a.max.elems i) (a.min.elems i)) (Ext.add (b.max.elems i) (b.min.elems i)))
    (Comparison.le dist span).all

/-- BoundingBox.cpp:60-69 `combined`, with Matrix.inl.hpp:805-832 (`std::min` and `std::max` of vectors). -/
def combined (a b : ExtBox K) : ExtBox K :=
  if !isValid a then b
  else if !isValid b then a
  else ⟨⟨Ext.min a.min.x b.min.x, Ext.min a.min.y b.min.y⟩, ⟨Ext.max a.max.x b.max.x, Ext.max a.max.y b.max.y⟩⟩

/-- BoundingBox.hpp:110-116 `operator==`. -/
def beq (a b : ExtBox K) : Bool :=
  if !isValid a && !isValid b then true
  else ((Comparison.eq a.min.elems b.min.elems).and (Comparison.eq a.max.elems b.max.elems)).all

/-- BoundingBox.cpp:51-57 `contains`. -/
def contains (a b : ExtBox K) : Bool := if !isValid a || !isValid b then false else beq (combined a b) a

end ExtBox

namespace RTree
variable {K C α : Type*} [Field K] [LinearOrder K]

/-- RTree.hpp:520-535 `forEachIn(box, func)` for a box with any coordinates, in a tree of boxes with finite ones. This is `forEachIn` with another test of overlap. -/
def forEachInExt (cfg : Cfg K C) (box : ExtBox K) (t : Node K α) : List (Entry K α) :=
  forEachIn { cfg with ovl := fun _ b => ExtBox.overlaps box (ExtBox.ofBox b) } BoundingBox.invalid t

end RTree
end Simu
