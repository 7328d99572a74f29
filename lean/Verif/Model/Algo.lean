import Mathlib.Order.Defs.LinearOrder
/-
Model of `include/Simu/utility/Algo.hpp`.
-/
namespace Simu.Algo

/-- Algo.hpp:32-36 `clamp(val, min, max) = std::min(std::max(val, min), max)`.
`std::max(a,b)` is `(a < b) ? b : a` and `std::min(a,b)` is `(b < a) ? b : a`. -/
def clamp {K : Type*} [LinearOrder K] (val lo hi : K) : K :=
  let m := if val < lo then lo else val
  if hi < m then hi else m

/-- The elements left in `[begin, end)` after `swap(*begin, *(--end))`: the last one has been moved
to the front. `rest` is the range without its first element. (Algo.hpp:53) -/
def afterSwap {α : Type*} (rest : List α) : List α :=
  match rest.getLast? with
  | none => []
  | some z => z :: rest.dropLast

theorem length_afterSwap {α : Type*} (rest : List α) : (afterSwap rest).length = rest.length := by
  unfold afterSwap
  cases h : rest.getLast? with
  | none => simp [List.getLast?_eq_none_iff] at h; simp [h]
  | some z =>
    have : rest ≠ [] := by intro h'; simp [h'] at h
    have := List.length_pos_iff.2 this
    simp; omega

/-- Algo.hpp:45-57 `booleanSort`. The range is `left ++ mid ++ right` with `mid = [begin, end)`.
`calls` records the elements on which the predicate was evaluated, latest first. The result is
the contents before and after the returned iterator, and the calls. -/
def booleanSortLoop {α : Type*} (goesLeft : α → Bool) (left : List α) :
    (mid : List α) → (right calls : List α) → List α × List α × List α
  | [], right, calls => (left, right, calls)
  | a :: rest, right, calls =>
    if goesLeft a then booleanSortLoop goesLeft (left ++ [a]) rest right (a :: calls)
    else booleanSortLoop goesLeft left (afterSwap rest) (a :: right) (a :: calls)
termination_by mid => mid.length
decreasing_by
  · simp
  · simp [length_afterSwap]

/-- Algo.hpp:45-57 on a whole range. -/
def booleanSort {α : Type*} (goesLeft : α → Bool) (range : List α) : List α × List α × List α :=
  booleanSortLoop goesLeft [] range [] []

end Simu.Algo
