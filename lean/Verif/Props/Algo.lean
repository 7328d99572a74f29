import Verif.Lemmas.Algo
import Mathlib.Tactic.Order
import Mathlib.Tactic.SplitIfs
import Mathlib.Order.Lattice
import Mathlib.Algebra.Order.Ring.Int
/-
C04: booleanSort and clamp (include/Simu/utility/Algo.hpp).
-/
namespace Simu.Algo

/-- **C04.** `booleanSort` terminates, permutes its range, everything before the returned position
satisfies the predicate, nothing after it does, and the predicate is evaluated exactly once on each
element. -/
theorem C04_booleanSort_partitions {α : Type*} (goesLeft : α → Bool) (range : List α) :
    let r := booleanSort goesLeft range
    (r.1 ++ r.2.1).Perm range ∧ (∀ a ∈ r.1, goesLeft a = true) ∧
    (∀ a ∈ r.2.1, goesLeft a = false) ∧ r.2.2.Perm range := by
  simpa [booleanSort] using booleanSortLoop_spec goesLeft [] range [] [] (by simp) (by simp)

/-- Consequence used by the R-tree: the position of the split is the number of elements that
satisfy the predicate. -/
theorem C04_split_position {α : Type*} (goesLeft : α → Bool) (range : List α) :
    (booleanSort goesLeft range).1.length = range.countP goesLeft := by
  obtain ⟨h1, h2, h3, _⟩ := C04_booleanSort_partitions goesLeft range
  rw [← h1.countP_eq, List.countP_append, List.countP_eq_length.2 (by simpa using h2),
    List.countP_eq_zero.2 (by simpa using h3)]
  simp

example : booleanSort (fun n => n % 2 == 0) [1, 2, 3, 4, 5, 6] =
    ([6, 2, 4], [5, 3, 1], [4, 5, 3, 2, 6, 1]) := by
  simp [booleanSort, booleanSortLoop, afterSwap]

/-- **C04 (clamp).** For a non-empty target interval, `clamp` returns a value of the interval, leaves
values of the interval alone, and is the value of the interval nearest to the argument from its
own side. -/
theorem C04_clamp {K : Type*} [LinearOrder K] (v lo hi : K) (h : lo ≤ hi) :
    lo ≤ clamp v lo hi ∧ clamp v lo hi ≤ hi ∧
    (lo ≤ v → v ≤ hi → clamp v lo hi = v) ∧
    (v ≤ lo → clamp v lo hi = lo) ∧ (hi ≤ v → clamp v lo hi = hi) := by
  unfold clamp
  dsimp only
  by_cases h1 : v < lo
  · simp only [h1, if_true]
    refine ⟨?_, ?_, ?_, ?_, ?_⟩ <;> (try split_ifs) <;> (try intros) <;> order
  · simp only [h1, if_false]
    refine ⟨?_, ?_, ?_, ?_, ?_⟩ <;> (try split_ifs) <;> (try intros) <;> order

example : clamp (7 : Int) (-2) 5 = 5 ∧ clamp (-7 : Int) (-2) 5 = -2 ∧ clamp (3 : Int) (-2) 5 = 3 := by
  decide

end Simu.Algo
