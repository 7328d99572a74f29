import Verif.Model.Profiler
import Mathlib.Algebra.BigOperators.Group.List.Basic
import Mathlib.Algebra.Order.Field.Basic
import Mathlib.Algebra.Order.Ring.Rat
import Mathlib.Algebra.Field.Rat
import Mathlib.Tactic.FieldSimp
import Mathlib.Tactic.Ring
import Mathlib.Tactic.Linarith
/-
C43: statistics of the profiler. C63: moved timers.
-/
namespace Simu
namespace TimeEntry
variable {K : Type*} [Field K] [LinearOrder K] [IsStrictOrderedRing K]

/-- The measures (latest first) that a history made, and the measure in progress: a timer makes one measure; a partial measure
is the sum of the partial timers since it was started (since the previous measure, this one included, if it was not). -/
def measures : List (Op K) → List K × K
  | [] => ([], 0)
  | .time start stop :: earlier => ((stop - start) :: (measures earlier).1, stop - start)
  | .startPartial :: earlier => ((measures earlier).1, 0)
  | .timePartial start stop :: earlier => ((measures earlier).1, (measures earlier).2 + (stop - start))
  | .commitPartial :: earlier => ((measures earlier).2 :: (measures earlier).1, (measures earlier).2)

/-- The statistics of a list of measures (latest first). -/
structure Describes (e : TimeEntry K) (ms : List K) : Prop where
  number : e.nMeasures = ms.length
  mean : e.average * ms.length = ms.sum
  empty : ms = [] → e.average = 0
  upper : ∀ m ∈ ms, m ≤ e.max
  nonneg : 0 ≤ e.max
  attained : e.max = 0 ∨ e.max ∈ ms

theorem Describes.add {e : TimeEntry K} {ms : List K} (h : e.Describes ms) (m : K) : (e.addMeasure m).Describes (m :: ms) where
  number := by simp [addMeasure, h.number]
  mean := by
    have : ((ms.length : K) + 1) ≠ 0 := by positivity
    simp only [addMeasure, h.number, List.length_cons, List.sum_cons, Nat.cast_add, Nat.cast_one, h.mean]
    field_simp
    ring
  empty := by simp
  upper := by
    intro x hx
    simp only [addMeasure]
    rcases List.mem_cons.1 hx with rfl | hx
    · split_ifs with hl
      · exact le_refl _
      · exact not_lt.1 hl
    · split_ifs with hl
      · exact (h.upper x hx).trans hl.le
      · exact h.upper x hx
  nonneg := by
    simp only [addMeasure]
    split_ifs with hl
    · exact h.nonneg.trans hl.le
    · exact h.nonneg
  attained := by
    simp only [addMeasure]
    split_ifs with hl
    · right; simp
    · rcases h.attained with h0 | h0
      · exact Or.inl h0
      · exact Or.inr (List.mem_cons_of_mem _ h0)

theorem run_append (e : TimeEntry K) (ops ops' : List (Op K)) : e.run (ops ++ ops') = (e.run ops).bind fun e => e.run ops' := by
  induction ops generalizing e with
  | nil => rfl
  | cons op ops ih =>
    simp only [List.cons_append, run]
    cases e.apply op with
    | ok e' => simp only [Outcome.bind_ok]; exact ih e'
    | throw => rfl
    | ub => rfl

/-- C43: for every history of timers, partial or not: the entry counts the measures made, its average is their arithmetic mean and its maximum
is the greatest of them (or zero); `last` is the measure in progress or else the latest one. -/
theorem C43_statistics (ops : List (Op K)) (ms : List K) (current : K) (hm : measures ops.reverse = (ms, current)) :
    ∃ e, init.run ops = .ok e ∧ e.nMeasures = ms.length ∧ (ms ≠ [] → e.average = ms.sum / ms.length) ∧ (ms = [] → e.average = 0) ∧
      (∀ m ∈ ms, m ≤ e.max) ∧ (ms ≠ [] → (∀ m ∈ ms, 0 ≤ m) → e.max ∈ ms) ∧ e.last = current := by
  have key : ∀ rops : List (Op K), ∃ e, init.run rops.reverse = .ok e ∧ e.Describes (measures rops).1 ∧ e.last = (measures rops).2 := by
    intro rops
    induction rops with
    | nil => exact ⟨init, rfl, ⟨rfl, by simp [init, measures], fun _ => rfl, by simp [measures], le_refl _, Or.inl rfl⟩, rfl⟩
    | cons op rops ih =>
      obtain ⟨e, he, hd, hl⟩ := ih
      rw [List.reverse_cons]
      simp only [run_append, he, Outcome.bind_ok]
      cases op with
      | time start stop => exact ⟨e.addMeasure (stop - start), rfl, hd.add _, rfl⟩
      | startPartial => exact ⟨e.startPartial, rfl, ⟨hd.1, hd.2, hd.3, hd.4, hd.5, hd.6⟩, rfl⟩
      | timePartial start stop =>
        exact ⟨{ e with last := e.last + (stop - start) }, rfl, ⟨hd.1, hd.2, hd.3, hd.4, hd.5, hd.6⟩, by simp [measures, hl]⟩
      | commitPartial => exact ⟨e.addMeasure e.last, rfl, by rw [hl]; exact hd.add _, hl⟩
  obtain ⟨e, he, hd, hl⟩ := key ops.reverse
  rw [List.reverse_reverse] at he
  rw [hm] at hd hl
  refine ⟨e, he, hd.number, fun h => ?_, hd.empty, hd.upper, fun h hn => ?_, hl⟩
  · have h0 : (ms.length : K) ≠ 0 := by
      rw [Nat.cast_ne_zero]
      exact fun h0 => h (List.length_eq_zero_iff.1 h0)
    rw [eq_div_iff h0]
    exact hd.mean
  · rcases hd.attained with h0 | h0
    · obtain ⟨m, hmem⟩ := List.exists_mem_of_ne_nil ms h
      have h1 := hd.upper m hmem
      rw [h0] at h1 ⊢
      have := le_antisymm h1 (hn m hmem)
      rwa [← this]
    · exact h0

-- C43: two measures, then a partial one in two parts: 2, 3 and 1 + 6.
example : measures ([.time 0 2, .time 4 7, .startPartial, .timePartial 8 9, .timePartial 10 16, .commitPartial] : List (Op ℚ)).reverse =
    ([7, 3, 2], 7) := by decide +kernel

/-- C43: `reset` restores the empty statistics. -/
theorem C43_reset (p : Profiler K) : p.reset = .init ∧ (Profiler.init : Profiler K).solveVelocities = .init ∧
    ∀ ops : List (Op K), p.reset.solveVelocities.run ops = init.run ops := ⟨rfl, rfl, fun _ => rfl⟩

end TimeEntry

namespace ScopedTimer
variable {K : Type*} [Field K] [LinearOrder K] [IsStrictOrderedRing K]

omit [IsStrictOrderedRing K] in
/-- C63: a timer that is not moved measures the time from its creation to its destruction. -/
theorem C63_timer_partial (start stop : K) (e : TimeEntry K) : (make start false).destroy stop e = .ok (e.addMeasure (stop - start)) := rfl

/-- C63 is false: moving a timer loses the measure: neither the new timer nor the old one adds anything to the entry when they are destroyed, in
any order and at any time. -/
theorem C63_moved_disagreement (t : ScopedTimer K) (now now' : K) (e : TimeEntry K) :
    (t.move.1.destroy now e).bind (t.move.2.destroy now') = .ok e ∧ (t.move.2.destroy now' e).bind (t.move.1.destroy now) = .ok e :=
  ⟨rfl, rfl⟩

example : (make (1 : ℚ) false).destroy 3 .init = .ok ⟨2, 2, 2, 1⟩ ∧ (make (1 : ℚ) false).move.1.destroy 3 .init = .ok .init := by
  refine ⟨?_, rfl⟩
  show Outcome.ok _ = _
  congr 1
  ext <;> decide +kernel

end ScopedTimer
end Simu
