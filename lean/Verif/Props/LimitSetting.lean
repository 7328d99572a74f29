import Verif.Props.Limits
/-
C48: setting the limits of a constraint.
-/
namespace Simu
open Mat

variable {K : Type*} [Field K] [LinearOrder K]

/-- A call of `setLowerLimit` or `setUpperLimit`. -/
inductive LimitCall (K : Type*) where
  | lower (l : Option K)
  | upper (u : Option K)

/-- The limits that somebody who makes the calls wants, after limits `a` (lower) and `b` (upper). -/
def LimitCall.wanted (a b : Option K) : List (LimitCall K) → Option K × Option K
  | [] => (a, b)
  | .lower l :: calls => wanted l b calls
  | .upper u :: calls => wanted a u calls

/-- No lower limit above an upper one. -/
def Limits.Ordered (r : Option K × Option K) : Prop := ∀ l u, r.1 = some l → r.2 = some u → l ≤ u

/-- The calls, up to the first that throws. -/
def LimitsSolver.setAll (e : LimitsSolver K) : List (LimitCall K) → Outcome (LimitsSolver K)
  | [] => .ok e
  | .lower l :: calls => (e.setLowerLimit (l.map fun x => Mat.ofFn ![x])).2.bind fun _ => (e.setLowerLimit (l.map fun x => Mat.ofFn ![x])).1.setAll calls
  | .upper u :: calls => (e.setUpperLimit (u.map fun x => Mat.ofFn ![x])).2.bind fun _ => (e.setUpperLimit (u.map fun x => Mat.ofFn ![x])).1.setAll calls

/-- The limits of a constraint, as numbers. -/
def LimitsSolver.limits (e : LimitsSolver K) : Option K × Option K := (e.L.map fun l => l.at_ 0, e.U.map fun u => u.at_ 0)

theorem limits_checked (e : LimitsSolver K) : (Limits.Ordered e.limits → e.assertLimits = .ok ()) ∧ (¬ Limits.Ordered e.limits → e.assertLimits = .throw) := by
  unfold LimitsSolver.assertLimits LimitsSolver.limits Limits.Ordered
  cases e.L with
  | none => simp
  | some l =>
    cases e.U with
    | none => simp
    | some u => by_cases h : l.at_ 0 ≤ u.at_ 0 <;> simp [h, Outcome.check]

theorem limits_lower (e : LimitsSolver K) (l : Option K) : (e.setLowerLimit (l.map fun x => Mat.ofFn ![x])).1.limits = (l, e.limits.2) := by
  cases l <;> simp [LimitsSolver.setLowerLimit, LimitsSolver.limits, at_ofFn]

theorem limits_upper (e : LimitsSolver K) (u : Option K) : (e.setUpperLimit (u.map fun x => Mat.ofFn ![x])).1.limits = (e.limits.1, u) := by
  cases u <;> simp [LimitsSolver.setUpperLimit, LimitsSolver.limits, at_ofFn]

/-- C48: limits can be set in any order, changed and removed. The calls succeed exactly if the limits were never crossed on the way, and the constraint then has the limits set last; otherwise a call throws.
Nothing else of the constraint is changed. -/
theorem C48_setting (e : LimitsSolver K) (calls : List (LimitCall K)) :
    ((∀ n, n ≠ 0 → n ≤ calls.length → Limits.Ordered (LimitCall.wanted e.limits.1 e.limits.2 (calls.take n))) →
      ∃ e', e.setAll calls = .ok e' ∧ e'.limits = LimitCall.wanted e.limits.1 e.limits.2 calls ∧ e'.base = e.base ∧ e'.func = e.func ∧ e'.data = e.data ∧ e'.canWarmstart = e.canWarmstart) ∧
    (∀ n, n ≠ 0 → n ≤ calls.length → ¬ Limits.Ordered (LimitCall.wanted e.limits.1 e.limits.2 (calls.take n)) → e.setAll calls = .throw) := by
  induction calls generalizing e with
  | nil => exact ⟨fun _ => ⟨e, rfl, rfl, rfl, rfl, rfl, rfl⟩, fun n h0 hn => absurd (Nat.le_zero.1 hn) h0⟩
  | cons call calls ih =>
    cases call with
    | lower l =>
      have hl := limits_lower e l
      obtain ⟨i1, i2⟩ := ih (e.setLowerLimit (l.map fun x => Mat.ofFn ![x])).1
      rw [hl] at i1 i2
      have hc := limits_checked (e.setLowerLimit (l.map fun x => Mat.ofFn ![x])).1
      rw [hl] at hc
      constructor
      · intro h
        obtain ⟨e', h1, h2, h3⟩ := i1 fun n _ hn => h (n + 1) (Nat.succ_ne_zero n) (Nat.succ_le_succ hn)
        refine ⟨e', ?_, h2, h3⟩
        have ho : (e.setLowerLimit (l.map fun x => Mat.ofFn ![x])).2 = .ok () := hc.1 (h 1 one_ne_zero (by simp))
        show (e.setLowerLimit (l.map fun x => Mat.ofFn ![x])).2.bind _ = _
        rw [ho]
        exact h1
      · intro n h0 hn h
        show (e.setLowerLimit (l.map fun x => Mat.ofFn ![x])).2.bind _ = _
        by_cases ho : Limits.Ordered (l, e.limits.2)
        · have ho' : (e.setLowerLimit (l.map fun x => Mat.ofFn ![x])).2 = .ok () := hc.1 ho
          rw [ho']
          obtain ⟨n, rfl⟩ := Nat.exists_eq_succ_of_ne_zero h0
          rcases Nat.eq_zero_or_pos n with rfl | hp
          · exact absurd ho h
          · exact i2 n hp.ne' (Nat.le_of_succ_le_succ hn) h
        · have ho' : (e.setLowerLimit (l.map fun x => Mat.ofFn ![x])).2 = .throw := hc.2 ho
          rw [ho']; rfl
    | upper u =>
      have hl := limits_upper e u
      obtain ⟨i1, i2⟩ := ih (e.setUpperLimit (u.map fun x => Mat.ofFn ![x])).1
      rw [hl] at i1 i2
      have hc := limits_checked (e.setUpperLimit (u.map fun x => Mat.ofFn ![x])).1
      rw [hl] at hc
      constructor
      · intro h
        obtain ⟨e', h1, h2, h3⟩ := i1 fun n _ hn => h (n + 1) (Nat.succ_ne_zero n) (Nat.succ_le_succ hn)
        refine ⟨e', ?_, h2, h3⟩
        have ho : (e.setUpperLimit (u.map fun x => Mat.ofFn ![x])).2 = .ok () := hc.1 (h 1 one_ne_zero (by simp))
        show (e.setUpperLimit (u.map fun x => Mat.ofFn ![x])).2.bind _ = _
        rw [ho]
        exact h1
      · intro n h0 hn h
        show (e.setUpperLimit (u.map fun x => Mat.ofFn ![x])).2.bind _ = _
        by_cases ho : Limits.Ordered (e.limits.1, u)
        · have ho' : (e.setUpperLimit (u.map fun x => Mat.ofFn ![x])).2 = .ok () := hc.1 ho
          rw [ho']
          obtain ⟨n, rfl⟩ := Nat.exists_eq_succ_of_ne_zero h0
          rcases Nat.eq_zero_or_pos n with rfl | hp
          · exact absurd ho h
          · exact i2 n hp.ne' (Nat.le_of_succ_le_succ hn) h
        · have ho' : (e.setUpperLimit (u.map fun x => Mat.ofFn ![x])).2 = .throw := hc.2 ho
          rw [ho']; rfl

/-- C48: limits 1 and 2 become 3 and 4 if the upper one is set first; the other order throws. -/
example : (∃ e', (LimitsSolver.make : LimitsSolver ℚ).setAll [.lower (some 1), .upper (some 2), .upper (some 4), .lower (some 3)] = .ok e' ∧ e'.limits = (some 3, some 4)) ∧
    (LimitsSolver.make : LimitsSolver ℚ).setAll [.lower (some 1), .upper (some 2), .lower (some 3), .upper (some 4)] = .throw := by
  constructor
  · obtain ⟨e', h1, h2, -⟩ := (C48_setting (LimitsSolver.make : LimitsSolver ℚ) [.lower (some 1), .upper (some 2), .upper (some 4), .lower (some 3)]).1 (by
      intro n h0 hn
      have : n = 1 ∨ n = 2 ∨ n = 3 ∨ n = 4 := by simp at hn; omega
      rcases this with rfl | rfl | rfl | rfl <;> simp [LimitCall.wanted, Limits.Ordered, LimitsSolver.limits, LimitsSolver.make] <;> norm_num)
    exact ⟨e', h1, h2⟩
  · exact (C48_setting (LimitsSolver.make : LimitsSolver ℚ) _).2 3 (by decide) (by decide) (by simp [LimitCall.wanted, Limits.Ordered]; norm_num)

/-- C48: a call that throws has set the limit nevertheless: who catches the exception has a constraint whose limits are crossed. -/
theorem C48_refused_disagreement (e : LimitsSolver K) (l u : K) (hu : e.limits.2 = some u) (h : u < l) :
    (e.setLowerLimit (some (Mat.ofFn ![l]))).2 = .throw ∧ (e.setLowerLimit (some (Mat.ofFn ![l]))).1.limits = (some l, some u) := by
  have hl := limits_lower e (some l)
  rw [hu] at hl
  refine ⟨(limits_checked (e.setLowerLimit (some (Mat.ofFn ![l]))).1).2 ?_, hl⟩
  rw [show (e.setLowerLimit (some (Mat.ofFn ![l]))).1.limits = _ from hl]
  exact fun ho => absurd (ho l u rfl rfl) (not_le.2 h)

example : ((LimitsSolver.make : LimitsSolver ℚ).setUpperLimit (some (Mat.ofFn ![2]))).1.limits = (none, some 2) ∧ (2 : ℚ) < 3 := by
  constructor
  · simp [LimitsSolver.limits, LimitsSolver.setUpperLimit, LimitsSolver.make, at_ofFn]
  · norm_num

end Simu
