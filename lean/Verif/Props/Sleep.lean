import Verif.Spec.Sleep
import Verif.Props.Island
import Mathlib.Data.List.Induction
import Mathlib.Algebra.Order.BigOperators.Group.List
import Mathlib.Algebra.Order.Ring.Rat
import Mathlib.Algebra.Field.Rat
import Mathlib.Tactic.Linarith
/-
C38: sleeping. The islands, and the bodies falling asleep.
C56: a step that was interrupted by an exception.
-/
namespace Simu.Sleep
variable {K : Type*} [Field K] [LinearOrder K] [IsStrictOrderedRing K]

theorem run_append (c : Clock K) (es fs : List (Event K)) : c.run (es ++ fs) = (c.run es).run fs := by
  unfold Clock.run; rw [List.foldl_append]

theorem duration_append (es fs : List (Event K)) : duration (es ++ fs) = duration es + duration fs := by
  unfold duration; rw [List.map_append, List.sum_append]

theorem isImmobile_iff (s : Settings K) (vx vy w : K) : isImmobile s vx vy w = true ↔
    vx * vx + vy * vy < s.velocitySleepThreshold * s.velocitySleepThreshold ∧ w < s.angularVelocitySleepThreshold := by
  simp [isImmobile]

/-- The time measured is that of the latest slow events. -/
theorem timeImmobile_window (es : List (Event K)) :
    ∃ pre window, es = pre ++ window ∧ (∀ e ∈ window, e.Slow) ∧ ((Clock.new : Clock K).run es).timeImmobile = duration window := by
  induction es using List.reverseRecOn with
  | nil => exact ⟨[], [], rfl, by simp, rfl⟩
  | append_singleton es e ih =>
    obtain ⟨pre, window, rfl, hs, ht⟩ := ih
    rw [run_append]
    cases e with
    | wake =>
      refine ⟨pre, window ++ [.wake], by simp, ?_, ?_⟩
      · intro e he
        rcases List.mem_append.1 he with he | he
        · exact hs e he
        · have : e = .wake := by simpa using he
          subst this; trivial
      · rw [duration_append]
        show (Clock.run _ (pre ++ window)).timeImmobile = _
        rw [ht]; simp [duration, Event.time]
    | step s dt vx vy w =>
      have hc : (((Clock.new : Clock K).run (pre ++ window)).run [.step s dt vx vy w]).timeImmobile =
          if s.enableSleeping then (if isImmobile s vx vy w then duration window + dt else 0) else duration window := by
        show (update s dt vx vy w _).timeImmobile = _
        unfold update
        split
        · dsimp only
          split <;> simp only [sleep, updateTimeImmobile, ht]
        · exact ht
      by_cases hen : s.enableSleeping = true
      · rw [hc, if_pos hen]
        by_cases him : isImmobile s vx vy w = true
        · refine ⟨pre, window ++ [.step s dt vx vy w], by simp, ?_, ?_⟩
          · intro e he
            rcases List.mem_append.1 he with he | he
            · exact hs e he
            · have : e = .step s dt vx vy w := by simpa using he
              subst this
              exact fun _ => (isImmobile_iff s vx vy w).1 him
          · rw [if_pos him, duration_append]; simp [duration, Event.time, hen]
        · exact ⟨pre ++ window ++ [.step s dt vx vy w], [], by simp, by simp, by rw [if_neg him]; rfl⟩
      · refine ⟨pre, window ++ [.step s dt vx vy w], by simp, ?_, ?_⟩
        · intro e he
          rcases List.mem_append.1 he with he | he
          · exact hs e he
          · have : e = .step s dt vx vy w := by simpa using he
            subst this
            exact fun h => absurd h hen
        · rw [hc, if_neg hen, duration_append]; simp [duration, Event.time, hen]

/-- C38 (falling asleep): a body is only asleep if a step (with sleeping enabled) put it to sleep, after which nothing woke it, and at the end of this
step it had been slower than the thresholds without interruption for at least the delay.
Partial: the angular velocity is tested with its sign, see `C38_spin_disagreement`. -/
theorem C38_delay_partial (es : List (Event K)) (h : ((Clock.new : Clock K).run es).asleep = true) :
    ∃ pre window s dt vx vy w post, es = pre ++ window ++ .step s dt vx vy w :: post ∧ s.enableSleeping = true ∧ Event.wake ∉ post ∧
      ((∀ e ∈ window ++ [.step s dt vx vy w], e.Slow) ∧ s.inactivitySleepDelay ≤ duration (window ++ [.step s dt vx vy w]) ∨
       s.inactivitySleepDelay ≤ 0) := by
  induction es using List.reverseRecOn with
  | nil => simp [Clock.run, Clock.new] at h
  | append_singleton es e ih =>
    have hold : ((Clock.new : Clock K).run es).asleep = true → e ≠ .wake →
        ∃ pre window s dt vx vy w post, es ++ [e] = pre ++ window ++ .step s dt vx vy w :: post ∧ s.enableSleeping = true ∧ Event.wake ∉ post ∧
        ((∀ e ∈ window ++ [.step s dt vx vy w], e.Slow) ∧ s.inactivitySleepDelay ≤ duration (window ++ [.step s dt vx vy w]) ∨
         s.inactivitySleepDelay ≤ 0) := by
      intro ha hne
      obtain ⟨pre, window, s, dt, vx, vy, w, post, rfl, he, hp, hcase⟩ := ih ha
      exact ⟨pre, window, s, dt, vx, vy, w, post ++ [e], by simp, he, by simp [hp, Ne.symm hne], hcase⟩
    have hrun : ((Clock.new : Clock K).run (es ++ [e])) = ((Clock.new : Clock K).run es).on e := by rw [run_append]; rfl
    cases e with
    | wake => rw [hrun] at h; simp [Clock.on, wake] at h
    | step s dt vx vy w =>
      by_cases ha : ((Clock.new : Clock K).run es).asleep = true
      · exact hold ha (by simp)
      have hen : s.enableSleeping = true := by
        by_contra hen
        rw [hrun] at h
        simp only [Clock.on, update, if_neg hen] at h
        exact ha h
      have hcan : canSleep s (((Clock.new : Clock K).run (es ++ [.step s dt vx vy w]))) = true := by
        rw [hrun] at h ⊢
        simp only [Clock.on, update, if_pos hen] at h ⊢
        by_cases hcs : canSleep s (updateTimeImmobile s dt vx vy w ((Clock.new : Clock K).run es)) = true
        · rw [if_pos hcs]; exact hcs
        · rw [if_neg hcs] at h
          exact absurd h ha
      obtain ⟨pre, window, heq, hslow, htime⟩ := timeImmobile_window (es ++ [.step s dt vx vy w])
      simp only [canSleep, decide_eq_true_eq, htime] at hcan
      rcases List.eq_nil_or_concat window with rfl | ⟨window', e', rfl⟩
      · exact ⟨es, [], s, dt, vx, vy, w, [], by simp, hen, by simp, Or.inr (by simpa [duration] using hcan)⟩
      · have heq' : es ++ [.step s dt vx vy w] = (pre ++ window') ++ [e'] := by rw [heq]; simp
        obtain ⟨h1, h2⟩ := List.append_inj' heq' rfl
        have h2 : Event.step s dt vx vy w = e' := by simpa using h2
        subst h1 h2
        exact ⟨pre, window', s, dt, vx, vy, w, [], by simp, hen, by simp, Or.inl ⟨by simpa using hslow, by simpa using hcan⟩⟩

/-- C38 (falling asleep), conversely: a body that is still during a sequence of steps lasting at least the delay is asleep after the last one. -/
theorem C38_falls_asleep (es window : List (Event K)) (s : Settings K) (dt vx vy w : K) (hs : ∀ e ∈ window, e.Still)
    (hlast : (Event.step s dt vx vy w).Still) (hen : s.enableSleeping = true) (hpos : ∀ e ∈ es, 0 ≤ e.time)
    (hd : s.inactivitySleepDelay ≤ duration (window ++ [.step s dt vx vy w])) :
    ((Clock.new : Clock K).run (es ++ window ++ [.step s dt vx vy w])).asleep = true := by
  have hnn : 0 ≤ ((Clock.new : Clock K).run es).timeImmobile := by
    obtain ⟨pre, win, rfl, _, ht⟩ := timeImmobile_window es
    rw [ht]
    unfold duration
    refine List.sum_nonneg fun x hx => ?_
    obtain ⟨e, he, rfl⟩ := List.mem_map.1 hx
    exact hpos e (List.mem_append_right _ he)
  have step : ∀ (win : List (Event K)) (c : Clock K), (∀ e ∈ win, e.Still) → (c.run win).timeImmobile = c.timeImmobile + duration win := by
    intro win
    induction win with
    | nil => intro c _; simp [Clock.run, duration]
    | cons e win ih =>
      intro c hst
      have h1 : (c.on e).timeImmobile = c.timeImmobile + e.time := by
        have he := hst e (by simp)
        cases e with
        | wake => simp [Clock.on, Sleep.wake, Event.time]
        | step s dt vx vy w =>
          by_cases hen : s.enableSleeping = true
          · have him : isImmobile s vx vy w = true :=
              (isImmobile_iff s vx vy w).2 ⟨(he hen).1, lt_of_le_of_lt (le_abs_self w) (he hen).2⟩
            simp only [Clock.on, update, if_pos hen, Event.time]
            split <;> simp [sleep, updateTimeImmobile, him]
          · simp [Clock.on, update, Event.time, hen]
      show ((c.on e).run win).timeImmobile = _
      rw [ih _ fun e he => hst e (List.mem_cons_of_mem _ he), h1]
      simp [duration, add_assoc]
  have him : isImmobile s vx vy w = true :=
    (isImmobile_iff s vx vy w).2 ⟨(hlast hen).1, lt_of_le_of_lt (le_abs_self w) (hlast hen).2⟩
  rw [run_append, run_append]
  set c := ((Clock.new : Clock K).run es).run window with hc
  have htc : c.timeImmobile = ((Clock.new : Clock K).run es).timeImmobile + duration window := step window _ hs
  show (update s dt vx vy w c).asleep = true
  have hcan : canSleep s (updateTimeImmobile s dt vx vy w c) = true := by
    simp only [canSleep, updateTimeImmobile, him, if_true, decide_eq_true_eq]
    rw [duration_append] at hd
    have : duration [Event.step s dt vx vy w] = dt := by simp [duration, Event.time, hen]
    rw [this] at hd
    rw [htc]
    linarith
  simp only [update, if_pos hen, if_pos hcan, sleep]

/-- C38 is false of the code: a body spinning fast in the negative direction falls asleep. -/
theorem C38_spin_disagreement (s : Settings K) (hen : s.enableSleeping = true) (hv : 0 < s.velocitySleepThreshold) (ha : 0 < s.angularVelocitySleepThreshold)
    (dt : K) (hdt : s.inactivitySleepDelay ≤ dt) (w : K) (hw : w ≤ 0) : ((Clock.new : Clock K).run [.step s dt 0 0 w]).asleep = true := by
  have him : isImmobile s 0 0 w = true := (isImmobile_iff s 0 0 w).2 ⟨by simpa using mul_pos hv hv, lt_of_le_of_lt hw ha⟩
  have hcan : canSleep s (updateTimeImmobile s dt 0 0 w (Clock.new : Clock K)) = true := by
    simp [canSleep, updateTimeImmobile, him, Clock.new, hdt]
  show (update s dt 0 0 w Clock.new).asleep = true
  simp only [update, if_pos hen, if_pos hcan, sleep]

/-- The default settings, and a body falling asleep after two steps of half a second, also when woken in between. -/
def sampleSettings : Settings ℚ := ⟨true, 1/100, 1/100, 1⟩

example : ((Clock.new : Clock ℚ).run [.step sampleSettings (1/2) 0 0 (1/1000), .wake, .step sampleSettings (1/2) (1/1000) 0 0]).asleep = true := by
  decide +kernel
example : ((Clock.new : Clock ℚ).run [.step sampleSettings (1/2) 0 0 (1/1000), .step sampleSettings (1/2) 5 0 0]).asleep = false := by decide +kernel
example : ((Clock.new : Clock ℚ).run [.step sampleSettings 1 0 0 (-100)]).asleep = true := by decide +kernel

end Simu.Sleep

namespace Simu.Island
variable {P V S : Type*} {N : Net P V S} {A : Link → Bool} {world : List Nat} {st st' : St P V S} {log : List Record}

/-- C38 (islands): if a body of an island was awake, all bodies of the island are awake after the step. -/
theorem C38_wakes (h : Solved N A world st st' log) {D : Record} (hD : D ∈ log) {b c : Nat} (hb : b ∈ D.bodies) (hc : c ∈ D.bodies)
    (ha : (st.body b).asleep = false) : (st'.body c).asleep = false :=
  h.progress.woken D hD (h.progress.ownAwake D hD b hb ha) c hc

/-- C38 (islands): solving never puts a body to sleep. -/
theorem C38_never_sleeps (h : Solved N A world st st' log) {b : Nat} (ha : (st.body b).asleep = false) : (st'.body b).asleep = false :=
  h.progress.stillAwake b ha

/-- C38 (islands): a body stays asleep if all bodies of its island, of the islands solved before, and all bodies that their constraints refer to were
asleep. Partial: the islands solved before should not matter, nor the bodies across inactive constraints, see `C38_flag_disagreement` and
`C38_inactive_disagreement`. -/
theorem C38_stays_asleep_partial (h : Solved N A world st st' log) {k : Nat} {D : Record} (hk : log[k]? = some D)
    (ha : ∀ j ≤ k, ∀ E, log[j]? = some E → ∀ b ∈ E.bodies, (st.body b).asleep = true ∧
      ∀ l ∈ linksOf N b, (st.body (N.ends l).1).asleep = true ∧ (st.body (N.ends l).2).asleep = true) :
    D.awake = false ∧ ∀ b ∈ D.bodies, ¬ Fixed N st b → (st'.body b).asleep = true := by
  have hp := h.progress
  have hDa : D.awake = false := by
    by_contra hne
    obtain ⟨cfg, fuel, p, v, he⟩ := h.ran
    obtain ⟨j, hj, E, hE, b, hb, hcase⟩ := solveLoop_cause (st0 := st) (done := []) h.behaved.lawful h.graph.consistent.closed fuel (fun b hb => hb)
      h.ready.idle ⟨rfl, rfl, rfl⟩ (by simp) (fun _ _ => rfl) (by simp) he k D hk (by simpa using hne)
    obtain ⟨h1, h2⟩ := ha j hj E hE b hb
    rcases hcase with hc | ⟨l, hl, hc | hc⟩
    · rw [h1] at hc; exact Bool.noConfusion hc
    · rw [(h2 l hl).1] at hc; exact Bool.noConfusion hc
    · rw [(h2 l hl).2] at hc; exact Bool.noConfusion hc
  refine ⟨hDa, fun b hb hf => ?_⟩
  rw [hp.asleep b ?_]
  · exact (ha k (le_refl k) D hk b hb).1
  · intro E hE hbE
    have hDm : D ∈ log := List.mem_of_getElem? hk
    obtain ⟨j, hj⟩ := List.mem_iff_getElem?.1 hE
    by_cases hjk : j = k
    · subst hjk; rw [hk] at hj; cases Option.some.inj hj; exact hDa
    · exfalso
      apply hf
      rw [← fixed_iff]
      have hpw := List.pairwise_iff_getElem.1 hp.disjoint
      obtain ⟨hkl, hkg⟩ := List.getElem?_eq_some_iff.1 hk
      obtain ⟨hjl, hjg⟩ := List.getElem?_eq_some_iff.1 hj
      rcases Nat.lt_or_gt_of_ne hjk with hlt | hlt
      · exact hpw j k hjl hkl hlt b (by rw [hjg]; exact hbE) (by rw [hkg]; exact hb)
      · exact hpw k j hkl hjl hlt b (by rw [hkg]; exact hb) (by rw [hjg]; exact hbE)

/-- C38 (islands): if the whole world sleeps, it still does after solving. -/
theorem C38_world_asleep (h : Solved N A world st st' log) (ha : ∀ b ∈ world, (st.body b).asleep = true) :
    ∀ b ∈ world, (st'.body b).asleep = true := by
  intro b hb
  have hp := h.progress
  rw [hp.asleep b ?_]
  · exact ha b hb
  · intro E hE _
    obtain ⟨k, hk⟩ := List.mem_iff_getElem?.1 hE
    refine (C38_stays_asleep_partial h hk fun j _ F hF c hc => ?_).1
    have hcw := (C37_bodies h (List.mem_of_getElem? hF)).2.2 c hc
    exact ⟨ha c hcw, fun l hl => ⟨ha _ (h.graph.ends c hcw l hl).1, ha _ (h.graph.ends c hcw l hl).2⟩⟩

/-- C38 is false of the code: the flag is never cleared, so all islands solved after one that is awake are woken, whatever their bodies. -/
theorem C38_flag_disagreement (h : Solved N A world st st' log) {j k : Nat} (hjk : j < k) {D E : Record} (hj : log[j]? = some D) (hk : log[k]? = some E)
    {b : Nat} (hb : b ∈ D.bodies) (ha : (st.body b).asleep = false) : ∀ c ∈ E.bodies, (st'.body c).asleep = false := by
  have hp := h.progress
  obtain ⟨cfg, fuel, p, v, he⟩ := h.ran
  have hfl := solveLoop_flag h.behaved.lawful h.graph.consistent.closed fuel (fun b hb => hb) h.ready.idle ⟨rfl, rfl, rfl⟩ (by simp)
    List.Pairwise.nil he
  have hpw := List.pairwise_iff_getElem.1 hfl
  obtain ⟨hkl, hkg⟩ := List.getElem?_eq_some_iff.1 hk
  obtain ⟨hjl, hjg⟩ := List.getElem?_eq_some_iff.1 hj
  have := hpw j k hjl hkl hjk (by rw [hjg]; exact hp.ownAwake D (List.mem_of_getElem? hj) b hb ha)
  exact hp.woken E (List.mem_of_getElem? hk) (by rw [← hkg]; exact this)

/-- A world without constraints. -/
def loneNet : Net Int Int Unit where
  ends := fun _ => (0, 0)
  joints := fun _ => []
  contacts := fun _ => []
  structuralIn := fun _ _ => false
  isRest := fun v => v == 0
  isActive := fun _ _ _ _ => ((), true)
  act := fun _ _ _ _ s ps vs => .ok (s, ps, vs)
  advance := fun p v => p + v

/-- Body 0 is asleep, body 1 is awake. -/
def loneState (sleeper : Nat) : St Int Int Unit where
  body := fun b => ⟨100 * b, 1, b == sleeper, none⟩
  proxies := fun _ => none
  s := ()
  evals := []
  moved := []

/-- The sleeping body is woken by an unrelated one that is processed before (here the last of the world), not by one processed after; and while
asleep it keeps moving. -/
theorem C38_flag_witness :
    view [0, 1] (solveIslands loneNet ⟨8, 2, true⟩ 5 0 0 [0, 1] (loneState 0)) =
      some ([], [([1], []), ([0], [])], [1, 0], [(1, 1, false), (101, 1, false)]) ∧
    view [0, 1] (solveIslands loneNet ⟨8, 2, true⟩ 5 0 0 [0, 1] (loneState 1)) =
      some ([], [([1], []), ([0], [])], [1, 0], [(1, 1, false), (101, 1, true)]) := ⟨rfl, rfl⟩

/-- C38 is false of the code: a sleeping island is solved and integrated as the others (see also `C37_free_flight`): the only body of this world is
asleep and moves. -/
theorem C38_asleep_moves_disagreement : ((loneState 0).body 0).asleep = true ∧
    view [0] (solveIslands loneNet ⟨8, 2, true⟩ 3 0 0 [0] (loneState 0)) = some ([], [([0], [])], [0], [(1, 1, true)]) := ⟨rfl, rfl⟩

/-- Bodies 0 and 1, and a constraint between them that is never active. -/
def apartNet : Net Int Int Unit :=
  { loneNet with
    ends := fun _ => (0, 1)
    joints := fun _ => [0]
    isActive := fun _ _ _ _ => ((), false) }

/-- C38 is false of the code: a body is woken through a constraint that is not active: the awake body at the other end is removed from the
island but the flag stays. -/
theorem C38_inactive_disagreement :
    view [1, 0] (solveIslands apartNet ⟨8, 2, true⟩ 5 0 0 [1, 0] (loneState 0)) =
      some ([(.joint 0, false), (.joint 0, false)], [([0], []), ([1], [])], [0, 1], [(101, 1, false), (1, 1, false)]) := rfl

/-- The hypotheses are met: two sleeping bodies. -/
example : ∃ st' log, Solved loneNet (fun _ => true) [0, 1] (loneState 0) st' log ∧ log.map Record.bodies = [[1], [0]] := by
  have hb : WellBehaved loneNet := by
    constructor
    · intro ph l i0 i1 s ps vs s' ps' vs' h i h0 h1
      cases Outcome.ok.inj h
      exact ⟨rfl, rfl⟩
    · intro p v h
      have : v = 0 := by simpa [loneNet] using h
      subst this
      show p + 0 = p
      simp
  have hg : WellFormed loneNet [0, 1] := ⟨by decide, by decide, by decide, by decide⟩
  have hr : Ready (loneState 0) := ⟨fun _ => rfl, fun _ => rfl⟩
  obtain ⟨st', log, h⟩ := C37_completes hb hg hr (fun _ _ _ _ _ _ _ => ⟨_, rfl⟩) ⟨8, 2, true⟩ 0 0 (fuel := 5) (by decide)
  have hv := C38_flag_witness.1
  rw [h] at hv
  simp only [view, Option.some.injEq, Prod.mk.injEq] at hv
  refine ⟨st', log, ⟨hb, hg, hr, ⟨_, _, _, _, h⟩, by rw [hv.1]; simp⟩, ?_⟩
  have := congrArg (List.map Prod.fst) hv.2.1
  simpa [List.map_map, Function.comp_def] using this

/-- C56 is false of the code: while an island is solved its bodies carry an index, which `endSolve` alone removes. If a constraint throws in between, a later
step never ends normally: `solveIslands` runs forever (or fails again), whatever happened to the constraints. -/
theorem C56_interrupted_disagreement {N N' : Net P V S} {world world' : List Nat} {st st1 : St P V S} {fuel root : Nat} {x : St P V S × Isl P V} {isl : Isl P V}
    (hg : WellFormed N world) (hroot : root ∈ world) (hr : Ready st) (hz : isl.Empty) (hi : init N fuel st isl root = some (.ok x))
    (hst1 : ∀ b, (st1.body b).index = (x.1.body b).index) {b : Nat} (hb : b ∈ x.2.bodies) (hb' : b ∈ world')
    (cfg : Settings) (n : Nat) (p : P) (v : V) (r : St P V S × List Record) : solveIslands N' cfg n p v world' st1 ≠ some (.ok r) := by
  obtain ⟨hbuild, -⟩ := init_evals hg.consistent.closed hroot hr.idle hz hi
  refine solveLoop_stale n hb' ⟨?_, by simp⟩ r
  rw [hst1]
  exact fun hn => (hbuild.indexed.none_iff b).1 hn hb

/-- C56: when the body left with an index is the last one, `solveIslands` runs forever: no number of iterations is enough. -/
theorem C56_hangs {N : Net P V S} {world : List Nat} {st1 : St P V S} {b : Nat} (hb : world.getLast? = some b) (hi : (st1.body b).index ≠ none)
    (cfg : Settings) (n : Nat) (p : P) (v : V) : solveIslands N cfg n p v world st1 = none := by
  unfold solveIslands
  generalize hisl : (⟨[], [], [], fun _ => p, fun _ => v, false⟩ : Isl P V) = isl
  have hz : isl.bodies = [] ∧ isl.joints = [] ∧ isl.contacts = [] ∧ isl.awake = false := by rw [← hisl]; exact ⟨rfl, rfl, rfl, rfl⟩
  generalize ([] : List Record) = done
  clear hisl
  induction n generalizing isl done st1 with
  | zero => rfl
  | succ n ih =>
    rw [solveLoop, hb]
    dsimp only
    have hin : init N (n + 1) st1 isl b = some (.ok (st1, isl)) := by
      unfold init addBody
      rw [if_neg hi]
      dsimp only
      rw [initLoop, hz.1]
      rfl
    rw [hin]
    dsimp only
    obtain ⟨y, hs, hy1, hy2⟩ : ∃ y, solveIsland N cfg st1 isl = .ok y ∧ y.1.body = st1.body ∧ y.2.awake = false := by
      obtain ⟨b', j', c', ps, vs, a⟩ := isl
      simp only at hz
      obtain ⟨rfl, rfl, rfl, rfl⟩ := hz
      exact ⟨_, rfl, rfl, rfl⟩
    rw [hs]
    dsimp only
    have hfil : (world.filter fun c => decide (c ∉ isl.bodies)) = world := by
      rw [hz.1]; simp
    rw [hfil]
    exact ih (st1 := y.1) (by rw [hy1]; exact hi) y.2.clear ⟨rfl, rfl, rfl, hy2⟩ _

/-- C56, as far as it holds: after a step that did not fail, the next one ends. Missing: the same after a step interrupted by an exception. -/
theorem C56_next_step_partial (h : Solved N A world st st' log) {N' : Net P V S} {world' : List Nat} (hN : WellBehaved N') (hg : WellFormed N' world')
    (cfg : Settings) (p : P) (v : V) {fuel : Nat} (hf : 2 * world'.length < fuel) : solveIslands N' cfg fuel p v world' st' ≠ none :=
  C37_ends hN hg (C37_frame h).1 cfg p v hf

/-- The state of the example in the middle of solving body 4. -/
example : ∃ x, init sampleNet 11 sampleState ⟨[], [], [], fun _ => 0, fun _ => 0, false⟩ 4 = some (.ok x) ∧ 4 ∈ x.2.bodies := by
  cases h : init sampleNet 11 sampleState ⟨[], [], [], fun _ => 0, fun _ => 0, false⟩ 4 with
  | none => exact absurd (congrArg Option.isSome h) (by decide)
  | some o =>
    obtain ⟨x, rfl⟩ := init_ok sampleNet h
    refine ⟨x, rfl, ?_⟩
    exact (init_evals sample_graph.consistent.closed (by decide) (st := sampleState) ⟨fun _ => rfl, fun _ => rfl⟩ ⟨rfl, rfl, rfl⟩ h).2.2.1

end Simu.Island
