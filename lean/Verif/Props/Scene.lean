import Verif.Model.Scene
import Verif.Props.Camera
import Mathlib.Tactic.Positivity
import Mathlib.Tactic.NormNum
import Mathlib.Analysis.SpecialFunctions.Sqrt
/-
C42: time control of a scene. C57: zooming with the mouse wheel. C59: moving the view with the keyboard. C60: the pause button. C61: tools.
-/
namespace Simu
namespace Scene
section
variable {K : Type*} [Field K] [LinearOrder K]

/-- The scene after a history. A history goes on after an exception. -/
def after (sqrt : K → K) (s : Scene K) (ops : List (Op K)) : Scene K := ops.foldl (fun s op => (s.apply sqrt op).1) s

/-- A scene obtained by any history. -/
def Reachable (sqrt : K → K) (s : Scene K) : Prop := ∃ ops, s = init.after sqrt ops

/-- The key that single-steps the scene, pressed or held down, reaches it. -/
def IsSingleStep : Op K → Prop
  | .key toolUses _ key action _ => toolUses = false ∧ key = .S ∧ action ≠ .release
  | _ => False

/-- An operation by which the user asks the scene to go on: `resume`, the pause key, or single-stepping. -/
def AsksToGoOn : Op K → Prop
  | .resume => True
  | .key toolUses _ key action _ => toolUses = false ∧ (key = .S ∧ action ≠ .release ∨ key = .P ∧ action = .press)
  | _ => False

theorem moveCamera_steps (sqrt : K → K) (s : Scene K) (keys : Bool × Bool × Bool × Bool) (dt : K) :
    ∃ c, s.moveCamera sqrt keys dt = { s with camera := c } := by
  unfold moveCamera
  dsimp only
  split_ifs
  · exact ⟨s.camera, rfl⟩
  · exact ⟨_, rfl⟩
  · exact ⟨s.camera, rfl⟩

/-- What `step` does, without the camera. -/
theorem step_eq (sqrt : K → K) (s : Scene K) (keys : Bool × Bool × Bool × Bool) (dt : K) (fails : Bool) : ∃ c,
    s.step sqrt keys dt fails = if s.attached then
      ({ s with camera := c, steps := min dt (1 / 60) * (s.playSpeed * (if s.paused then 0 else 1)) :: s.steps }, if fails then .throw else .ok ())
    else ({ s with camera := c }, .ub) := by
  obtain ⟨c, hc⟩ := moveCamera_steps sqrt s keys (min dt (1 / 60))
  refine ⟨c, ?_⟩
  unfold step
  simp only [hc]
  cases s.attached <;> cases fails <;> rfl

/-- What the single-step key does, without the camera. -/
theorem single_eq (sqrt : K → K) (s : Scene K) (keys : Bool × Bool × Bool × Bool) (action : KeyAction) (fails : Bool) (h : action ≠ .release) :
    ∃ c, s.onKeypress sqrt keys .S action fails = if s.attached then
      if fails then ({ s with camera := c, paused := false, steps := 1 / 60 * s.playSpeed :: s.steps }, .throw)
      else ({ s with camera := c, steps := 1 / 60 * s.playSpeed :: s.steps }, .ok true)
    else ({ s with camera := c, paused := false }, .ub) := by
  unfold onKeypress
  rw [if_neg h, if_pos rfl]
  by_cases hp : s.paused = true
  · obtain ⟨c, hc⟩ := step_eq sqrt s.resume keys (1 / 60) fails
    refine ⟨c, ?_⟩
    rw [if_pos hp, hc]
    cases ha : s.attached <;> cases fails <;> simp [resume, pause, ha]
    obtain ⟨_, _, _, _, _, _, _, _, _⟩ := s
    simp only at hp
    simp [hp]
  · have hp' : s.paused = false := by simpa using hp
    obtain ⟨c, hc⟩ := step_eq sqrt s keys (1 / 60) fails
    refine ⟨c, ?_⟩
    rw [if_neg hp, hc]
    obtain ⟨_, _, a, _, _, _, _, _, _⟩ := s
    simp only at hp'
    subst hp'
    cases a <;> cases fails <;> simp

end

section
variable {K : Type*} [Field K] [LinearOrder K] [IsStrictOrderedRing K]

/-- An operation other than single-stepping that adds to the durations is a frame. -/
theorem apply_steps (sqrt : K → K) (s : Scene K) (op : Op K) (h : ¬IsSingleStep op) :
    (s.apply sqrt op).1.steps = s.steps ∨ (s.apply sqrt op).1.steps = [] ∨
    ∃ keys dt fails, op = .step keys dt fails ∧
      (s.apply sqrt op).1.steps = min dt (1 / 60) * (s.playSpeed * (if s.paused then 0 else 1)) :: s.steps := by
  cases op with
  | step keys dt fails =>
    obtain ⟨c, hc⟩ := step_eq sqrt s keys dt fails
    simp only [apply, hc]
    cases s.attached
    · left; rfl
    · right; right; exact ⟨keys, dt, fails, rfl, rfl⟩
  | key toolUses keys key action fails =>
    simp only [apply, keypress]
    cases toolUses
    · simp only [Bool.false_eq_true, if_false]
      by_cases hr : action = .release
      · left; simp [onKeypress, hr]
      · have hk : key ≠ .S := fun hk => h ⟨rfl, hk, hr⟩
        unfold onKeypress
        rw [if_neg hr, if_neg hk]
        by_cases ha : action = .press
        · rw [if_pos ha]
          cases key <;> simp only [reset, setPlaySpeed, resume, pause] <;> first | (left; split_ifs <;> rfl) | (right; left; split_ifs <;> rfl) | (left; rfl) | (left; trivial)
        · rw [if_neg ha]; left; rfl
    · left; rfl
  | reset => right; left; simp only [apply, reset]; split_ifs <;> rfl
  | attach => right; left; rfl
  | setPlaySpeed v => left; simp only [apply, setPlaySpeed]; split_ifs <;> rfl
  | scroll t a => left; simp only [apply, mouseScroll, onMouseScroll]; split_ifs <;> rfl
  | useTool n => left; simp only [apply, useTool]; split <;> rfl
  | pause => left; rfl
  | resume => left; rfl
  | camera op => left; rfl
  | detach => left; rfl
  | registerTool n => left; rfl

/-- C42: the play speed stays positive whatever happens. -/
theorem C42_speed {sqrt : K → K} {s : Scene K} (h : s.Reachable sqrt) : 0 < s.playSpeed := by
  obtain ⟨ops, rfl⟩ := h
  have one : ∀ (s : Scene K) (op : Op K), 0 < s.playSpeed → 0 < (s.apply sqrt op).1.playSpeed := by
    intro s op hs
    cases op with
    | step keys dt fails =>
      obtain ⟨c, hc⟩ := step_eq sqrt s keys dt fails
      simp only [apply, hc]
      split_ifs <;> exact hs
    | key toolUses keys key action fails =>
      simp only [apply, keypress]
      cases toolUses
      · simp only [Bool.false_eq_true, if_false]
        by_cases hr : action = .release
        · simp [onKeypress, hr, hs]
        · by_cases hk : key = .S
          · subst hk
            obtain ⟨c, hc⟩ := single_eq sqrt s keys action fails hr
            rw [hc]
            split_ifs <;> exact hs
          · unfold onKeypress
            rw [if_neg hr, if_neg hk]
            by_cases ha : action = .press
            · rw [if_pos ha]
              cases key <;> simp only [reset, setPlaySpeed, resume, pause] <;> (try split_ifs) <;> first | exact hs | assumption
            · rw [if_neg ha]; exact hs
      · exact hs
    | reset => simp only [apply, reset]; split_ifs <;> exact hs
    | setPlaySpeed v => simp only [apply, setPlaySpeed]; split_ifs <;> first | exact hs | assumption
    | scroll t a => simp only [apply, mouseScroll, onMouseScroll]; split_ifs <;> exact hs
    | useTool n => simp only [apply, useTool]; split <;> exact hs
    | attach => exact hs
    | pause => exact hs
    | resume => exact hs
    | camera op => exact hs
    | detach => exact hs
    | registerTool n => exact hs
  have : ∀ (ops : List (Op K)) (s : Scene K), 0 < s.playSpeed → 0 < (s.after sqrt ops).playSpeed := by
    intro ops
    induction ops with
    | nil => exact fun s h => h
    | cons op ops ih => exact fun s h => ih _ (one s op h)
  exact this ops _ (by simp [init])

/-- C42: whatever happens to a scene makes it advance at most once, by at most a sixtieth of a second times the play speed, and by a
non-negative time if the frame lasted a non-negative time. (The other possibility is that the scene is emptied.) -/
theorem C42_frame {sqrt : K → K} {s : Scene K} (h : s.Reachable sqrt) (op : Op K) :
    (s.apply sqrt op).1.steps = s.steps ∨ (s.apply sqrt op).1.steps = [] ∨
    ∃ dt, (s.apply sqrt op).1.steps = dt :: s.steps ∧ dt ≤ 1 / 60 * s.playSpeed ∧
      ((∃ keys d fails, op = .step keys d fails ∧ d < 0) ∨ 0 ≤ dt) := by
  have hs := C42_speed h
  by_cases hss : IsSingleStep op
  · cases op with
    | key toolUses keys key action fails =>
      obtain ⟨rfl, rfl, hr⟩ := hss
      obtain ⟨c, hc⟩ := single_eq sqrt s keys action fails hr
      simp only [apply, keypress, Bool.false_eq_true, if_false, hc]
      cases s.attached
      · left; rfl
      · right; right
        refine ⟨1 / 60 * s.playSpeed, ?_, le_refl _, Or.inr (by positivity)⟩
        cases fails <;> rfl
    | _ => exact absurd hss not_false
  · rcases apply_steps sqrt s op hss with h1 | h1 | ⟨keys, d, fails, rfl, h1⟩
    · exact Or.inl h1
    · exact Or.inr (Or.inl h1)
    · right; right
      refine ⟨_, h1, ?_, ?_⟩
      · cases s.paused
        · simp only [Bool.false_eq_true, if_false, mul_one]
          exact mul_le_mul_of_nonneg_right (min_le_right _ _) hs.le
        · simp only [if_true, mul_zero]
          positivity
      · by_cases hd : d < 0
        · exact Or.inl ⟨keys, d, fails, rfl, hd⟩
        · right
          refine mul_nonneg (le_min (not_lt.1 hd) (by positivity)) (mul_nonneg hs.le ?_)
          split_ifs <;> norm_num

/-- C42: a paused scene stays paused and does not advance, whatever happens (frames, changes of speed, the other keys, failing steps, ...), until it is
resumed, the pause key is pressed or it is single-stepped. -/
theorem C42_paused (sqrt : K → K) (ops : List (Op K)) (hops : ∀ op ∈ ops, ¬AsksToGoOn op) (s : Scene K) (hp : s.paused = true)
    (hz : ∀ dt ∈ s.steps, dt = 0) : (s.after sqrt ops).paused = true ∧ ∀ dt ∈ (s.after sqrt ops).steps, dt = 0 := by
  induction ops generalizing s with
  | nil => exact ⟨hp, hz⟩
  | cons op ops ih =>
    have h1 := hops op List.mem_cons_self
    have hss : ¬IsSingleStep op := by
      intro h
      cases op with
      | key toolUses keys key action fails => exact h1 ⟨h.1, Or.inl h.2⟩
      | _ => exact absurd h not_false
    refine ih (fun op h => hops op (List.mem_cons_of_mem _ h)) _ ?_ ?_
    · cases op with
      | step keys dt fails =>
        obtain ⟨c, hc⟩ := step_eq sqrt s keys dt fails
        simp only [apply, hc]
        split_ifs <;> exact hp
      | key toolUses keys key action fails =>
        simp only [apply, keypress]
        cases toolUses
        · simp only [Bool.false_eq_true, if_false]
          by_cases hr : action = .release
          · simp [onKeypress, hr, hp]
          · have hk : key ≠ .S := fun hk => hss ⟨rfl, hk, hr⟩
            unfold onKeypress
            rw [if_neg hr, if_neg hk]
            by_cases ha : action = .press
            · rw [if_pos ha]
              have hP : key ≠ .P := fun hk => h1 ⟨rfl, Or.inr ⟨hk, ha⟩⟩
              cases key <;> simp only [reset, setPlaySpeed] <;> (try split_ifs) <;> first | exact hp | exact absurd rfl hP
            · rw [if_neg ha]; exact hp
        · exact hp
      | resume => exact absurd trivial h1
      | reset => simp only [apply, reset]; split_ifs <;> exact hp
      | setPlaySpeed v => simp only [apply, setPlaySpeed]; split_ifs <;> exact hp
      | scroll t a => simp only [apply, mouseScroll, onMouseScroll]; split_ifs <;> exact hp
      | useTool n => simp only [apply, useTool]; split <;> exact hp
      | attach => exact hp
      | pause => rfl
      | camera op => exact hp
      | detach => exact hp
      | registerTool n => exact hp
    · rcases apply_steps sqrt s op hss with h | h | ⟨keys, d, fails, rfl, h⟩
      · rw [h]; exact hz
      · rw [h]; simp
      · rw [h]
        intro dt hdt
        rcases List.mem_cons.1 hdt with rfl | hdt
        · simp [hp]
        · exact hz dt hdt

/-- C42: an unpaused frame advances the scene by the duration of the frame times the play speed, up to the limit; single-stepping advances by a
sixtieth of a second times the play speed and leaves everything else, the pause included, as it was. Missing: a step that throws (`C42_single_step_disagreement`). -/
theorem C42_advance_partial (sqrt : K → K) (s : Scene K) (ha : s.attached = true) (keys : Bool × Bool × Bool × Bool) (dt : K) (action : KeyAction)
    (hr : action ≠ .release) :
    ∃ c c', (s.paused = false → s.step sqrt keys dt false = ({ s with camera := c, steps := min dt (1 / 60) * s.playSpeed :: s.steps }, .ok ())) ∧
      s.onKeypress sqrt keys .S action false = ({ s with camera := c', steps := 1 / 60 * s.playSpeed :: s.steps }, .ok true) := by
  obtain ⟨c, hc⟩ := step_eq sqrt s keys dt false
  obtain ⟨c', hc'⟩ := single_eq sqrt s keys action false hr
  refine ⟨c, c', fun hp => ?_, ?_⟩
  · rw [hc, ha, hp]
    simp
  · rw [hc', ha]
    simp

omit [IsStrictOrderedRing K] in
/-- C42: if the world fails while a paused scene is single-stepped, the scene stays resumed. -/
theorem C42_single_step_disagreement (sqrt : K → K) (s : Scene K) (ha : s.attached = true) (keys : Bool × Bool × Bool × Bool) (action : KeyAction)
    (hr : action ≠ .release) : (s.onKeypress sqrt keys .S action true).2 = .throw ∧ (s.onKeypress sqrt keys .S action true).1.paused = false := by
  obtain ⟨c, hc⟩ := single_eq sqrt s keys action true hr
  rw [hc, ha]
  exact ⟨rfl, rfl⟩

/-- C42: the keys of the base scene, as documented: they act when they are pressed, and other keys are left to others. -/
theorem C42_keys {sqrt : K → K} {s : Scene K} (h : s.Reachable sqrt) (ha : s.attached = true) (keys : Bool × Bool × Bool × Bool) (fails : Bool) (n : Nat) :
    s.onKeypress sqrt keys .P .press fails = ({ s with paused := !s.paused }, .ok true) ∧
    s.onKeypress sqrt keys .minus .press fails = ({ s with playSpeed := s.playSpeed / 2 }, .ok true) ∧
    s.onKeypress sqrt keys .equal .press fails = ({ s with playSpeed := s.playSpeed * 2 }, .ok true) ∧
    s.onKeypress sqrt keys .R .press fails = ({ s with steps := [] }, .ok true) ∧
    s.onKeypress sqrt keys .escape .press fails = ({ s with closing := true }, .ok true) ∧
    s.onKeypress sqrt keys (.other n) .press fails = (s, .ok false) ∧
    ∀ key, s.onKeypress sqrt keys key .release fails = (s, .ok false) := by
  have hs := C42_speed h
  refine ⟨?_, ?_, ?_, ?_, ?_, ?_, fun key => by simp [onKeypress]⟩
  · cases hp : s.paused <;> simp [onKeypress, hp, pause, resume]
  · simp [onKeypress, setPlaySpeed, hs]
  · simp [onKeypress, setPlaySpeed, hs]
  · simp [onKeypress, reset, ha]
  · simp [onKeypress, ha]
  · simp [onKeypress]

omit [IsStrictOrderedRing K] in
/-- C42: a key that is held down is reported as used although the scene does nothing with it. -/
theorem C42_repeat_disagreement (sqrt : K → K) (s : Scene K) (keys : Bool × Bool × Bool × Bool) (fails : Bool) (key : Key) (hk : key ≠ .S) :
    s.onKeypress sqrt keys key .repeat fails = (s, .ok true) := by
  simp [onKeypress, hk]

omit [IsStrictOrderedRing K] in
/-- C42: a scene must be the current scene of an application to be stepped or reset. -/
theorem C42_detached (sqrt : K → K) (s : Scene K) (ha : s.attached = false) (keys : Bool × Bool × Bool × Bool) (dt : K) (fails : Bool) :
    (s.step sqrt keys dt fails).2 = .ub ∧ s.reset.2 = .ub := by
  obtain ⟨c, hc⟩ := step_eq sqrt s keys dt fails
  rw [hc, ha]
  simp [reset, ha]

/-- C57: how far the mouse wheel zooms: by 5/4 (up) or 4/5 (down) times the amount scrolled. -/
theorem C57_scroll_partial {s : Scene K} (hz : 0 < s.camera.zoom) (scroll : Vec2 K) :
    (scroll.y = 0 → (s.onMouseScroll scroll).camera = s.camera) ∧
    (0 < scroll.y → (s.camera.zoom < (s.onMouseScroll scroll).camera.zoom ↔ 4 / 5 < scroll.y)) ∧
    (scroll.y < 0 → ((s.onMouseScroll scroll).camera.zoom < s.camera.zoom ↔ -(5 / 4) < scroll.y)) := by
  refine ⟨fun h => ?_, fun h => ?_, fun h => ?_⟩
  · simp [onMouseScroll, Camera.setZoom, h]
  · have hp : 0 < s.camera.zoom * |scroll.y| * (5 / 4) := by
      rw [abs_of_pos h]; positivity
    simp only [onMouseScroll, Camera.setZoom, if_neg (not_lt.2 h.le), if_pos hp]
    rw [abs_of_pos h]
    constructor
    · intro h1
      have : s.camera.zoom * 1 < s.camera.zoom * (scroll.y * (5 / 4)) := by linarith
      have := lt_of_mul_lt_mul_left this hz.le
      linarith
    · intro h1
      have := mul_lt_mul_of_pos_left (show (1 : K) < scroll.y * (5 / 4) by linarith) hz
      linarith
  · have hp : 0 < s.camera.zoom * |scroll.y| * (4 / 5) := by
      have : 0 < -scroll.y := by linarith
      rw [abs_of_neg h]; positivity
    simp only [onMouseScroll, Camera.setZoom, if_pos h, if_pos hp]
    rw [abs_of_neg h]
    constructor
    · intro h1
      have : s.camera.zoom * (-scroll.y * (4 / 5)) < s.camera.zoom * 1 := by linarith
      have := lt_of_mul_lt_mul_left this hz.le
      linarith
    · intro h1
      have := mul_lt_mul_of_pos_left (show -scroll.y * (4 / 5) < 1 by linarith) hz
      linarith

/-- C57 is false: scrolling down by 2 zooms in, scrolling up by 1/2 zooms out. -/
theorem C57_scroll_disagreement (s : Scene K) (hz : 0 < s.camera.zoom) (x : K) :
    s.camera.zoom < (s.onMouseScroll ⟨x, -2⟩).camera.zoom ∧ (s.onMouseScroll ⟨x, 1 / 2⟩).camera.zoom < s.camera.zoom := by
  have h1 := (C57_scroll_partial hz (⟨x, 1 / 2⟩ : Vec2 K)).2.1 (by norm_num)
  refine ⟨?_, ?_⟩
  · have hp : 0 < s.camera.zoom * |(-2 : K)| * (4 / 5) := by
      rw [abs_of_neg (by norm_num)]; norm_num; exact hz
    simp only [onMouseScroll, Camera.setZoom, if_pos (show (-2 : K) < 0 by norm_num), if_pos hp]
    rw [abs_of_neg (by norm_num)]
    linarith
  · have hp : 0 < s.camera.zoom * |(1 / 2 : K)| * (5 / 4) := by
      rw [abs_of_pos (by norm_num)]; norm_num; exact hz
    simp only [onMouseScroll, Camera.setZoom, if_neg (show ¬(1 / 2 : K) < 0 by norm_num), if_pos hp]
    rw [abs_of_pos (by norm_num)]
    linarith

omit [IsStrictOrderedRing K] in
theorem panDir_eq (l r u d : Bool) : (panDir (l, r, u, d) : Vec2 K) =
    ⟨(if r then 1 else 0) - (if l then 1 else 0), (if u then 1 else 0) - (if d then 1 else 0)⟩ := by
  cases l <;> cases r <;> cases u <;> cases d <;> (ext <;> simp [panDir])

/-- C59: holding arrow keys down moves the view in the direction of the keys (opposite keys cancel) by 500 pixels per second, whatever the
direction and the zoom; a pixel measuring `pixelSize / zoom` in the scene. -/
theorem C59_pan {sqrt : K → K} (hsqrt : ∀ x, 0 ≤ x → sqrt x * sqrt x = x ∧ 0 ≤ sqrt x) {s : Scene K} (ha : s.attached = true)
    (hz : 0 < s.camera.zoom) (hp : 0 ≤ s.camera.pixelSize) (l r u d : Bool) {dt : K} (hdt : 0 ≤ dt) (dir move : Vec2 K)
    (hdir : dir = ⟨(if r then 1 else 0) - (if l then 1 else 0), (if u then 1 else 0) - (if d then 1 else 0)⟩)
    (hmove : move = (s.moveCamera sqrt (l, r, u, d) dt).camera.center - s.camera.center) :
    (dir = 0 → move = 0) ∧
    (dir ≠ 0 → move.normSquared = (500 * dt * (s.camera.pixelSize / s.camera.zoom)) ^ 2 ∧ Vec2.cross dir move = 0 ∧ 0 ≤ Vec2.dot dir move) := by
  have hd : (panDir (l, r, u, d) : Vec2 K) = dir := by rw [hdir, panDir_eq]
  have hm : move = if dir.x ≠ 0 ∨ dir.y ≠ 0 then dt • (500 * s.camera.pixelSize / s.camera.zoom) • normalize sqrt dir else 0 := by
    rw [hmove]
    simp only [moveCamera, ha, Bool.not_true, Bool.false_eq_true, if_false, hd]
    split_ifs
    · ext <;> simp [Camera.pan]
    · ext <;> simp
  refine ⟨fun h0 => ?_, fun h0 => ?_⟩
  · rw [hm, if_neg]
    rw [h0]; simp
  · have hne : dir.x ≠ 0 ∨ dir.y ≠ 0 := by
      by_contra hc
      push Not at hc
      exact h0 (Vec2.ext hc.1 hc.2)
    rw [if_pos hne] at hm
    have hn : 0 < dir.normSquared := by
      rw [Vec2.normSquared, Vec2.dot, zero_add]
      rcases hne with h | h
      · exact add_pos_of_pos_of_nonneg (mul_self_pos.2 h) (mul_self_nonneg _)
      · exact add_pos_of_nonneg_of_pos (mul_self_nonneg _) (mul_self_pos.2 h)
    obtain ⟨hs1, hs2⟩ := hsqrt _ hn.le
    set q := sqrt dir.normSquared
    have hq : 0 < q := lt_of_le_of_ne hs2 (fun h => by rw [← h] at hs1; simp at hs1; exact hn.ne hs1)
    have hmx : move.x = dir.x / q * (500 * s.camera.pixelSize / s.camera.zoom) * dt := by rw [hm]; rfl
    have hmy : move.y = dir.y / q * (500 * s.camera.pixelSize / s.camera.zoom) * dt := by rw [hm]; rfl
    have hqq : dir.x * dir.x + dir.y * dir.y = q * q := by rw [hs1, Vec2.normSquared, Vec2.dot, zero_add]
    refine ⟨?_, ?_, ?_⟩
    · have : move.normSquared = (dir.x * dir.x + dir.y * dir.y) / (q * q) * (500 * dt * (s.camera.pixelSize / s.camera.zoom)) ^ 2 := by
        rw [Vec2.normSquared, Vec2.dot, hmx, hmy]
        field_simp
        ring
      rw [this, hqq, div_self (by positivity), one_mul]
    · rw [Vec2.cross, hmx, hmy]
      ring
    · have : Vec2.dot dir move = (dir.x * dir.x + dir.y * dir.y) / q * (500 * s.camera.pixelSize / s.camera.zoom) * dt := by
        rw [Vec2.dot, hmx, hmy]
        ring
      rw [this, hqq]
      positivity

/-- C59: a pixel of a window the camera was fitted to measures `pixelSize / zoom` in the scene. -/
theorem C59_pixel {c : Camera K} (h : c.Reachable) (hp : 0 < c.pixelSize) {wz : Vec2 K} (hw : 0 < wz.x ∧ 0 < wz.y) (w v : Vec2 K) :
    ∃ W, (c.setDimensionsFromScreenCoordinates wz).windowToScene wz = .ok W ∧
      mat3App W (w + v) - mat3App W w = ⟨v.x * (c.pixelSize / c.zoom), -(v.y * (c.pixelSize / c.zoom))⟩ := by
  have hc : (c.setDimensionsFromScreenCoordinates wz).Reachable := by
    obtain ⟨ops, rfl⟩ := h
    exact ⟨ops ++ [.setDimensionsFromScreenCoordinates wz], by simp [List.foldl_append, Camera.apply]⟩
  have hz := (Camera.C41_positive h).1
  have he := (Camera.C41_operations h 1 1 0 wz).2.2.2.2.2.2.2.2.2.2.1 hp hw.1 hw.2
  obtain ⟨M, W, hM, hW, hiff, _⟩ := Camera.C58_window hc hw
  refine ⟨W, hW, ?_⟩
  obtain ⟨_, N, _, hN, _, _, hinv⟩ := Camera.C41_inverse hc
  have hM' : M = _ := Outcome.ok.inj (hM.symm.trans (Camera.transform_eq _))
  have hq : ∀ w, mat3App W w = ⟨(w.x - wz.x / 2) * (c.pixelSize / c.zoom) + c.center.x, (wz.y / 2 - w.y) * (c.pixelSize / c.zoom) + c.center.y⟩ := by
    intro w
    rw [hiff, hM', m9_app, he]
    obtain ⟨h1, h2⟩ := hw
    simp only [Camera.pixelOnScreen]
    ext <;> dsimp only <;> field_simp <;> ring
  rw [hq, hq]
  ext <;> simp <;> ring

/-- C61: the current tool is always a registered one. -/
theorem C61_tool {sqrt : K → K} {s : Scene K} (h : s.Reachable sqrt) : s.tool < s.tools.length := by
  obtain ⟨ops, rfl⟩ := h
  have one : ∀ (s : Scene K) (op : Op K), s.tool < s.tools.length → (s.apply sqrt op).1.tool < (s.apply sqrt op).1.tools.length := by
    intro s op hs
    cases op with
    | step keys dt fails =>
      obtain ⟨c, hc⟩ := step_eq sqrt s keys dt fails
      simp only [apply, hc]
      split_ifs <;> exact hs
    | key toolUses keys key action fails =>
      simp only [apply, keypress]
      cases toolUses
      · simp only [Bool.false_eq_true, if_false]
        by_cases hr : action = .release
        · simp [onKeypress, hr, hs]
        · by_cases hk : key = .S
          · subst hk
            obtain ⟨c, hc⟩ := single_eq sqrt s keys action fails hr
            rw [hc]
            split_ifs <;> exact hs
          · unfold onKeypress
            rw [if_neg hr, if_neg hk]
            by_cases ha : action = .press
            · rw [if_pos ha]
              cases key <;> simp only [reset, setPlaySpeed, resume, pause] <;> (try split_ifs) <;> exact hs
            · rw [if_neg ha]; exact hs
      · exact hs
    | reset => simp only [apply, reset]; split_ifs <;> exact hs
    | setPlaySpeed v => simp only [apply, setPlaySpeed]; split_ifs <;> exact hs
    | scroll t a => simp only [apply, mouseScroll, onMouseScroll]; split_ifs <;> exact hs
    | useTool n =>
      simp only [apply, useTool]
      split
      · rename_i i hi
        rw [List.findIdx?_eq_some_iff_getElem] at hi
        exact hi.1
      · exact hs
    | registerTool n =>
      simp only [apply, registerTool, List.length_append]
      omega
    | attach => exact hs
    | pause => exact hs
    | resume => exact hs
    | camera op => exact hs
    | detach => exact hs
  have : ∀ (ops : List (Op K)) (s : Scene K), s.tool < s.tools.length → (s.after sqrt ops).tool < (s.after sqrt ops).tools.length := by
    intro ops
    induction ops with
    | nil => exact fun s h => h
    | cons op ops ih => exact fun s h => ih _ (one s op h)
  exact this ops _ (by simp [init])

omit [IsStrictOrderedRing K] in
/-- C61: asking for a tool selects the first one registered under this name; asking for an unknown one throws and keeps the current one. -/
theorem C61_use (s : Scene K) (name : String) :
    (∀ i, (s.useTool name).2 = .ok i → (s.useTool name).1 = { s with tool := i } ∧ s.tools[i]? = some name ∧ ∀ j < i, s.tools[j]? ≠ some name) ∧
    (name ∉ s.tools → s.useTool name = (s, .throw)) ∧ (name ∈ s.tools → ∃ i, (s.useTool name).2 = .ok i) := by
  refine ⟨fun i h => ?_, fun h => ?_, fun h => ?_⟩
  · unfold useTool at h ⊢
    cases hf : s.tools.findIdx? (· == name) with
    | none => rw [hf] at h; simp at h
    | some k =>
      rw [hf] at h
      cases Outcome.ok.inj h
      rw [List.findIdx?_eq_some_iff_getElem] at hf
      obtain ⟨hk, h1, h2⟩ := hf
      refine ⟨rfl, ?_, fun j hj => ?_⟩
      · rw [List.getElem?_eq_getElem hk]
        simpa using h1
      · have := h2 j hj
        rw [List.getElem?_eq_getElem (by omega)]
        simpa using this
  · have : s.tools.findIdx? (· == name) = none := by
      rw [List.findIdx?_eq_none_iff]
      intro x hx
      simp only [beq_eq_false_iff_ne]
      rintro rfl
      exact h hx
    simp [useTool, this]
  · cases hf : s.tools.findIdx? (· == name) with
    | some k => exact ⟨k, by simp [useTool, hf]⟩
    | none =>
      rw [List.findIdx?_eq_none_iff] at hf
      have := hf name h
      simp at this

end

section Samples

/-- A scene in an application, with two tools, paused, at twice the speed. -/
def sampleScene : Scene ℚ :=
  init.after id [.registerTool "Grabber", .attach, .key false (false, false, false, false) .equal .press false, .setPlaySpeed (-3), .pause]

theorem sampleScene_reachable : sampleScene.Reachable id := ⟨_, rfl⟩

-- C42, C61: the hypotheses hold for this scene; a frame of one second when it is resumed.
example : sampleScene.playSpeed = 2 ∧ sampleScene.paused = true ∧ sampleScene.attached = true ∧ ∀ dt ∈ sampleScene.steps, dt = 0 := by
  decide +kernel

example : (sampleScene.resume.step id (false, false, false, false) 1 false).1.steps = [1 / 30] := by decide +kernel

-- C42: frames, another key and a change of speed leave it paused, without advancing.
example : ¬AsksToGoOn (.step (true, false, false, false) 1 true : Op ℚ) ∧ ¬AsksToGoOn (.setPlaySpeed 3 : Op ℚ) ∧
    ¬AsksToGoOn (.key false (false, false, false, false) (.other 4) .press false : Op ℚ) := by
  refine ⟨not_false, not_false, ?_⟩
  rintro ⟨_, ⟨h, _⟩ | ⟨h, _⟩⟩ <;> exact absurd h (by decide)

-- C57, C59: the zoom is positive and there is a square root for the lengths that occur (in the reals).
example : 0 < sampleScene.camera.zoom := by decide +kernel

example : ∃ sqrt : ℝ → ℝ, ∀ x, 0 ≤ x → sqrt x * sqrt x = x ∧ 0 ≤ sqrt x :=
  ⟨Real.sqrt, fun x hx => ⟨Real.mul_self_sqrt hx, Real.sqrt_nonneg x⟩⟩

-- C59: right alone, with the identity as the square root of one: 500 pixels of size 1/10 in a second.
example : (sampleScene.moveCamera id (false, true, false, false) 1).camera.center = ⟨50, 0⟩ := by decide +kernel

-- C61
example : (sampleScene.useTool "Grabber").2 = .ok 1 ∧ (sampleScene.useTool "Hammer").2 = .throw := by decide +kernel

end Samples
end Scene

namespace PauseButton

/-- What may happen to the button and the current scene. -/
inductive Op where
  | click
  | keyP
  | changeScene (paused : Bool)

/-- Effect of an operation: the functions of the model. -/
def apply (b : PauseButton) : Op → PauseButton
  | .click => b.click
  | .keyP => b.keyP
  | .changeScene p => b.changeScene p

/-- The button does what it says and says what it does: it offers to play exactly when the scene is paused, and clicking it pauses a running scene and
resumes a paused one. -/
def Works (b : PauseButton) : Prop := (b.saysPlay = true ↔ b.paused = true) ∧ b.click.paused = !b.paused

/-- C60: the button works exactly when its own idea of the scene is the right one; this is so right after a click, and as long as nothing but the
button is used. -/
theorem C60_button_partial (b : PauseButton) : (b.Works ↔ b.toggle = b.paused) ∧ b.click.Works ∧
    ∀ clicks : List Unit, (clicks.foldl (fun b _ => b.click) init).Works := by
  have h1 : ∀ b : PauseButton, b.Works ↔ b.toggle = b.paused := by
    rintro ⟨t, p⟩
    cases t <;> cases p <;> simp [Works, saysPlay, click]
  have h2 : ∀ b : PauseButton, b.click.Works := by
    rintro ⟨t, p⟩
    cases t <;> cases p <;> simp [Works, saysPlay, click]
  refine ⟨h1 b, h2 b, fun clicks => ?_⟩
  have : ∀ (l : List Unit) (b : PauseButton), b.Works → (l.foldl (fun b _ => b.click) b).Works := by
    intro l
    induction l with
    | nil => exact fun b h => h
    | cons _ l ih => exact fun b _ => ih _ (h2 b)
  exact this clicks init ((h1 _).2 rfl)

/-- C60 is false: after the pause key, from any state in which the button works, it does not; nor after changing to a scene in another state. -/
theorem C60_button_disagreement (b : PauseButton) (h : b.Works) : ¬b.keyP.Works ∧ ¬(b.changeScene (!b.paused)).Works := by
  obtain ⟨t, p⟩ := b
  cases t <;> cases p <;> simp [Works, saysPlay, click, keyP, changeScene] at h ⊢

example : init.Works := (C60_button_partial init).2.2 []

end PauseButton
end Simu
