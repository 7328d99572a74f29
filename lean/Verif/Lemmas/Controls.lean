import Verif.Props.Application
/-
Helper lemmas for the window of the scene controls: what holds of every scene of an application, and what the functions of a scene do to the pause.
-/
namespace Simu
namespace Scene
variable {K : Type*} [Field K] [LinearOrder K]

theorem setPlaySpeed_paused (s : Scene K) (v : K) : (s.setPlaySpeed v).paused = s.paused := by
  unfold setPlaySpeed
  split <;> rfl

theorem reset_paused (s : Scene K) : s.reset.1.paused = s.paused := by
  unfold reset
  split <;> rfl

theorem step_paused (sqrt : K → K) (s : Scene K) (keys : Bool × Bool × Bool × Bool) (dt : K) (fails : Bool) :
    (s.step sqrt keys dt fails).1.paused = s.paused := by
  obtain ⟨c, hc⟩ := step_eq sqrt s keys dt fails
  rw [hc]
  split_ifs <;> rfl

theorem useTool_paused (s : Scene K) (name : String) : (s.useTool name).1.paused = s.paused := by
  unfold useTool
  split <;> rfl

theorem mouseScroll_paused (s : Scene K) (toolUses : Bool) (amount : Vec2 K) : (s.mouseScroll toolUses amount).paused = s.paused := by
  unfold mouseScroll
  split <;> rfl

/-- Only the P key and a single step that fails change the pause. -/
theorem keypress_paused (sqrt : K → K) (s : Scene K) (ha : s.attached = true) (toolUses : Bool) (keys : Bool × Bool × Bool × Bool) (key : Key) (action : KeyAction) (fails : Bool)
    (h : toolUses = false → ¬(key = .P ∧ action = .press) ∧ ¬(key = .S ∧ fails = true)) :
    (s.keypress sqrt toolUses keys key action fails).1.paused = s.paused := by
  unfold keypress
  cases toolUses with
  | true => rfl
  | false =>
    obtain ⟨hp, hs⟩ := h rfl
    simp only [Bool.false_eq_true, if_false]
    by_cases hr : action = .release
    · simp [onKeypress, hr]
    · by_cases hk : key = .S
      · subst hk
        obtain ⟨c, hc⟩ := single_eq sqrt s keys action fails hr
        rw [hc, ha]
        cases fails with
        | true => exact absurd ⟨rfl, rfl⟩ hs
        | false => rfl
      · unfold onKeypress
        rw [if_neg hr, if_neg hk]
        by_cases hact : action = .press
        · rw [if_pos hact]
          cases key with
          | P => exact absurd ⟨rfl, hact⟩ hp
          | minus => exact setPlaySpeed_paused s _
          | equal => exact setPlaySpeed_paused s _
          | R => exact reset_paused s
          | escape => dsimp only; split <;> rfl
          | S => rfl
          | other n => rfl
        · rw [if_neg hact]

/-- What is kept by the functions the application calls on its scenes. -/
structure Kept (sqrt : K → K) (P : Scene K → Prop) : Prop where
  init : P .init
  speed : ∀ (s : Scene K) (v : K), P s → P (s.setPlaySpeed v)
  pause : ∀ s : Scene K, P s → P s.pause
  resume : ∀ s : Scene K, P s → P s.resume
  reset : ∀ s : Scene K, P s → P s.reset.1
  step : ∀ (s : Scene K) keys (dt : K) fails, P s → P (s.step sqrt keys dt fails).1
  key : ∀ (s : Scene K) toolUses keys key action fails, P s → P (s.keypress sqrt toolUses keys key action fails).1
  scroll : ∀ (s : Scene K) toolUses (amount : Vec2 K), P s → P (s.mouseScroll toolUses amount)
  tool : ∀ (s : Scene K) name, P s → P (s.useTool name).1
  camera : ∀ (s : Scene K) (c : Camera K), P s → P { s with camera := c }
  attach : ∀ (s : Scene K) (b : Bool), P s → P { s.attach with isInit := b }
  detach : ∀ s : Scene K, P s → P s.detach

/-- The play speed is positive. -/
theorem kept_speed [IsStrictOrderedRing K] (sqrt : K → K) : Kept sqrt (fun s : Scene K => 0 < s.playSpeed) where
  init := by simp [Scene.init]
  speed s v hs := by unfold setPlaySpeed; split_ifs <;> first | exact hs | assumption
  pause s hs := hs
  resume s hs := hs
  reset s hs := by unfold Scene.reset; split_ifs <;> exact hs
  step s keys dt fails hs := by
    obtain ⟨c, hc⟩ := step_eq sqrt s keys dt fails
    rw [hc]
    split_ifs <;> exact hs
  key s toolUses keys key action fails hs := by
    unfold keypress
    cases toolUses with
    | true => exact hs
    | false =>
      simp only [Bool.false_eq_true, if_false]
      by_cases hr : action = .release
      · simp [onKeypress, hr, hs]
      · by_cases hk : key = .S
        · subst hk
          obtain ⟨c, hc⟩ := single_eq sqrt s keys action fails hr
          rw [hc]
          split_ifs <;> exact hs
        · unfold onKeypress
          rw [if_neg hr, if_neg hk]
          by_cases ha : action = .press
          · rw [if_pos ha]
            cases key <;> simp only [Scene.reset, setPlaySpeed, Scene.resume, Scene.pause] <;> (try split_ifs) <;> first | exact hs | assumption
          · rw [if_neg ha]; exact hs
  scroll s t a hs := by unfold mouseScroll onMouseScroll; split_ifs <;> exact hs
  tool s n hs := by unfold useTool; split <;> exact hs
  camera s c hs := hs
  attach s b hs := hs
  detach s hs := hs

end Scene

namespace App
variable {K : Type*} [Field K] [LinearOrder K]

section
variable {sqrt : K → K} {P : Scene K → Prop}

theorem all_put {a : App K} (h : ∀ i, P (a.scene i)) {i : Nat} {s : Scene K} (hs : P s) : ∀ j, P ((a.put i s).scene j) := by
  intro j
  by_cases e : j = i
  · subst e; rw [put_scene_self]; exact hs
  · rw [put_scene_ne a s e]; exact h j

theorem all_resizeCallback (k : Scene.Kept sqrt P) {a : App K} (h : ∀ i, P (a.scene i)) (w v : Int) : ∀ j, P ((a.resizeCallback w v).scene j) := by
  unfold resizeCallback
  split
  · exact h
  · exact all_put h (k.camera _ _ (h _))

theorem all_leave (k : Scene.Kept sqrt P) {a : App K} (h : ∀ i, P (a.scene i)) : ∀ j, P (a.leave.scene j) := by
  unfold leave
  split
  · exact h
  · exact all_put h (k.detach _ (h _))

theorem all_changeScene (k : Scene.Kept sqrt P) {a : App K} (h : ∀ i, P (a.scene i)) (next : Nat) (fails : Bool) :
    ∀ j, P ((a.changeScene next fails).1.scene j) := by
  unfold changeScene
  by_cases hc : a.current = some next
  · rw [if_pos hc]; exact h
  · rw [if_neg hc]
    dsimp only
    have hl := all_leave k h
    have hm : ∀ j, P (({ a.leave with current := some next } : App K).scene j) := hl
    split
    · split
      · exact all_put hm (k.attach _ _ (hl _))
      · exact all_resizeCallback k (all_put hm (k.attach _ true (hl _))) _ _
    · exact all_resizeCallback k hm _ _

theorem all_control (k : Scene.Kept sqrt P) {a : App K} (h : ∀ i, P (a.scene i)) (c : Control) : ∀ j, P ((a.control c).1.scene j) := by
  unfold control
  split
  · exact h
  · cases c with
    | slower => exact all_put h (k.speed _ _ (h _))
    | faster => exact all_put h (k.speed _ _ (h _))
    | pauseButton =>
      refine all_put (a := { a with pauseToggle := !a.pauseToggle }) h ?_
      split
      · exact k.pause _ (h _)
      · exact k.resume _ (h _)
    | restart => exact all_put h (k.reset _ (h _))

theorem all_andThen {r : App K × Outcome Unit} {f : App K → App K × Outcome Unit} (h : ∀ i, P (r.1.scene i))
    (hf : ∀ b : App K, (∀ i, P (b.scene i)) → ∀ i, P ((f b).1.scene i)) : ∀ i, P ((andThen r f).1.scene i) := by
  rcases andThen_fst (r := r) (f := f) with e | e <;> rw [e]
  · exact h
  · exact hf _ h

theorem all_apply (k : Scene.Kept sqrt P) {a : App K} (h : ∀ i, P (a.scene i)) (op : Op K) : ∀ j, P ((a.apply sqrt op).1.scene j) := by
  cases op with
  | registerScene key fails =>
    change ∀ j, P ((a.registerScene key fails).1.scene j)
    unfold registerScene
    dsimp only
    split
    · exact all_changeScene k (a := a.registered key) h _ _
    · exact h
  | resize w v => exact all_resizeCallback k (a := { a with window := (w, v) }) h w v
  | frame f =>
    refine all_andThen ?_ fun b hb => all_andThen ?_ fun c hc => all_andThen ?_ fun d hd => all_andThen ?_ fun e he => ?_
    · split
      · exact h
      · unfold select
        split
        · exact h
        · exact all_changeScene k h _ _
    · split
      · rw [settingsWindow_scene]; exact hb
      · exact hb
    · split
      · exact hc
      · split
        · exact all_control k hc _
        · exact hc
    · split
      · exact hd
      · split
        · unfold pickTool
          split
          · exact hd
          · exact all_put hd (k.tool _ _ (hd _))
        · exact hd
    · unfold stepScene
      split
      · exact he
      · exact all_put he (k.step _ _ _ _ (he _))
  | key captured toolUses keys key action fails =>
    change ∀ j, P ((a.key sqrt captured toolUses keys key action fails).1.scene j)
    unfold App.key
    split
    · exact h
    · split
      · exact h
      · exact all_put h (k.key _ _ _ _ _ _ (h _))
  | scroll captured toolUses amount =>
    change ∀ j, P ((a.scroll captured toolUses amount).scene j)
    unfold scroll
    split
    · exact h
    · split
      · exact h
      · exact all_put h (k.scroll _ _ _ (h _))
  | menuSettings shown => exact h
  | menuControls shown => exact h
  | updateSettings i s => exact h

theorem all_reachable (k : Scene.Kept sqrt P) {a : App K} (h : Reachable sqrt a) : ∀ j, P (a.scene j) := by
  obtain ⟨ops, rfl⟩ := h
  have : ∀ (ops : List (Op K)) (a : App K), (∀ i, P (a.scene i)) → ∀ j, P ((a.after sqrt ops).scene j) := by
    intro ops
    induction ops with
    | nil => exact fun a h => h
    | cons op ops ih => exact fun a h => ih _ (all_apply k h op)
  exact this ops _ fun _ => k.init

end

/-- The pause button knows whether the scene is paused. -/
structure InSync (a : App K) : Prop where
  some : ∀ i, a.current = .some i → (a.scene i).paused = a.pauseToggle
  none : a.current = .none → a.pauseToggle = false ∧ ∀ i, (a.scene i).paused = false

theorem InSync.put {a : App K} (h : InSync a) {i : Nat} (hi : a.current = .some i) {s : Scene K} (hs : s.paused = (a.scene i).paused) : InSync (a.put i s) := by
  refine ⟨fun j hj => ?_, fun hn => ?_⟩
  · have : j = i := Option.some.inj (hj.symm.trans hi)
    subst this
    rw [put_scene_self, hs]
    exact h.some j hi
  · have hn' : a.current = .none := hn
    rw [hi] at hn'
    cases hn'

theorem InSync.resizeCallback {a : App K} (h : InSync a) (w v : Int) : InSync (a.resizeCallback w v) := by
  unfold App.resizeCallback
  split
  · exact h
  · rename_i i hi
    exact h.put hi rfl

theorem InSync.click {a : App K} (h : InSync a) : InSync (a.control .pauseButton).1 := by
  unfold control
  split
  · exact h
  · rename_i i hi
    refine ⟨fun j hj => ?_, fun hn => ?_⟩
    · have : j = i := Option.some.inj (hj.symm.trans hi)
      subst this
      dsimp only
      rw [put_scene_self]
      change _ = !a.pauseToggle
      cases a.pauseToggle <;> rfl
    · have hn' : a.current = .none := hn
      rw [hi] at hn'
      cases hn'

theorem InSync.control {a : App K} (h : InSync a) (c : Control) : InSync (a.control c).1 := by
  cases c with
  | pauseButton => exact h.click
  | slower =>
    unfold App.control
    split
    · exact h
    · rename_i i hi
      exact h.put hi (Scene.setPlaySpeed_paused _ _)
  | faster =>
    unfold App.control
    split
    · exact h
    · rename_i i hi
      exact h.put hi (Scene.setPlaySpeed_paused _ _)
  | restart =>
    unfold App.control
    split
    · exact h
    · rename_i i hi
      exact h.put hi (Scene.reset_paused _)

theorem InSync.andThen {r : App K × Outcome Unit} {f : App K → App K × Outcome Unit} (h : InSync r.1) (hf : ∀ b : App K, InSync b → InSync (f b).1) :
    InSync (App.andThen r f).1 := by
  rcases andThen_fst (r := r) (f := f) with e | e <;> rw [e]
  · exact h
  · exact hf _ h

theorem InSync.settingsWindow {a : App K} (h : InSync a) (has : Bool) (v p : Int) (w : Bool) : InSync (a.settingsWindow has v p w).1 := by
  have e := edits_settingsWindow a has v p w
  have es := settingsWindow_scene a has v p w
  have et : (a.settingsWindow has v p w).1.pauseToggle = a.pauseToggle := by
    unfold App.settingsWindow
    dsimp only
    split
    · split <;> rfl
    · rfl
  have ec : (a.settingsWindow has v p w).1.current = a.current := by
    unfold App.settingsWindow
    dsimp only
    split
    · split <;> rfl
    · rfl
  exact ⟨fun i hi => by rw [es, et]; exact h.some i (ec ▸ hi), fun hn => by rw [es, et]; exact h.none (ec ▸ hn)⟩

end App
end Simu
