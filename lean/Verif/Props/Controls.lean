import Verif.Spec.Controls
import Verif.Lemmas.Controls
/-
C93: the buttons of the scene controls do what their keys do.
-/
namespace Simu
namespace App
section
variable {K : Type*} [Field K] [LinearOrder K]

theorem becomes_put (a : App K) (i : Nat) (s : Scene K) : Becomes a (a.put i s) i s :=
  ⟨put_scene_self a i s, fun _ h => put_scene_ne a s h, rfl⟩

theorem InSync.apply {a : App K} (h : InSync a) (I : Inv a) (sqrt : K → K) (op : Op K) (hop : LeavesPause op) : InSync (a.apply sqrt op).1 := by
  cases op with
  | registerScene key fails =>
    change InSync (a.registerScene key fails).1
    rw [registerScene_eq]
    split
    · rename_i hc
      obtain ⟨ht, hp⟩ := h.none hc
      rw [changeScene_first I key hc]
      have l : (a.registered key).leave = a.registered key := by
        have hc' : (a.registered key).current = Option.none := hc
        unfold leave
        rw [hc']
      have hm : InSync ((a.registered key).moving a.made) := by
        refine ⟨fun j _ => ?_, fun hn => ?_⟩
        · unfold moving
          rw [l]
          exact (hp j).trans ht.symm
        · cases hn
      have hf : (((a.registered key).moving a.made).scene a.made).paused = false := by
        unfold moving
        rw [l]
        exact hp _
      cases fails with
      | true => exact hm.put rfl (s := { (Scene.init : Scene K).attach with isInit := false }) hf.symm
      | false => exact (hm.put rfl (s := (Scene.init : Scene K).attach) hf.symm).resizeCallback _ _
    · exact ⟨h.some, h.none⟩
  | resize w v => exact InSync.resizeCallback (a := { a with window := (w, v) }) ⟨h.some, h.none⟩ w v
  | frame f =>
    refine InSync.andThen ?_ fun b hb => InSync.andThen ?_ fun c hc => InSync.andThen ?_ fun d hd => InSync.andThen ?_ fun e he => ?_
    · have hp : f.pick = Option.none := hop
      rw [hp]
      exact h
    · split
      · exact hb.settingsWindow _ _ _ _
      · exact hb
    · split
      · exact hc
      · split
        · exact hc.control _
        · exact hc
    · split
      · exact hd
      · split
        · unfold pickTool
          split
          · exact hd
          · rename_i i hi
            exact hd.put hi (Scene.useTool_paused _ _)
        · exact hd
    · unfold stepScene
      split
      · exact he
      · rename_i i hi
        exact he.put hi (Scene.step_paused _ _ _ _ _)
  | key captured toolUses keys key action fails =>
    change InSync (a.key sqrt captured toolUses keys key action fails).1
    unfold App.key
    split
    · exact h
    · rename_i i hi
      split
      · exact h
      · rename_i hcap
        have hcap' : captured = false := by cases captured <;> simp_all
        exact h.put hi (Scene.keypress_paused sqrt _ ((I.attached i).2 hi) _ _ _ _ _ (hop hcap'))
  | scroll captured toolUses amount =>
    change InSync (a.scroll captured toolUses amount)
    unfold scroll
    split
    · exact h
    · rename_i i hi
      split
      · exact h
      · exact h.put hi (Scene.mouseScroll_paused _ _ _)
  | menuSettings shown => exact ⟨h.some, h.none⟩
  | menuControls shown => exact ⟨h.some, h.none⟩
  | updateSettings i s => exact ⟨h.some, h.none⟩

theorem InSync.after {a : App K} (h : InSync a) (I : Inv a) (sqrt : K → K) (ops : List (Op K)) (hops : ∀ op ∈ ops, LeavesPause op) : InSync (a.after sqrt ops) := by
  induction ops generalizing a with
  | nil => exact h
  | cons op ops ih => exact ih (h.apply I sqrt op (hops op List.mem_cons_self)) (I.apply sqrt op) fun o ho => hops o (List.mem_cons_of_mem _ ho)

variable [IsStrictOrderedRing K]

/-- C93: whatever happened before, the scenes of an application have a positive play speed. -/
theorem C93_speed {sqrt : K → K} {a : App K} (h : Reachable sqrt a) (i : Nat) : 0 < (a.scene i).playSpeed := all_reachable (Scene.kept_speed sqrt) h i

/-- C93: whatever happened before, the buttons "-", "+" and "Restart (R)" do to the current scene exactly what pressing the keys minus, equal and R does: its speed is halved or doubled,
or its world is emptied. Nothing else changes, and nothing fails. -/
theorem C93_buttons {sqrt : K → K} {a : App K} (h : Reachable sqrt a) {i : Nat} (hi : a.current = some i) (keys : Bool × Bool × Bool × Bool) (fails : Bool) :
    (a.control .slower = a.key sqrt false false keys .minus .press fails ∧ (a.control .slower).2 = .ok () ∧
      Becomes a (a.control .slower).1 i { a.scene i with playSpeed := (a.scene i).playSpeed / 2 }) ∧
    (a.control .faster = a.key sqrt false false keys .equal .press fails ∧ (a.control .faster).2 = .ok () ∧
      Becomes a (a.control .faster).1 i { a.scene i with playSpeed := (a.scene i).playSpeed * 2 }) ∧
    (a.control .restart = a.key sqrt false false keys .R .press fails ∧ (a.control .restart).2 = .ok () ∧
      Becomes a (a.control .restart).1 i { a.scene i with steps := [] }) := by
  have hs := C93_speed h i
  have ha := (h.inv.attached i).2 hi
  refine ⟨⟨?_, ?_, ?_⟩, ⟨?_, ?_, ?_⟩, ⟨?_, ?_, ?_⟩⟩
  · simp [control, App.key, hi, Scene.keypress, Scene.onKeypress, Outcome.bind]
  · simp [control, hi]
  · have e : (a.control .slower).1 = a.put i { a.scene i with playSpeed := (a.scene i).playSpeed / 2 } := by
      simp [control, hi, Scene.setPlaySpeed, hs]
    rw [e]
    exact becomes_put a i _
  · simp [control, App.key, hi, Scene.keypress, Scene.onKeypress, Outcome.bind]
  · simp [control, hi]
  · have e : (a.control .faster).1 = a.put i { a.scene i with playSpeed := (a.scene i).playSpeed * 2 } := by
      simp [control, hi, Scene.setPlaySpeed, hs]
    rw [e]
    exact becomes_put a i _
  · simp [control, App.key, hi, Scene.keypress, Scene.onKeypress, Outcome.bind, Scene.reset, ha]
  · simp [control, hi, Scene.reset, ha]
  · have e : (a.control .restart).1 = a.put i { a.scene i with steps := [] } := by
      simp [control, hi, Scene.reset, ha]
    rw [e]
    exact becomes_put a i _

/-- C93: after any clicks on "+" and "-", in any order, the play speed was multiplied by two for each "+" and divided by two for each "-", and nothing else changed: as many clicks of
each come back to where they started. -/
theorem C93_clicks (clicks : List Bool) {a : App K} (hp : ∀ i, 0 < (a.scene i).playSpeed) {i : Nat} (hi : a.current = some i) :
    Becomes a (clicks.foldl clickSpeed a) i { a.scene i with playSpeed := (a.scene i).playSpeed * 2 ^ clicks.count true / 2 ^ clicks.count false } := by
  induction clicks generalizing a with
  | nil => exact ⟨by simp, fun _ _ => rfl, rfl⟩
  | cons c l ih =>
    have hs := hp i
    have step : ∃ v : K, a.clickSpeed c = a.put i { a.scene i with playSpeed := v } ∧ 0 < v ∧
        v * 2 ^ l.count true / 2 ^ l.count false = (a.scene i).playSpeed * 2 ^ (c :: l).count true / 2 ^ (c :: l).count false := by
      cases c with
      | true =>
        refine ⟨(a.scene i).playSpeed * 2, by simp [clickSpeed, control, hi, Scene.setPlaySpeed, hs], by positivity, ?_⟩
        simp only [List.count_cons_self, List.count_cons_of_ne (by decide : (true : Bool) ≠ false)]
        ring
      | false =>
        refine ⟨(a.scene i).playSpeed / 2, by simp [clickSpeed, control, hi, Scene.setPlaySpeed, hs], by positivity, ?_⟩
        simp only [List.count_cons_self, List.count_cons_of_ne (by decide : (false : Bool) ≠ true)]
        field_simp
        ring
    obtain ⟨v, e, hv, hval⟩ := step
    rw [List.foldl_cons, e]
    have hp' : ∀ j, 0 < ((a.put i { a.scene i with playSpeed := v }).scene j).playSpeed := all_put (P := fun s : Scene K => 0 < s.playSpeed) hp hv
    obtain ⟨h1, h2, h3⟩ := ih hp' hi
    rw [put_scene_self] at h1
    refine ⟨?_, fun j hj => ?_, ?_⟩
    · rw [h1, ← hval]
    · rw [h2 j hj, put_scene_ne _ _ hj]
    · have := congrArg (fun b : App K => { b with scene := a.scene }) h3
      exact this

omit [IsStrictOrderedRing K] in
/-- C93: the pause button of the application, its key and the selection of a scene are those of C60. -/
theorem C93_refines (sqrt : K → K) (a : App K) {i : Nat} (hi : a.current = some i) (keys : Bool × Bool × Bool × Bool) (fails : Bool) :
    (a.control .pauseButton).1.button i = (a.button i).click ∧ (a.key sqrt false false keys .P .press fails).1.button i = (a.button i).keyP ∧
    ∀ j, (a.changeScene j false).1.button j = (a.button i).changeScene (a.scene j).paused := by
  refine ⟨?_, ?_, fun j => ?_⟩
  · unfold control
    rw [hi]
    simp only [button, put_scene_self, PauseButton.click, put]
    simp only [Function.update_self]
    have e : ∀ t : Bool, (if t = true then (a.scene i).pause else (a.scene i).resume).paused = if t = true then true else false := by
      intro t
      cases t <;> rfl
    rw [e]
    congr
  · unfold App.key
    rw [hi]
    simp only [Bool.false_eq_true, if_false, button, put_scene_self, PauseButton.keyP, Scene.keypress, Scene.onKeypress]
    cases hp : (a.scene i).paused <;> simp [put, Scene.pause, Scene.resume]
  · unfold changeScene
    by_cases hc : a.current = some j
    · rw [if_pos hc]
      rfl
    · rw [if_neg hc]
      have l : a.leave.pauseToggle = a.pauseToggle := by unfold leave; rw [hi]; rfl
      have m : a.leave.scene j = a.scene j := leave_ne a hc
      dsimp only
      split
      · simp [button, resizeCallback, put, PauseButton.changeScene, Scene.attach, l, m]
      · simp [button, resizeCallback, put, PauseButton.changeScene, l, m]

omit [IsStrictOrderedRing K] in
/-- C93, partial: the pause button does to the scene what the P key does exactly when its label fits the scene ("Play" if it is paused, "Pause" if not). The label fits as long as no scene
is selected, the P key is not pressed and no single step fails, whatever else happens; and a click makes it fit. What is missing: the other histories, see `C93_pause_disagreement`. -/
theorem C93_pause_partial {sqrt : K → K} {a : App K} {i : Nat} (hi : a.current = some i) (keys : Bool × Bool × Bool × Bool) (fails : Bool) :
    ((a.control .pauseButton).1.scene = (a.key sqrt false false keys .P .press fails).1.scene ↔ (a.button i).Works) ∧
    ((a.control .pauseButton).1.button i).Works ∧
    ∀ ops : List (Op K), (∀ op ∈ ops, LeavesPause op) → ∀ j, ((init : App K).after sqrt ops).current = some j → (((init : App K).after sqrt ops).button j).Works := by
  refine ⟨?_, ?_, fun ops hops j hj => ?_⟩
  · rw [(PauseButton.C60_button_partial _).1]
    have e1 : (a.control .pauseButton).1.scene = Function.update a.scene i { a.scene i with paused := !a.pauseToggle } := by
      unfold control
      rw [hi]
      cases a.pauseToggle <;> rfl
    have e2 : (a.key sqrt false false keys .P .press fails).1.scene = Function.update a.scene i { a.scene i with paused := !(a.scene i).paused } := by
      unfold App.key
      rw [hi]
      simp only [Bool.false_eq_true, if_false, Scene.keypress, Scene.onKeypress, put]
      cases hp : (a.scene i).paused <;> simp [Scene.pause, Scene.resume]
    rw [e1, e2]
    constructor
    · intro e
      have := congrArg Scene.paused (congrFun e i)
      simp only [Function.update_self] at this
      simpa [button] using this
    · intro e
      have e' : a.pauseToggle = (a.scene i).paused := e
      rw [e']
  · rw [(C93_refines sqrt a hi keys fails).1]
    exact (PauseButton.C60_button_partial _).2.1
  · rw [(PauseButton.C60_button_partial _).1]
    have h0 : InSync (init : App K) := by
      refine ⟨fun i hi => ?_, fun _ => ⟨rfl, fun _ => rfl⟩⟩
      cases hi
    exact ((h0.after Inv.init sqrt ops hops).some j hj).symm

end

/-- A frame in which the user clicks a button of the controls. -/
def click (c : Control) : Frame ℚ := { idle with control := some c }

/-- Two scenes of which the first runs, and the window of the controls is shown. -/
def shown : List (Op ℚ) := twoScenes ++ [.menuControls true]

/-- The keyboard key `k` is pressed. -/
def press (k : Key) : Op ℚ := .key false false (false, false, false, false) k .press false

/-- `C93_buttons` and `C93_clicks` for them: slower, then slower, then faster, and restarted, by the frames of the application. -/
example : let a := (init : App ℚ).after noRoot shown
    let b := a.after noRoot [.frame (click .slower), .frame (click .slower), .frame (click .faster)]
    let c := (b.frame noRoot (click .restart)).1
    a.current = some 0 ∧ (a.scene 0).playSpeed = 1 ∧ (b.scene 0).playSpeed = 1 / 2 ∧ (b.scene 0).steps.length = 5 ∧ (c.scene 0).steps.length = 1 ∧
      (c.scene 0).playSpeed = 1 / 2 := by
  decide +kernel

example : let a := (init : App ℚ).after noRoot shown
    Becomes a ([false, false, true].foldl clickSpeed a) 0 { a.scene 0 with playSpeed := (a.scene 0).playSpeed * 2 ^ 1 / 2 ^ 2 } :=
  C93_clicks [false, false, true] (fun i => C93_speed ⟨_, rfl⟩ i) (by decide +kernel)

/-- `C93_pause_partial`: a history with clicks, other keys and resizing. -/
example : let ops := shown ++ [.frame (click .pauseButton), press .S, press .minus, .resize 1000 500, .frame (click .pauseButton), .frame (click .pauseButton), press .R]
    (((init : App ℚ).after noRoot ops).button 0).Works ∧ ((init : App ℚ).after noRoot ops).button 0 = ⟨true, true⟩ := by
  refine ⟨(C93_pause_partial (K := ℚ) (sqrt := noRoot) (a := (init : App ℚ).after noRoot shown) (i := 0) (by decide +kernel) (false, false, false, false) false).2.2 _ ?_ 0
    (by decide +kernel), by decide +kernel⟩
  intro op hop
  simp only [shown, twoScenes, List.mem_append, List.mem_cons, List.not_mem_nil, or_false] at hop
  rcases hop with ((rfl | rfl | rfl | rfl | rfl) | rfl) | rfl | rfl | rfl | rfl | rfl | rfl | rfl <;> simp [LeavesPause, idle, click, press]

/-- C93, disagreement: (1) the user pauses with the P key: the button still says "Pause", and clicking it leaves the scene paused, whereas the key would resume it. (2) They pause with the
button and select another scene, which runs: the button says "Play", and clicking it leaves the scene running, whereas the key would pause it. -/
theorem C93_pause_disagreement :
    (let a := (init : App ℚ).after noRoot (shown ++ [press .P])
     let b := (a.frame noRoot (click .pauseButton)).1
     let c := (a.apply noRoot (press .P)).1
     a.button 0 = ⟨false, true⟩ ∧ (a.button 0).saysPlay = false ∧ (b.scene 0).paused = true ∧ (c.scene 0).paused = false) ∧
    (let a := (init : App ℚ).after noRoot (shown ++ [.frame (click .pauseButton), .frame (go 9)])
     let b := (a.frame noRoot (click .pauseButton)).1
     let c := (a.apply noRoot (press .P)).1
     a.current = some 1 ∧ a.button 1 = ⟨true, false⟩ ∧ (a.button 1).saysPlay = true ∧ (b.scene 1).paused = false ∧ (c.scene 1).paused = true) := by
  decide +kernel

end App
end Simu
