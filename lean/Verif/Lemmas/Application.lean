import Verif.Model.Application
import Verif.Props.Scene
/-
Helper lemmas for the application: what the functions of a scene leave alone, and the operations of an application one by one.
-/
namespace Simu
namespace Scene
section
variable {K : Type*} [Field K] [LinearOrder K]

/-- What the functions of a scene called by the application never change: whether it is attached and initialised, and the dimensions of its view. -/
structure SameView (s s' : Scene K) : Prop where
  attached : s'.attached = s.attached
  isInit : s'.isInit = s.isInit
  view : s'.camera.viewDimensions = s.camera.viewDimensions
  pixel : s'.camera.pixelSize = s.camera.pixelSize

theorem SameView.refl (s : Scene K) : SameView s s := ⟨rfl, rfl, rfl, rfl⟩

theorem SameView.trans {s t u : Scene K} (h : SameView s t) (h' : SameView t u) : SameView s u :=
  ⟨h'.1.trans h.1, h'.2.trans h.2, h'.3.trans h.3, h'.4.trans h.4⟩

theorem sameView_setPlaySpeed (s : Scene K) (v : K) : SameView s (s.setPlaySpeed v) := by
  unfold setPlaySpeed; split <;> exact ⟨rfl, rfl, rfl, rfl⟩

theorem sameView_reset (s : Scene K) : SameView s s.reset.1 := by
  unfold reset; split <;> exact ⟨rfl, rfl, rfl, rfl⟩

theorem sameView_moveCamera (sqrt : K → K) (s : Scene K) (keys : Bool × Bool × Bool × Bool) (dt : K) : SameView s (s.moveCamera sqrt keys dt) := by
  unfold moveCamera
  dsimp only
  split_ifs <;> exact ⟨rfl, rfl, rfl, rfl⟩

theorem sameView_step (sqrt : K → K) (s : Scene K) (keys : Bool × Bool × Bool × Bool) (dt : K) (fails : Bool) :
    SameView s (s.step sqrt keys dt fails).1 := by
  have h := sameView_moveCamera sqrt s keys (min dt (1 / 60))
  unfold step
  dsimp only
  split_ifs <;> exact ⟨h.1, h.2, h.3, h.4⟩

theorem sameView_onKeypress (sqrt : K → K) (s : Scene K) (keys : Bool × Bool × Bool × Bool) (key : Key) (action : KeyAction) (fails : Bool) :
    SameView s (s.onKeypress sqrt keys key action fails).1 := by
  unfold onKeypress
  by_cases h1 : action = .release
  · rw [if_pos h1]
    exact .refl s
  rw [if_neg h1]
  by_cases h2 : key = .S
  · rw [if_pos h2]
    by_cases h3 : s.paused = true
    · rw [if_pos h3]
      have h := sameView_step sqrt s.resume keys (1 / 60) fails
      have h0 : SameView s s.resume := ⟨rfl, rfl, rfl, rfl⟩
      rcases hs : s.resume.step sqrt keys (1 / 60) fails with ⟨t, _ | _ | _⟩ <;> rw [hs] at h <;> have h' := h0.trans h <;>
        exact ⟨h'.1, h'.2, h'.3, h'.4⟩
    · rw [if_neg h3]
      have h := sameView_step sqrt s keys (1 / 60) fails
      rcases hs : s.step sqrt keys (1 / 60) fails with ⟨t, _ | _ | _⟩ <;> rw [hs] at h <;> exact h
  rw [if_neg h2]
  by_cases h4 : action = .press
  · rw [if_pos h4]
    cases key <;> dsimp only
    · exact .refl s
    · split_ifs <;> exact ⟨rfl, rfl, rfl, rfl⟩
    · exact sameView_reset s
    · exact sameView_setPlaySpeed s _
    · exact sameView_setPlaySpeed s _
    · split_ifs <;> exact ⟨rfl, rfl, rfl, rfl⟩
    · exact .refl s
  · rw [if_neg h4]
    exact .refl s

theorem sameView_keypress (sqrt : K → K) (s : Scene K) (toolUses : Bool) (keys : Bool × Bool × Bool × Bool) (key : Key) (action : KeyAction) (fails : Bool) :
    SameView s (s.keypress sqrt toolUses keys key action fails).1 := by
  unfold keypress
  split
  · exact .refl s
  · exact sameView_onKeypress sqrt s keys key action fails

theorem sameView_mouseScroll (s : Scene K) (toolUses : Bool) (amount : Vec2 K) : SameView s (s.mouseScroll toolUses amount) := by
  unfold mouseScroll onMouseScroll Camera.setZoom
  dsimp only
  split_ifs <;> exact ⟨rfl, rfl, rfl, rfl⟩

theorem sameView_useTool (s : Scene K) (name : String) : SameView s (s.useTool name).1 := by
  unfold useTool
  split <;> exact ⟨rfl, rfl, rfl, rfl⟩

theorem step_not_ub (sqrt : K → K) (s : Scene K) (keys : Bool × Bool × Bool × Bool) (dt : K) (fails : Bool) (h : s.attached = true) :
    (s.step sqrt keys dt fails).2 ≠ .ub := by
  obtain ⟨c, hc⟩ := step_eq sqrt s keys dt fails
  rw [hc, if_pos h]
  cases fails <;> simp

theorem keypress_not_ub (sqrt : K → K) (s : Scene K) (toolUses : Bool) (keys : Bool × Bool × Bool × Bool) (key : Key) (action : KeyAction) (fails : Bool)
    (h : s.attached = true) : (s.keypress sqrt toolUses keys key action fails).2 ≠ .ub := by
  unfold keypress
  split
  · simp
  · by_cases ha : action = .release
    · simp [onKeypress, ha, Outcome.bind]
    · by_cases hk : key = .S
      · subst hk
        obtain ⟨c, hc⟩ := single_eq sqrt s keys action fails ha
        rw [hc, if_pos h]
        cases fails <;> simp [Outcome.bind]
      · unfold onKeypress
        rw [if_neg ha, if_neg hk]
        by_cases hp : action = .press
        · rw [if_pos hp]
          cases key <;> simp [Outcome.bind, reset, h]
        · rw [if_neg hp]
          simp [Outcome.bind]

end
end Scene

namespace App
section
variable {K : Type*} [Field K] [LinearOrder K]

@[simp] theorem put_scene_self (a : App K) (i : Nat) (s : Scene K) : (a.put i s).scene i = s := by simp [put]

theorem put_scene_ne (a : App K) {i j : Nat} (s : Scene K) (h : j ≠ i) : (a.put i s).scene j = a.scene j := by simp [put, h]

@[simp] theorem put_current (a : App K) (i : Nat) (s : Scene K) : (a.put i s).current = a.current := rfl
@[simp] theorem put_made (a : App K) (i : Nat) (s : Scene K) : (a.put i s).made = a.made := rfl
@[simp] theorem put_scenes (a : App K) (i : Nat) (s : Scene K) : (a.put i s).scenes = a.scenes := rfl
@[simp] theorem put_window (a : App K) (i : Nat) (s : Scene K) : (a.put i s).window = a.window := rfl
@[simp] theorem put_settings (a : App K) (i : Nat) (s : Scene K) : (a.put i s).settings = a.settings := rfl
@[simp] theorem put_shared (a : App K) (i : Nat) (s : Scene K) : (a.put i s).shared = a.shared := rfl
@[simp] theorem put_showSettings (a : App K) (i : Nat) (s : Scene K) : (a.put i s).showSettings = a.showSettings := rfl

/-- Changes that concern the current scene only, and neither which one it is nor how it is shown. -/
structure Edits (a b : App K) : Prop where
  current : b.current = a.current
  made : b.made = a.made
  scenes : b.scenes = a.scenes
  window : b.window = a.window
  others : ∀ j, a.current ≠ some j → b.scene j = a.scene j ∧ b.settings j = a.settings j
  mine : ∀ j, a.current = some j → Scene.SameView (a.scene j) (b.scene j)

theorem Edits.refl (a : App K) : Edits a a := ⟨rfl, rfl, rfl, rfl, fun _ _ => ⟨rfl, rfl⟩, fun _ _ => .refl _⟩

theorem Edits.trans {a b c : App K} (h : Edits a b) (h' : Edits b c) : Edits a c := by
  refine ⟨h'.current.trans h.current, h'.made.trans h.made, h'.scenes.trans h.scenes, h'.window.trans h.window, fun j hj => ?_, fun j hj => ?_⟩
  · have h1 := h.others j hj
    have h2 := h'.others j (by rw [h.current]; exact hj)
    exact ⟨h2.1.trans h1.1, h2.2.trans h1.2⟩
  · exact (h.mine j hj).trans (h'.mine j (by rw [h.current]; exact hj))

theorem edits_put (a : App K) {i : Nat} (hi : a.current = some i) {s : Scene K} (hs : Scene.SameView (a.scene i) s) : Edits a (a.put i s) := by
  refine ⟨rfl, rfl, rfl, rfl, fun j hj => ⟨?_, rfl⟩, fun j hj => ?_⟩
  · exact put_scene_ne a s fun e => hj (e ▸ hi)
  · rw [hi] at hj
    cases hj
    rw [put_scene_self]
    exact hs

theorem edits_settingsWindow (a : App K) (has : Bool) (v p : Int) (w : Bool) : Edits a (a.settingsWindow has v p w).1 := by
  unfold settingsWindow
  dsimp only
  cases has
  · exact ⟨rfl, rfl, rfl, rfl, fun _ _ => ⟨rfl, rfl⟩, fun _ _ => .refl _⟩
  · rw [if_pos rfl]
    split
    · exact ⟨rfl, rfl, rfl, rfl, fun _ _ => ⟨rfl, rfl⟩, fun _ _ => .refl _⟩
    · rename_i i hi
      refine ⟨rfl, rfl, rfl, rfl, fun j hj => ⟨rfl, ?_⟩, fun _ _ => .refl _⟩
      refine Function.update_of_ne (fun e => hj ?_) _ _
      rw [e]
      exact hi

theorem edits_control (a : App K) (c : Control) : Edits a (a.control c).1 := by
  unfold control
  split
  · exact .refl a
  · rename_i i hi
    cases c <;> dsimp only
    · exact edits_put a hi (Scene.sameView_setPlaySpeed _ _)
    · exact edits_put a hi (Scene.sameView_setPlaySpeed _ _)
    · have h0 : Edits a { a with pauseToggle := !a.pauseToggle } := ⟨rfl, rfl, rfl, rfl, fun _ _ => ⟨rfl, rfl⟩, fun _ _ => .refl _⟩
      refine h0.trans (edits_put { a with pauseToggle := !a.pauseToggle } hi ?_)
      split <;> exact ⟨rfl, rfl, rfl, rfl⟩
    · exact edits_put a hi (Scene.sameView_reset _)

theorem edits_pickTool (a : App K) (n : String) : Edits a (a.pickTool n).1 := by
  unfold pickTool
  split
  · exact .refl a
  · rename_i i hi
    exact edits_put a hi (Scene.sameView_useTool _ _)

theorem edits_stepScene (sqrt : K → K) (a : App K) (f : Frame K) : Edits a (a.stepScene sqrt f).1 := by
  unfold stepScene
  split
  · exact .refl a
  · rename_i i hi
    exact edits_put a hi (Scene.sameView_step sqrt _ _ _ _)

theorem edits_key (sqrt : K → K) (a : App K) (captured toolUses : Bool) (keys : Bool × Bool × Bool × Bool) (k : Key) (action : KeyAction) (fails : Bool) :
    Edits a (a.key sqrt captured toolUses keys k action fails).1 := by
  unfold key
  split
  · exact .refl a
  · rename_i i hi
    split
    · exact .refl a
    · exact edits_put a hi (Scene.sameView_keypress sqrt _ _ _ _ _ _)

theorem edits_scroll (a : App K) (captured toolUses : Bool) (amount : Vec2 K) : Edits a (a.scroll captured toolUses amount) := by
  unfold scroll
  split
  · exact .refl a
  · rename_i i hi
    split
    · exact .refl a
    · exact edits_put a hi (Scene.sameView_mouseScroll _ _ _)

theorem edits_andThen {a : App K} {r : App K × Outcome Unit} {f : App K → App K × Outcome Unit} (h : Edits a r.1) (hf : ∀ b, Edits b (f b).1) :
    Edits a (andThen r f).1 := by
  unfold andThen
  split
  · exact h.trans (hf _)
  · exact h
  · exact h

/-- The first part of a frame: the user may select a scene. -/
def picked (a : App K) (f : Frame K) : App K × Outcome Unit := match f.pick with | none => (a, .ok ()) | some p => a.select p.1 p.2

/-- The part of a frame that follows the choice of a scene. -/
def rest (sqrt : K → K) (has : Bool) (f : Frame K) (a : App K) : App K × Outcome Unit :=
  andThen (if a.showSettings then a.settingsWindow has f.vIter f.pIter f.warm else (a, .ok ())) fun a =>
  andThen (match f.control with | none => (a, .ok ()) | some c => if has && a.showControls then a.control c else (a, .ok ())) fun a =>
  andThen (match f.tool with | none => (a, .ok ()) | some n => if has then a.pickTool n else (a, .ok ())) fun a =>
  a.stepScene sqrt f

theorem frame_eq (sqrt : K → K) (a : App K) (f : Frame K) : a.frame sqrt f = andThen (a.picked f) (rest sqrt a.current.isSome f) := rfl

theorem edits_rest (sqrt : K → K) (has : Bool) (f : Frame K) (a : App K) : Edits a (rest sqrt has f a).1 := by
  unfold rest
  refine edits_andThen ?_ fun b => edits_andThen ?_ fun b => edits_andThen ?_ fun b => edits_stepScene sqrt b f
  · split
    · exact edits_settingsWindow _ _ _ _ _
    · exact .refl _
  · split
    · exact .refl _
    · split
      · exact edits_control _ _
      · exact .refl _
  · split
    · exact .refl _
    · split
      · exact edits_pickTool _ _
      · exact .refl _

/-- What holds at any time: the current scene and only it knows the application, scenes are constructed when registered, and there is a current scene once one was registered. -/
structure Inv (a : App K) : Prop where
  attached : ∀ i, (a.scene i).attached = true ↔ a.current = some i
  bound : ∀ i, a.current = some i → i < a.made
  fresh : ∀ i, a.made ≤ i → a.scene i = .init
  listed : ∀ p ∈ a.scenes, p.2 < a.made
  some : a.made ≠ 0 → a.current ≠ none

theorem Inv.init : Inv (App.init : App K) :=
  ⟨fun i => ⟨fun h => (by cases h), fun h => (by cases h)⟩, fun i h => (by cases h), fun _ _ => rfl, fun p hp => (by cases hp), fun h => absurd rfl h⟩

theorem Inv.edits {a b : App K} (I : Inv a) (h : Edits a b) : Inv b := by
  refine ⟨fun i => ?_, fun i hi => ?_, fun i hi => ?_, fun p hp => ?_, fun hm => ?_⟩
  · rw [h.current]
    by_cases hi : a.current = .some i
    · rw [(h.mine i hi).attached]
      exact I.attached i
    · rw [(h.others i hi).1]
      exact I.attached i
  · rw [h.made]
    exact I.bound i (h.current ▸ hi)
  · rw [h.made] at hi
    have : a.current ≠ .some i := fun e => absurd (I.bound i e) (by omega)
    rw [(h.others i this).1]
    exact I.fresh i hi
  · rw [h.made]
    exact I.listed p (h.scenes ▸ hp)
  · rw [h.current]
    exact I.some (h.made ▸ hm)

theorem resizeCallback_current (a : App K) (w h : Int) : (a.resizeCallback w h).current = a.current := by
  unfold resizeCallback; split <;> rfl
theorem resizeCallback_made (a : App K) (w h : Int) : (a.resizeCallback w h).made = a.made := by
  unfold resizeCallback; split <;> rfl
theorem resizeCallback_scenes (a : App K) (w h : Int) : (a.resizeCallback w h).scenes = a.scenes := by
  unfold resizeCallback; split <;> rfl
theorem resizeCallback_window (a : App K) (w h : Int) : (a.resizeCallback w h).window = a.window := by
  unfold resizeCallback; split <;> rfl
theorem resizeCallback_settings (a : App K) (w h : Int) : (a.resizeCallback w h).settings = a.settings := by
  unfold resizeCallback; split <;> rfl
theorem resizeCallback_ne (a : App K) (w h : Int) {j : Nat} (hj : a.current ≠ some j) : (a.resizeCallback w h).scene j = a.scene j := by
  unfold resizeCallback
  split
  · rfl
  · rename_i i hi
    exact put_scene_ne _ _ fun e => hj (e ▸ hi)
theorem resizeCallback_self (a : App K) (w h : Int) {j : Nat} (hj : a.current = some j) : (a.resizeCallback w h).scene j =
    { a.scene j with camera := (a.scene j).camera.setDimensionsFromScreenCoordinates ⟨(w : K), (h : K)⟩ } := by
  unfold resizeCallback
  rw [hj]
  exact put_scene_self _ _ _

theorem Inv.resizeCallback {a : App K} (I : Inv a) (w h : Int) : Inv (a.resizeCallback w h) := by
  refine ⟨fun i => ?_, fun i hi => ?_, fun i hi => ?_, fun p hp => ?_, fun hm => ?_⟩
  · rw [resizeCallback_current]
    by_cases hi : a.current = .some i
    · rw [resizeCallback_self a w h hi]
      exact I.attached i
    · rw [resizeCallback_ne a w h hi]
      exact I.attached i
  · rw [resizeCallback_made]
    exact I.bound i (resizeCallback_current a w h ▸ hi)
  · rw [resizeCallback_made] at hi
    have : a.current ≠ .some i := fun e => absurd (I.bound i e) (by omega)
    rw [resizeCallback_ne a w h this]
    exact I.fresh i hi
  · rw [resizeCallback_made]
    exact I.listed p (resizeCallback_scenes a w h ▸ hp)
  · rw [resizeCallback_current]
    exact I.some (resizeCallback_made a w h ▸ hm)

theorem leave_ne (a : App K) {j : Nat} (hj : a.current ≠ some j) : a.leave.scene j = a.scene j := by
  unfold leave
  split
  · rfl
  · rename_i i hi
    exact put_scene_ne _ _ fun e => hj (e ▸ hi)
theorem leave_self (a : App K) {j : Nat} (hj : a.current = some j) : a.leave.scene j = (a.scene j).detach := by
  unfold leave
  rw [hj]
  exact put_scene_self _ _ _
theorem leave_made (a : App K) : a.leave.made = a.made := by unfold leave; split <;> rfl
theorem leave_scenes (a : App K) : a.leave.scenes = a.scenes := by unfold leave; split <;> rfl
theorem leave_window (a : App K) : a.leave.window = a.window := by unfold leave; split <;> rfl
theorem leave_settings (a : App K) : a.leave.settings = a.settings := by unfold leave; split <;> rfl

/-- The application just after `scene_ = next` and after the scene left was told so. -/
def moving (a : App K) (next : Nat) : App K := { a.leave with current := some next }

/-- What `changeScene` does to a scene that is not the current one: it is always initialised. -/
theorem changeScene_eq {a : App K} (I : Inv a) {next : Nat} (h : a.current ≠ some next) (fails : Bool) :
    a.changeScene next fails =
      if fails then ((a.moving next).put next { (a.scene next).attach with isInit := (a.scene next).isInit }, .throw)
      else (((a.moving next).put next (a.scene next).attach).resizeCallback a.window.1 a.window.2, .ok ()) := by
  have u : a.changeScene next fails = if !((a.moving next).scene next).isInit || !((a.moving next).scene next).attached then
      if fails then ((a.moving next).put next { ((a.moving next).scene next).attach with isInit := ((a.moving next).scene next).isInit }, .throw)
      else (((a.moving next).put next ((a.moving next).scene next).attach).resizeCallback (a.moving next).window.1 (a.moving next).window.2, .ok ())
      else ((a.moving next).resizeCallback (a.moving next).window.1 (a.moving next).window.2, .ok ()) := by
    unfold changeScene
    rw [if_neg h]
    rfl
  have e : (a.moving next).scene next = a.scene next := leave_ne a h
  have d : (a.scene next).attached = false := by
    rw [Bool.eq_false_iff]
    exact fun c => h ((I.attached next).1 c)
  have w : (a.moving next).window = a.window := leave_window a
  rw [u, e, d, w]
  simp

theorem Inv.moved {a : App K} {next : Nat} (I : Inv a) (hn : next < a.made) {s : Scene K} (hs : s.attached = true) :
    Inv ((a.moving next).put next s) := by
  refine ⟨fun i => ?_, fun i hi => ?_, fun i hi => ?_, fun p hp => ?_, fun hm => ?_⟩
  · by_cases hi : i = next
    · subst hi
      rw [put_scene_self]
      exact ⟨fun _ => rfl, fun _ => hs⟩
    · rw [put_scene_ne _ _ hi]
      refine ⟨fun c => ?_, fun c => absurd (Option.some.inj c).symm hi⟩
      exfalso
      change (a.leave.scene i).attached = true at c
      by_cases hc : a.current = .some i
      · rw [leave_self a hc] at c
        cases c
      · rw [leave_ne a hc] at c
        exact hc ((I.attached i).1 c)
  · cases Option.some.inj hi
    change next < a.leave.made
    rw [leave_made]
    exact hn
  · change a.leave.made ≤ i at hi
    rw [leave_made] at hi
    rw [put_scene_ne _ _ (by omega)]
    have : a.current ≠ .some i := fun e => absurd (I.bound i e) (by omega)
    change a.leave.scene i = _
    rw [leave_ne a this]
    exact I.fresh i hi
  · change p ∈ a.leave.scenes at hp
    change p.2 < a.leave.made
    rw [leave_scenes] at hp
    rw [leave_made]
    exact I.listed p hp
  · exact fun c => by cases c

theorem Inv.changeScene {a : App K} {next : Nat} (I : Inv a) (hn : next < a.made) (fails : Bool) : Inv (a.changeScene next fails).1 := by
  by_cases h : a.current = .some next
  · unfold App.changeScene
    rw [if_pos h]
    exact I
  · rw [changeScene_eq I h]
    cases fails
    · exact (I.moved hn rfl).resizeCallback _ _
    · exact I.moved hn rfl

theorem changeScene_not_ub {a : App K} (I : Inv a) (next : Nat) (fails : Bool) : (a.changeScene next fails).2 ≠ .ub := by
  by_cases h : a.current = .some next
  · unfold App.changeScene
    rw [if_pos h]
    simp
  · rw [changeScene_eq I h]
    cases fails <;> simp

theorem mem_assign {key i : Nat} {l : List (Nat × Nat)} {p : Nat × Nat} (h : p ∈ assign key i l) : p ∈ l ∨ p.2 = i := by
  induction l with
  | nil =>
    rw [assign, List.mem_singleton] at h
    exact .inr (by rw [h])
  | cons q l ih =>
    obtain ⟨k, j⟩ := q
    rw [assign] at h
    split at h
    · rcases List.mem_cons.1 h with h | h
      · exact .inr (by rw [h])
      · exact .inl (List.mem_cons_of_mem _ h)
    · rcases List.mem_cons.1 h with h | h
      · exact .inl (h ▸ List.mem_cons_self)
      · exact (ih h).imp (List.mem_cons_of_mem _) id

theorem mem_of_lookup {key i : Nat} {l : List (Nat × Nat)} (h : l.lookup key = some i) : (key, i) ∈ l := by
  induction l with
  | nil => cases h
  | cons q l ih =>
    obtain ⟨k, j⟩ := q
    rw [List.lookup_cons] at h
    split at h
    · rename_i hk
      rw [beq_iff_eq] at hk
      cases Option.some.inj h
      rw [hk]
      exact List.mem_cons_self
    · exact List.mem_cons_of_mem _ (ih h)

theorem lookup_assign (key i : Nat) (l : List (Nat × Nat)) : (assign key i l).lookup key = some i := by
  induction l with
  | nil => simp [assign, List.lookup]
  | cons q l ih =>
    obtain ⟨k, j⟩ := q
    rw [assign]
    split
    · rename_i h; rw [h]; simp [List.lookup]
    · rename_i h
      rw [List.lookup_cons]
      have : (key == k) = false := by simpa using fun e => h e.symm
      rw [this]
      exact ih

theorem lookup_assign_ne {key i key' : Nat} (l : List (Nat × Nat)) (h : key' ≠ key) : (assign key i l).lookup key' = l.lookup key' := by
  induction l with
  | nil =>
    have : (key' == key) = false := by simpa using h
    simp [assign, List.lookup, this]
  | cons q l ih =>
    obtain ⟨k, j⟩ := q
    rw [assign]
    split
    · rename_i hk
      subst hk
      have : (key' == k) = false := by simpa using h
      rw [List.lookup_cons, List.lookup_cons, this]
    · rw [List.lookup_cons, List.lookup_cons, ih]

theorem Inv.select {a : App K} (I : Inv a) (key : Nat) (fails : Bool) : Inv (a.select key fails).1 := by
  unfold App.select
  split
  · exact I
  · rename_i i hi
    exact I.changeScene (I.listed _ (mem_of_lookup hi)) fails

theorem select_not_ub {a : App K} (I : Inv a) (key : Nat) (fails : Bool) : (a.select key fails).2 ≠ .ub := by
  unfold App.select
  split
  · simp
  · exact changeScene_not_ub I _ _

/-- The application just after a scene is registered, before it is perhaps made the current one. -/
def registered (a : App K) (key : Nat) : App K := { a with made := a.made + 1, scenes := assign key a.made a.scenes }

theorem registerScene_eq (a : App K) (key : Nat) (fails : Bool) :
    a.registerScene key fails = if a.current = none then (a.registered key).changeScene a.made fails else (a.registered key, .ok ()) := rfl

/-- What holds after registering, but for there being a current scene. -/
theorem Inv.registered {a : App K} (I : Inv a) (key : Nat) (hc : a.current ≠ none) : Inv (a.registered key) := by
  refine ⟨I.attached, fun i hi => Nat.lt_succ_of_lt (I.bound i hi), fun i hi => I.fresh i (Nat.le_of_succ_le hi), fun p hp => ?_, fun _ => hc⟩
  rcases mem_assign hp with h | h
  · exact Nat.lt_succ_of_lt (I.listed p h)
  · exact h ▸ Nat.lt_succ_self _

theorem changeScene_first {a : App K} (I : Inv a) (key : Nat) (hc : a.current = none) (fails : Bool) :
    (a.registered key).changeScene a.made fails =
      if fails then (((a.registered key).moving a.made).put a.made { (Scene.init : Scene K).attach with isInit := false }, .throw)
      else ((((a.registered key).moving a.made).put a.made (Scene.init : Scene K).attach).resizeCallback a.window.1 a.window.2, .ok ()) := by
  have hc' : (a.registered key).current = none := hc
  have l : (a.registered key).leave = a.registered key := by unfold leave; rw [hc']
  have e : (a.registered key).scene a.made = .init := I.fresh _ le_rfl
  unfold changeScene moving
  rw [hc', l]
  simp only [e]
  cases fails <;> rfl

theorem Inv.first {a : App K} (I : Inv a) (key : Nat) (hc : a.current = none) {s : Scene K} (hs : s.attached = true) :
    Inv (((a.registered key).moving a.made).put a.made s) := by
  have l : (a.registered key).leave = a.registered key := by
    unfold leave
    have hc' : (a.registered key).current = none := hc
    rw [hc']
  refine ⟨fun i => ?_, fun i hi => ?_, fun i hi => ?_, fun p hp => ?_, fun hm => ?_⟩
  · by_cases hi : i = a.made
    · rw [hi, put_scene_self]
      exact ⟨fun _ => rfl, fun _ => hs⟩
    · rw [put_scene_ne _ _ hi]
      refine ⟨fun c => ?_, fun c => absurd (Option.some.inj c).symm hi⟩
      unfold moving at c
      rw [l] at c
      have := (I.attached i).1 c
      rw [hc] at this
      cases this
  · cases Option.some.inj hi
    unfold moving
    rw [l]
    exact Nat.lt_succ_self _
  · unfold moving at hi ⊢
    rw [l] at hi ⊢
    have hi : a.made + 1 ≤ i := hi
    rw [put_scene_ne _ _ (by omega)]
    exact I.fresh i (by omega)
  · unfold moving at hp ⊢
    rw [l] at hp ⊢
    change p.2 < a.made + 1
    rcases mem_assign hp with h | h
    · exact Nat.lt_succ_of_lt (I.listed p h)
    · omega
  · exact fun c => by cases c

theorem Inv.registerScene {a : App K} (I : Inv a) (key : Nat) (fails : Bool) : Inv (a.registerScene key fails).1 := by
  rw [registerScene_eq]
  split
  · rename_i hc
    rw [changeScene_first I key hc]
    cases fails
    · exact (I.first key hc rfl).resizeCallback _ _
    · exact I.first key hc rfl
  · rename_i hc
    exact I.registered key hc

theorem Inv.picked {a : App K} (I : Inv a) (f : Frame K) : Inv (a.picked f).1 := by
  unfold App.picked
  split
  · exact I
  · exact I.select _ _

theorem Inv.andThen {r : App K × Outcome Unit} {f : App K → App K × Outcome Unit} (h : Inv r.1) (hf : ∀ b, Inv b → Inv (f b).1) :
    Inv (App.andThen r f).1 := by
  unfold App.andThen
  split
  · exact hf _ h
  · exact h
  · exact h

theorem Inv.frame {a : App K} (I : Inv a) (sqrt : K → K) (f : Frame K) : Inv (a.frame sqrt f).1 := by
  rw [frame_eq]
  exact (I.picked f).andThen fun b J => J.edits (edits_rest sqrt _ f b)

theorem Inv.apply {a : App K} (I : Inv a) (sqrt : K → K) (op : Op K) : Inv (a.apply sqrt op).1 := by
  cases op with
  | registerScene key fails => exact I.registerScene key fails
  | resize w h =>
    have : Inv { a with window := (w, h) } := ⟨I.1, I.2, I.3, I.4, I.5⟩
    exact this.resizeCallback w h
  | frame f => exact I.frame sqrt f
  | key captured toolUses keys k action fails => exact I.edits (edits_key sqrt a _ _ _ _ _ _)
  | scroll captured toolUses amount => exact I.edits (edits_scroll a _ _ _)
  | menuSettings shown => exact ⟨I.1, I.2, I.3, I.4, I.5⟩
  | menuControls shown => exact ⟨I.1, I.2, I.3, I.4, I.5⟩
  | updateSettings i s => exact ⟨I.1, I.2, I.3, I.4, I.5⟩

theorem andThen_not_ub {r : App K × Outcome Unit} {f : App K → App K × Outcome Unit} (h : r.2 ≠ .ub) (hf : (f r.1).2 ≠ .ub) :
    (andThen r f).2 ≠ .ub := by
  unfold andThen
  split
  · exact hf
  · simp
  · rename_i e; exact absurd e h

theorem stepScene_not_ub {a : App K} (I : Inv a) (sqrt : K → K) (f : Frame K) : (a.stepScene sqrt f).2 ≠ .ub := by
  unfold stepScene
  split
  · simp
  · rename_i i hi
    exact Scene.step_not_ub sqrt _ _ _ _ ((I.attached i).2 hi)

theorem current_isSome_changeScene (a : App K) (next : Nat) (fails : Bool) : (a.changeScene next fails).1.current = .some next := by
  unfold changeScene
  dsimp only
  split_ifs with h
  · exact h
  · rfl
  · exact resizeCallback_current _ _ _
  · exact resizeCallback_current _ _ _

theorem rest_not_ub {a : App K} (I : Inv a) (sqrt : K → K) (has : Bool) (f : Frame K) (hh : has = true → a.current ≠ none) :
    (rest sqrt has f a).2 ≠ .ub := by
  unfold rest
  have e1 : Edits a (if a.showSettings then a.settingsWindow has f.vIter f.pIter f.warm else (a, .ok ())).1 := by
    split
    · exact edits_settingsWindow _ _ _ _ _
    · exact .refl _
  refine andThen_not_ub ?_ ?_
  · split
    · unfold settingsWindow
      dsimp only
      split
      · rename_i h
        split
        · rename_i hn; exact absurd hn (hh h)
        · simp
      · simp
    · simp
  have I1 := I.edits e1
  have hh1 : has = true → _ ≠ none := fun h => e1.current ▸ hh h
  generalize (if a.showSettings then a.settingsWindow has f.vIter f.pIter f.warm else (a, Outcome.ok ())).1 = b at I1 hh1 ⊢
  have e2 : Edits b (match f.control with | none => (b, Outcome.ok ()) | some c => if has && b.showControls then b.control c else (b, .ok ())).1 := by
    split
    · exact .refl _
    · split
      · exact edits_control _ _
      · exact .refl _
  refine andThen_not_ub ?_ ?_
  · split
    · simp
    · rename_i act _
      split
      · rename_i h
        have h : has = true := by
          rw [Bool.and_eq_true] at h
          exact h.1
        unfold control
        split
        · rename_i hn; exact absurd hn (hh1 h)
        · rename_i i hi
          cases act <;> dsimp only <;> simp [Scene.reset, (I1.attached i).2 hi]
      · simp
  have I2 := I1.edits e2
  have hh2 : has = true → _ ≠ none := fun h => e2.current ▸ hh1 h
  generalize (match f.control with | none => (b, Outcome.ok ()) | some c => if has && b.showControls then b.control c else (b, .ok ())).1 = c at I2 hh2 ⊢
  have e3 : Edits c (match f.tool with | none => (c, Outcome.ok ()) | some n => if has then c.pickTool n else (c, .ok ())).1 := by
    split
    · exact .refl _
    · split
      · exact edits_pickTool _ _
      · exact .refl _
  refine andThen_not_ub ?_ (stepScene_not_ub (I2.edits e3) sqrt f)
  split
  · simp
  · split
    · rename_i h
      unfold pickTool
      split
      · rename_i hn; exact absurd hn (hh2 h)
      · unfold Scene.useTool
        dsimp only
        split <;> simp [Outcome.bind]
    · simp

theorem apply_not_ub {a : App K} (I : Inv a) (sqrt : K → K) (op : Op K) : (a.apply sqrt op).2 ≠ .ub := by
  cases op with
  | registerScene key fails =>
    change (a.registerScene key fails).2 ≠ .ub
    rw [registerScene_eq]
    split
    · rename_i hc
      rw [changeScene_first I key hc]
      cases fails <;> simp
    · simp
  | resize w h => simp [apply]
  | frame f =>
    change (a.frame sqrt f).2 ≠ .ub
    rw [frame_eq]
    refine andThen_not_ub ?_ (rest_not_ub (I.picked f) sqrt _ f fun h => ?_)
    · unfold picked
      split
      · simp
      · exact select_not_ub I _ _
    · have hc : a.current ≠ none := by
        intro e
        rw [e] at h
        cases h
      unfold picked
      split
      · exact hc
      · unfold select
        split
        · exact hc
        · rw [current_isSome_changeScene]
          simp
  | key captured toolUses keys k action fails =>
    change (a.key sqrt captured toolUses keys k action fails).2 ≠ .ub
    unfold key
    split
    · simp
    · rename_i i hi
      split
      · simp
      · exact Scene.keypress_not_ub sqrt _ _ _ _ _ _ ((I.attached i).2 hi)
  | scroll captured toolUses amount => simp [apply]
  | menuSettings shown => simp [apply]
  | menuControls shown => simp [apply]
  | updateSettings i s => simp [apply]

end
end App
end Simu
