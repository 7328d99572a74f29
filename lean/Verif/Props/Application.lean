import Verif.Spec.Application
import Verif.Lemmas.Application
/-
C82: only the selected scene runs, and it fills the window. C83: coming back to a scene. C84: the window of the engine settings.
-/
namespace Simu
namespace App
section
variable {K : Type*} [Field K] [LinearOrder K]

theorem after_cons (sqrt : K → K) (a : App K) (op : Op K) (ops : List (Op K)) : a.after sqrt (op :: ops) = (a.apply sqrt op).1.after sqrt ops := rfl

theorem Inv.after {a : App K} (I : Inv a) (sqrt : K → K) (ops : List (Op K)) : Inv (a.after sqrt ops) := by
  induction ops generalizing a with
  | nil => exact I
  | cons op ops ih => exact ih (I.apply sqrt op)

theorem Reachable.inv {sqrt : K → K} {a : App K} (h : Reachable sqrt a) : Inv a := by
  obtain ⟨ops, rfl⟩ := h
  exact Inv.init.after sqrt ops

theorem Reachable.apply {sqrt : K → K} {a : App K} (h : Reachable sqrt a) (op : Op K) : Reachable sqrt (a.apply sqrt op).1 := by
  obtain ⟨ops, rfl⟩ := h
  exact ⟨ops ++ [op], by simp [App.after]⟩

/-- C82: the scene that knows the application and may draw is the current one, and only it; there is one once a scene was registered. -/
theorem C82_current {sqrt : K → K} {a : App K} (h : Reachable sqrt a) :
    (∀ i, (a.scene i).attached = true ↔ a.current = some i) ∧ (a.made ≠ 0 → ∃ i, a.current = some i ∧ i < a.made) := by
  refine ⟨h.inv.attached, fun hm => ?_⟩
  obtain ⟨i, hi⟩ := Option.ne_none_iff_exists'.1 (h.inv.some hm)
  exact ⟨i, hi, h.inv.bound i hi⟩

/-- C82: nothing that may happen to an application dereferences a null pointer, even after scenes failed to initialise or to step. -/
theorem C82_safe {sqrt : K → K} {a : App K} (h : Reachable sqrt a) (op : Op K) : (a.apply sqrt op).2 ≠ .ub := apply_not_ub h.inv sqrt op

theorem changeScene_others {a : App K} (I : Inv a) {next j : Nat} (fails : Bool) (h : a.current ≠ some j) (hn : next ≠ j) :
    (a.changeScene next fails).1.scene j = a.scene j ∧ (a.changeScene next fails).1.settings j = a.settings j := by
  by_cases hc : a.current = some next
  · unfold changeScene
    rw [if_pos hc]
    exact ⟨rfl, rfl⟩
  · have e : ∀ s, ((a.moving next).put next s).scene j = a.scene j := fun s => by
      rw [put_scene_ne _ _ (Ne.symm hn)]
      exact leave_ne a h
    rw [changeScene_eq I hc]
    cases fails
    · refine ⟨?_, ?_⟩
      · simp only [Bool.false_eq_true, if_false]
        rw [resizeCallback_ne]
        · exact e _
        · exact fun c => hn (Option.some.inj c)
      · simp only [Bool.false_eq_true, if_false]
        rw [resizeCallback_settings]
        exact congrFun (leave_settings a) j
    · exact ⟨e _, congrFun (leave_settings a) j⟩

theorem andThen_fst {r : App K × Outcome Unit} {f : App K → App K × Outcome Unit} : (andThen r f).1 = r.1 ∨ (andThen r f).1 = (f r.1).1 := by
  unfold andThen
  split
  · exact .inr rfl
  · exact .inl rfl
  · exact .inl rfl

theorem picked_others {a : App K} (I : Inv a) (f : Frame K) {j : Nat} (h : a.current ≠ some j) (h' : (a.picked f).1.current ≠ some j) :
    (a.picked f).1.scene j = a.scene j ∧ (a.picked f).1.settings j = a.settings j := by
  unfold picked at h' ⊢
  split at h' <;> rename_i hp
  · exact ⟨rfl, rfl⟩
  · unfold select at h' ⊢
    split at h' <;> rename_i hl
    · exact ⟨rfl, rfl⟩
    · rw [current_isSome_changeScene] at h'
      exact changeScene_others I _ h fun e => h' (congrArg some e)

/-- C82: whatever happens, a scene that neither was nor becomes the current one is left alone: no event reaches it, its world is not stepped, and its settings change only when the
program gives it some. -/
theorem C82_others {sqrt : K → K} {a : App K} (h : Reachable sqrt a) (op : Op K) {j : Nat} (hj : a.current ≠ some j)
    (hj' : (a.apply sqrt op).1.current ≠ some j) :
    (a.apply sqrt op).1.scene j = a.scene j ∧ (¬GivesSettings j op → (a.apply sqrt op).1.settings j = a.settings j) := by
  have I := h.inv
  suffices hs : (¬GivesSettings j op → (a.apply sqrt op).1.scene j = a.scene j ∧ (a.apply sqrt op).1.settings j = a.settings j) ∧
      (GivesSettings j op → (a.apply sqrt op).1.scene j = a.scene j) by
    by_cases hg : GivesSettings j op
    · exact ⟨hs.2 hg, fun c => absurd hg c⟩
    · exact ⟨(hs.1 hg).1, fun _ => (hs.1 hg).2⟩
  cases op with
  | registerScene key fails =>
    refine ⟨fun _ => ?_, fun c => c.elim⟩
    change (a.registerScene key fails).1.current ≠ _ at hj'
    change (a.registerScene key fails).1.scene j = _ ∧ (a.registerScene key fails).1.settings j = _
    rw [registerScene_eq] at hj' ⊢
    split at hj'
    · rename_i hc
      rw [if_pos hc]
      rw [current_isSome_changeScene] at hj'
      have hne : j ≠ a.made := fun e => hj' (by rw [e])
      rw [changeScene_first I key hc]
      have l : (a.registered key).leave = a.registered key := by
        unfold leave
        have hc' : (a.registered key).current = none := hc
        rw [hc']
      cases fails
      · refine ⟨?_, ?_⟩
        · simp only [Bool.false_eq_true, if_false]
          rw [resizeCallback_ne _ _ _ (fun c => hne (Option.some.inj c).symm), put_scene_ne _ _ hne]
          unfold moving
          rw [l]
          rfl
        · simp only [Bool.false_eq_true, if_false]
          rw [resizeCallback_settings]
          unfold moving
          rw [l]
          rfl
      · refine ⟨?_, ?_⟩
        · simp only [if_true]
          rw [put_scene_ne _ _ hne]
          unfold moving
          rw [l]
          rfl
        · unfold moving
          rw [l]
          rfl
    · rename_i hc
      rw [if_neg hc]
      exact ⟨rfl, rfl⟩
  | resize w h =>
    refine ⟨fun _ => ⟨?_, ?_⟩, fun c => c.elim⟩
    · exact resizeCallback_ne { a with window := (w, h) } w h hj
    · exact congrFun (resizeCallback_settings { a with window := (w, h) } w h) j
  | frame f =>
    refine ⟨fun _ => ?_, fun c => c.elim⟩
    change (a.frame sqrt f).1.current ≠ _ at hj'
    change (a.frame sqrt f).1.scene j = _ ∧ (a.frame sqrt f).1.settings j = _
    rw [frame_eq] at hj' ⊢
    rcases andThen_fst (r := a.picked f) (f := rest sqrt a.current.isSome f) with e | e
    · rw [e] at hj' ⊢
      exact picked_others I f hj hj'
    · rw [e] at hj' ⊢
      have E := edits_rest sqrt a.current.isSome f (a.picked f).1
      rw [E.current] at hj'
      have p := picked_others I f hj hj'
      have o := E.others j hj'
      exact ⟨o.1.trans p.1, o.2.trans p.2⟩
  | key captured toolUses keys k action fails => exact ⟨fun _ => (edits_key sqrt a _ _ _ _ _ _).others j hj, fun c => c.elim⟩
  | scroll captured toolUses amount => exact ⟨fun _ => (edits_scroll a _ _ _).others j hj, fun c => c.elim⟩
  | menuSettings shown => exact ⟨fun _ => ⟨rfl, rfl⟩, fun c => c.elim⟩
  | menuControls shown => exact ⟨fun _ => ⟨rfl, rfl⟩, fun c => c.elim⟩
  | updateSettings i s =>
    refine ⟨fun c => ⟨rfl, ?_⟩, fun _ => rfl⟩
    exact Function.update_of_ne (fun e => c e.symm) _ _

/-! ### What a frame does to the current scene -/

theorem andThen_ok {r : App K × Outcome Unit} {f : App K → App K × Outcome Unit} (h : (andThen r f).2 = .ok ()) :
    r.2 = .ok () ∧ (f r.1).2 = .ok () ∧ (andThen r f).1 = (f r.1).1 := by
  unfold andThen at h ⊢
  split at h <;> rename_i e
  · rw [e]; exact ⟨rfl, h, rfl⟩
  · cases h
  · cases h

theorem control_steps (a : App K) (c : Control) (i : Nat) : ((a.control c).1.scene i).steps = [] ∨ ((a.control c).1.scene i).steps = (a.scene i).steps := by
  unfold control
  split
  · exact .inr rfl
  · rename_i k hk
    by_cases hi : i = k
    · subst hi
      cases c <;> dsimp only <;> rw [put_scene_self]
      · right; unfold Scene.setPlaySpeed; split <;> rfl
      · right; unfold Scene.setPlaySpeed; split <;> rfl
      · right; split <;> rfl
      · left; unfold Scene.reset; split <;> rfl
    · cases c <;> dsimp only <;> rw [put_scene_ne _ _ hi] <;> exact .inr rfl

theorem control_steps_keep (a : App K) {c : Control} (hc : c ≠ .restart) (i : Nat) : ((a.control c).1.scene i).steps = (a.scene i).steps := by
  unfold control
  split
  · rfl
  · rename_i k hk
    by_cases hi : i = k
    · subst hi
      cases c <;> dsimp only <;> rw [put_scene_self]
      · unfold Scene.setPlaySpeed; split <;> rfl
      · unfold Scene.setPlaySpeed; split <;> rfl
      · split <;> rfl
      · exact absurd rfl hc
    · cases c <;> dsimp only <;> rw [put_scene_ne _ _ hi]

theorem settingsWindow_scene (a : App K) (has : Bool) (v p : Int) (w : Bool) : (a.settingsWindow has v p w).1.scene = a.scene := by
  unfold settingsWindow
  dsimp only
  split
  · split <;> rfl
  · rfl

theorem pickTool_steps (a : App K) (n : String) (i : Nat) : ((a.pickTool n).1.scene i).steps = (a.scene i).steps := by
  unfold pickTool
  split
  · rfl
  · rename_i k hk
    by_cases hi : i = k
    · subst hi
      dsimp only
      rw [put_scene_self]
      unfold Scene.useTool
      split <;> rfl
    · dsimp only
      rw [put_scene_ne _ _ hi]

theorem rest_steps (sqrt : K → K) (has : Bool) (f : Frame K) (a : App K) {i : Nat} (I : Inv a) (hi : a.current = some i) (hok : (rest sqrt has f a).2 = .ok ()) :
    ∃ r, ((rest sqrt has f a).1.scene i).steps =
        min f.dt (1 / 60) * (((rest sqrt has f a).1.scene i).playSpeed * (if ((rest sqrt has f a).1.scene i).paused then 0 else 1)) :: r ∧
      (r = [] ∨ r = (a.scene i).steps) ∧ (f.control ≠ some .restart → r = (a.scene i).steps) := by
  unfold rest at hok ⊢
  obtain ⟨o1, hok, e1⟩ := andThen_ok hok
  rw [e1]
  have E1 : Edits a (if a.showSettings then a.settingsWindow has f.vIter f.pIter f.warm else (a, .ok ())).1 := by
    split
    · exact edits_settingsWindow _ _ _ _ _
    · exact .refl _
  have S1 : (if a.showSettings then a.settingsWindow has f.vIter f.pIter f.warm else (a, .ok ())).1.scene = a.scene := by
    split
    · exact settingsWindow_scene _ _ _ _ _
    · rfl
  clear e1 o1
  generalize (if a.showSettings then a.settingsWindow has f.vIter f.pIter f.warm else (a, Outcome.ok ())).1 = b at E1 S1 hok ⊢
  obtain ⟨o2, hok, e2⟩ := andThen_ok hok
  rw [e2]
  have E2 : Edits b (match f.control with | none => (b, Outcome.ok ()) | some c => if has && b.showControls then b.control c else (b, .ok ())).1 := by
    split
    · exact .refl _
    · split
      · exact edits_control _ _
      · exact .refl _
  have S2 : ((match f.control with | none => (b, Outcome.ok ()) | some c => if has && b.showControls then b.control c else (b, .ok ())).1.scene i).steps = [] ∨
      ((match f.control with | none => (b, Outcome.ok ()) | some c => if has && b.showControls then b.control c else (b, .ok ())).1.scene i).steps = (b.scene i).steps := by
    split
    · exact .inr rfl
    · split
      · exact control_steps _ _ _
      · exact .inr rfl
  have S2' : f.control ≠ some .restart →
      ((match f.control with | none => (b, Outcome.ok ()) | some c => if has && b.showControls then b.control c else (b, .ok ())).1.scene i).steps = (b.scene i).steps := by
    intro hr
    split
    · rfl
    · rename_i c hc
      split
      · exact control_steps_keep _ (fun e => hr (hc.trans (congrArg _ e))) _
      · rfl
  clear e2 o2
  generalize (match f.control with | none => (b, Outcome.ok ()) | some c => if has && b.showControls then b.control c else (b, .ok ())).1 = c at E2 S2 S2' hok ⊢
  obtain ⟨o3, hok, e3⟩ := andThen_ok hok
  rw [e3]
  have E3 : Edits c (match f.tool with | none => (c, Outcome.ok ()) | some n => if has then c.pickTool n else (c, .ok ())).1 := by
    split
    · exact .refl _
    · split
      · exact edits_pickTool _ _
      · exact .refl _
  have S3 : ((match f.tool with | none => (c, Outcome.ok ()) | some n => if has then c.pickTool n else (c, .ok ())).1.scene i).steps = (c.scene i).steps := by
    split
    · rfl
    · split
      · exact pickTool_steps _ _ _
      · rfl
  clear e3 o3
  generalize (match f.tool with | none => (c, Outcome.ok ()) | some n => if has then c.pickTool n else (c, .ok ())).1 = d at E3 S3 hok ⊢
  have E := (E1.trans E2).trans E3
  have hd : d.current = some i := E.current.trans hi
  have hatt : (d.scene i).attached = true := ((I.edits E).attached i).2 hd
  refine ⟨(d.scene i).steps, ?_, ?_, ?_⟩
  · unfold stepScene
    rw [hd]
    dsimp only
    rw [put_scene_self]
    obtain ⟨cam, hc⟩ := Scene.step_eq sqrt (d.scene i) f.keys f.dt f.stepFails
    rw [hc, if_pos hatt]
  · rw [S3]
    rcases S2 with h | h
    · exact .inl h
    · exact .inr (by rw [h, S1])
  · intro hr
    rw [S3, S2' hr, S1]

theorem changeScene_steps {a : App K} (I : Inv a) {next : Nat} (h : a.current ≠ some next) (fails : Bool) :
    ((a.changeScene next fails).1.scene next).steps = [] := by
  rw [changeScene_eq I h]
  cases fails
  · simp only [Bool.false_eq_true, if_false]
    rw [resizeCallback_self (j := next) _ _ _ rfl]
    dsimp only
    rw [put_scene_self]
    rfl
  · simp only [if_true]
    rw [put_scene_self]
    rfl

theorem picked_current {a : App K} (f : Frame K) {i : Nat} (hi : (a.picked f).1.current = some i) (h : a.current ≠ some i) :
    ∃ key fails, f.pick = some (key, fails) ∧ a.scenes.lookup key = some i ∧ a.picked f = a.changeScene i fails := by
  unfold picked at hi ⊢
  split at hi <;> rename_i hp
  · exact absurd hi h
  · rename_i p
    unfold select at hi
    split at hi <;> rename_i hl
    · exact absurd hi h
    · rw [current_isSome_changeScene] at hi
      cases Option.some.inj hi
      refine ⟨p.1, p.2, hp, hl, ?_⟩
      unfold select
      rw [hl]

/-- C82: a frame that does not fail steps the world of the current scene exactly once, by the time since the last frame limited to 1/60, at the speed of the scene, or by zero if the
scene is paused. Its other steps are those it had, unless the scene was just selected or restarted: then it has no other. -/
theorem C82_frame {sqrt : K → K} {a : App K} (h : Reachable sqrt a) (f : Frame K) (hok : (a.frame sqrt f).2 = .ok ()) {i : Nat}
    (hi : (a.frame sqrt f).1.current = some i) :
    ∃ earlier, ((a.frame sqrt f).1.scene i).steps =
        min f.dt (1 / 60) * (((a.frame sqrt f).1.scene i).playSpeed * (if ((a.frame sqrt f).1.scene i).paused then 0 else 1)) :: earlier ∧
      (a.current ≠ some i → earlier = []) ∧ (a.current = some i → f.control ≠ some .restart → earlier = (a.scene i).steps) := by
  have I := h.inv
  rw [frame_eq] at hok hi ⊢
  obtain ⟨_, ho, e⟩ := andThen_ok hok
  rw [e] at hi ⊢
  have E := edits_rest sqrt a.current.isSome f (a.picked f).1
  rw [E.current] at hi
  obtain ⟨r, hr, hr1, hr2⟩ := rest_steps sqrt a.current.isSome f (a.picked f).1 (I.picked f) hi ho
  refine ⟨r, hr, fun hc => ?_, fun hc hn => ?_⟩
  · obtain ⟨key, fails, _, _, hp⟩ := picked_current f hi hc
    have hs : ((a.picked f).1.scene i).steps = [] := by
      rw [hp]
      exact changeScene_steps I hc fails
    rcases hr1 with h | h
    · exact h
    · rw [h, hs]
  · rw [hr2 hn]
    have : (a.picked f).1.scene i = a.scene i := by
      unfold picked at hi ⊢
      split at hi <;> rename_i hp
      · rfl
      · unfold select at hi ⊢
        split at hi <;> rename_i hl
        · rfl
        · rw [current_isSome_changeScene] at hi
          cases Option.some.inj hi
          unfold changeScene
          rw [if_pos hc]
    rw [this]

/-! ### C83: coming back to a scene -/

/-- C83, disagreement: a scene that becomes the current one is always restarted, whether or not it was initialised before: its world is cleared. That a scene `isInit` never matters. -/
theorem C83_always_restarts {sqrt : K → K} {a : App K} (h : Reachable sqrt a) (f : Frame K) {i : Nat} (hc : a.current ≠ some i)
    (hi : (a.frame sqrt f).1.current = some i) (hok : (a.frame sqrt f).2 = .ok ()) :
    ((a.frame sqrt f).1.scene i).steps.length = 1 := by
  obtain ⟨r, hr, hr1, _⟩ := C82_frame h f hok hi
  rw [hr, hr1 hc]
  rfl

theorem away_kept {sqrt : K → K} {a : App K} (h : Reachable sqrt a) {j : Nat} (ops : List (Op K)) (haway : Away sqrt j a ops) :
    (a.after sqrt ops).scene j = a.scene j ∧ ((∀ op ∈ ops, ¬GivesSettings j op) → (a.after sqrt ops).settings j = a.settings j) ∧
      (a.after sqrt ops).current ≠ some j ∧ Reachable sqrt (a.after sqrt ops) := by
  induction ops generalizing a with
  | nil => exact ⟨rfl, fun _ => rfl, haway, h⟩
  | cons op ops ih =>
    obtain ⟨i1, i2, i3, i4⟩ := ih (h.apply op) haway.2
    have hc : (a.apply sqrt op).1.current ≠ some j := by
      cases ops with
      | nil => exact haway.2
      | cons _ _ => exact haway.2.1
    obtain ⟨o1, o2⟩ := C82_others h op haway.1 hc
    refine ⟨?_, fun hg => ?_, i3, i4⟩
    · rw [after_cons, i1, o1]
    · rw [after_cons, i2 fun op' h' => hg op' (List.mem_cons_of_mem _ h'), o2 (hg op List.mem_cons_self)]

/-- Selecting another scene in a frame leaves the current one as it is, but for its knowing the application. -/
theorem leaving_scene {sqrt : K → K} {a : App K} (h : Reachable sqrt a) {j : Nat} (hj : a.current = some j) (f : Frame K)
    (hn : (a.frame sqrt f).1.current ≠ some j) :
    (a.frame sqrt f).1.scene j = (a.scene j).detach ∧ (a.frame sqrt f).1.settings j = a.settings j := by
  have I := h.inv
  have hpj : (a.picked f).1.current ≠ some j → (a.picked f).1.scene j = (a.scene j).detach ∧ (a.picked f).1.settings j = a.settings j := by
    intro hp
    obtain ⟨i, hi⟩ := Option.ne_none_iff_exists'.1 ((I.picked f).some (fun e => by
      have := I.bound j hj
      have hm : (a.picked f).1.made = a.made := by
        unfold picked
        split
        · rfl
        · unfold select
          split
          · rfl
          · unfold changeScene
            dsimp only
            split_ifs
            · rfl
            · exact leave_made a
            · exact (resizeCallback_made _ _ _).trans (leave_made a)
            · exact (resizeCallback_made _ _ _).trans (leave_made a)
      omega))
    have hij : i ≠ j := fun e => hp (e ▸ hi)
    have hai : a.current ≠ some i := by
      rw [hj]
      exact fun e => hij (Option.some.inj e).symm
    obtain ⟨key, fails, _, _, e⟩ := picked_current f hi hai
    rw [e, changeScene_eq I hai]
    cases fails
    · refine ⟨?_, ?_⟩
      · simp only [Bool.false_eq_true, if_false]
        rw [resizeCallback_ne _ _ _ (fun c => hij (Option.some.inj c)), put_scene_ne _ _ (Ne.symm hij)]
        exact leave_self a hj
      · simp only [Bool.false_eq_true, if_false]
        rw [resizeCallback_settings]
        exact congrFun (leave_settings a) j
    · refine ⟨?_, congrFun (leave_settings a) j⟩
      simp only [if_true]
      rw [put_scene_ne _ _ (Ne.symm hij)]
      exact leave_self a hj
  rw [frame_eq] at hn ⊢
  rcases andThen_fst (r := a.picked f) (f := rest sqrt a.current.isSome f) with e | e
  · rw [e] at hn ⊢
    exact hpj hn
  · rw [e] at hn ⊢
    have E := edits_rest sqrt a.current.isSome f (a.picked f).1
    rw [E.current] at hn
    have o := E.others j hn
    exact ⟨o.1.trans (hpj hn).1, o.2.trans (hpj hn).2⟩

/-- C83 (partial: the world of the scene is not kept, see `C83_disagreement`): a scene the user comes back to, after leaving it for another one and after anything that happened
meanwhile, has the speed, the pause state, the tools, the current tool, the centre and the zoom of the view it had when it was left; and the settings of its world unless the program gave it others. -/
theorem C83_returned_partial {sqrt : K → K} {a : App K} (h : Reachable sqrt a) {j : Nat} (hj : a.current = some j) (leaving : Frame K) (ops : List (Op K))
    (haway : Away sqrt j (a.frame sqrt leaving).1 ops)
    {key : Nat} (hkey : ((a.frame sqrt leaving).1.after sqrt ops).scenes.lookup key = some j) :
    let b := (a.frame sqrt leaving).1.after sqrt ops
    let c := b.select key false
    c.2 = .ok () ∧ c.1.current = some j ∧
    c.1.scene j = (a.scene j).restartedIn b.window ∧
    ((∀ op ∈ ops, ¬GivesSettings j op) → c.1.settings j = a.settings j) := by
  intro b c
  obtain ⟨k1, k2, k3, k4⟩ := away_kept (h.apply (.frame leaving)) ops haway
  have hn : (a.frame sqrt leaving).1.current ≠ some j := by
    cases ops with
    | nil => exact haway
    | cons _ _ => exact haway.1
  have hleft := leaving_scene h hj leaving hn
  have hc : c = b.changeScene j false := by
    change b.select key false = _
    unfold select
    rw [show b.scenes.lookup key = some j from hkey]
  have hs : b.scene j = (a.scene j).detach := k1.trans hleft.1
  have k3' : b.current ≠ some j := k3
  have k4' : Reachable sqrt b := k4
  rw [changeScene_eq k4'.inv k3'] at hc
  have hatt := (h.inv.attached j).2 hj
  refine ⟨?_, ?_, ?_, fun hg => ?_⟩
  · rw [hc]; rfl
  · rw [hc]
    exact resizeCallback_current _ _ _
  · rw [hc]
    simp only [Bool.false_eq_true, if_false]
    rw [resizeCallback_self (j := j) _ _ _ rfl, put_scene_self, hs]
    simp only [Scene.attach, Scene.detach, Scene.restartedIn, hatt]
  · rw [hc]
    simp only [Bool.false_eq_true, if_false]
    rw [resizeCallback_settings]
    change b.leave.settings j = _
    rw [leave_settings]
    exact (k2 hg).trans hleft.2

/-! ### C84: the window of the engine settings -/

theorem control_settings (a : App K) (c : Control) : (a.control c).1.settings = a.settings ∧ (a.control c).1.shared = a.shared := by
  unfold control
  split
  · exact ⟨rfl, rfl⟩
  · cases c <;> exact ⟨rfl, rfl⟩

theorem pickTool_settings (a : App K) (n : String) : (a.pickTool n).1.settings = a.settings ∧ (a.pickTool n).1.shared = a.shared := by
  unfold pickTool
  split <;> exact ⟨rfl, rfl⟩

theorem stepScene_settings (sqrt : K → K) (a : App K) (f : Frame K) :
    (a.stepScene sqrt f).1.settings = a.settings ∧ (a.stepScene sqrt f).1.shared = a.shared := by
  unfold stepScene
  split <;> exact ⟨rfl, rfl⟩

theorem andThen_settings {r : App K × Outcome Unit} {f : App K → App K × Outcome Unit}
    (hf : (f r.1).1.settings = r.1.settings ∧ (f r.1).1.shared = r.1.shared) :
    (andThen r f).1.settings = r.1.settings ∧ (andThen r f).1.shared = r.1.shared := by
  unfold andThen
  split
  · exact hf
  · exact ⟨rfl, rfl⟩
  · exact ⟨rfl, rfl⟩

theorem rest_settings (sqrt : K → K) (has : Bool) (f : Frame K) (a : App K) :
    let w := if a.showSettings then a.settingsWindow has f.vIter f.pIter f.warm else (a, .ok ())
    (rest sqrt has f a).1.settings = w.1.settings ∧ (rest sqrt has f a).1.shared = w.1.shared := by
  intro w
  unfold rest
  refine andThen_settings ?_
  have h2 : ∀ b : App K, (match f.control with | none => (b, Outcome.ok ()) | some c => if has && b.showControls then b.control c else (b, .ok ())).1.settings = b.settings ∧
      (match f.control with | none => (b, Outcome.ok ()) | some c => if has && b.showControls then b.control c else (b, .ok ())).1.shared = b.shared := by
    intro b
    split
    · exact ⟨rfl, rfl⟩
    · split
      · exact control_settings _ _
      · exact ⟨rfl, rfl⟩
  have h3 : ∀ b : App K, (match f.tool with | none => (b, Outcome.ok ()) | some n => if has then b.pickTool n else (b, .ok ())).1.settings = b.settings ∧
      (match f.tool with | none => (b, Outcome.ok ()) | some n => if has then b.pickTool n else (b, .ok ())).1.shared = b.shared := by
    intro b
    split
    · exact ⟨rfl, rfl⟩
    · split
      · exact pickTool_settings _ _
      · exact ⟨rfl, rfl⟩
  refine ⟨(andThen_settings ?_).1.trans (h2 _).1, (andThen_settings ?_).2.trans (h2 _).2⟩ <;>
    exact ⟨(andThen_settings (stepScene_settings sqrt _ f)).1.trans (h3 _).1, (andThen_settings (stepScene_settings sqrt _ f)).2.trans (h3 _).2⟩

theorem changeScene_settings (a : App K) (next : Nat) (fails : Bool) :
    (a.changeScene next fails).1.settings = a.settings ∧ (a.changeScene next fails).1.shared = a.shared ∧
      (a.changeScene next fails).1.showSettings = a.showSettings := by
  have l : a.leave.shared = a.shared ∧ a.leave.showSettings = a.showSettings := by unfold leave; split <;> exact ⟨rfl, rfl⟩
  have r : ∀ (b : App K) w h, (b.resizeCallback w h).shared = b.shared ∧ (b.resizeCallback w h).showSettings = b.showSettings := by
    intro b w h; unfold resizeCallback; split <;> exact ⟨rfl, rfl⟩
  unfold changeScene
  dsimp only
  split_ifs
  · exact ⟨rfl, rfl, rfl⟩
  · exact ⟨leave_settings a, l⟩
  · exact ⟨(resizeCallback_settings _ _ _).trans (leave_settings a), (r _ _ _).1.trans l.1, (r _ _ _).2.trans l.2⟩
  · exact ⟨(resizeCallback_settings _ _ _).trans (leave_settings a), (r _ _ _).1.trans l.1, (r _ _ _).2.trans l.2⟩

theorem picked_settings (a : App K) (f : Frame K) :
    (a.picked f).1.settings = a.settings ∧ (a.picked f).1.shared = a.shared ∧ (a.picked f).1.showSettings = a.showSettings := by
  unfold picked
  split
  · exact ⟨rfl, rfl, rfl⟩
  · unfold select
    split
    · exact ⟨rfl, rfl, rfl⟩
    · exact changeScene_settings _ _ _

/-- C84: while the window is not shown, no frame changes the settings of a world. -/
theorem C84_hidden {sqrt : K → K} {a : App K} (f : Frame K) (hw : a.showSettings = false) : (a.frame sqrt f).1.settings = a.settings := by
  have p := picked_settings a f
  rw [frame_eq]
  rcases andThen_fst (r := a.picked f) (f := rest sqrt a.current.isSome f) with e | e
  · rw [e]; exact p.1
  · rw [e]
    have r := (rest_settings sqrt a.current.isSome f (a.picked f).1).1
    rw [p.2.2, hw] at r
    exact r.trans p.1

/-- The settings of sleeping that the window gives are those of a new world: no control changes them. -/
theorem shared_sleep {sqrt : K → K} {a : App K} (h : Reachable sqrt a) : a.shared.sleep = (WorldSettings.default : WorldSettings K).sleep := by
  obtain ⟨ops, rfl⟩ := h
  suffices H : ∀ a : App K, a.shared.sleep = (WorldSettings.default : WorldSettings K).sleep →
      (a.after sqrt ops).shared.sleep = (WorldSettings.default : WorldSettings K).sleep from H _ rfl
  intro a ha
  induction ops generalizing a with
  | nil => exact ha
  | cons op ops ih =>
    refine ih _ ?_
    cases op with
    | registerScene key fails =>
      change (a.registerScene key fails).1.shared.sleep = _
      rw [registerScene_eq]
      split
      · rw [(changeScene_settings _ _ _).2.1]
        exact ha
      · exact ha
    | resize w h =>
      change (resizeCallback _ _ _).shared.sleep = _
      unfold resizeCallback
      split <;> exact ha
    | frame f =>
      change (a.frame sqrt f).1.shared.sleep = _
      have p := picked_settings a f
      rw [frame_eq]
      rcases andThen_fst (r := a.picked f) (f := rest sqrt a.current.isSome f) with e | e
      · rw [e, p.2.1]; exact ha
      · rw [e, (rest_settings sqrt a.current.isSome f (a.picked f).1).2]
        split
        · unfold settingsWindow
          dsimp only
          split
          · split <;> rw [p.2.1] <;> exact ha
          · rw [p.2.1]; exact ha
        · rw [p.2.1]; exact ha
    | key captured toolUses keys k action fails =>
      change (key _ _ _ _ _ _ _ _).1.shared.sleep = _
      unfold key
      split
      · exact ha
      · split <;> exact ha
    | scroll captured toolUses amount =>
      change (scroll _ _ _ _).shared.sleep = _
      unfold scroll
      split
      · exact ha
      · split <;> exact ha
    | menuSettings shown => exact ha
    | menuControls shown => exact ha
    | updateSettings i s => exact ha

/-- C84 (partial: the window does not start from the settings in force, see `C84_opening_disagreement`): after a frame with the window shown, the current scene runs with exactly the number of iterations
and the warm starting left by the user in the window, and the window remembers them for the next frame. -/
theorem C84_applied_partial {sqrt : K → K} {a : App K} (h : Reachable sqrt a) (f : Frame K) (hw : a.showSettings = true) (hm : a.made ≠ 0)
    (hok : (a.frame sqrt f).2 = .ok ()) (hv : 0 ≤ f.vIter ∧ f.vIter ≤ 50) (hp : 0 ≤ f.pIter ∧ f.pIter ≤ 50) :
    ∃ i, (a.frame sqrt f).1.current = some i ∧ (((a.frame sqrt f).1.settings i).solver.nVelocityIterations : Int) = f.vIter ∧
      (((a.frame sqrt f).1.settings i).solver.nPositionIterations : Int) = f.pIter ∧ ((a.frame sqrt f).1.settings i).solver.enableWarmstarting = f.warm ∧
      (a.frame sqrt f).1.shared = (a.frame sqrt f).1.settings i := by
  have I := h.inv
  obtain ⟨j, hj⟩ := Option.ne_none_iff_exists'.1 (I.some hm)
  rw [frame_eq] at hok ⊢
  obtain ⟨_, ho, e⟩ := andThen_ok hok
  rw [e]
  have E := edits_rest sqrt a.current.isSome f (a.picked f).1
  have hcur : ∃ i, (a.picked f).1.current = some i := by
    unfold picked
    split
    · exact ⟨j, hj⟩
    · unfold select
      split
      · exact ⟨j, hj⟩
      · exact ⟨_, current_isSome_changeScene _ _ _⟩
  obtain ⟨i, hi⟩ := hcur
  refine ⟨i, E.current.trans hi, ?_⟩
  have p := picked_settings a f
  have r := rest_settings sqrt a.current.isSome f (a.picked f).1
  dsimp only at r
  rw [p.2.2, hw, if_pos rfl] at r
  have hs : a.current.isSome = true := by rw [hj]; rfl
  unfold settingsWindow at r
  dsimp only at r
  rw [if_pos hs, hi] at r
  rw [r.1, r.2]
  dsimp only
  rw [Function.update_self]
  refine ⟨?_, ?_, rfl, rfl⟩
  · simp only [toUint32]
    omega
  · simp only [toUint32]
    omega

/-- C84, disagreement: whatever the settings of the current scene were, a frame with the window shown gives its world those of the window, of which the settings of sleeping are those of a
new world. -/
theorem C84_overwrites {sqrt : K → K} {a : App K} (h : Reachable sqrt a) (f : Frame K) (hw : a.showSettings = true) {i : Nat} (hi : (a.frame sqrt f).1.current = some i)
    (hm : a.made ≠ 0) (hok : (a.frame sqrt f).2 = .ok ()) :
    (a.frame sqrt f).1.settings i = ⟨⟨toUint32 f.vIter, toUint32 f.pIter, f.warm⟩, (WorldSettings.default : WorldSettings K).sleep⟩ := by
  have I := h.inv
  obtain ⟨j, hj⟩ := Option.ne_none_iff_exists'.1 (I.some hm)
  have sl := shared_sleep h
  rw [frame_eq] at hok hi ⊢
  obtain ⟨_, ho, e⟩ := andThen_ok hok
  rw [e] at hi ⊢
  have E := edits_rest sqrt a.current.isSome f (a.picked f).1
  rw [E.current] at hi
  have p := picked_settings a f
  have r := rest_settings sqrt a.current.isSome f (a.picked f).1
  dsimp only at r
  rw [p.2.2, hw, if_pos rfl] at r
  have hs : a.current.isSome = true := by rw [hj]; rfl
  unfold settingsWindow at r
  dsimp only at r
  rw [if_pos hs, hi] at r
  rw [r.1]
  dsimp only
  rw [Function.update_self, p.2.1, sl]

end

/-! ### The view of the current scene -/
section
variable {K : Type*} [Field K] [LinearOrder K] [IsStrictOrderedRing K]

/-- Every scene has the pixel size of a new camera and the current one shows as much of the world as the window has room for. -/
structure Fills (a : App K) : Prop where
  pixel : ∀ i, (a.scene i).camera.pixelSize = 1 / 10
  fills : ∀ i, a.current = some i → 0 < a.window.1 → 0 < a.window.2 →
    (a.scene i).camera.viewDimensions = (1 / 10 : K) • (⟨(a.window.1 : K), (a.window.2 : K)⟩ : Vec2 K)

theorem Fills.edits {a b : App K} (F : Fills a) (h : Edits a b) : Fills b := by
  refine ⟨fun i => ?_, fun i hi hw hh => ?_⟩
  · by_cases hi : a.current = some i
    · rw [(h.mine i hi).pixel]
      exact F.pixel i
    · rw [(h.others i hi).1]
      exact F.pixel i
  · rw [h.current] at hi
    rw [h.window] at hw hh ⊢
    rw [(h.mine i hi).view]
    exact F.fills i hi hw hh

theorem setDimensions_pixel (c : Camera K) (d : Vec2 K) : (c.setDimensionsFromScreenCoordinates d).pixelSize = c.pixelSize := by
  unfold Camera.setDimensionsFromScreenCoordinates Camera.setViewDimensions
  split <;> rfl

theorem setDimensions_view (c : Camera K) (hc : c.pixelSize = 1 / 10) {w h : Int} (hw : 0 < w) (hh : 0 < h) :
    (c.setDimensionsFromScreenCoordinates ⟨(w : K), (h : K)⟩).viewDimensions = (1 / 10 : K) • (⟨(w : K), (h : K)⟩ : Vec2 K) := by
  unfold Camera.setDimensionsFromScreenCoordinates Camera.setViewDimensions
  rw [hc, if_pos]
  have hw' : (0 : K) < w := by exact_mod_cast hw
  have hh' : (0 : K) < h := by exact_mod_cast hh
  exact ⟨mul_pos hw' (by norm_num), mul_pos hh' (by norm_num)⟩

theorem Fills.resizeCallback {a : App K} (hp : ∀ i, (a.scene i).camera.pixelSize = 1 / 10) :
    Fills (a.resizeCallback a.window.1 a.window.2) := by
  refine ⟨fun i => ?_, fun i hi hw hh => ?_⟩
  · by_cases hi : a.current = some i
    · rw [resizeCallback_self a _ _ hi]
      dsimp only
      rw [setDimensions_pixel]
      exact hp i
    · rw [resizeCallback_ne a _ _ hi]
      exact hp i
  · rw [resizeCallback_current] at hi
    rw [resizeCallback_window] at hw hh ⊢
    rw [resizeCallback_self a _ _ hi]
    exact setDimensions_view _ (hp i) hw hh

theorem Fills.changeScene {a : App K} (F : Fills a) (I : Inv a) (next : Nat) : Fills (a.changeScene next false).1 := by
  by_cases h : a.current = some next
  · unfold App.changeScene
    rw [if_pos h]
    exact F
  · rw [changeScene_eq I h]
    have w : ((a.moving next).put next (a.scene next).attach).window = a.window := leave_window a
    simp only [Bool.false_eq_true, if_false]
    rw [← w]
    refine Fills.resizeCallback fun i => ?_
    by_cases hi : i = next
    · subst hi
      rw [put_scene_self]
      exact F.pixel i
    · rw [put_scene_ne _ _ hi]
      change (a.leave.scene i).camera.pixelSize = _
      by_cases hc : a.current = some i
      · rw [leave_self a hc]
        exact F.pixel i
      · rw [leave_ne a hc]
        exact F.pixel i

theorem Fills.apply {a : App K} (F : Fills a) (I : Inv a) (sqrt : K → K) (op : Op K) (hop : ¬InitFails op) : Fills (a.apply sqrt op).1 := by
  cases op with
  | registerScene key fails =>
    have : fails = false := by simpa [InitFails] using hop
    subst this
    change Fills (a.registerScene key false).1
    rw [registerScene_eq]
    split
    · rename_i hc
      rw [changeScene_first I key hc]
      simp only [Bool.false_eq_true, if_false]
      have l : (a.registered key).leave = a.registered key := by
        unfold leave
        have hc' : (a.registered key).current = none := hc
        rw [hc']
      have w : (((a.registered key).moving a.made).put a.made (Scene.init : Scene K).attach).window = a.window := leave_window _
      rw [← w]
      refine Fills.resizeCallback fun i => ?_
      by_cases hi : i = a.made
      · rw [hi, put_scene_self]
        rfl
      · rw [put_scene_ne _ _ hi]
        unfold moving
        rw [l]
        exact F.pixel i
    · exact ⟨F.pixel, F.fills⟩
  | resize w h => exact Fills.resizeCallback (a := { a with window := (w, h) }) F.pixel
  | frame f =>
    change Fills (a.frame sqrt f).1
    rw [frame_eq]
    have P : Fills (a.picked f).1 := by
      unfold picked
      split
      · exact F
      · rename_i p hp
        have : p.2 = false := by
          by_contra hne
          exact hop ⟨p.1, by rw [hp, ← Bool.eq_true_of_not_eq_false hne]⟩
        rw [this]
        unfold select
        split
        · exact F
        · exact F.changeScene I _
    rcases andThen_fst (r := a.picked f) (f := rest sqrt a.current.isSome f) with e | e
    · rw [e]; exact P
    · rw [e]; exact P.edits (edits_rest sqrt _ f _)
  | key captured toolUses keys k action fails => exact F.edits (edits_key sqrt a _ _ _ _ _ _)
  | scroll captured toolUses amount => exact F.edits (edits_scroll a _ _ _)
  | menuSettings shown => exact ⟨F.pixel, F.fills⟩
  | menuControls shown => exact ⟨F.pixel, F.fills⟩
  | updateSettings i s => exact ⟨F.pixel, F.fills⟩

/-- C82: as long as no scene fails to initialise, whatever scenes are selected and however the window is resized (even to nothing), the current scene shows, at zoom 1, a tenth of a unit per pixel
of the window. -/
theorem C82_view (sqrt : K → K) (ops : List (Op K)) (hops : ∀ op ∈ ops, ¬InitFails op) {i : Nat} (hi : ((init : App K).after sqrt ops).current = some i)
    (hw : 0 < ((init : App K).after sqrt ops).window.1) (hh : 0 < ((init : App K).after sqrt ops).window.2) :
    (((init : App K).after sqrt ops).scene i).camera.viewDimensions =
      ⟨(((init : App K).after sqrt ops).window.1 : K) * (1 / 10), (((init : App K).after sqrt ops).window.2 : K) * (1 / 10)⟩ := by
  suffices H : ∀ (a : App K), Inv a → Fills a → Fills (a.after sqrt ops) from
    (H init Inv.init ⟨fun _ => rfl, fun _ h => by cases h⟩).fills i hi hw hh
  intro a I F
  clear hi hw hh
  induction ops generalizing a with
  | nil => exact F
  | cons op ops ih => exact ih (fun o h => hops o (List.mem_cons_of_mem _ h)) _ (I.apply sqrt op) (F.apply I sqrt op (hops op List.mem_cons_self))

end
/-! ### Examples -/
section

/-- A frame of 1/100 s in which the user does nothing. -/
def idle : Frame ℚ := ⟨none, 8, 2, true, none, none, (false, false, false, false), 1 / 100, false⟩

/-- Two scenes, registered under the names at addresses 7 and 9, and two frames of the first. -/
def twoScenes : List (Op ℚ) := [.registerScene 7 false, .registerScene 9 false, .frame idle, .resize 800 600, .frame idle]

/-- The square root is not needed as no arrow key is held down. -/
def noRoot : ℚ → ℚ := fun x => x

theorem twoScenes_reachable : Reachable noRoot ((init : App ℚ).after noRoot twoScenes) := ⟨_, rfl⟩

/-- C82, for two scenes: the first is the current one, it was stepped twice and it fills the window; the second was not. -/
example : ((init : App ℚ).after noRoot twoScenes).current = some 0 ∧ (((init : App ℚ).after noRoot twoScenes).scene 0).steps = [1 / 100, 1 / 100] ∧
    (((init : App ℚ).after noRoot twoScenes).scene 0).camera.viewDimensions = ⟨80, 60⟩ ∧ (((init : App ℚ).after noRoot twoScenes).scene 1).steps = [] := by
  decide +kernel

/-- `C82_view` for them. -/
example : (((init : App ℚ).after noRoot twoScenes).scene 0).camera.viewDimensions = ⟨800 * (1 / 10), 600 * (1 / 10)⟩ := by
  have h := C82_view (K := ℚ) noRoot twoScenes (by
    intro op hop
    simp only [twoScenes, List.mem_cons, List.not_mem_nil, or_false] at hop
    rcases hop with rfl | rfl | rfl | rfl | rfl <;> simp [InitFails, idle]) (i := 0) (by decide +kernel) (by decide +kernel) (by decide +kernel)
  have e : ((init : App ℚ).after noRoot twoScenes).window = (800, 600) := by decide +kernel
  rw [e] at h
  exact_mod_cast h

/-- The user selects the second scene, in a frame. -/
def go (key : Nat) : Frame ℚ := { idle with pick := some (key, false) }

/-- `C82_others` and `C82_frame` for the selection of the second scene: it is stepped once. -/
example : let a := (init : App ℚ).after noRoot twoScenes
    (a.frame noRoot (go 9)).2 = .ok () ∧ (a.frame noRoot (go 9)).1.current = some 1 ∧ ((a.frame noRoot (go 9)).1.scene 1).steps = [1 / 100] := by
  decide +kernel

/-- C83, disagreement: the user looks at the second scene and comes back to the first, which had been initialised and run: its world starts again. -/
theorem C83_disagreement : ∃ (ops : List (Op ℚ)) (away back : Frame ℚ),
    let a := (init : App ℚ).after noRoot ops
    let b := (a.frame noRoot away).1
    let c := b.frame noRoot back
    a.current = some 0 ∧ (a.scene 0).steps.length = 2 ∧ b.current = some 1 ∧ (b.scene 0).isInit = true ∧ (b.scene 0).steps.length = 2 ∧
      c.2 = .ok () ∧ c.1.current = some 0 ∧ (c.1.scene 0).steps.length = 1 :=
  ⟨twoScenes, go 9, go 7, by decide +kernel⟩

/-- `C83_returned_partial` for it, with two frames of the second scene meanwhile. -/
example : let a := (init : App ℚ).after noRoot twoScenes
    let b := (a.frame noRoot (go 9)).1.after noRoot [.frame idle, .resize 1000 500]
    (b.select 7 false).1.scene 0 = (a.scene 0).restartedIn (1000, 500) := by
  have h := C83_returned_partial twoScenes_reachable (j := 0) (by decide +kernel) (go 9) [.frame idle, .resize 1000 500]
    ⟨by decide +kernel, by decide +kernel, (by decide +kernel : _ ≠ _)⟩ (key := 7) (by decide +kernel)
  have e : ((((init : App ℚ).after noRoot twoScenes).frame noRoot (go 9)).1.after noRoot [.frame idle, .resize 1000 500]).window = (1000, 500) := by decide +kernel
  intro a b
  have h3 := h.2.2.1
  rw [e] at h3
  exact h3

/-- Settings of a program that wants its bodies to fall asleep, with more iterations. -/
def careful : WorldSettings ℚ := ⟨⟨20, 10, true⟩, ⟨true, 1 / 1000, 1 / 1000, 1⟩⟩

/-- C84, disagreement: the program gave the scene its settings; the user opens the window and touches nothing: the scene has the settings of a new world, and its bodies do not sleep anymore. -/
theorem C84_opening_disagreement : ∃ ops : List (Op ℚ),
    let a := (init : App ℚ).after noRoot ops
    let b := (a.apply noRoot (.menuSettings true)).1
    let c := b.frame noRoot { idle with vIter := b.shared.solver.nVelocityIterations, pIter := b.shared.solver.nPositionIterations, warm := b.shared.solver.enableWarmstarting }
    a.current = some 0 ∧ (a.settings 0).solver.nVelocityIterations = 20 ∧ (a.settings 0).sleep.enableSleeping = true ∧ c.2 = .ok () ∧
      (c.1.settings 0).solver.nVelocityIterations = 8 ∧ (c.1.settings 0).sleep.enableSleeping = false :=
  ⟨twoScenes ++ [.updateSettings 0 careful], by decide +kernel⟩

/-- C84, disagreement: the controls accept numbers typed in outside of their range: minus one becomes more than four billion iterations. -/
theorem C84_negative_disagreement : ∃ ops : List (Op ℚ),
    let a := (init : App ℚ).after noRoot ops
    let c := a.frame noRoot { idle with vIter := -1 }
    c.2 = .ok () ∧ c.1.current = some 0 ∧ (c.1.settings 0).solver.nVelocityIterations = 4294967295 :=
  ⟨twoScenes ++ [.menuSettings true], by decide +kernel⟩

/-- `C84_applied_partial`: the user asks for 30 iterations. -/
example : let a := (init : App ℚ).after noRoot (twoScenes ++ [.menuSettings true])
    (a.frame noRoot { idle with vIter := 30 }).2 = .ok () ∧ ((a.frame noRoot { idle with vIter := 30 }).1.settings 0).solver.nVelocityIterations = 30 := by
  decide +kernel

end
end App
end Simu
