import Verif.Spec.Graphics
/-
Lemmas for C99.
-/
namespace Simu.Graphics
variable (d : Driver)

/-- The context once a renderer is made. -/
def ready (v f p a b e : Nat) (inUse : Option Nat) : Context :=
  ⟨[⟨.buffer, e⟩, ⟨.buffer, b⟩, ⟨.vertexArray, a⟩, ⟨.program, p⟩, ⟨.shader, f⟩, ⟨.shader, v⟩], [], [], [p], inUse⟩

theorem makeRenderer_ok (hd : d.Sound) (h1 : d.vertexOk = true) (h2 : d.fragmentOk = true) (h3 : d.linkOk = true) :
    ∃ v f p a b e, v ≠ f ∧ b ≠ e ∧ makeRenderer d .new = (ready v f p a b e none, .ok ⟨p, a, b, e⟩) := by
  obtain ⟨v, hv⟩ : ∃ v, d.fresh .shader [] = v := ⟨_, rfl⟩
  obtain ⟨f, hf⟩ : ∃ f, d.fresh .shader [⟨.shader, v⟩] = f := ⟨_, rfl⟩
  obtain ⟨p, hp⟩ : ∃ p, d.fresh .program [⟨.shader, f⟩, ⟨.shader, v⟩] = p := ⟨_, rfl⟩
  obtain ⟨a, ha⟩ : ∃ a, d.fresh .vertexArray [⟨.program, p⟩, ⟨.shader, f⟩, ⟨.shader, v⟩] = a := ⟨_, rfl⟩
  obtain ⟨b, hb⟩ : ∃ b, d.fresh .buffer [⟨.vertexArray, a⟩, ⟨.program, p⟩, ⟨.shader, f⟩, ⟨.shader, v⟩] = b := ⟨_, rfl⟩
  obtain ⟨e, he⟩ : ∃ e, d.fresh .buffer [⟨.buffer, b⟩, ⟨.vertexArray, a⟩, ⟨.program, p⟩, ⟨.shader, f⟩, ⟨.shader, v⟩] = e := ⟨_, rfl⟩
  have hvf := hd .shader [⟨.shader, v⟩]
  have hbe := hd .buffer [⟨.buffer, b⟩, ⟨.vertexArray, a⟩, ⟨.program, p⟩, ⟨.shader, f⟩, ⟨.shader, v⟩]
  rw [hf] at hvf
  rw [he] at hbe
  simp at hvf hbe
  refine ⟨v, f, p, a, b, e, fun h => hvf h.symm, fun h => hbe h.symm, ?_⟩
  simp [makeRenderer, compileShaderProgram, compileShader, linkProgram, Context.create, Context.new, h1, h2, h3, Context.attach, Context.link, Context.detach, Context.sweep,
    hv, hf, hp, ha, hb, he, ready]

theorem makeRenderer_vertex (h1 : d.vertexOk = false) : ∃ g, makeRenderer d .new = (g, .throw) ∧ g.live = [] := by
  simp [makeRenderer, compileShaderProgram, compileShader, Context.create, Context.new, h1, Context.deleteShader, Context.sweep]

theorem makeRenderer_fragment (hd : d.Sound) (h1 : d.vertexOk = true) (h2 : d.fragmentOk = false) : ∃ g v, makeRenderer d .new = (g, .throw) ∧ g.live = [⟨.shader, v⟩] := by
  have hvf := hd .shader [⟨.shader, d.fresh .shader []⟩]
  simp at hvf
  simp [makeRenderer, compileShaderProgram, compileShader, Context.create, Context.new, h1, h2, Context.deleteShader, Context.sweep, Ne.symm hvf]

theorem makeRenderer_link (hd : d.Sound) (h1 : d.vertexOk = true) (h2 : d.fragmentOk = true) (h3 : d.linkOk = false) : ∃ g, makeRenderer d .new = (g, .throw) ∧ g.live = [] := by
  have hvf := hd .shader [⟨.shader, d.fresh .shader []⟩]
  simp at hvf
  simp [makeRenderer, compileShaderProgram, compileShader, linkProgram, Context.create, Context.new, h1, h2, h3, Context.attach, Context.deleteProgram, Context.endProgram, Context.deleteShader, Context.sweep, hvf]

theorem flush_ready {v f p a b e : Nat} (h : b ≠ e) (u : Option Nat) (hu : u = none ∨ u = some p) : flush ⟨p, a, b, e⟩ (ready v f p a b e u) = (ready v f p a b e (some p), true) := by
  rcases hu with rfl | rfl <;> simp [flush, ready, Context.useProgram, h]

theorem flushes_ready {v f p a b e : Nat} (h : b ≠ e) (n : Nat) (u : Option Nat) (hu : u = none ∨ u = some p) :
    flushes ⟨p, a, b, e⟩ n (ready v f p a b e u) = (ready v f p a b e (if n = 0 then u else some p), true) := by
  induction n generalizing u with
  | zero => rfl
  | succ n ih =>
    have e' := ih (some p) (.inr rfl)
    simp only [ite_self] at e'
    simp [flushes, flush_ready h u hu, e']

theorem destroyRenderer_unused {v f p a b e : Nat} (hv : b ≠ e) : (destroyRenderer ⟨p, a, b, e⟩ (ready v f p a b e none)).live = [⟨.shader, f⟩, ⟨.shader, v⟩] := by
  simp [destroyRenderer, ready, Context.deleteProgram, Context.endProgram, Context.sweep, Context.delete, List.erase_cons]
  simp [hv.symm]

theorem destroyRenderer_used {v f p a b e : Nat} (hv : b ≠ e) : (destroyRenderer ⟨p, a, b, e⟩ (ready v f p a b e (some p))).live = [⟨.program, p⟩, ⟨.shader, f⟩, ⟨.shader, v⟩] := by
  simp [destroyRenderer, ready, Context.deleteProgram, Context.delete, List.erase_cons]
  simp [hv.symm]

theorem inContext_eq {α : Type} (F : Context → Context × α) {s : System} {w : Nat} {g : Context} (hc : s.current = some w) (hw : s.window w = some g) :
    s.inContext F = ({ s with window := Function.update s.window w (some (F g).1) }, .ok (F g).2) := by
  simp [System.inContext, hc, hw]

/-- The window system while an application runs. -/
structure Running (this w v f p a b e : Nat) (s : System) : Prop where
  isInit : s.isInit = true
  mine : ∃ u, (u = none ∨ u = some p) ∧ s.window w = some (ready v f p a b e u)
  other : ∀ w', w' ≠ w → s.window w' = none
  user : s.user w = some this
  current : s.current = some w
  alive : s.alive this = true

theorem makeApplication_ok {d : Driver} (hd : d.Sound) (hw : d.Works) (this : Nat) {s : System} (hs : s.Clean) :
    ∃ v f p a b e s', b ≠ e ∧ makeApplication d this s = (s', .ok ⟨s.made, ⟨p, a, b, e⟩⟩) ∧ Running this s.made v f p a b e s' := by
  obtain ⟨h1, h2, h3, h4, h5⟩ := hw
  obtain ⟨v, f, p, a, b, e, _, hbe, hm⟩ := makeRenderer_ok d hd h3 h4 h5
  simp only [makeApplication, h1, h2, Bool.or_true, if_true]
  rw [inContext_eq _ rfl (Function.update_self _ _ _), hm]
  refine ⟨v, f, p, a, b, e, _, hbe, rfl, ?_⟩
  · refine ⟨rfl, ⟨none, .inl rfl, ?_⟩, fun w' h => ?_, ?_, rfl, ?_⟩
    · simp
    · simp [h, hs.2.1]
    · simp
    · simp

theorem pollEvents_ok {this w v f p a b e : Nat} {s : System} (h : Running this w v f p a b e s) (events : List Nat) : pollEvents events s = .ok () := by
  induction events with
  | nil => rfl
  | cons x l ih =>
    by_cases hx : x = w
    · subst hx
      obtain ⟨u, _, hu⟩ := h.mine
      simp [pollEvents, hu, h.user, h.alive, ih]
    · simp [pollEvents, h.other x hx, ih]

theorem frame_ok {this w v f p a b e : Nat} {s : System} (h : Running this w v f p a b e s) (hbe : b ≠ e) (fr : Frame) :
    ∃ s', frame ⟨w, ⟨p, a, b, e⟩⟩ fr s = (s', .ok true) ∧ Running this w v f p a b e s' := by
  obtain ⟨u, hu, hw⟩ := h.mine
  simp only [frame, hw, pollEvents_ok h]
  rw [inContext_eq _ h.current hw, flushes_ready hbe _ _ hu]
  refine ⟨_, rfl, ?_⟩
  · refine ⟨h.isInit, ⟨if fr.batches = 0 then u else some p, by split <;> simp [hu], by simp⟩, fun w' h' => ?_, h.user, rfl, h.alive⟩
    simp [h', h.other]

theorem run_ok {this w v f p a b e : Nat} (hbe : b ≠ e) (frames : List Frame) {s : System} (h : Running this w v f p a b e s) :
    ∃ s', run ⟨w, ⟨p, a, b, e⟩⟩ frames s = (s', .ok true) ∧ Running this w v f p a b e s' := by
  induction frames generalizing s with
  | nil => exact ⟨s, rfl, h⟩
  | cons fr l ih =>
    obtain ⟨s1, e1, h1⟩ := frame_ok h hbe fr
    obtain ⟨s2, e2, h2⟩ := ih h1
    exact ⟨s2, by simp [run, e1, e2], h2⟩

theorem destroyApplication_ok {this w v f p a b e : Nat} {s : System} (h : Running this w v f p a b e s) :
    ∃ s', destroyApplication ⟨w, ⟨p, a, b, e⟩⟩ this s = (s', .ok ()) ∧ s'.Clean ∧ s'.alive this = false := by
  obtain ⟨u, hu, hw⟩ := h.mine
  simp only [destroyApplication]
  rw [inContext_eq _ h.current hw]
  simp only [Function.update_self]
  refine ⟨_, rfl, ?_⟩
  · exact ⟨⟨rfl, fun _ => rfl, rfl⟩, by simp⟩

end Simu.Graphics
