import Verif.Lemmas.Graphics
/-
C99: what applications and renderers take from the window system and the graphics driver.
-/
namespace Simu.Graphics

/-- A driver that works and numbers the objects of a context, whatever their kind. -/
def counting : Driver := ⟨fun _ l => l.foldr (fun o m => max (o.name + 1) m) 1, true, true, true, true, true⟩

theorem counting_sound : counting.Sound := by
  intro k l h
  have : ∀ o ∈ l, o.name < l.foldr (fun o m => max (o.name + 1) m) 1 := by
    clear h
    induction l with
    | nil => simp
    | cons x l ih =>
      intro o ho
      rcases List.mem_cons.1 ho with rfl | ho
      · exact lt_of_lt_of_le (Nat.lt_succ_self _) (le_max_left _ _)
      · exact lt_of_lt_of_le (ih o ho) (le_max_right _ _)
  exact absurd (this _ h) (lt_irrefl _)

/-- **C99** (life of an application). With a driver that works, an application that is made, run for any number of frames with any events and then ended draws everything and gives back all it took: there is no
undefined behaviour, no call of OpenGL without a context, and in the end no window is left and the window system is as it was at the start. -/
theorem C99_life {d : Driver} (hd : d.Sound) (hw : d.Works) (this : Nat) (frames : List Frame) {s : System} (hs : s.Clean) :
    ∃ s', life d this frames s = (s', .ok true) ∧ s'.Clean := by
  obtain ⟨v, f, p, a, b, e, s1, hbe, e1, h1⟩ := makeApplication_ok hd hw this hs
  obtain ⟨s2, e2, h2⟩ := run_ok hbe frames h1
  obtain ⟨s3, e3, h3, _⟩ := destroyApplication_ok h2
  exact ⟨s3, by simp [life, e1, e2, e3], h3⟩

/-- The hypotheses of `C99_life` are met by `counting` and the start of the program; frames with events of the window, of others, and with several batches. -/
example : counting.Sound ∧ counting.Works ∧ System.start.Clean ∧ (life counting 7 [⟨[0, 3], 2⟩, ⟨[], 0⟩, ⟨[0], 5⟩] .start).2 = .ok true :=
  ⟨counting_sound, ⟨rfl, rfl, rfl, rfl, rfl⟩, ⟨rfl, fun _ => rfl, rfl⟩, by decide +kernel⟩

/-- **C99** (one application after the other). So do any number of applications made, run and ended one after the other. -/
theorem C99_lives (l : List (Driver × Nat × List Frame)) (hl : ∀ x ∈ l, x.1.Sound ∧ x.1.Works) {s : System} (hs : s.Clean) :
    (lives l s).1.Clean ∧ (lives l s).2 = List.replicate l.length (.ok true) := by
  induction l generalizing s with
  | nil => exact ⟨hs, rfl⟩
  | cons x l ih =>
    obtain ⟨d, this, frames⟩ := x
    obtain ⟨s1, e1, h1⟩ := C99_life (hl _ List.mem_cons_self).1 (hl _ List.mem_cons_self).2 this frames hs
    obtain ⟨h2, h3⟩ := ih (fun y hy => hl y (List.mem_cons_of_mem _ hy)) h1
    simp only [lives, e1]
    exact ⟨h2, by rw [h3]; rfl⟩

/-- Two lives with `counting`. -/
example : (lives [(counting, 1, [⟨[0], 1⟩]), (counting, 2, [⟨[0, 1], 3⟩])] .start).2 = [.ok true, .ok true] := by decide +kernel

/-- **C99** (failures are reported). Whatever the window system holds already, making an application never has undefined behaviour: it succeeds if all calls succeed (`glfwInit` always does if GLFW is
initialised), and throws otherwise; and if it succeeds, drawing works. -/
theorem C99_reports {d : Driver} (hd : d.Sound) (this : Nat) (s : System) :
    (((s.isInit = true ∨ d.initOk = true) ∧ d.windowOk = true ∧ d.vertexOk = true ∧ d.fragmentOk = true ∧ d.linkOk = true) →
      ∃ s' a g, makeApplication d this s = (s', .ok a) ∧ s'.current = some a.window ∧ s'.window a.window = some g ∧ ∀ n, (flushes a.renderer n g).2 = true) ∧
    (¬((s.isInit = true ∨ d.initOk = true) ∧ d.windowOk = true ∧ d.vertexOk = true ∧ d.fragmentOk = true ∧ d.linkOk = true) →
      ∃ s', makeApplication d this s = (s', .throw)) := by
  constructor
  · rintro ⟨h1, h2, h3, h4, h5⟩
    obtain ⟨v, f, p, a, b, e, _, hbe, hm⟩ := makeRenderer_ok d hd h3 h4 h5
    have h1' : (s.isInit || d.initOk) = true := by simpa using h1
    simp only [makeApplication, h1', h2, if_true]
    rw [inContext_eq _ rfl (Function.update_self _ _ _), hm]
    refine ⟨_, _, ready v f p a b e none, rfl, rfl, Function.update_self _ _ _, fun n => ?_⟩
    rw [flushes_ready hbe n none (.inl rfl)]
  · intro h
    by_cases h1 : (s.isInit || d.initOk) = true
    · by_cases h2 : d.windowOk = true
      · simp only [makeApplication, h1, h2, if_true]
        rw [inContext_eq _ rfl (Function.update_self _ _ _)]
        by_cases h3 : d.vertexOk = true
        · by_cases h4 : d.fragmentOk = true
          · have h5 : d.linkOk = false := by
              cases h5 : d.linkOk
              · rfl
              · exact absurd ⟨by simpa using h1, h2, h3, h4, h5⟩ h
            obtain ⟨g, hg, _⟩ := makeRenderer_link d hd h3 h4 h5
            rw [hg]; exact ⟨_, rfl⟩
          · obtain ⟨g, v, hg, _⟩ := makeRenderer_fragment d hd h3 (by simpa using h4)
            rw [hg]; exact ⟨_, rfl⟩
        · obtain ⟨g, hg, _⟩ := makeRenderer_vertex d (by simpa using h3)
          rw [hg]; exact ⟨_, rfl⟩
      · simp [makeApplication, h1, h2]
    · simp [makeApplication, h1]

/-- Both cases of `C99_reports` with GLFW initialised by someone else. -/
example : (∃ x, (makeApplication { counting with initOk := false } 1 { System.start with isInit := true }).2 = .ok x) ∧
    (makeApplication { counting with linkOk := false } 1 { System.start with isInit := true }).2 = .throw :=
  ⟨⟨⟨0, ⟨3, 4, 5, 6⟩⟩, by decide +kernel⟩, by decide +kernel⟩

/-- **C99** (renderers, partial). A renderer that drew any number of batches and is destroyed gives back its vertex array and its buffers, and its program if it never drew or as soon as
another program is used. Missing: it gives back everything. The two shaders remain until the window is destroyed (`C99_shaders_disagreement`). -/
theorem C99_renderer_partial {d : Driver} (hd : d.Sound) (h : d.vertexOk = true ∧ d.fragmentOk = true ∧ d.linkOk = true) (n : Nat) :
    ∃ g r v f, makeRenderer d .new = (g, .ok r) ∧ v ≠ f ∧ (flushes r n g).2 = true ∧
      (destroyRenderer r (flushes r n g).1).live = (if n = 0 then [] else [⟨.program, r.program⟩]) ++ [⟨.shader, f⟩, ⟨.shader, v⟩] ∧
      (n ≠ 0 → (⟨.program, r.program⟩ : Obj) ∈ (destroyRenderer r (flushes r n g).1).deleted) := by
  obtain ⟨v, f, p, a, b, e, hvf, hbe, hm⟩ := makeRenderer_ok d hd h.1 h.2.1 h.2.2
  refine ⟨_, _, v, f, hm, hvf, ?_, ?_, ?_⟩
  · rw [flushes_ready hbe n none (.inl rfl)]
  · rw [flushes_ready hbe n none (.inl rfl)]
    by_cases hn : n = 0
    · simp only [hn, if_true, List.nil_append]
      exact destroyRenderer_unused hbe
    · simp only [hn, if_false]
      exact destroyRenderer_used hbe
  · intro hn
    rw [flushes_ready hbe n none (.inl rfl)]
    simp [hn, destroyRenderer, ready, Context.deleteProgram, Context.delete]

/-- A renderer that drew two batches; the program ends when the program of another renderer is used. -/
example : let (g, r) := makeRenderer counting .new
    r = .ok ⟨3, 4, 5, 6⟩ ∧ (destroyRenderer ⟨3, 4, 5, 6⟩ (flushes ⟨3, 4, 5, 6⟩ 2 g).1).live = [⟨.program, 3⟩, ⟨.shader, 2⟩, ⟨.shader, 1⟩] ∧
    (flush ⟨6, 7, 8, 9⟩ (makeRenderer counting (destroyRenderer ⟨3, 4, 5, 6⟩ (flushes ⟨3, 4, 5, 6⟩ 2 g).1)).1).1.live.filter (fun o => o.kind = .program) = [⟨.program, 6⟩] := by
  decide +kernel

/-- **C99** (disagreement). No renderer gives back everything: its shaders are detached and never deleted. -/
theorem C99_shaders_disagreement {d : Driver} (hd : d.Sound) (h : d.vertexOk = true ∧ d.fragmentOk = true ∧ d.linkOk = true) (n : Nat) :
    ∃ g r, makeRenderer d .new = (g, .ok r) ∧ 2 ≤ (destroyRenderer r (flushes r n g).1).live.length := by
  obtain ⟨g, r, v, f, hm, _, _, hl, _⟩ := C99_renderer_partial hd h n
  refine ⟨g, r, hm, ?_⟩
  rw [hl]; simp

/-- The hypotheses of `C99_shaders_disagreement`. -/
example : counting.Sound ∧ counting.vertexOk = true ∧ counting.fragmentOk = true ∧ counting.linkOk = true := ⟨counting_sound, rfl, rfl, rfl⟩

/-- **C99** (failing constructors, partial). If making an application throws, then what it leaves is: nothing if the window system could not be initialised; the initialised window system if the window
could not be made; the window too if the shaders could not be compiled or linked, with no object in its context but a vertex shader if the fragment shader was the one that failed. No application and no other window
is touched. Missing: nothing is left (`C99_failure_disagreement`). -/
theorem C99_failure_partial {d : Driver} (hd : d.Sound) (this : Nat) (s s' : System) (h : makeApplication d this s = (s', .throw)) :
    s'.alive = s.alive ∧ (∀ w, w ≠ s.made → s'.window w = s.window w ∧ s'.user w = s.user w) ∧
    (s' = s ∨ (d.windowOk = false ∧ s' = { s with isInit := true }) ∨
      (d.windowOk = true ∧ ∃ g, s'.window s.made = some g ∧
        (g.live = [] ∨ d.vertexOk = true ∧ d.fragmentOk = false ∧ ∃ v, g.live = [⟨.shader, v⟩]))) := by
  by_cases h1 : (s.isInit || d.initOk) = true
  · by_cases h2 : d.windowOk = true
    · have key : ∀ g, makeRenderer d .new = (g, .throw) → (g.live = [] ∨ d.vertexOk = true ∧ d.fragmentOk = false ∧ ∃ v, g.live = [⟨.shader, v⟩]) →
          s'.alive = s.alive ∧ (∀ w, w ≠ s.made → s'.window w = s.window w ∧ s'.user w = s.user w) ∧
          (s' = s ∨ (d.windowOk = false ∧ s' = { s with isInit := true }) ∨
            (d.windowOk = true ∧ ∃ g, s'.window s.made = some g ∧ (g.live = [] ∨ d.vertexOk = true ∧ d.fragmentOk = false ∧ ∃ v, g.live = [⟨.shader, v⟩]))) := by
        intro g hg hl
        simp only [makeApplication, h1, h2, if_true] at h
        rw [inContext_eq _ rfl (Function.update_self _ _ _), hg] at h
        simp only [Prod.mk.injEq, and_true] at h
        subst h
        refine ⟨rfl, fun w hw => ⟨by simp [hw], by simp [hw]⟩, .inr (.inr ⟨h2, g, by simp, hl⟩)⟩
      by_cases h3 : d.vertexOk = true
      · by_cases h4 : d.fragmentOk = true
        · by_cases h5 : d.linkOk = true
          · obtain ⟨x, a, g, hx, _⟩ := (C99_reports hd this s).1 ⟨by simpa using h1, h2, h3, h4, h5⟩
            rw [hx] at h; simp at h
          · obtain ⟨g, hg, hl⟩ := makeRenderer_link d hd h3 h4 (by simpa using h5)
            exact key g hg (.inl hl)
        · obtain ⟨g, v, hg, hl⟩ := makeRenderer_fragment d hd h3 (by simpa using h4)
          exact key g hg (.inr ⟨h3, by simpa using h4, v, hl⟩)
      · obtain ⟨g, hg, hl⟩ := makeRenderer_vertex d (by simpa using h3)
        exact key g hg (.inl hl)
    · have h2' : d.windowOk = false := by simpa using h2
      simp only [makeApplication, h1, h2', if_true] at h
      simp at h
      subst h
      exact ⟨rfl, fun _ _ => ⟨rfl, rfl⟩, .inr (.inl ⟨h2', rfl⟩)⟩
  · have h1' : (s.isInit || d.initOk) = false := by simpa using h1
    simp only [makeApplication, h1'] at h
    simp at h
    subst h
    exact ⟨rfl, fun _ _ => ⟨rfl, rfl⟩, .inl rfl⟩

/-- A fragment shader that does not compile. -/
example : (makeApplication { counting with fragmentOk := false } 1 .start).2 = .throw ∧
    (makeApplication { counting with fragmentOk := false } 1 .start).1.window 0 = some ⟨[⟨.shader, 1⟩], [], [⟨.shader, 2⟩], [], none⟩ := by decide +kernel

/-- **C99** (disagreement). If anything but `glfwInit` fails, the application is not made and something is left: the window system stays initialised. -/
theorem C99_failure_disagreement {d : Driver} (hd : d.Sound) (hi : d.initOk = true) (hf : ¬d.Works) (this : Nat) (s : System) :
    ∃ s', makeApplication d this s = (s', .throw) ∧ ¬s'.Clean := by
  obtain ⟨s', h⟩ := (C99_reports hd this s).2 fun ⟨_, h⟩ => hf ⟨hi, h⟩
  refine ⟨s', h, fun hc => ?_⟩
  obtain ⟨_, _, h' | ⟨_, h'⟩ | ⟨_, g, h', _⟩⟩ := C99_failure_partial hd this s s' h
  · by_cases hw : d.windowOk = true
    · have : s'.current ≠ none := by
        simp only [makeApplication, hi, Bool.or_true, hw, if_true] at h
        rw [inContext_eq _ rfl (Function.update_self _ _ _)] at h
        revert h
        generalize makeRenderer d .new = y
        obtain ⟨g, o⟩ := y
        cases o <;> simp
        intro h; rw [← h]; simp
      exact this hc.2.2
    · have hw' : d.windowOk = false := by simpa using hw
      simp only [makeApplication, hi, hw'] at h
      simp at h
      rw [← h] at hc
      exact absurd hc.1 (by simp)
  · rw [h'] at hc
    exact absurd hc.1 (by simp)
  · rw [hc.2.1] at h'; simp at h'

/-- The hypotheses of `C99_failure_disagreement`: the window cannot be made. -/
example : Driver.Sound { counting with windowOk := false } ∧ ¬Driver.Works { counting with windowOk := false } :=
  ⟨counting_sound, fun h => absurd h.2.1 (by decide)⟩

/-- **C99** (disagreement). The window that a failed application leaves still sends its events to it: with another application that is made afterwards, with success, an event of that window is undefined behaviour. -/
theorem C99_retry_disagreement : ∃ (bad good : Driver) (s1 s2 : System) (a : Application), bad.Sound ∧ good.Sound ∧ good.Works ∧
    makeApplication bad 1 .start = (s1, .throw) ∧ makeApplication good 2 s1 = (s2, .ok a) ∧
    (run a [⟨[], 1⟩] s2).2 = .ok true ∧ (run a [⟨[0], 1⟩] s2).2 = .ub := by
  refine ⟨{ counting with vertexOk := false }, counting, _, _, ⟨1, ⟨3, 4, 5, 6⟩⟩, counting_sound, counting_sound, ⟨rfl, rfl, rfl, rfl, rfl⟩,
    Prod.ext rfl ?_, Prod.ext rfl ?_, ?_, ?_⟩ <;> decide +kernel

/-- **C99** (disagreement). Of two applications at a time, ending one ends the window system for both: running the other one, or ending it, is undefined behaviour. -/
theorem C99_two_disagreement : ∃ (s1 s2 s3 : System) (a b : Application), makeApplication counting 1 .start = (s1, .ok a) ∧ makeApplication counting 2 s1 = (s2, .ok b) ∧
    destroyApplication b 2 s2 = (s3, .ok ()) ∧ (run a [⟨[], 0⟩] s3).2 = .ub ∧ (destroyApplication a 1 s3).2 = .ub := by
  refine ⟨_, _, _, ⟨0, ⟨3, 4, 5, 6⟩⟩, ⟨1, ⟨3, 4, 5, 6⟩⟩, Prod.ext rfl ?_, Prod.ext rfl ?_, Prod.ext rfl ?_, ?_, ?_⟩ <;> decide +kernel

end Simu.Graphics
