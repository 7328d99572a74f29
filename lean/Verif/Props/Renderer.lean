import Verif.Model.Renderer
import Mathlib.Tactic.Linarith
import Mathlib.Data.List.Basic
/-
C44: batches of polygons.
-/
namespace Simu
namespace GlRenderer
variable {V : Type*}

/-- The triangles OpenGL draws for a batch; nothing for a triangle that refers to a vertex that is not there. -/
def triangles (vertices : List V) : List Nat → List (Option (V × V × V))
  | a :: b :: c :: rest =>
    (vertices[a]?.bind fun x => vertices[b]?.bind fun y => vertices[c]?.map fun z => (x, y, z)) :: triangles vertices rest
  | _ => []

/-- The triangles between the center of a polygon and each of its edges, in order. -/
def fan (center : V) (vertices : List V) : List (V × V × V) :=
  match vertices.getLast? with
  | none => []
  | some l => ((l :: vertices).zip vertices).map fun e => (center, e.1, e.2)

/-- What may happen to a renderer. -/
inductive Op (V : Type*) where
  | draw (center : V) (vertices : List V)
  | flush

/-- Effect of an operation: the functions of the model. -/
def apply (r : GlRenderer V) : Op V → GlRenderer V
  | .draw c vs => (r.drawPolygon c vs).1
  | .flush => r.flush

/-- What an operation is meant to draw: the triangles of the polygon, or nothing if it has less than three vertices. -/
def Op.meant : Op V → List (V × V × V)
  | .draw c vs => if vs.length < 3 then [] else fan c vs
  | .flush => []

/-- The batches given to OpenGL so far, in order, and the batch in progress. -/
def batches (r : GlRenderer V) : List (List V × List Nat) := r.drawn.reverse ++ [(r.vertices, r.indices)]

/-- The indices make triangles, and refer to vertices of the batch. -/
def Valid (vertices : List V) (indices : List Nat) : Prop := 3 ∣ indices.length ∧ ∀ i ∈ indices, i < vertices.length

theorem triangles_append (vs : List V) (n : Nat) (is js : List Nat) (h : is.length = 3 * n) :
    triangles vs (is ++ js) = triangles vs is ++ triangles vs js := by
  induction n generalizing is with
  | zero =>
    have : is = [] := List.length_eq_zero_iff.1 (by omega)
    subst this; rfl
  | succ n ih =>
    match is, h with
    | a :: b :: c :: rest, h =>
      simp only [List.cons_append, triangles, List.cons.injEq, true_and]
      exact ih rest (by simp at h; omega)
    | [], h => simp at h
    | [_], h => simp at h; omega
    | [_, _], h => simp at h; omega

theorem triangles_extend (vs ws : List V) (n : Nat) (is : List Nat) (h : is.length = 3 * n) (hb : ∀ i ∈ is, i < vs.length) :
    triangles (vs ++ ws) is = triangles vs is := by
  induction n generalizing is with
  | zero =>
    have : is = [] := List.length_eq_zero_iff.1 (by omega)
    subst this; rfl
  | succ n ih =>
    match is, h with
    | a :: b :: c :: rest, h =>
      simp only [triangles]
      rw [List.getElem?_append_left (hb a (by simp)), List.getElem?_append_left (hb b (by simp)), List.getElem?_append_left (hb c (by simp)),
        ih rest (by simp at h; omega) (fun i hi => hb i (by simp [hi]))]
    | [], h => simp at h
    | [_], h => simp at h; omega
    | [_, _], h => simp at h; omega

theorem fanLoop_eq (c stop : Nat) (hs : stop ≤ 65536) (index : Nat) (hi : 1 ≤ index) (is : List Nat) :
    fanLoop c index stop is = is ++ (List.range' index (stop - index)).flatMap fun i => [c, i - 1, i] := by
  induction hn : stop - index generalizing index is with
  | zero =>
    rw [fanLoop, if_neg (by omega)]
    simp
  | succ n ih =>
    have hu : u16 (index + 65535) = index - 1 := by unfold u16; omega
    rw [fanLoop, if_pos (by omega), hu, ih (index + 1) (by omega) _ (by omega), List.range'_succ, List.flatMap_cons, ← List.append_assoc]

theorem triangles_flatMap (vs : List V) (c : Nat) (l : List Nat) :
    triangles vs (l.flatMap fun i => [c, i - 1, i]) = l.map fun i =>
      vs[c]?.bind fun x => vs[i - 1]?.bind fun y => vs[i]?.map fun z => (x, y, z) := by
  induction l with
  | nil => rfl
  | cons i l ih => simp only [List.flatMap_cons, List.cons_append, List.nil_append, triangles, ih, List.map_cons]

/-- The triangles of one polygon. -/
theorem triangles_fan (old : List V) (center : V) (vs : List V) (h3 : 3 ≤ vs.length) :
    triangles (old ++ [center] ++ vs) ([old.length, old.length + vs.length, old.length + 1] ++
      (List.range' (old.length + 2) (vs.length - 1)).flatMap fun i => [old.length, i - 1, i]) = (fan center vs).map some := by
  have hne : vs ≠ [] := by rintro rfl; simp at h3
  have hall : ∀ k, (old ++ [center] ++ vs)[old.length + 1 + k]? = vs[k]? := by
    intro k
    rw [List.getElem?_append_right (by simp)]
    congr 1
    simp
  have hc : (old ++ [center] ++ vs)[old.length]? = some center := by
    rw [List.getElem?_append_left (by simp), List.getElem?_append_right (le_refl _)]
    simp
  rw [triangles_append _ 1 _ _ rfl, triangles_flatMap]
  simp only [triangles, hc, Option.bind_some]
  have hlast : vs.getLast? = vs[vs.length - 1]? := List.getLast?_eq_getElem? 
  have hl : (old ++ [center] ++ vs)[old.length + vs.length]? = vs.getLast? := by
    rw [hlast, ← hall]
    congr 1
    omega
  have h0 := hall 0
  rw [Nat.add_zero] at h0
  rw [hl, h0]
  unfold fan
  cases hg : vs.getLast? with
  | none => exact absurd (List.getLast?_eq_none_iff.1 hg) hne
  | some l =>
    match vs, hne with
    | v :: vs', _ =>
      simp only [List.getElem?_cons_zero, Option.bind_some, Option.map_some, List.zip_cons_cons, List.map_cons, List.map_map]
      rw [List.singleton_append]
      congr 1
      apply List.ext_getElem?
      intro k
      simp only [List.getElem?_map, List.length_cons, Nat.add_sub_cancel]
      by_cases hk : k < vs'.length
      · rw [List.getElem?_range' hk]
        simp only [Option.map_some, Nat.one_mul]
        have e1 : old.length + 2 + k - 1 = old.length + 1 + k := by omega
        have e2 : old.length + 2 + k = old.length + 1 + (k + 1) := by omega
        have hk' : k < (v :: vs').length := by simp; omega
        have hz : ((v :: vs').zip vs')[k]? = some ((v :: vs')[k], vs'[k]) :=
          List.getElem?_zip_eq_some.2 ⟨List.getElem?_eq_getElem hk', List.getElem?_eq_getElem hk⟩
        rw [e1, e2, hall, hall, List.getElem?_cons_succ, hz, List.getElem?_eq_getElem hk', List.getElem?_eq_getElem hk]
        rfl
      · rw [List.getElem?_eq_none (by simp; omega)]
        have : ((v :: vs').zip vs')[k]? = none := by
          rw [List.getElem?_eq_none_iff]
          simp; omega
        rw [this]
        rfl

/-- What the batches draw. -/
def shown (r : GlRenderer V) : List (Option (V × V × V)) := r.batches.flatMap fun b => triangles b.1 b.2

theorem shown_eq (r : GlRenderer V) :
    r.shown = (r.drawn.reverse.flatMap fun b => triangles b.1 b.2) ++ triangles r.vertices r.indices := by
  simp [shown, batches]

/-- Invariant of the histories. -/
def Good (r : GlRenderer V) : Prop := r.vertices.length < maxVertices ∧ Valid r.vertices r.indices ∧ ∀ b ∈ r.drawn, Valid b.1 b.2

theorem flush_shown (r : GlRenderer V) : r.flush.shown = r.shown := by
  rw [shown_eq, shown_eq]
  simp [flush, triangles]

theorem flush_good {r : GlRenderer V} (h : Valid r.vertices r.indices ∧ ∀ b ∈ r.drawn, Valid b.1 b.2) : r.flush.Good := by
  refine ⟨by simp [flush, maxVertices], ⟨by simp [flush], by simp [flush]⟩, ?_⟩
  intro b hb
  rcases List.mem_cons.1 hb with rfl | hb
  · exact h.1
  · exact h.2 b hb

theorem draw_good {r : GlRenderer V} (h : r.Good) (c : V) (vs : List V) (hv : vs.length ≤ 64511) :
    (r.drawPolygon c vs).1.Good ∧ (r.drawPolygon c vs).1.shown = r.shown ++ (Op.draw c vs).meant.map some ∧
    ((r.drawPolygon c vs).2 = if vs.length < 3 then .throw else .ok ()) := by
  unfold drawPolygon Op.meant
  by_cases h3 : vs.length < 3
  · simp only [if_pos h3, List.map_nil, List.append_nil]
    exact ⟨h, trivial, trivial⟩
  · simp only [if_neg h3]
    obtain ⟨hlen, ⟨⟨n, hn⟩, hb⟩, hd⟩ := h
    unfold maxVertices at hlen
    have hsz : (r.vertices ++ [c] ++ vs).length = r.vertices.length + 1 + vs.length := by simp; omega
    have e0 : u16 r.vertices.length = r.vertices.length := by unfold u16; omega
    have e1 : u16 (r.vertices ++ [c] ++ vs).length = r.vertices.length + 1 + vs.length := by rw [hsz]; unfold u16; omega
    have e2 : u16 (r.vertices.length + 1 + vs.length + 65535) = r.vertices.length + vs.length := by unfold u16; omega
    have e3 : u16 (r.vertices.length + 1) = r.vertices.length + 1 := by unfold u16; omega
    have e4 : u16 (r.vertices.length + 2) = r.vertices.length + 2 := by unfold u16; omega
    simp only [e0, e1, e2, e3, e4]
    rw [fanLoop_eq _ _ (by omega) _ (by omega)]
    have e5 : r.vertices.length + 1 + vs.length - (r.vertices.length + 2) = vs.length - 1 := by omega
    rw [e5]
    set new := ([r.vertices.length, r.vertices.length + vs.length, r.vertices.length + 1] ++
      (List.range' (r.vertices.length + 2) (vs.length - 1)).flatMap fun i => [r.vertices.length, i - 1, i]) with hnew
    rw [List.append_assoc r.indices, ← hnew]
    have hnewlen : new.length = 3 * vs.length := by
      rw [hnew, List.length_append, List.length_flatMap]
      simp
      omega
    have hvalid : Valid (r.vertices ++ [c] ++ vs) (r.indices ++ new) := by
      refine ⟨⟨n + vs.length, by rw [List.length_append, hn, hnewlen]; ring⟩, fun i hi => ?_⟩
      rw [hsz]
      rcases List.mem_append.1 hi with hi | hi
      · have := hb i hi
        omega
      · rw [hnew, List.mem_append, List.mem_flatMap] at hi
        rcases hi with hi | ⟨k, hk, hi⟩
        · simp at hi
          omega
        · rw [List.mem_range'_1] at hk
          simp at hi
          omega
    have hshown : ({ vertices := r.vertices ++ [c] ++ vs, indices := r.indices ++ new, drawn := r.drawn } : GlRenderer V).shown =
        r.shown ++ (fan c vs).map some := by
      have ht : triangles (r.vertices ++ [c] ++ vs) (r.indices ++ new) = triangles r.vertices r.indices ++ (fan c vs).map some := by
        rw [triangles_append _ n _ _ hn, hnew, triangles_fan _ _ _ (by omega), List.append_assoc, triangles_extend _ _ n _ hn hb]
      rw [shown_eq, shown_eq]
      simp only [ht]
      exact (List.append_assoc ..).symm
    by_cases hm : maxVertices ≤ (r.vertices ++ [c] ++ vs).length
    · rw [if_pos hm]
      refine ⟨flush_good ⟨hvalid, hd⟩, ?_, trivial⟩
      rw [flush_shown, hshown]
    · rw [if_neg hm]
      exact ⟨⟨not_le.1 hm, hvalid, hd⟩, hshown, trivial⟩

/-- C44: for any history of draws and flushes of polygons of less than 64512 vertices: the batches draw exactly the triangles of the polygons, in order;
every index refers to a vertex of its batch; the batch in progress stays below the limit. -/
theorem C44_drawn_partial (ops : List (Op V)) (hops : ∀ c vs, .draw c vs ∈ ops → vs.length ≤ 64511) (r : GlRenderer V) (hr : r = ops.foldl apply init) :
    r.shown = (ops.flatMap Op.meant).map some ∧ (∀ b ∈ r.batches, ∀ i ∈ b.2, i < b.1.length) ∧ r.vertices.length < 1024 := by
  have key : ∀ (ops : List (Op V)) (r : GlRenderer V), (∀ c vs, .draw c vs ∈ ops → vs.length ≤ 64511) → r.Good →
      (ops.foldl apply r).Good ∧ (ops.foldl apply r).shown = r.shown ++ (ops.flatMap Op.meant).map some := by
    intro ops
    induction ops with
    | nil => exact fun r _ h => ⟨h, by simp⟩
    | cons op ops ih =>
      intro r hops h
      have h1 : (r.apply op).Good ∧ (r.apply op).shown = r.shown ++ op.meant.map some := by
        cases op with
        | draw c vs =>
          have := draw_good h c vs (hops c vs List.mem_cons_self)
          exact ⟨this.1, this.2.1⟩
        | flush => exact ⟨flush_good h.2, by simp only [apply, flush_shown, Op.meant, List.map_nil, List.append_nil]⟩
      obtain ⟨h2, h3⟩ := ih (r.apply op) (fun c vs hm => hops c vs (List.mem_cons_of_mem _ hm)) h1.1
      refine ⟨h2, ?_⟩
      rw [List.foldl_cons, h3, h1.2]
      simp
  obtain ⟨h1, h2⟩ := key ops init hops ⟨by simp [init, maxVertices], ⟨by simp [init], by simp [init]⟩, by simp [init]⟩
  rw [← hr] at h1 h2
  refine ⟨by rw [h2]; simp [shown, batches, init, triangles], fun b hb => ?_, h1.1⟩
  rcases List.mem_append.1 hb with hb | hb
  · exact (h1.2.2 b (by simpa using hb)).2
  · rw [List.mem_singleton.1 hb]
    exact h1.2.1.2

/-- C44: each polygon drawn with at least three vertices is accepted, others are refused and change nothing. -/
theorem C44_accepts (r : GlRenderer V) (c : V) (vs : List V) :
    (3 ≤ vs.length → (r.drawPolygon c vs).2 = .ok ()) ∧ (vs.length < 3 → r.drawPolygon c vs = (r, .throw)) := by
  unfold drawPolygon
  exact ⟨fun h => by simp only [if_neg (not_lt.2 h)], fun h => by rw [if_pos h]⟩

/-- C44 is false for a polygon that brings the batch to 65536 vertices (64512 of its own at most): a single triangle is drawn for it. -/
theorem C44_overflow_disagreement (r : GlRenderer V) (h : r.Good) (c : V) (vs : List V) (hv : r.vertices.length + 1 + vs.length = 65536) :
    ∃ is, (r.drawPolygon c vs).1.drawn.head? = some (r.vertices ++ [c] ++ vs, r.indices ++ is) ∧ is.length = 3 ∧ 64512 ≤ (fan c vs).length := by
  have hlen := h.1
  unfold maxVertices at hlen
  have h3 : ¬vs.length < 3 := by omega
  have hsz : (r.vertices ++ [c] ++ vs).length = 65536 := by simp; omega
  refine ⟨[u16 r.vertices.length, u16 (0 + 65535), u16 (u16 r.vertices.length + 1)], ?_, rfl, ?_⟩
  · unfold drawPolygon
    rw [if_neg h3]
    simp only [hsz]
    have e1 : u16 65536 = 0 := rfl
    rw [e1, fanLoop, if_neg (Nat.not_lt_zero _), if_pos (by unfold maxVertices; omega)]
    rfl
  · unfold fan
    cases hg : vs.getLast? with
    | none =>
      rw [List.getLast?_eq_none_iff] at hg
      rw [hg] at hv
      simp at hv; omega
    | some l =>
      simp
      omega

-- C44: two polygons and a refused one, with a flush in between.
example : ([.draw 'c' ['x', 'y', 'z'], .draw 'd' ['x'], .flush, .draw 'k' ['p', 'q', 'r', 's']] : List (Op Char)).flatMap Op.meant =
    [('c', 'z', 'x'), ('c', 'x', 'y'), ('c', 'y', 'z'), ('k', 's', 'p'), ('k', 'p', 'q'), ('k', 'q', 'r'), ('k', 'r', 's')] := by decide

example : ∀ c vs, Op.draw c vs ∈ ([.draw 'c' ['x', 'y', 'z'], .flush] : List (Op Char)) → vs.length ≤ 64511 := by
  intro c vs h
  simp at h
  rw [h.2]
  decide

-- C44: a polygon of 65535 vertices in an empty batch.
example : (init : GlRenderer Nat).Good ∧ (init : GlRenderer Nat).vertices.length + 1 + (List.range 65535).length = 65536 :=
  ⟨⟨by simp [init, maxVertices], ⟨by simp [init], by simp [init]⟩, by simp [init]⟩, by simp [init]⟩

end GlRenderer
end Simu
