import Verif.Lemmas.RTreeInsert
import Verif.Lemmas.RTreeCollide
import Verif.Props.BoundingBox
/-
C21-C25: the R-tree as a spatial container. `step`/`runOps` drive the modelled operations with the
operations of the specification; the queue `pq` and the numeric ingredients `cfg` are arbitrary
unless stated.
-/
set_option linter.unusedSectionVars false
namespace Simu.RTree
variable {K C α : Type*} [Field K] [LinearOrder K] [IsStrictOrderedRing K] [DecidableEq α]
open BoundingBox Simu.Spec Spec

/-- One call on the tree. `clear` is `*this = RTree{}` (RTree.hpp:199). -/
def step (cfg : Cfg K C) (pq : PQ (Cand K C α)) (t : Node K α) : Op K α → Outcome (Node K α)
  | .insert id box => insert cfg pq t box id
  | .erase id => erase cfg t id
  | .update id box => update cfg pq t id box
  | .updateAll f => (updateAndCollide cfg pq t fun e => f e.id e.bounds).bind fun r => .ok r.1
  | .clear => .ok empty

/-- A sequence of calls. -/
def runOps (cfg : Cfg K C) (pq : PQ (Cand K C α)) : Node K α → List (Op K α) → Outcome (Node K α)
  | t, [] => .ok t
  | t, op :: ops => (step cfg pq t op).bind fun t' => runOps cfg pq t' ops

/-- Takes the first element of smallest cost out of `best :: xs`. -/
def takeCheapest (lt : C → C → Bool) : Cand K C α → List (Cand K C α) → List (Cand K C α) →
    Cand K C α × List (Cand K C α)
  | best, seen, [] => (best, seen)
  | best, seen, x :: xs =>
    if lt x.cost best.cost then takeCheapest lt x (best :: seen) xs else takeCheapest lt best (x :: seen) xs

theorem takeCheapest_perm (lt : C → C → Bool) (best : Cand K C α) (seen xs : List (Cand K C α)) :
    ((takeCheapest lt best seen xs).1 :: (takeCheapest lt best seen xs).2).Perm (best :: (seen ++ xs)) := by
  induction xs generalizing seen best with
  | nil => simp [takeCheapest]
  | cons x xs ih =>
    simp only [takeCheapest]
    split
    · exact (ih _ _).trans (List.perm_middle (l₁ := best :: seen)).symm
    · exact (ih _ _).trans ((List.perm_middle.symm).cons _)

/-- A queue used by the examples: takes the first element of smallest cost. -/
def firstCheapest (lt : C → C → Bool) : PQ (Cand K C α) where
  pop q h :=
    match q, h with
    | x :: xs, _ => takeCheapest lt x [] xs
  perm q h :=
    match q, h with
    | x :: xs, _ => by simpa using takeCheapest_perm lt x [] xs

theorem firstCheapest_cheapest : (firstCheapest (exactCfg : Cfg K (WithTop K)).lt : PQ (Cand K (WithTop K) α)).Cheapest exactCfg := by
  have hgo : ∀ (xs seen : List (Cand K (WithTop K) α)) best, (∀ e ∈ seen, best.cost ≤ e.cost) →
      ∀ e ∈ (takeCheapest (exactCfg : Cfg K (WithTop K)).lt best seen xs).2,
        (takeCheapest (exactCfg : Cfg K (WithTop K)).lt best seen xs).1.cost ≤ e.cost := by
    intro xs
    induction xs with
    | nil => intro seen best h; simpa [takeCheapest] using h
    | cons x xs ih =>
      intro seen best h
      simp only [takeCheapest]
      split
      · rename_i hlt
        have hlt' : x.cost < best.cost := of_decide_eq_true hlt
        apply ih
        intro e he
        rcases List.mem_cons.1 he with rfl | he
        · exact le_of_lt hlt'
        · exact le_trans (le_of_lt hlt') (h e he)
      · rename_i hlt
        have hlt' : best.cost ≤ x.cost := not_lt.1 fun hc => hlt (decide_eq_true hc)
        apply ih
        intro e he
        rcases List.mem_cons.1 he with rfl | he
        · exact hlt'
        · exact h e he
  intro q h e he
  match q, h with
  | x :: xs, _ =>
    have := hgo xs [] x (by simp) e he
    exact decide_eq_false (not_lt.2 this)

/-! ### Invariant along histories -/

theorem lists_perm {es es' : List (Entry K α)} {m : Contents K α} (h : es.Perm es') (hl : Lists es m) :
    Lists es' m :=
  ⟨(h.map _).nodup_iff.1 hl.1, fun id b => by rw [← h.mem_iff]; exact hl.2 id b⟩

theorem lists_unique {es : List (Entry K α)} {m : Contents K α} (hl : Lists es m) {id : α} {b : BoundingBox K}
    {rest : List (Entry K α)} (hp : es.Perm (⟨id, b⟩ :: rest)) :
    m id = some b ∧ Lists rest (fun a => if a = id then none else m a) := by
  have h' := lists_perm hp hl
  have h0 : m id = some b := (h'.2 id b).1 (by simp)
  refine ⟨h0, ?_, ?_⟩
  · have := h'.1; rw [List.map_cons, List.nodup_cons] at this; exact this.2
  · intro a c
    have hnd := h'.1
    rw [List.map_cons, List.nodup_cons] at hnd
    by_cases ha : a = id
    · subst ha
      simp only [if_true, reduceCtorEq, iff_false]
      intro hmem
      exact hnd.1 (List.mem_map.2 ⟨_, hmem, rfl⟩)
    · simp only [ha, if_false]
      rw [← h'.2 a c, List.mem_cons]
      constructor
      · exact Or.inr
      · rintro (h | h)
        · simp only [Entry.mk.injEq] at h; exact absurd h.1 ha
        · exact h

theorem lists_cons {es : List (Entry K α)} {m : Contents K α} (hl : Lists es m) {id : α} (b : BoundingBox K)
    (hfresh : m id = none) : Lists (⟨id, b⟩ :: es) (fun a => if a = id then some b else m a) := by
  refine ⟨?_, ?_⟩
  · rw [List.map_cons, List.nodup_cons]
    refine ⟨?_, hl.1⟩
    intro hmem
    obtain ⟨e, he, hid⟩ := List.mem_map.1 hmem
    have := (hl.2 e.id e.bounds).1 he
    rw [hid, hfresh] at this; simp at this
  · intro a c
    rw [List.mem_cons]
    by_cases ha : a = id
    · subst ha
      simp only [if_true, Entry.mk.injEq, true_and, Option.some.injEq]
      constructor
      · rintro (h | h)
        · exact h.symm
        · have := (hl.2 a c).1 h; rw [hfresh] at this; simp at this
      · intro h; exact Or.inl h.symm
    · simp only [ha, if_false, Entry.mk.injEq, false_and, false_or]
      exact hl.2 a c

theorem lists_live {es : List (Entry K α)} {m : Contents K α} (hl : Lists es m) {id : α} (h : m id ≠ none) :
    ∃ e ∈ es, e.id = id := by
  obtain ⟨b, hb⟩ := Option.ne_none_iff_exists'.1 h
  exact ⟨⟨id, b⟩, (hl.2 id b).2 hb, rfl⟩

theorem step_spec (cfg : Cfg K C) (hfin : cfg.FiniteAreas) (pq : PQ (Cand K C α)) (t : Node K α)
    (m : Contents K α) (hg : GoodRoot t) (hl : Lists t.entries m) (op : Op K α) (hop : legal m op) :
    ∃ t', step cfg pq t op = .ok t' ∧ GoodRoot t' ∧ Lists t'.entries (Spec.apply m op) := by
  cases op with
  | insert id box =>
    obtain ⟨t', h1, h2, h3⟩ := insert_spec cfg hfin pq t hg box id
    exact ⟨t', h1, h2, lists_perm h3.symm (lists_cons hl box hop)⟩
  | erase id =>
    obtain ⟨t', b, h1, h2, h3⟩ := erase_spec cfg t hg id (lists_live hl hop)
    exact ⟨t', h1, h2, (lists_unique hl h3).2⟩
  | update id box =>
    obtain ⟨t', b, rest, h1, h2, h3, h4⟩ := update_spec cfg hfin pq t hg id box (lists_live hl hop)
    refine ⟨t', h1, h2, lists_perm h4.symm ?_⟩
    have := lists_cons (lists_unique hl h3).2 (id := id) box (by simp)
    have heq : (fun a => if a = id then some box else if a = id then none else m a) =
        Spec.apply m (.update id box) := by
      funext a; simp only [Spec.apply]; split <;> rfl
    rw [← heq]; exact this
  | updateAll f =>
    obtain ⟨t', calls, h1, h2, h3⟩ := updateAndCollide_spec cfg hfin pq t hg fun e => f e.id e.bounds
    refine ⟨t', by simp only [step, h1, Outcome.bind_ok], h2, lists_perm h3.symm ⟨?_, ?_⟩⟩
    · rw [List.map_map]; exact hl.1
    · intro id b
      simp only [Spec.apply, List.mem_map, Entry.mk.injEq, Option.map_eq_some_iff]
      constructor
      · rintro ⟨e, he, rfl, rfl⟩
        exact ⟨e.bounds, (hl.2 _ _).1 he, rfl⟩
      · rintro ⟨c, hc, rfl⟩
        exact ⟨⟨id, c⟩, (hl.2 _ _).2 hc, rfl, rfl⟩
  | clear =>
    refine ⟨empty, rfl, ⟨Or.inl rfl, Or.inl rfl, ?_⟩, ?_⟩
    · rw [nb_null, join_none_left]; exact @nb_null K α _ _ _
    · simp [empty, Node.entries, Lists, Spec.apply]

theorem empty_spec : GoodRoot (empty : Node K α) ∧ Lists (empty : Node K α).entries (fun _ => none) := by
  refine ⟨⟨Or.inl rfl, Or.inl rfl, ?_⟩, by simp [empty, Node.entries, Lists]⟩
  rw [nb_null, join_none_left]; exact @nb_null K α _ _ _

theorem runOps_spec (cfg : Cfg K C) (hfin : cfg.FiniteAreas) (pq : PQ (Cand K C α)) (t : Node K α)
    (m : Contents K α) (hg : GoodRoot t) (hl : Lists t.entries m) (ops : List (Op K α))
    (hops : legalHistory m ops) :
    ∃ t', runOps cfg pq t ops = .ok t' ∧ GoodRoot t' ∧ Lists t'.entries (run m ops) := by
  induction ops generalizing t m with
  | nil => exact ⟨t, rfl, hg, hl⟩
  | cons op ops ih =>
    obtain ⟨t1, h1, h2, h3⟩ := step_spec cfg hfin pq t m hg hl op hops.1
    obtain ⟨t2, h4, h5, h6⟩ := ih t1 _ h2 h3 hops.2
    exact ⟨t2, by simp only [runOps, h1, Outcome.bind_ok, h4], h5, h6⟩

theorem runOps_good (cfg : Cfg K C) (hfin : cfg.FiniteAreas) (pq : PQ (Cand K C α)) {ops : List (Op K α)}
    (hops : legalHistory (fun _ => none) ops) {t : Node K α} (h : runOps cfg pq empty ops = .ok t) :
    GoodRoot t ∧ Lists t.entries (run (fun _ => none) ops) := by
  obtain ⟨t', h1, h2, h3⟩ := runOps_spec cfg hfin pq empty _ empty_spec.1 empty_spec.2 ops hops
  rw [h] at h1
  simp only [Outcome.ok.injEq] at h1
  subst h1; exact ⟨h2, h3⟩

/-! ### C21 -/

/-- **C21.** Whatever the costs (as long as areas are finite) and the queue: every legal history of calls
runs without undefined behaviour; then iterating from `begin()` to `end()` lists the container
exactly (each live element once, with its current bounds), `size()` and `isEmpty()` agree with
it and every live iterator still designates its element. -/
theorem C21_contents_follow_operations_partial (cfg : Cfg K C) (hfin : cfg.FiniteAreas) (pq : PQ (Cand K C α))
    (ops : List (Op K α)) (hops : legalHistory (fun _ => none) ops) :
    ∃ t, runOps cfg pq empty ops = .ok t ∧
      (∃ es, (∀ k, iterate (es.length + k) (goLeft t []).1 (goLeft t []).2 = .ok es) ∧
        Lists es (run (fun _ => none) ops) ∧ size t = es.length ∧
        (isEmpty t = true ↔ ∀ id, run (fun _ => none) ops id = none)) ∧
      ∀ id b, run (fun _ => none) ops id = some b → ∃ path, locate id t [] = some (path, b) := by
  obtain ⟨t, h1, h2, h3⟩ := runOps_spec cfg hfin pq empty _ empty_spec.1 empty_spec.2 ops hops
  refine ⟨t, h1, ⟨t.entries, fun k => iterate_root h2 k, h3, size_eq t, ?_⟩, ?_⟩
  · rw [isEmpty_iff h2]
    constructor
    · intro he id
      by_contra hc
      obtain ⟨e, hm, _⟩ := lists_live h3 hc
      rw [he] at hm; simp at hm
    · intro h
      by_contra hc
      obtain ⟨e, es, he⟩ := List.exists_cons_of_ne_nil hc
      have := (h3.2 e.id e.bounds).1 (by rw [he]; simp)
      rw [h] at this; simp at this
  · intro id b hb
    obtain ⟨p, b', hl⟩ := locate_some id t [] ⟨⟨id, b⟩, (h3.2 id b).2 hb, rfl⟩
    have := (h3.2 id b').1 (locate_zip id t [] p b' hl).2
    rw [hb] at this
    simp only [Option.some.injEq] at this
    subst this; exact ⟨p, hl⟩

/-- A history using all the operations, with a degenerate and a repeated box. -/
def sampleOps : List (Op ℚ Nat) :=
  [.insert 0 ⟨⟨0, 0⟩, ⟨1, 1⟩⟩, .insert 1 ⟨⟨3, 0⟩, ⟨4, 1⟩⟩, .insert 2 ⟨⟨1/2, 1/2⟩, ⟨2, 2⟩⟩, .insert 3 ⟨⟨9, 9⟩, ⟨9, 9⟩⟩,
   .insert 4 ⟨⟨3, 0⟩, ⟨4, 1⟩⟩, .erase 1, .update 2 ⟨⟨8, 8⟩, ⟨10, 10⟩⟩, .insert 5 ⟨⟨5, 5⟩, ⟨6, 6⟩⟩,
   .updateAll fun i b => if i = 5 then ⟨⟨0, 0⟩, ⟨4, 4⟩⟩ else b, .insert 6 ⟨⟨-1, -1⟩, ⟨0, 0⟩⟩]

theorem sampleOps_legal : legalHistory (fun _ => none) sampleOps := by
  simp [sampleOps, legalHistory, legal, Spec.apply]

#guard (match runOps exactCfg (firstCheapest exactCfg.lt) empty sampleOps with
    | .ok t => (t.entries.map (·.id)).mergeSort == [0, 2, 3, 4, 5, 6] && size t == 6
    | _ => false)

example := C21_contents_follow_operations_partial exactCfg exactCfg_finite (firstCheapest exactCfg.lt) sampleOps sampleOps_legal

/-- The finite area hypothesis holds in exact arithmetic. -/
theorem C21_exact_areas_are_finite : (exactCfg : Cfg K (WithTop K)).FiniteAreas := exactCfg_finite

/-- Areas computed with an upper limit, as in `float` where anything above `FLT_MAX` is infinite. -/
def saturatingCfg (limit : K) : Cfg K (WithTop K) :=
  { exactCfg with area := fun b => if area b < limit then ((area b : K) : WithTop K) else ⊤ }

/-- **C21, disagreement.** Inserting a (finite) box whose area overflows is undefined behaviour: no
candidate is cheaper than `INFINITY`, so the search returns a null node, which is dereferenced.
For `float` the limit is `2^128`. -/
theorem C21_area_overflow_disagreement (limit : K) (pq : PQ (Cand K (WithTop K) α)) (box : BoundingBox K)
    (hbox : limit ≤ area box) (t : Node K α) (id : α) :
    insert (saturatingCfg limit) pq t box id = .ub := by
  unfold RTree.insert searchLoop
  have hp := pq_pop_singleton pq (⟨[], t, (saturatingCfg limit).zero⟩ : Cand K (WithTop K) α) (by simp)
  have harea : (saturatingCfg limit).area box = ⊤ := by
    simp only [saturatingCfg]; rw [if_neg (not_lt.2 hbox)]
  have hge : (saturatingCfg limit).ge ((saturatingCfg limit).add (saturatingCfg limit).zero
      ((saturatingCfg limit).area box)) (saturatingCfg limit).inf = true := by
    rw [harea]; exact decide_eq_true (le_refl (⊤ : WithTop K))
  simp [hp.1, hge]

example : (2 : ℚ)^128 ≤ area (⟨⟨0, 0⟩, ⟨2^64, 2^64⟩⟩ : BoundingBox ℚ) := by decide +kernel

/-! ### C22 -/

theorem tight_of_hull {b : BoundingBox K} {es : List (Entry K α)} (h : b.norm = hull es) : TightBox b es := by
  intro c
  induction es generalizing b with
  | nil =>
    simp only [List.not_mem_nil, false_imp_iff, implies_true, iff_true]
    have hb : b.norm = (BoundingBox.invalid : BoundingBox K).norm := by
      rw [h]; exact (@nb_null K α _ _ _).symm
    intro p hp
    have := ((norm_eq_iff _ _).1 hb p).1 hp
    have hv := (valid_iff_nonempty (BoundingBox.invalid : BoundingBox K)).2 ⟨p, this⟩
    simp [BoundingBox.isValid, BoundingBox.invalid] at hv
  | cons e es ih =>
    have h1 := constructBounds_norm es
    have h2 : b.norm = (e.bounds.combined (constructBounds es)).norm := by
      rw [norm_combined, h1, h]; rfl
    have hs := (norm_eq_iff _ _).1 h2
    have h3 : subBox b c ↔ subBox (e.bounds.combined (constructBounds es)) c :=
      ⟨fun hh p hp => hh p ((hs p).2 hp), fun hh p hp => hh p ((hs p).1 hp)⟩
    rw [h3]
    simp only [List.mem_cons, forall_eq_or_imp]
    rw [← ih h1]
    exact ⟨fun hh => ⟨subBox_trans (subBox_combined_left _ _) hh, subBox_trans (subBox_combined_right _ _) hh⟩,
      fun hh => combined_subBox hh.1 hh.2⟩

/-- **C22.** After any legal history, at every place of the tree: the bounds are the tightest box around
the elements below, they `==` the combination of the children's bounds, and except at the root both
children exist. In particular `bounds()` is the tightest box around all the elements. -/
theorem C22_bounds_are_unions (cfg : Cfg K C) (hfin : cfg.FiniteAreas) (pq : PQ (Cand K C α))
    (ops : List (Op K α)) (hops : legalHistory (fun _ => none) ops) (t : Node K α)
    (h : runOps cfg pq empty ops = .ok t) (path : List (Frame K α)) (n : Node K α)
    (hz : zip n path = t) (hn : n ≠ .null) :
    TightBox n.bounds n.entries ∧
    ∀ b l r, n = .node b l r → b.beq (l.bounds.combined r.bounds) = true ∧
      (path ≠ [] → l ≠ .null ∧ r ≠ .null) := by
  obtain ⟨hg, _⟩ := runOps_good cfg hfin pq hops h
  subst hz
  cases path with
  | nil =>
    refine ⟨tight_of_hull hg.nb_eq_hull, ?_⟩
    rintro b l r rfl
    exact ⟨by rw [beq_iff_norm, norm_combined_bounds]; exact hg.2.2, by simp⟩
  | cons f fs =>
    obtain ⟨h1, _⟩ := good_of_zip hn f fs hg
    refine ⟨tight_of_hull h1.nb_eq_hull, ?_⟩
    rintro b l r rfl
    exact ⟨by rw [beq_iff_norm, norm_combined_bounds]; exact h1.2.2, fun _ => ⟨h1.1.ne_null, h1.2.1.ne_null⟩⟩

#guard (match runOps exactCfg (firstCheapest exactCfg.lt) empty sampleOps with
    | .ok (.node b (.node _ l _) _) => decide (b = ⟨⟨-1, -1⟩, ⟨10, 10⟩⟩) && !l.isNull
    | _ => false)

example := C22_bounds_are_unions exactCfg exactCfg_finite (firstCheapest exactCfg.lt) sampleOps sampleOps_legal

/-! ### C23 -/

theorem overlaps_monotone {cfg : Cfg K C} (h : cfg.ovl = BoundingBox.overlaps) : cfg.Monotone := by
  intro a b c hs hab
  rw [h] at *
  rw [C07_overlaps] at *
  obtain ⟨p, h1, h2⟩ := hab
  exact ⟨p, h1, hs p h2⟩

theorem overlaps_symmetric {cfg : Cfg K C} (h : cfg.ovl = BoundingBox.overlaps) : cfg.Symmetric := by
  intro a b
  rw [h]; exact (C07_overlaps_laws a b a).1

theorem lists_filter {es : List (Entry K α)} {m : Contents K α} (hl : Lists es m) (p : Entry K α → Bool) :
    ((es.filter p).map (·.id)).Nodup ∧ ∀ e, e ∈ es.filter p ↔ m e.id = some e.bounds ∧ p e = true :=
  ⟨hl.1.sublist (List.filter_sublist.map _), fun e => by rw [List.mem_filter, hl.2 e.id e.bounds]⟩

/-- **C23.** After any legal history, `forEachIn(box)` visits exactly the elements sharing a point with the
box, each once; `forEachAt(p)` those containing `p`; `forEachOverlapping(it)` those other than `it`
sharing a point with it. The costs may be anything; the overlap test is the exact one. -/
theorem C23_queries_are_exact (cfg : Cfg K C) (hfin : cfg.FiniteAreas) (hov : cfg.ovl = BoundingBox.overlaps)
    (pq : PQ (Cand K C α)) (ops : List (Op K α)) (hops : legalHistory (fun _ => none) ops) (t : Node K α)
    (h : runOps cfg pq empty ops = .ok t) :
    let m := run (fun _ => none) ops
    (∀ box, ((forEachIn cfg box t).map (·.id)).Nodup ∧
      ∀ e, e ∈ forEachIn cfg box t ↔ m e.id = some e.bounds ∧ ∃ p, inBox box p ∧ inBox e.bounds p) ∧
    (∀ p, ((forEachAt cfg p t).map (·.id)).Nodup ∧
      ∀ e, e ∈ forEachAt cfg p t ↔ m e.id = some e.bounds ∧ inBox e.bounds p) ∧
    (∀ id b, m id = some b → ∃ es, forEachOverlapping cfg t id = .ok es ∧ (es.map (·.id)).Nodup ∧
      ∀ e, e ∈ es ↔ m e.id = some e.bounds ∧ e.id ≠ id ∧ ∃ p, inBox b p ∧ inBox e.bounds p) := by
  intro m
  obtain ⟨hg, hl⟩ := runOps_good cfg hfin pq hops h
  have hm := overlaps_monotone hov
  have hin : ∀ box, ((forEachIn cfg box t).map (·.id)).Nodup ∧
      ∀ e, e ∈ forEachIn cfg box t ↔ m e.id = some e.bounds ∧ ∃ p, inBox box p ∧ inBox e.bounds p := by
    intro box
    rw [forEachIn_root cfg hm box hg]
    have := lists_filter hl fun e => cfg.ovl box e.bounds
    refine ⟨this.1, fun e => ?_⟩
    rw [this.2 e, hov, C07_overlaps]
  refine ⟨hin, ?_, ?_⟩
  · intro p
    obtain ⟨h1, h2⟩ := hin ⟨p, p⟩
    refine ⟨h1, fun e => ?_⟩
    rw [forEachAt, h2]
    constructor
    · rintro ⟨h3, q, ⟨⟨a1, a2⟩, a3, a4⟩, h5⟩
      refine ⟨h3, ?_⟩
      have : q = p := by
        cases q; cases p
        simp only [Vec2.mk.injEq] at *
        exact ⟨le_antisymm a2 a1, le_antisymm a4 a3⟩
      rwa [this] at h5
    · rintro ⟨h3, h4⟩
      exact ⟨h3, p, ⟨⟨le_refl _, le_refl _⟩, le_refl _, le_refl _⟩, h4⟩
  · intro id b hb
    obtain ⟨p, b', hloc⟩ := locate_some id t [] ⟨⟨id, b⟩, (hl.2 id b).2 hb, rfl⟩
    obtain ⟨hz, hmem⟩ := locate_zip id t [] p b' hloc
    have hbb : b' = b := by
      have := (hl.2 id b').1 hmem
      rw [show run (fun _ => none) ops id = some b from hb] at this
      simpa using this.symm
    subst hbb
    have hz' : zip (.leaf b' id) p = t := hz
    have hperm := entries_zip (.leaf b' id : Node K α) p
    rw [hz'] at hperm
    obtain ⟨_, hrest⟩ := lists_unique (rest := pathEntries p) hl hperm
    have hpath : GoodPath ((Node.leaf b' id : Node K α).nb) p := by
      cases p with
      | nil => trivial
      | cons f fs => exact (good_of_zip (by simp) f fs (by rw [hz']; exact hg)).2
    refine ⟨forEachOverlappingPath cfg b' p, by simp [forEachOverlapping, hloc], ?_, ?_⟩
    · rw [forEachOverlappingPath_eq cfg hm b' _ p hpath]
      exact (lists_filter hrest _).1
    · intro e
      rw [forEachOverlappingPath_eq cfg hm b' _ p hpath, (lists_filter hrest _).2 e, hov, C07_overlaps]
      by_cases he : e.id = id
      · simp [he]
      · simp only [he, if_false, ne_eq, not_false_eq_true, true_and]
        rfl

#guard (match runOps exactCfg (firstCheapest exactCfg.lt) empty sampleOps with
    | .ok t => decide (((forEachIn exactCfg ⟨⟨3, 3⟩, ⟨9, 9⟩⟩ t).map (·.id)).mergeSort = [2, 3, 5]) &&
        decide (((forEachAt exactCfg ⟨4, 1⟩ t).map (·.id)).mergeSort = [4, 5]) &&
        (match forEachOverlapping exactCfg t 0 with
          | .ok es => decide ((es.map (·.id)).mergeSort = [5, 6])
          | _ => false)
    | _ => false)

/-- **C23**, range form. For a list `its` of elements, `func` is called exactly once per overlapping pair of
an element `e` of the tree and an occurrence of an element `i` in the list, the element of the tree first. Note that an element of
the tree is also reported with itself when the list contains it. -/
theorem C23_range_query_is_exact (cfg : Cfg K C) (hfin : cfg.FiniteAreas) (hov : cfg.ovl = BoundingBox.overlaps)
    (pq : PQ (Cand K C α)) (ops : List (Op K α)) (hops : legalHistory (fun _ => none) ops) (t : Node K α)
    (h : runOps cfg pq empty ops = .ok t) (its : List (Entry K α)) :
    ∃ calls, forEachOverlappingRange cfg t its = .ok calls ∧
      (∀ e i, ((∃ p, inBox i.bounds p ∧ inBox e.bounds p) → run (fun _ => none) ops e.id = some e.bounds →
        calls.count (e, i) = its.count i) ∧
       ((¬ ∃ p, inBox i.bounds p ∧ inBox e.bounds p) ∨ run (fun _ => none) ops e.id ≠ some e.bounds →
        (e, i) ∉ calls)) := by
  obtain ⟨hg, hl⟩ := runOps_good cfg hfin pq hops h
  obtain ⟨calls, h1, h2⟩ := forEachOverlappingRange_spec cfg (overlaps_monotone hov) hg its
  refine ⟨calls, h1, ?_⟩
  intro e i
  have hnd : t.entries.Nodup := List.Nodup.of_map _ hl.1
  have hcount : ∀ leaves : List (Entry K α), leaves.Nodup → (allPairs cfg leaves its).count (e, i) =
      if e ∈ leaves ∧ cfg.ovl i.bounds e.bounds = true then its.count i else 0 := by
    intro leaves
    induction leaves with
    | nil => intro _; simp [allPairs]
    | cons x xs ih =>
      intro hx
      rw [List.nodup_cons] at hx
      simp only [allPairs, List.flatMap_cons, List.count_append] at ih ⊢
      rw [ih hx.2]
      by_cases hxe : x = e
      · subst hxe
        have hinj : Function.Injective fun i : Entry K α => (x, i) := fun a b hab => (Prod.mk.inj hab).2
        rw [List.count_map_of_injective _ _ hinj]
        simp only [hx.1, List.mem_cons, true_or, true_and, false_and, if_false, Nat.add_zero]
        split
        · rename_i hc; rw [List.count_filter (p := fun i : Entry K α => cfg.ovl i.bounds x.bounds) hc]
        · rename_i hc
          rw [List.count_eq_zero]
          intro hmem
          exact hc (List.mem_filter.1 hmem).2
      · have hz : (((its.filter fun i => cfg.ovl i.bounds x.bounds).map fun i => (x, i)).count (e, i)) = 0 := by
          rw [List.count_eq_zero]
          intro hmem
          obtain ⟨j, _, hj⟩ := List.mem_map.1 hmem
          exact hxe (Prod.mk.inj hj).1
        rw [hz, Nat.zero_add]
        have hne : e ≠ x := fun hc => hxe hc.symm
        simp only [List.mem_cons, hne, false_or]
  have hle : e ∈ t.entries ↔ run (fun _ => none) ops e.id = some e.bounds := hl.2 e.id e.bounds
  rw [← hle, Ne, ← hle]
  constructor
  · intro hp he
    rw [h2.count_eq, hcount _ hnd, if_pos]
    refine ⟨he, ?_⟩
    rw [hov, C07_overlaps]; exact hp
  · intro hp hmem
    have : 0 < calls.count (e, i) := List.count_pos_iff.2 hmem
    rw [h2.count_eq, hcount _ hnd] at this
    split at this
    · rename_i hc
      rw [hov, C07_overlaps] at hc
      rcases hp with hp | hp
      · exact hp hc.2
      · exact hp hc.1
    · omega

example := C23_queries_are_exact exactCfg exactCfg_finite rfl (firstCheapest exactCfg.lt) sampleOps sampleOps_legal
example := C23_range_query_is_exact exactCfg exactCfg_finite rfl (firstCheapest exactCfg.lt) sampleOps sampleOps_legal

/-! ### C24 -/

/-- **C24.** `updateAndCollide` on any reachable tree: every element gets its new bounds, and for any two
distinct elements the number of calls of `onCollision` made with this pair, in either order, is one if
their new boxes share a point and zero otherwise; only (distinct) elements of the tree, with their new bounds, are reported. -/
theorem C24_pairs_reported_once (cfg : Cfg K C) (hfin : cfg.FiniteAreas) (hov : cfg.ovl = BoundingBox.overlaps)
    (pq : PQ (Cand K C α)) (ops : List (Op K α)) (hops : legalHistory (fun _ => none) ops) (t : Node K α)
    (h : runOps cfg pq empty ops = .ok t) (f : α → BoundingBox K → BoundingBox K) :
    let m' : Contents K α := fun a => (run (fun _ => none) ops a).map (f a)
    ∃ t' calls, updateAndCollide cfg pq t (fun e => f e.id e.bounds) = .ok (t', calls) ∧
      Lists t'.entries m' ∧
      (∀ c ∈ calls, m' c.1.id = some c.1.bounds ∧ m' c.2.id = some c.2.bounds ∧ c.1.id ≠ c.2.id) ∧
      ∀ u v bu bv, u ≠ v → m' u = some bu → m' v = some bv →
        ((∃ p, inBox bu p ∧ inBox bv p) →
          calls.countP (fun c => (c.1.id = u ∧ c.2.id = v) ∨ (c.1.id = v ∧ c.2.id = u)) = 1) ∧
        ((¬ ∃ p, inBox bu p ∧ inBox bv p) →
          calls.countP (fun c => (c.1.id = u ∧ c.2.id = v) ∨ (c.1.id = v ∧ c.2.id = u)) = 0) := by
  intro m'
  obtain ⟨hg, hl⟩ := runOps_good cfg hfin pq hops h
  obtain ⟨t', calls, h1, h2, h3⟩ := updateAndCollide_spec cfg hfin pq t hg fun e => f e.id e.bounds
  set nodes := t.entries.map fun e => (⟨e.id, f e.id e.bounds⟩ : Entry K α) with hnodes
  clear_value nodes
  have hln : Lists nodes m' := by
    refine ⟨by rw [hnodes, List.map_map]; exact hl.1, fun id b => ?_⟩
    simp only [hnodes, m', List.mem_map, Entry.mk.injEq, Option.map_eq_some_iff]
    constructor
    · rintro ⟨e, he, rfl, rfl⟩
      exact ⟨e.bounds, (hl.2 _ _).1 he, rfl⟩
    · rintro ⟨c, hc, rfl⟩
      exact ⟨⟨id, c⟩, (hl.2 _ _).2 hc, rfl, rfl⟩
  have hnd : nodes.Nodup := List.Nodup.of_map _ hln.1
  have hmem : ∀ id b, m' id = some b ↔ (⟨id, b⟩ : Entry K α) ∈ nodes := fun id b => (hln.2 id b).symm
  refine ⟨t', calls, h1, lists_perm h3.symm hln, ?_⟩
  -- calls come from the rebuild (or there are fewer than two elements)
  have hcalls : (calls = [] ∧ nodes.length ≤ 1) ∨ calls = (rebuild cfg nodes ⟨[], 0⟩).2 := by
    simp only [updateAndCollide, ← hnodes] at h1
    split at h1
    · simp only [Outcome.ok.injEq, Prod.mk.injEq] at h1; left; exact ⟨h1.2.symm, by simp⟩
    · obtain ⟨b, _, hb⟩ := Outcome.bind_eq_ok h1
      simp only [Outcome.ok.injEq, Prod.mk.injEq] at hb
      left; exact ⟨hb.2.symm, by simp⟩
    · simp only [Outcome.ok.injEq] at h1
      right; rw [h1]
  have hmem2 : ∀ c ∈ calls, c.1 ∈ nodes ∧ c.2 ∈ nodes ∧ c.1 ≠ c.2 := by
    rcases hcalls with ⟨rfl, _⟩ | rfl
    · simp
    · intro c hc
      obtain ⟨g1, g2, g3⟩ := rebuild_calls_mem cfg nodes ⟨[], 0⟩ (by simp [OverlapList.Ok])
        (by simpa [OverlapList.overlapping] using hnd) c hc
      exact ⟨g1, by simpa [OverlapList.overlapping] using g2, g3⟩
  have hinj : ∀ a ∈ nodes, ∀ b ∈ nodes, a.id = b.id → a = b := by
    intro a ha b hb hab
    have h5 := (hln.2 a.id a.bounds).1 ha
    have h6 := (hln.2 b.id b.bounds).1 hb
    rw [hab, h6] at h5
    cases a; cases b; simp_all
  refine ⟨?_, ?_⟩
  · intro c hc
    obtain ⟨g1, g2, g3⟩ := hmem2 c hc
    exact ⟨(hmem _ _).2 g1, (hmem _ _).2 g2, fun hid => g3 (hinj _ g1 _ g2 hid)⟩
  · intro u v bu bv huv hu hv
    rw [hmem] at hu hv
    have hcnt : calls.countP (fun c => (c.1.id = u ∧ c.2.id = v) ∨ (c.1.id = v ∧ c.2.id = u)) =
        pairCount ⟨u, bu⟩ ⟨v, bv⟩ calls := by
      unfold pairCount
      apply List.countP_congr
      intro c hc
      obtain ⟨g1, g2, _⟩ := hmem2 c hc
      simp only [decide_eq_true_eq, Bool.or_eq_true]
      obtain ⟨a, b⟩ := c
      simp only [Prod.mk.injEq]
      constructor
      · rintro (⟨e1, e2⟩ | ⟨e1, e2⟩)
        · exact Or.inl ⟨hinj _ g1 _ hu e1, hinj _ g2 _ hv e2⟩
        · exact Or.inr ⟨hinj _ g1 _ hv e1, hinj _ g2 _ hu e2⟩
      · rintro (⟨rfl, rfl⟩ | ⟨rfl, rfl⟩)
        · exact Or.inl ⟨rfl, rfl⟩
        · exact Or.inr ⟨rfl, rfl⟩
    rw [hcnt]
    have hne : (⟨u, bu⟩ : Entry K α) ≠ ⟨v, bv⟩ := by
      intro he; simp only [Entry.mk.injEq] at he; exact huv he.1
    rcases hcalls with ⟨_, hlen⟩ | rfl
    · exfalso
      rcases Nat.le_one_iff_eq_zero_or_eq_one.1 hlen with hx | hx
      · rw [List.length_eq_zero_iff.1 hx] at hu; simp at hu
      · obtain ⟨x, hx⟩ := List.length_eq_one_iff.1 hx
        rw [hx, List.mem_singleton] at hu hv
        exact hne (hu.trans hv.symm)
    · have := rebuild_calls cfg (overlaps_monotone hov) (overlaps_symmetric hov) nodes ⟨[], 0⟩
        (by simp [OverlapList.Ok]) (by simpa [OverlapList.overlapping] using hnd)
        (by simp [OverlapList.overlapping]) ⟨u, bu⟩ ⟨v, bv⟩ hne
      rw [this]
      simp only [OverlapList.overlapping, List.take_nil, List.not_mem_nil, false_and, and_false, if_false,
        Nat.add_zero]
      rw [← C07_overlaps, ← hov]
      exact ⟨fun hp => if_pos ⟨hu, hv, hp⟩, fun hp => if_neg fun hc => hp hc.2.2⟩

#guard (match runOps exactCfg (firstCheapest exactCfg.lt) empty sampleOps with
    | .ok t => (match updateAndCollide exactCfg (firstCheapest exactCfg.lt) t (fun e => e.bounds) with
      | .ok (_, calls) => decide ((calls.map fun c => (c.1.id ⊓ c.2.id, c.1.id ⊔ c.2.id)).mergeSort
          (fun a b => a.1 < b.1 ∨ (a.1 = b.1 ∧ a.2 ≤ b.2)) = [(0, 5), (0, 6), (2, 3), (4, 5), (5, 6)])
      | _ => false)
    | _ => false)

example := C24_pairs_reported_once exactCfg exactCfg_finite rfl (firstCheapest exactCfg.lt) sampleOps sampleOps_legal

/-! ### C25 -/

/-- **C25.** In exact arithmetic, with a queue which returns a cheapest candidate: after `insert` the total
area of the internal nodes is at most what pairing the new element with *any* node of the tree (and
enlarging the ancestors) would give. (The rotations can only improve on it.) -/
theorem C25_insert_is_optimal (pq : PQ (Cand K (WithTop K) α)) (hpq : pq.Cheapest exactCfg)
    (ops : List (Op K α)) (hops : legalHistory (fun _ => none) ops) (t : Node K α)
    (h : runOps exactCfg pq empty ops = .ok t) (box : BoundingBox K) (id : α) :
    ∃ t', insert exactCfg pq t box id = .ok t' ∧
      ∀ path n, n ≠ .null → zip n path = t → totalArea t' ≤ totalArea (pairedWith path n box id) := by
  obtain ⟨hg, _⟩ := runOps_good exactCfg exactCfg_finite pq hops h
  obtain ⟨t', h1, _, _⟩ := insert_spec exactCfg exactCfg_finite pq t hg box id
  refine ⟨t', h1, ?_⟩
  obtain ⟨p, n, h2, h3, h4, h5⟩ := insert_chooses pq hpq t hg box
  simp only [RTree.insert, h2, Outcome.bind_ok] at h1
  intro path n' hn' hz'
  refine le_trans (addLeafTo_area p n t t' box id hg h3 h4 h1) ?_
  rw [totalArea_pairedWith, totalArea_pairedWith, h4, hz']
  have := h5 path n' hn' hz'
  linarith

example := C25_insert_is_optimal (firstCheapest exactCfg.lt) firstCheapest_cheapest sampleOps sampleOps_legal

end Simu.RTree
