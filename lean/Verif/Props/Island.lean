import Verif.Spec.Island
import Verif.Lemmas.IslandOk
import Mathlib.Data.List.Count
/-
C37: the islands of a step partition the graph of constraints.
-/
namespace Simu.Island
variable {P V S : Type*} {N : Net P V S} {A : Link → Bool} {world : List Nat} {st st' : St P V S} {log : List Record}

theorem fixed_iff (N : Net P V S) (st : St P V S) (b : Nat) : interactsAsStructural N st b = true ↔ Fixed N st b := structural_iff N st b

theorem not_fixed_iff (N : Net P V S) (st : St P V S) (b : Nat) : interactsAsStructural N st b = false ↔ ¬ Fixed N st b := by
  rw [← fixed_iff]; simp

theorem WellBehaved.lawful (h : WellBehaved N) : Lawful N := ⟨h.act, h.rest⟩
theorem WellFormed.consistent (h : WellFormed N world) : Consistent N world := ⟨h.own, h.ends, h.listed, h.oneMoves⟩
theorem Ready.idle (h : Ready st) : Idle st := ⟨h.1, h.2⟩

theorem Solved.progress (h : Solved N A world st st' log) : Progress N A world st st' [] log := by
  obtain ⟨cfg, fuel, p, v, he⟩ := h.ran
  exact solveLoop_progress h.behaved.lawful h.graph.consistent fuel (progress_start h.ready.idle) ⟨rfl, rfl, rfl⟩ he h.stable

theorem countP_eq_one {α : Type*} {p : α → Bool} {l : List α} (h : ∃ a ∈ l, p a = true) (hp : l.Pairwise fun a b => p a = true → p b = true → False) :
    l.countP p = 1 := by
  induction l with
  | nil => simp at h
  | cons a l ih =>
    rw [List.pairwise_cons] at hp
    by_cases ha : p a = true
    · have : l.countP p = 0 := List.countP_eq_zero.2 fun b hb hpb => hp.1 b hb ha hpb
      rw [List.countP_cons, this, if_pos ha]
    · obtain ⟨c, hc, hpc⟩ := h
      rcases List.mem_cons.1 hc with rfl | hc
      · exact absurd hpc ha
      · rw [List.countP_cons, if_neg ha, ih ⟨c, hc, hpc⟩ hp.2]

theorem count_flatMap {log : List Record} (hn : ∀ D ∈ log, D.bodies.Nodup) (b : Nat) :
    (log.flatMap Record.bodies).count b = log.countP fun D => decide (b ∈ D.bodies) := by
  induction log with
  | nil => rfl
  | cons D log ih =>
    rw [List.flatMap_cons, List.count_append, ih fun E hE => hn E (List.mem_cons_of_mem _ hE), List.countP_cons]
    by_cases hb : b ∈ D.bodies
    · rw [List.count_eq_one_of_mem (hn D (by simp)) hb]
      simp [hb]; omega
    · rw [List.count_eq_zero_of_not_mem hb]
      simp [hb]

/-- C37: a body that is not fixed is in exactly one island, and its position is integrated exactly once. -/
theorem C37_once (h : Solved N A world st st' log) {b : Nat} (hb : b ∈ world) (hf : ¬ Fixed N st b) :
    (log.countP fun D => decide (b ∈ D.bodies)) = 1 ∧ st'.moved.count b = st.moved.count b + 1 := by
  have hp := h.progress
  have h1 : (log.countP fun D => decide (b ∈ D.bodies)) = 1 := by
    refine countP_eq_one ?_ ?_
    · by_contra hne
      have : b ∈ ([] : List Nat) := (hp.remaining b).2 ⟨hb, fun D hD hbD => hne ⟨D, hD, by simpa using hbD⟩⟩
      simp at this
    · refine hp.disjoint.imp fun {D E} hDE hD hE => hf ?_
      exact (fixed_iff N st b).1 (hDE b (by simpa using hD) (by simpa using hE))
  refine ⟨h1, ?_⟩
  rw [hp.moved, List.count_append, count_flatMap fun D hD => (hp.nodup D hD).1, h1]

/-- C37: a fixed body is in at least one island; it may be in several, but neither its position nor its velocity changes. -/
theorem C37_fixed (h : Solved N A world st st' log) {b : Nat} (hb : b ∈ world) (hf : Fixed N st b) :
    (∃ D ∈ log, b ∈ D.bodies) ∧ (st'.body b).pos = (st.body b).pos ∧ (st'.body b).vel = (st.body b).vel := by
  have hp := h.progress
  refine ⟨?_, hp.fixed b ((fixed_iff N st b).2 hf)⟩
  by_contra hne
  have : b ∈ ([] : List Nat) := (hp.remaining b).2 ⟨hb, fun D hD hbD => hne ⟨D, hD, hbD⟩⟩
  simp at this

/-- C37: islands have no other bodies than those of the world, and no duplicates. -/
theorem C37_bodies (h : Solved N A world st st' log) {D : Record} (hD : D ∈ log) :
    D.bodies.Nodup ∧ D.links.Nodup ∧ ∀ b ∈ D.bodies, b ∈ world := by
  have hp := h.progress
  obtain ⟨r, hr, h1, _⟩ := hp.rooted D hD
  exact ⟨(hp.nodup D hD).1, (hp.nodup D hD).2, fun b hb => reach_world h.graph.consistent hr ((h1 b).1 hb)⟩

/-- C37: every active constraint is solved in exactly one island, and only there. -/
theorem C37_active (h : Solved N A world st st' log) {b : Nat} (hb : b ∈ world) {l : Link} (hl : l ∈ linksOf N b) (ha : A l = true) :
    (log.countP fun D => decide (l ∈ D.links)) = 1 := by
  have hp := h.progress
  have hc := h.graph.consistent
  have hends := hc.closed b hb l hl
  have hlist := hc.listed b hb l hl
  have hfree : ∀ c, N.structuralIn l c = false → l ∈ linksOf N c → interactsAsStructural N st c = false := by
    intro c h1 h2
    rw [not_fixed_iff]
    intro hf
    rw [hf.2 l h2] at h1
    exact Bool.noConfusion h1
  obtain ⟨c, hcw, hcl, hcf, hce⟩ : ∃ c ∈ world, l ∈ linksOf N c ∧ interactsAsStructural N st c = false ∧ (c = (N.ends l).1 ∨ c = (N.ends l).2) := by
    rcases hc.oneFree b hb l hl with h0 | h0
    · exact ⟨_, hends.1, hlist.1, hfree _ h0 hlist.1, Or.inl rfl⟩
    · exact ⟨_, hends.2, hlist.2, hfree _ h0 hlist.2, Or.inr rfl⟩
  refine countP_eq_one ?_ ?_
  · have : ∃ D ∈ log, c ∈ D.bodies := by
      by_contra hne
      have : c ∈ ([] : List Nat) := (hp.remaining c).2 ⟨hcw, fun D hD hbD => hne ⟨D, hD, hbD⟩⟩
      simp at this
    obtain ⟨D, hD, hcD⟩ := this
    obtain ⟨r, hr, _, h2⟩ := hp.rooted D hD
    exact ⟨D, hD, by simpa using (h2 l).2 ⟨ha, c, hcD, hcf, hcl⟩⟩
  · have key : ∀ D ∈ log, l ∈ D.links → c ∈ D.bodies := by
      intro D hD hlD
      obtain ⟨r, hr, h1, h2⟩ := hp.rooted D hD
      obtain ⟨_, d, hd, hdf, hdl⟩ := (h2 l).1 hlD
      exact (h1 c).2 (((h1 d).1 hd).tail ⟨hdf, l, hdl, ha, hce⟩)
    refine List.Pairwise.imp_of_mem ?_ hp.disjoint
    intro D E hD hE hDE h1 h2
    have := hDE c (key D hD (by simpa using h1)) (key E hE (by simpa using h2))
    rw [hcf] at this
    exact Bool.noConfusion this

/-- C37: an inactive constraint is not solved; the constraints solved are those of bodies of the island. -/
theorem C37_inactive (h : Solved N A world st st' log) {D : Record} (hD : D ∈ log) {l : Link} (hl : l ∈ D.links) :
    A l = true ∧ ∃ b ∈ D.bodies, l ∈ linksOf N b ∧ (N.ends l).1 ∈ D.bodies ∧ (N.ends l).2 ∈ D.bodies := by
  have hp := h.progress
  obtain ⟨r, hr, h1, h2⟩ := hp.rooted D hD
  obtain ⟨ha, d, hd, hdf, hdl⟩ := (h2 l).1 hl
  exact ⟨ha, d, hd, hdl, (h1 _).2 (((h1 d).1 hd).tail ⟨hdf, l, hdl, ha, Or.inl rfl⟩),
    (h1 _).2 (((h1 d).1 hd).tail ⟨hdf, l, hdl, ha, Or.inr rfl⟩)⟩

theorem joined_touches (hc : Consistent N world) {x y : Nat} (hx : x ∈ world) (hf : interactsAsStructural N st x = false) :
    (x = y ∨ Joined N A x y) ∨ False ↔ (x = y ∨ Touches N A st x y) := by
  constructor
  · rintro ((h | ⟨l, hl, ha, h⟩) | h)
    · exact Or.inl h
    · right
      refine ⟨hf, l, hl, ha, ?_⟩
      rcases h with h | h <;> simp [h]
    · exact h.elim
  · rintro (h | ⟨_, l, hl, ha, h⟩)
    · exact Or.inl (Or.inl h)
    · left
      by_cases hxy : x = y
      · exact Or.inl hxy
      right
      refine ⟨l, hl, ha, ?_⟩
      have hx' := hc.isEnd x hx l hl
      cases he : N.ends l with
      | mk e1 e2 =>
        rw [he] at h hx'
        simp only at h hx'
        rcases h with rfl | rfl <;> rcases hx' with rfl | rfl
        · exact absurd rfl hxy
        · exact Or.inr rfl
        · exact Or.inl rfl
        · exact absurd rfl hxy

theorem reach_connected (hc : Consistent N world) {x y : Nat} (hx : x ∈ world) (hy : ¬ Fixed N st y) :
    Relation.ReflTransGen (Touches N A st) x y ↔ Connected N A st x y := by
  constructor
  · intro h
    induction h using Relation.ReflTransGen.head_induction_on with
    | refl => exact .refl
    | head hab hbc ih =>
      rename_i a c
      have hcw : c ∈ world := reach_world hc hx (.single hab)
      rcases (joined_touches hc hx hab.1).2 (Or.inr hab) with (h | h) | h
      · subst h; exact ih hcw
      · refine Relation.ReflTransGen.head ⟨(not_fixed_iff N st a).1 hab.1, ?_, h⟩ (ih hcw)
        exact (not_fixed_iff N st c).1 (reach_free hbc ((not_fixed_iff N st y).2 hy))
      · exact h.elim
  · intro h
    unfold Connected at h
    induction h using Relation.ReflTransGen.head_induction_on with
    | refl => exact .refl
    | head hab hbc ih =>
      rename_i a c
      have hf := (not_fixed_iff N st a).2 hab.1
      rcases (joined_touches hc hx hf).1 (Or.inl (Or.inr hab.2.2)) with h | h
      · subst h; exact ih hx
      · exact .head h (ih (reach_world hc hx (.single h)))

/-- C37: two bodies that are not fixed share an island exactly if they are connected. -/
theorem C37_connected (h : Solved N A world st st' log) {x y : Nat} (hx : x ∈ world) (hxf : ¬ Fixed N st x) (hyf : ¬ Fixed N st y) :
    (∃ D ∈ log, x ∈ D.bodies ∧ y ∈ D.bodies) ↔ Connected N A st x y := by
  have hp := h.progress
  have hc := h.graph.consistent
  rw [← reach_connected hc hx hyf]
  constructor
  · rintro ⟨D, hD, hxD, hyD⟩
    obtain ⟨r, hr, h1, _⟩ := hp.rooted D hD
    exact (reach_symm hc hr ((h1 x).1 hxD) ((not_fixed_iff N st x).2 hxf)).trans ((h1 y).1 hyD)
  · intro hxy
    have : ∃ D ∈ log, x ∈ D.bodies := by
      by_contra hne
      have : x ∈ ([] : List Nat) := (hp.remaining x).2 ⟨hx, fun D hD hbD => hne ⟨D, hD, hbD⟩⟩
      simp at this
    obtain ⟨D, hD, hxD⟩ := this
    obtain ⟨r, hr, h1, _⟩ := hp.rooted D hD
    exact ⟨D, hD, hxD, (h1 y).2 (((h1 x).1 hxD).trans hxy)⟩

/-- C37: a fixed body joined to a body of an island is in this island; conversely a fixed body is only in islands holding such a body, unless it is
alone. -/
theorem C37_shared (h : Solved N A world st st' log) {D : Record} (hD : D ∈ log) :
    (∀ x ∈ D.bodies, ¬ Fixed N st x → ∀ y, Joined N A x y → y ∈ D.bodies) ∧
    ∀ y ∈ D.bodies, Fixed N st y → D.bodies = [y] ∨ ∃ x ∈ D.bodies, ¬ Fixed N st x ∧ Joined N A x y := by
  have hp := h.progress
  have hc := h.graph.consistent
  obtain ⟨r, hr, h1, _⟩ := hp.rooted D hD
  constructor
  · intro x hx hxf y hxy
    have hxw := reach_world hc hr ((h1 x).1 hx)
    rcases (joined_touches hc hxw ((not_fixed_iff N st x).2 hxf)).1 (Or.inl (Or.inr hxy)) with rfl | ht
    · exact hx
    · exact (h1 y).2 (((h1 x).1 hx).tail ht)
  · intro y hy hyf
    rcases Relation.ReflTransGen.cases_tail ((h1 y).1 hy) with rfl | ⟨x, hrx, ht⟩
    · left
      have hsing : ∀ b ∈ D.bodies, b = y := by
        intro b hb
        rcases Relation.ReflTransGen.cases_head ((h1 b).1 hb) with rfl | ⟨z, hz, _⟩
        · rfl
        · exact absurd hyf ((not_fixed_iff N st y).1 hz.1)
      have hn := (hp.nodup D hD).1
      cases hDb : D.bodies with
      | nil => rw [hDb] at hy; simp at hy
      | cons a t =>
        rw [hDb] at hsing hn
        have ha := hsing a (by simp)
        cases t with
        | nil => rw [ha]
        | cons c u =>
          have hc' := hsing c (by simp)
          rw [ha, hc'] at hn
          simp at hn
    · right
      have hxf := (not_fixed_iff N st x).1 ht.1
      have hxw := reach_world hc hr hrx
      rcases (joined_touches hc hxw ht.1).2 (Or.inr ht) with (rfl | hj) | hj
      · exact absurd hyf hxf
      · exact ⟨x, (h1 x).2 hrx, hxf, hj⟩
      · exact hj.elim

/-- C37: a body that no active constraint can change (and that is not fixed) keeps its velocity and is moved by it, once. -/
theorem C37_free_flight (h : Solved N A world st st' log) {b : Nat} (hb : b ∈ world) (hu : Unconstrained N A b) :
    (st'.body b).vel = (st.body b).vel ∧ (st'.body b).pos = N.advance (st.body b).pos (st.body b).vel := by
  have hp := h.progress
  by_cases hf : Fixed N st b
  · obtain ⟨_, h1, h2⟩ := C37_fixed h hb hf
    exact ⟨h2, by rw [h1, h.behaved.rest _ _ hf.1]⟩
  · refine hp.free b ((not_fixed_iff N st b).2 hf) hu ?_
    by_contra hne
    have : b ∈ ([] : List Nat) := (hp.remaining b).2 ⟨hb, fun D hD hbD => hne ⟨D, hD, hbD⟩⟩
    simp at this

/-- C37: objects that are not bodies of the world are left alone, and the world is ready for the next step. -/
theorem C37_frame (h : Solved N A world st st' log) : Ready st' ∧ ∀ b, b ∉ world → st'.body b = st.body b := by
  have hp := h.progress
  refine ⟨⟨hp.idle.index, hp.idle.proxies⟩, fun b hb => hp.pending b fun D hD hbD => hb ?_⟩
  exact (C37_bodies h hD).2.2 b hbD

/-- C37: from a well-formed world `solveIslands` always ends (possibly with an exception of a constraint). -/
theorem C37_ends (hN : WellBehaved N) (hg : WellFormed N world) (hr : Ready st) (cfg : Settings) (p : P) (v : V) {fuel : Nat}
    (hf : 2 * world.length < fuel) : solveIslands N cfg fuel p v world st ≠ none := by
  have := solveLoop_ends (cfg := cfg) (st := st) (isl := ⟨[], [], [], fun _ => p, fun _ => v, false⟩) (done := []) hN.lawful hg.consistent.closed
    (fuel - world.length) (fun b hb => hb) hr.idle ⟨rfl, rfl, rfl⟩ (by omega)
  rwa [show fuel - world.length + world.length = fuel by omega] at this

/-- C37: if moreover the constraints themselves do not throw, `solveIslands` succeeds: no test of its own fails and nothing is undefined. -/
theorem C37_completes (hN : WellBehaved N) (hg : WellFormed N world) (hr : Ready st)
    (ho : ∀ ph l i0 i1 s ps vs, ∃ r, N.act ph l i0 i1 s ps vs = .ok r) (cfg : Settings) (p : P) (v : V) {fuel : Nat}
    (hf : 2 * world.length < fuel) : ∃ st' log, solveIslands N cfg fuel p v world st = some (.ok (st', log)) := by
  obtain ⟨o, h⟩ := Option.ne_none_iff_exists'.1 (C37_ends hN hg hr cfg p v hf)
  obtain ⟨⟨st', log⟩, rfl⟩ := solveLoop_ok hN.lawful ho cfg hg.consistent.closed fuel (fun b hb => hb) hr.idle ⟨rfl, rfl, rfl⟩ h
  exact ⟨st', log, h⟩

/-! ### A concrete world: body 0 is the ground, 1 and 2 are joined, 1 and 3 touch the ground, the constraint between 2 and 4 is inactive -/

/-- The example. Constraints increase the velocities they may change. -/
def sampleNet : Net Int Int Unit where
  ends := fun
    | .joint 0 => (1, 2)
    | .joint _ => (2, 4)
    | .contact 0 => (1, 0)
    | .contact _ => (3, 0)
  joints := fun
    | 1 => [0]
    | 2 => [0, 1]
    | 4 => [1]
    | _ => []
  contacts := fun
    | 0 => [0, 1]
    | 1 => [0]
    | 3 => [1]
    | _ => []
  structuralIn := fun _ b => b == 0
  isRest := fun v => v == 0
  isActive := fun l _ _ _ => ((), l != .joint 1)
  act := fun ph l i0 i1 s ps vs =>
    let e := match l with
      | .joint 0 => (1, 2)
      | .joint _ => (2, 4)
      | .contact 0 => (1, 0)
      | .contact _ => (3, 0)
    if ph = .solveVelocities then
      .ok (s, ps, fun i => if (i = i0 ∧ e.1 ≠ 0) ∨ (i = i1 ∧ e.2 ≠ 0) then vs i + 1 else vs i)
    else .ok (s, ps, vs)
  advance := fun p v => p + v

def sampleWorld : List Nat := [0, 1, 2, 3, 4]

def sampleState : St Int Int Unit where
  body := fun b => ⟨10 * b, b, b == 2, none⟩
  proxies := fun _ => none
  s := ()
  evals := []
  moved := []

def sampleActive (l : Link) : Bool := l != .joint 1

/-- The observable part of a result. -/
def view (world : List Nat) (r : Option (Outcome (St Int Int Unit × List Record))) :
    Option (List (Link × Bool) × List (List Nat × List Link) × List Nat × List (Int × Int × Bool)) :=
  match r with
  | some (.ok (st, log)) =>
    some (st.evals, log.map fun D => (D.bodies, D.links), st.moved, world.map fun b => ((st.body b).pos, (st.body b).vel, (st.body b).asleep))
  | _ => none

theorem sample_behaved : WellBehaved sampleNet := by
  constructor
  · intro ph l i0 i1 s ps vs s' ps' vs' h i h0 h1
    simp only [sampleNet] at h h0 h1
    set e : Nat × Nat := (match l with
      | .joint 0 => (1, 2)
      | .joint _ => (2, 4)
      | .contact 0 => (1, 0)
      | .contact _ => (3, 0)) with he
    by_cases hp : ph = .solveVelocities
    · rw [if_pos hp] at h
      cases Outcome.ok.inj h
      refine ⟨rfl, if_neg ?_⟩
      rintro (⟨h2, h3⟩ | ⟨h2, h3⟩)
      · exact h3 (by simpa using h0 h2)
      · exact h3 (by simpa using h1 h2)
    · rw [if_neg hp] at h
      cases Outcome.ok.inj h
      exact ⟨rfl, rfl⟩
  · intro p v h
    have : v = 0 := by simpa [sampleNet] using h
    subst this
    show p + 0 = p
    simp

theorem sample_graph : WellFormed sampleNet sampleWorld := ⟨by decide, by decide, by decide, by decide⟩

theorem sample_ok : ∀ ph l i0 i1 s ps vs, ∃ r, sampleNet.act ph l i0 i1 s ps vs = .ok r := by
  intro ph l i0 i1 s ps vs
  simp only [sampleNet]
  split
  · exact ⟨_, rfl⟩
  · exact ⟨_, rfl⟩

theorem sample_run : view sampleWorld (solveIslands sampleNet ⟨2, 1, true⟩ 11 0 0 sampleWorld sampleState) =
    some ([(.joint 1, false), (.contact 1, true), (.joint 0, true), (.joint 1, false), (.contact 0, true)],
      [([4], []), ([3, 0], [.contact 1]), ([2, 1, 0], [.joint 0, .contact 0])],
      [4, 3, 0, 2, 1, 0], [(0, 0, false), (15, 5, false), (24, 4, false), (35, 5, false), (44, 4, false)]) := by
  rfl

/-- The hypotheses of the theorems above are met by the example, with three islands of which two share the ground. -/
theorem sample_solved : ∃ st' log, Solved sampleNet sampleActive sampleWorld sampleState st' log ∧
    log.map (fun D => (D.bodies, D.links)) = [([4], []), ([3, 0], [.contact 1]), ([2, 1, 0], [.joint 0, .contact 0])] := by
  have hr : Ready sampleState := ⟨fun _ => rfl, fun _ => rfl⟩
  obtain ⟨st', log, h⟩ := C37_completes sample_behaved sample_graph hr sample_ok ⟨2, 1, true⟩ 0 0 (fuel := 11) (by decide)
  have hv := sample_run
  rw [h] at hv
  simp only [view, Option.some.injEq, Prod.mk.injEq] at hv
  refine ⟨st', log, ⟨sample_behaved, sample_graph, hr, ⟨_, _, _, _, h⟩, ?_⟩, hv.2.1⟩
  rw [hv.1]
  decide

example : ∃ st' log, Solved sampleNet sampleActive sampleWorld sampleState st' log ∧ (3 : Nat) ∈ sampleWorld ∧ ¬ Fixed sampleNet sampleState 3 ∧
    Fixed sampleNet sampleState 0 := by
  obtain ⟨st', log, h, -⟩ := sample_solved
  refine ⟨st', log, h, by decide, fun hf => ?_, rfl, by decide⟩
  exact absurd hf.1 (by decide)

example : Joined sampleNet sampleActive 1 2 ∧ ¬ Joined sampleNet sampleActive 2 4 ∧ Unconstrained sampleNet sampleActive 4 := by
  refine ⟨⟨.joint 0, by decide, by decide, Or.inl rfl⟩, ?_, by unfold Unconstrained; decide⟩
  unfold Joined
  decide

/-! ### The restriction to stable answers is needed: a constraint with limits is asked again after a body moved -/

/-- Bodies 0 and 1, and a constraint that is active if they are more than 10 apart (a maximal distance). -/
def limitNet : Net Int Int Unit where
  ends := fun _ => (0, 1)
  joints := fun _ => [0]
  contacts := fun _ => []
  structuralIn := fun _ _ => false
  isRest := fun v => v == 0
  isActive := fun _ _ p q => ((), decide (p + 10 < q))
  act := fun _ _ _ _ s ps vs => .ok (s, ps, vs)
  advance := fun p v => p + v

/-- Body 1 is 9 away from body 0 and moves away with speed 5. -/
def limitState : St Int Int Unit where
  body := fun b => if b = 1 then ⟨9, 5, false, none⟩ else ⟨0, 1, false, none⟩
  proxies := fun _ => none
  s := ()
  evals := []
  moved := []

/-- C37 is false without the hypothesis: the island of body 1 is solved while the constraint is inactive; body 1 has moved when body 0 is
processed, the constraint is now active and body 1 is in a second island and moved again (from 9 to 19 instead of 14). -/
theorem C37_limits_disagreement : WellBehaved limitNet ∧ WellFormed limitNet [0, 1] ∧ Ready limitState ∧
    view [0, 1] (solveIslands limitNet ⟨8, 2, true⟩ 5 0 0 [0, 1] limitState) =
      some ([(.joint 0, false), (.joint 0, true)], [([1], []), ([0, 1], [.joint 0])], [1, 0, 1], [(1, 1, false), (19, 5, false)]) := by
  refine ⟨⟨?_, ?_⟩, ⟨?_, ?_, ?_, ?_⟩, ⟨?_, fun _ => rfl⟩, rfl⟩
  · intro ph l i0 i1 s ps vs s' ps' vs' h i h0 h1
    cases Outcome.ok.inj h
    exact ⟨rfl, rfl⟩
  · intro p v h
    have : v = 0 := by simpa [limitNet] using h
    subst this
    show p + 0 = p
    simp
  · decide
  · decide
  · decide
  · decide
  · intro b
    simp only [limitState]
    split <;> rfl

end Simu.Island
