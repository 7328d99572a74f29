import Verif.Lemmas.IslandSolve
/-
Lemmas on the loop of `solveIslands`.
-/
namespace Simu.Island
variable {P V S : Type*}

/-- The graph of the world: bodies list the constraints they are in, and constraints refer to bodies of the world
(these are the properties of World.hpp:209-225, World.cpp:109-123 and ConstraintInterfaces.hpp:68-83). -/
structure Consistent (N : Net P V S) (world : List Nat) : Prop where
  isEnd : ∀ b ∈ world, ∀ l ∈ linksOf N b, b = (N.ends l).1 ∨ b = (N.ends l).2
  closed : Closed N world
  listed : ∀ b ∈ world, ∀ l ∈ linksOf N b, l ∈ linksOf N (N.ends l).1 ∧ l ∈ linksOf N (N.ends l).2
  oneFree : ∀ b ∈ world, ∀ l ∈ linksOf N b, N.structuralIn l (N.ends l).1 = false ∨ N.structuralIn l (N.ends l).2 = false

theorem structural_iff (N : Net P V S) (st : St P V S) (b : Nat) :
    interactsAsStructural N st b = true ↔ N.isRest (st.body b).vel = true ∧ ∀ l ∈ linksOf N b, N.structuralIn l b = true := by
  unfold interactsAsStructural linksOf
  simp only [Bool.and_eq_true, List.all_eq_true, List.mem_append, List.mem_map]
  constructor
  · rintro ⟨⟨h1, h2⟩, h3⟩
    refine ⟨h1, ?_⟩
    rintro l (⟨n, hn, rfl⟩ | ⟨n, hn, rfl⟩)
    · exact h2 n hn
    · exact h3 n hn
  · rintro ⟨h1, h2⟩
    exact ⟨⟨h1, fun n hn => h2 _ (Or.inl ⟨n, hn, rfl⟩)⟩, fun n hn => h2 _ (Or.inr ⟨n, hn, rfl⟩)⟩

theorem touches_congr {N : Net P V S} {A : Link → Bool} {st st' : St P V S}
    (h : ∀ b, interactsAsStructural N st b = interactsAsStructural N st' b) : Touches N A st = Touches N A st' := by
  funext x y; unfold Touches; rw [h]

section Reach
variable {N : Net P V S} {A : Link → Bool} {st0 : St P V S} {world : List Nat}

theorem reach_world (hc : Consistent N world) {x y : Nat} (hx : x ∈ world) (h : Relation.ReflTransGen (Touches N A st0) x y) : y ∈ world := by
  induction h with
  | refl => exact hx
  | tail _ hs ih =>
    obtain ⟨_, l, hl, _, rfl | rfl⟩ := hs
    · exact (hc.closed _ ih l hl).1
    · exact (hc.closed _ ih l hl).2

theorem reach_free {x y : Nat} (h : Relation.ReflTransGen (Touches N A st0) x y) (hy : interactsAsStructural N st0 y = false) :
    interactsAsStructural N st0 x = false := by
  rcases Relation.ReflTransGen.cases_head h with rfl | ⟨z, hz, _⟩
  · exact hy
  · exact hz.1

theorem touches_symm (hc : Consistent N world) {x y : Nat} (hx : x ∈ world) (h : Touches N A st0 x y) (hy : interactsAsStructural N st0 y = false) :
    Touches N A st0 y x := by
  obtain ⟨hs, l, hl, ha, hyl⟩ := h
  refine ⟨hy, l, ?_, ha, hc.isEnd x hx l hl⟩
  rcases hyl with rfl | rfl
  · exact (hc.listed x hx l hl).1
  · exact (hc.listed x hx l hl).2

theorem reach_symm (hc : Consistent N world) {x y : Nat} (hx : x ∈ world) (h : Relation.ReflTransGen (Touches N A st0) x y)
    (hy : interactsAsStructural N st0 y = false) : Relation.ReflTransGen (Touches N A st0) y x := by
  induction h with
  | refl => exact .refl
  | tail hxz hs ih =>
    have hz := hs.1
    exact (Relation.ReflTransGen.single (touches_symm hc (reach_world hc hx hxz) hs hy)).trans (ih hz)

end Reach

/-- No active constraint may change the body. -/
def Free (N : Net P V S) (A : Link → Bool) (b : Nat) : Prop := ∀ l ∈ linksOf N b, A l = true → N.structuralIn l b = true

/-- What is known of the islands already solved, from the state `st0` at the beginning. -/
structure Progress (N : Net P V S) (A : Link → Bool) (world : List Nat) (st0 st : St P V S) (toProcess : List Nat) (done : List Record) : Prop where
  idle : Idle st
  remaining : ∀ b, b ∈ toProcess ↔ b ∈ world ∧ ∀ D ∈ done, b ∉ D.bodies
  structural : ∀ b, interactsAsStructural N st b = interactsAsStructural N st0 b
  fixed : ∀ b, interactsAsStructural N st0 b = true → (st.body b).pos = (st0.body b).pos ∧ (st.body b).vel = (st0.body b).vel
  pending : ∀ b, (∀ D ∈ done, b ∉ D.bodies) → st.body b = st0.body b
  free : ∀ b, interactsAsStructural N st0 b = false → Free N A b → (∃ D ∈ done, b ∈ D.bodies) →
    (st.body b).vel = (st0.body b).vel ∧ (st.body b).pos = N.advance (st0.body b).pos (st0.body b).vel
  constVel : ∀ b, (∀ l ∈ linksOf N b, N.structuralIn l b = true) → (st.body b).vel = (st0.body b).vel
  nodup : ∀ D ∈ done, D.bodies.Nodup ∧ D.links.Nodup
  rooted : ∀ D ∈ done, ∃ r ∈ world, (∀ b, b ∈ D.bodies ↔ Relation.ReflTransGen (Touches N A st0) r b) ∧
    ∀ l, l ∈ D.links ↔ A l = true ∧ ∃ b ∈ D.bodies, interactsAsStructural N st0 b = false ∧ l ∈ linksOf N b
  disjoint : done.Pairwise fun D E => ∀ b, b ∈ D.bodies → b ∈ E.bodies → interactsAsStructural N st0 b = true
  moved : st.moved = st0.moved ++ done.flatMap Record.bodies
  woken : ∀ D ∈ done, D.awake = true → ∀ b ∈ D.bodies, (st.body b).asleep = false
  stillAwake : ∀ b, (st0.body b).asleep = false → (st.body b).asleep = false
  asleep : ∀ b, (∀ D ∈ done, b ∈ D.bodies → D.awake = false) → (st.body b).asleep = (st0.body b).asleep
  ownAwake : ∀ D ∈ done, ∀ b ∈ D.bodies, (st0.body b).asleep = false → D.awake = true

theorem untouched_of_free {N : Net P V S} {A : Link → Bool} {world bs : List Nat} (hc : Consistent N world) (ls : List Link) (hbs : ∀ b ∈ bs, b ∈ world)
    (hl : ∀ l ∈ ls, A l = true ∧ ∃ c ∈ bs, l ∈ linksOf N c) {b : Nat} (hf : Free N A b) : Untouched N ls b := by
  intro l hm
  obtain ⟨ha, c, hcb, hcl⟩ := hl l hm
  obtain ⟨h0, h1⟩ := hc.listed c (hbs c hcb) l hcl
  constructor
  · rintro rfl; exact hf l h0 ha
  · rintro rfl; exact hf l h1 ha

theorem addBody_awake {st : St P V S} {isl : Isl P V} (b : Nat) (h : isl.awake = true) : (addBody st isl b).2.1.awake = true := by
  unfold addBody; split
  · simp [h]
  · exact h

/-- The flag is never cleared while an island is built. -/
theorem addConstraint_awake {N : Net P V S} {st : St P V S} {isl : Isl P V} {l : Link} {y : St P V S × Isl P V}
    (he : addConstraint N st isl l = .ok y) (h : isl.awake = true) : y.2.awake = true := by
  unfold addConstraint at he
  by_cases hp : (st.proxies l).isSome = true
  · rw [if_pos hp] at he
    cases Outcome.ok.inj he
    exact h
  rw [if_neg hp] at he
  dsimp only at he
  have q1 := addBody_awake (st := st) (isl := isl.push l) (N.ends l).1 (by cases l <;> exact h)
  cases h1 : addBody st (isl.push l) (N.ends l).1 with
  | mk st1 r1 =>
  obtain ⟨isl1, added1⟩ := r1
  rw [h1] at he q1
  dsimp only at he q1
  have q2 := addBody_awake (st := st1) (isl := isl1) (N.ends l).2 q1
  cases h2 : addBody st1 isl1 (N.ends l).2 with
  | mk st2 r2 =>
  obtain ⟨isl2, added2⟩ := r2
  rw [h2] at he q2
  dsimp only at he q2
  rw [bind_ok_iff] at he
  obtain ⟨st3, h3, he⟩ := he
  cases hpr : st3.proxies l with
  | none => rw [hpr] at he; simp at he
  | some ij =>
    obtain ⟨i0, i1⟩ := ij
    rw [hpr] at he
    dsimp only at he
    split at he
    · cases Outcome.ok.inj he
      exact q2
    · cases Outcome.ok.inj he
      cases added1 <;> cases added2 <;> cases l <;> simpa [dropBody, Isl.pop] using q2

theorem addConstraints_awake {N : Net P V S} (ls : List Link) {x y : St P V S × Isl P V} (he : addConstraints N ls x = .ok y)
    (h : x.2.awake = true) : y.2.awake = true := by
  induction ls generalizing x with
  | nil => cases Outcome.ok.inj he; exact h
  | cons l ls ih =>
    unfold addConstraints at he
    rw [bind_ok_iff] at he
    obtain ⟨z, hz, he⟩ := he
    exact ih he (addConstraint_awake hz h)

theorem initLoop_awake {N : Net P V S} (fuel current : Nat) {x y : St P V S × Isl P V} (he : initLoop N fuel current x = some (.ok y))
    (h : x.2.awake = true) : y.2.awake = true := by
  induction fuel generalizing current x with
  | zero => simp [initLoop] at he
  | succ fuel ih =>
    rw [initLoop] at he
    cases hb : x.2.bodies[current]? with
    | none => rw [hb] at he; cases Outcome.ok.inj (Option.some.inj he); exact h
    | some root =>
      rw [hb] at he
      dsimp only at he
      cases hz : (if interactsAsStructural N x.1 root then .ok x else addConstraints N (linksOf N root) x) with
      | throw => rw [hz] at he; simp at he
      | ub => rw [hz] at he; simp at he
      | ok z =>
        rw [hz] at he
        dsimp only at he
        refine ih _ he ?_
        by_cases hs : interactsAsStructural N x.1 root = true
        · rw [if_pos hs] at hz; cases Outcome.ok.inj hz; exact h
        · rw [if_neg hs] at hz; exact addConstraints_awake _ hz h

theorem init_evals {N : Net P V S} {st : St P V S} {isl : Isl P V} {root fuel : Nat} {x' : St P V S × Isl P V} {world : List Nat}
    (hc : Closed N world) (hroot : root ∈ world) (hi : Idle st) (hz : isl.Empty) (he : init N fuel st isl root = some (.ok x')) :
    Building N st x'.1 x'.2 ∧ (∃ ev, x'.1.evals = st.evals ++ ev) ∧ root ∈ x'.2.bodies ∧ (∀ b ∈ x'.2.bodies, b ∈ world) ∧
    (x'.2.awake = true → isl.awake = true ∨ (st.body root).asleep = false ∨ ∃ b ∈ x'.2.bodies, interactsAsStructural N st b = false ∧
        ∃ l ∈ linksOf N b, (st.body (N.ends l).1).asleep = false ∨ (st.body (N.ends l).2).asleep = false) ∧
    (isl.awake = true → x'.2.awake = true) := by
  obtain ⟨hb, hbs, hls, hev, haw⟩ := addBody_building (N := N) hi hz root
  unfold init at he
  dsimp only at he
  set y := addBody st isl root
  obtain ⟨g1, ⟨nw, hnw⟩, g3, g4, ev, hev'⟩ :=
    initLoop_building (x := (y.1, y.2.1)) hc fuel 0 hb (by rw [show (y.1, y.2.1).2.bodies = [root] from hbs]; simpa) he
  refine ⟨g1, ⟨ev, by rw [hev']; show y.1.evals ++ ev = _; rw [hev]⟩, ?_, g3, ?_, ?_⟩
  · rw [hnw, show (y.1, y.2.1).2.bodies = [root] from hbs]; simp
  · intro ha
    rcases g4 ha with h | h
    · have : y.2.1.awake = true := h
      rw [haw] at this
      simp only [Bool.or_eq_true, Bool.not_eq_true'] at this
      rcases this with h | h
      · exact Or.inl h
      · exact Or.inr (Or.inl h)
    · exact Or.inr (Or.inr h)
  · intro ha
    exact initLoop_awake fuel 0 he (by show y.2.1.awake = true; rw [haw, ha]; simp)

/-- One more island. -/
theorem Progress.step {N : Net P V S} {A : Link → Bool} {world : List Nat} {st0 st : St P V S} {toProcess : List Nat} {done : List Record}
    (hN : Lawful N) (hc : Consistent N world) (h : Progress N A world st0 st toProcess done) {isl : Isl P V} (hz : isl.Empty) {root fuel : Nat}
    (hroot : root ∈ toProcess) {x : St P V S × Isl P V} (hi : init N fuel st isl root = some (.ok x)) (cfg : Settings) {y : St P V S × Isl P V}
    (hs : solveIsland N cfg x.1 x.2 = .ok y) (hA : ∀ e ∈ y.1.evals, e.2 = A e.1) :
    Progress N A world st0 y.1 (toProcess.filter fun b => decide (b ∉ x.2.bodies)) (done ++ [⟨y.2.bodies, y.2.links, y.2.awake⟩]) ∧
      (isl.Empty → y.2.clear.Empty) := by
  obtain ⟨hrw, hrd⟩ := (h.remaining root).1 hroot
  obtain ⟨hb, ⟨ev, hev⟩, hrb, hbw, _, _⟩ := init_evals hc.closed hrw h.idle hz hi
  obtain ⟨q1, q2, q3, q4, q5, q6, q7, q8, q9⟩ := solveIsland_spec (st' := y.1) (isl' := y.2) hN cfg h.idle hb hs
  have hAx : ∀ e ∈ x.1.evals, e.2 = A e.1 := by rw [← q5]; exact hA
  obtain ⟨i1, i2⟩ := init_spec (A := A) hc.closed hrw h.idle hz hi hAx
  rw [touches_congr h.structural] at i1
  simp only [h.structural] at i2
  have hunt : ∀ b, Free N A b → Untouched N x.2.links b := fun b hf =>
    untouched_of_free hc x.2.links hbw (fun l hl => by
      obtain ⟨a, c, hcb, _, hcl⟩ := (i2 l).1 hl
      exact ⟨a, c, hcb, hcl⟩) hf
  have hall : ∀ b, (∀ l ∈ linksOf N b, N.structuralIn l b = true) → (y.1.body b).vel = (st.body b).vel := by
    intro b hb'
    by_cases hm : b ∈ x.2.bodies
    · exact (q9 b hm (hunt b fun l hl _ => hb' l hl)).1
    · rw [q7 b hm]
  have hfix : ∀ b, interactsAsStructural N st0 b = true → (y.1.body b).pos = (st.body b).pos ∧ (y.1.body b).vel = (st.body b).vel := by
    intro b hsb
    have hst : interactsAsStructural N st b = true := by rw [h.structural]; exact hsb
    obtain ⟨hr, hl⟩ := (structural_iff N st b).1 hst
    by_cases hm : b ∈ x.2.bodies
    · obtain ⟨v, p⟩ := q9 b hm (hunt b fun l hl' _ => hl l hl')
      exact ⟨by rw [p, hN.rest _ _ hr], v⟩
    · rw [q7 b hm]; exact ⟨rfl, rfl⟩
  have hdisj : ∀ D ∈ done, ∀ b, b ∈ D.bodies → b ∈ x.2.bodies → interactsAsStructural N st0 b = true := by
    intro D hD b hbD hbx
    by_contra hfree
    have hfree : interactsAsStructural N st0 b = false := by simpa using hfree
    obtain ⟨r, hr, hDb, _⟩ := h.rooted D hD
    have h1 := (hDb b).1 hbD
    have h2 := reach_symm hc hrw ((i1 b).1 hbx) hfree
    exact hrd D hD ((hDb root).2 (h1.trans h2))
  refine ⟨⟨q1, ?_, ?_, ?_, ?_, ?_, ?_, ?_, ?_, ?_, ?_, ?_, ?_, ?_, ?_⟩, fun _ => ⟨rfl, rfl, rfl⟩⟩
  · intro b
    rw [List.mem_filter, h.remaining]
    simp only [decide_eq_true_eq, List.mem_append, List.mem_singleton, q2]
    constructor
    · rintro ⟨⟨h1, h2⟩, h3⟩
      refine ⟨h1, ?_⟩
      rintro D (hD | rfl)
      · exact h2 D hD
      · exact h3
    · rintro ⟨h1, h2⟩
      exact ⟨⟨h1, fun D hD => h2 D (Or.inl hD)⟩, h2 _ (Or.inr rfl)⟩
  · intro b
    rw [← h.structural]
    rcases Bool.eq_false_or_eq_true (interactsAsStructural N st b) with hsb | hsb
    · rw [hsb, structural_iff]
      obtain ⟨h1, h2⟩ := (structural_iff N st b).1 hsb
      exact ⟨by rw [hall b h2]; exact h1, h2⟩
    · rw [hsb]
      by_contra hne
      have : interactsAsStructural N y.1 b = true := by simpa using hne
      obtain ⟨h1, h2⟩ := (structural_iff N y.1 b).1 this
      rw [hall b h2] at h1
      rw [(structural_iff N st b).2 ⟨h1, h2⟩] at hsb
      exact Bool.noConfusion hsb
  · intro b hsb
    obtain ⟨a1, a2⟩ := hfix b hsb
    obtain ⟨b1, b2⟩ := h.fixed b hsb
    exact ⟨a1.trans b1, a2.trans b2⟩
  · intro b hb'
    have h1 : b ∉ x.2.bodies := by
      have := hb' ⟨y.2.bodies, y.2.links, y.2.awake⟩ (by simp)
      rw [← q2]; exact this
    rw [q7 b h1]
    exact h.pending b fun D hD => hb' D (List.mem_append_left _ hD)
  · rintro b hsb hf ⟨D, hD, hbD⟩
    by_cases hm : b ∈ x.2.bodies
    · obtain ⟨v, p⟩ := q9 b hm (hunt b hf)
      have hpend := h.pending b (fun E hE hbE => by
        have := hdisj E hE b hbE hm
        rw [hsb] at this
        exact Bool.noConfusion this)
      rw [hpend] at v p
      exact ⟨v, p⟩
    · rcases List.mem_append.1 hD with hD | hD
      · rw [q7 b hm]
        exact h.free b hsb hf ⟨D, hD, hbD⟩
      · have : D = ⟨y.2.bodies, y.2.links, y.2.awake⟩ := by simpa using hD
        subst this
        simp only at hbD
        rw [q2] at hbD
        exact absurd hbD hm
  · intro b hb'
    rw [hall b hb', h.constVel b hb']
  · intro D hD
    rcases List.mem_append.1 hD with hD | hD
    · exact h.nodup D hD
    · have : D = ⟨y.2.bodies, y.2.links, y.2.awake⟩ := by simpa using hD
      subst this
      simp only
      rw [q2, q3]
      exact ⟨hb.indexed.nodup, hb.nodup⟩
  · intro D hD
    rcases List.mem_append.1 hD with hD | hD
    · exact h.rooted D hD
    · have : D = ⟨y.2.bodies, y.2.links, y.2.awake⟩ := by simpa using hD
      subst this
      simp only
      rw [q2, q3]
      exact ⟨root, hrw, i1, i2⟩
  · rw [List.pairwise_append]
    refine ⟨h.disjoint, by simp, ?_⟩
    intro D hD E hE b hbD hbE
    have : E = ⟨y.2.bodies, y.2.links, y.2.awake⟩ := by simpa using hE
    subst this
    simp only at hbE
    rw [q2] at hbE
    exact hdisj D hD b hbD hbE
  · rw [q6, hb.moved, h.moved]
    simp [q2]
  · intro D hD hw b hbD
    by_cases hm : b ∈ x.2.bodies
    · rw [q8 b hm]
      rcases List.mem_append.1 hD with hD | hD
      · have := h.woken D hD hw b hbD
        rw [this]; simp
      · have : D = ⟨y.2.bodies, y.2.links, y.2.awake⟩ := by simpa using hD
        subst this
        simp only at hw
        rw [q4] at hw
        rw [hw]; rfl
    · rcases List.mem_append.1 hD with hD | hD
      · rw [q7 b hm]; exact h.woken D hD hw b hbD
      · have : D = ⟨y.2.bodies, y.2.links, y.2.awake⟩ := by simpa using hD
        subst this
        simp only at hbD
        rw [q2] at hbD
        exact absurd hbD hm
  · intro b hs0
    by_cases hm : b ∈ x.2.bodies
    · rw [q8 b hm, h.stillAwake b hs0]; simp
    · rw [q7 b hm]; exact h.stillAwake b hs0
  · intro b hb'
    have hold := h.asleep b fun D hD => hb' D (List.mem_append_left _ hD)
    by_cases hm : b ∈ x.2.bodies
    · have := hb' ⟨y.2.bodies, y.2.links, y.2.awake⟩ (by simp) (by rw [q2]; exact hm)
      simp only at this
      rw [q4] at this
      rw [q8 b hm, this, hold]; simp
    · rw [q7 b hm]; exact hold
  · intro D hD b hbD hs0
    rcases List.mem_append.1 hD with hD | hD
    · exact h.ownAwake D hD b hbD hs0
    · have : D = ⟨y.2.bodies, y.2.links, y.2.awake⟩ := by simpa using hD
      subst this
      simp only at hbD
      rw [q2] at hbD
      show y.2.awake = true
      rw [q4]
      exact hb.awake b hbD (h.stillAwake b hs0)

theorem progress_start {N : Net P V S} {A : Link → Bool} {world : List Nat} {st : St P V S} (h : Idle st) : Progress N A world st st world [] := by
  refine ⟨h, by simp, fun _ => rfl, fun _ _ => ⟨rfl, rfl⟩, fun _ _ => rfl, by simp, fun _ _ => rfl, by simp, by simp, List.Pairwise.nil, by simp,
    by simp, fun _ h => h, fun _ _ => rfl, by simp⟩

theorem Isl.clear_empty (isl : Isl P V) : isl.clear.Empty := ⟨rfl, rfl, rfl⟩

/-- What happens in one iteration of the loop. -/
theorem solveLoop_cases {N : Net P V S} {cfg : Settings} {fuel : Nat} {toProcess : List Nat} {st st' : St P V S} {isl : Isl P V} {done log : List Record}
    (he : solveLoop N cfg fuel toProcess st isl done = some (.ok (st', log))) :
    (toProcess = [] ∧ st' = st ∧ log = done) ∨
    ∃ n root x y, fuel = n + 1 ∧ root ∈ toProcess ∧ init N (n + 1) st isl root = some (.ok x) ∧ solveIsland N cfg x.1 x.2 = .ok y ∧
      solveLoop N cfg n (toProcess.filter fun b => decide (b ∉ x.2.bodies)) y.1 y.2.clear (done ++ [⟨y.2.bodies, y.2.links, y.2.awake⟩]) = some (.ok (st', log)) := by
  cases fuel with
  | zero => simp [solveLoop] at he
  | succ n =>
    rw [solveLoop] at he
    cases hr : toProcess.getLast? with
    | none =>
      rw [hr] at he
      have he := Outcome.ok.inj (Option.some.inj he)
      simp only [Prod.mk.injEq] at he
      exact Or.inl ⟨List.getLast?_eq_none_iff.1 hr, he.1.symm, he.2.symm⟩
    | some root =>
      rw [hr] at he
      dsimp only at he
      cases hi : init N (n + 1) st isl root with
      | none => rw [hi] at he; simp at he
      | some o =>
        cases o with
        | throw => rw [hi] at he; simp at he
        | ub => rw [hi] at he; simp at he
        | ok x =>
          rw [hi] at he
          dsimp only at he
          cases hs : solveIsland N cfg x.1 x.2 with
          | throw => rw [hs] at he; simp at he
          | ub => rw [hs] at he; simp at he
          | ok y =>
            rw [hs] at he
            exact Or.inr ⟨n, root, x, y, rfl, List.mem_of_getLast? hr, hi, hs, he⟩

/-- The recorded answers only grow; the record of earlier islands is kept. -/
theorem solveLoop_evals {N : Net P V S} (hN : Lawful N) {cfg : Settings} {world : List Nat} (hc : Closed N world) (fuel : Nat) {toProcess : List Nat}
    {st st' : St P V S} {isl : Isl P V} {done log : List Record} (hw : ∀ b ∈ toProcess, b ∈ world) (h0 : Idle st) (hz : isl.Empty)
    (he : solveLoop N cfg fuel toProcess st isl done = some (.ok (st', log))) :
    (∃ ev, st'.evals = st.evals ++ ev) ∧ ∃ new, log = done ++ new := by
  induction fuel generalizing toProcess st isl done with
  | zero => simp [solveLoop] at he
  | succ fuel ih =>
    rcases solveLoop_cases he with ⟨_, rfl, rfl⟩ | ⟨n, root, x, y, hn, hroot, hi, hs, he'⟩
    · exact ⟨⟨[], by simp⟩, [], by simp⟩
    · have hn : n = fuel := by omega
      subst hn
      obtain ⟨hb, ⟨ev, hev⟩, -⟩ := init_evals hc (hw _ hroot) h0 hz hi
      obtain ⟨q1, -, -, -, q5, -⟩ := solveIsland_spec (st' := y.1) (isl' := y.2) hN cfg h0 hb hs
      obtain ⟨⟨ev', h1⟩, new, h2⟩ := ih (fun b hb => hw b (List.mem_filter.1 hb).1) q1 (Isl.clear_empty _) he'
      exact ⟨⟨ev ++ ev', by rw [h1, q5, hev, List.append_assoc]⟩, ⟨_ :: new, by rw [h2, List.append_assoc]; rfl⟩⟩

/-- The whole loop. -/
theorem solveLoop_progress {N : Net P V S} (hN : Lawful N) {A : Link → Bool} {cfg : Settings} {world : List Nat} (hc : Consistent N world) (fuel : Nat)
    {toProcess : List Nat} {st0 st st' : St P V S} {isl : Isl P V} {done log : List Record} (h : Progress N A world st0 st toProcess done)
    (hz : isl.Empty) (he : solveLoop N cfg fuel toProcess st isl done = some (.ok (st', log))) (hA : ∀ e ∈ st'.evals, e.2 = A e.1) :
    Progress N A world st0 st' [] log := by
  induction fuel generalizing toProcess st isl done with
  | zero => simp [solveLoop] at he
  | succ fuel ih =>
    rcases solveLoop_cases he with ⟨rfl, rfl, rfl⟩ | ⟨n, root, x, y, hn, hroot, hi, hs, he'⟩
    · exact h
    · have hn : n = fuel := by omega
      subst hn
      have hw : ∀ b ∈ toProcess, b ∈ world := fun b hb => ((h.remaining b).1 hb).1
      obtain ⟨hb, -, -⟩ := init_evals hc.closed (hw _ hroot) h.idle hz hi
      obtain ⟨q1, -⟩ := solveIsland_spec (st' := y.1) (isl' := y.2) hN cfg h.idle hb hs
      obtain ⟨⟨ev, hev⟩, -⟩ := solveLoop_evals hN hc.closed _ (fun b hb => hw b (List.mem_filter.1 hb).1) q1 (Isl.clear_empty _) he'
      have hAy : ∀ e ∈ y.1.evals, e.2 = A e.1 := fun e h => hA e (by rw [hev]; exact List.mem_append_left _ h)
      exact ih (h.step hN hc hz hroot hi cfg hs hAy).1 (Isl.clear_empty _) he'

/-- The flag: once an island is awake, all following ones are. -/
theorem solveLoop_flag {N : Net P V S} (hN : Lawful N) {cfg : Settings} {world : List Nat} (hc : Closed N world) (fuel : Nat) {toProcess : List Nat}
    {st st' : St P V S} {isl : Isl P V} {done log : List Record} (hw : ∀ b ∈ toProcess, b ∈ world) (h0 : Idle st) (hz : isl.Empty)
    (hd : ∀ D ∈ done, D.awake = true → isl.awake = true) (hd' : done.Pairwise fun D E => D.awake = true → E.awake = true)
    (he : solveLoop N cfg fuel toProcess st isl done = some (.ok (st', log))) :
    log.Pairwise fun D E => D.awake = true → E.awake = true := by
  induction fuel generalizing toProcess st isl done with
  | zero => simp [solveLoop] at he
  | succ fuel ih =>
    rcases solveLoop_cases he with ⟨_, rfl, rfl⟩ | ⟨n, root, x, y, hn, hroot, hi, hs, he'⟩
    · exact hd'
    · have hn : n = fuel := by omega
      subst hn
      obtain ⟨hb, -, -, -, -, hmono⟩ := init_evals hc (hw _ hroot) h0 hz hi
      obtain ⟨q1, -, -, q4, -⟩ := solveIsland_spec (st' := y.1) (isl' := y.2) hN cfg h0 hb hs
      refine ih (fun b hb => hw b (List.mem_filter.1 hb).1) q1 (Isl.clear_empty _) ?_ ?_ he'
      · intro D hD hDa
        show y.2.awake = true
        rcases List.mem_append.1 hD with hD | hD
        · rw [q4]; exact hmono (hd D hD hDa)
        · have : D = ⟨y.2.bodies, y.2.links, y.2.awake⟩ := by simpa using hD
          subst this; exact hDa
      · rw [List.pairwise_append]
        refine ⟨hd', by simp, ?_⟩
        intro D hD E hE hDa
        have : E = ⟨y.2.bodies, y.2.links, y.2.awake⟩ := by simpa using hE
        subst this
        show y.2.awake = true
        rw [q4]; exact hmono (hd D hD hDa)

/-- A body of the island, or a body across one of the constraints listed by the bodies of the island, is awake. -/
def NearAwake (N : Net P V S) (st0 : St P V S) (D : Record) : Prop :=
  ∃ b ∈ D.bodies, (st0.body b).asleep = false ∨
    ∃ l ∈ linksOf N b, (st0.body (N.ends l).1).asleep = false ∨ (st0.body (N.ends l).2).asleep = false

/-- Why an island is awake. -/
theorem solveLoop_cause {N : Net P V S} (hN : Lawful N) {cfg : Settings} {world : List Nat} (hc : Closed N world) (fuel : Nat) {toProcess : List Nat}
    {st0 st st' : St P V S} {isl : Isl P V} {done log : List Record} (hw : ∀ b ∈ toProcess, b ∈ world) (h0 : Idle st) (hz : isl.Empty)
    (h1 : isl.awake = true → ∃ D ∈ done, NearAwake N st0 D) (h2 : isl.awake = false → ∀ b, (st.body b).asleep = (st0.body b).asleep)
    (h3 : ∀ (k : Nat) (E : Record), done[k]? = some E → E.awake = true → ∃ j ≤ k, ∃ D : Record, done[j]? = some D ∧ NearAwake N st0 D)
    (he : solveLoop N cfg fuel toProcess st isl done = some (.ok (st', log))) :
    ∀ (k : Nat) (E : Record), log[k]? = some E → E.awake = true → ∃ j ≤ k, ∃ D : Record, log[j]? = some D ∧ NearAwake N st0 D := by
  induction fuel generalizing toProcess st isl done with
  | zero => simp [solveLoop] at he
  | succ fuel ih =>
    rcases solveLoop_cases he with ⟨_, rfl, rfl⟩ | ⟨n, root, x, y, hn, hroot, hi, hs, he'⟩
    · exact h3
    · have hn : n = fuel := by omega
      subst hn
      obtain ⟨hb, -, hrb, -, hcause, hmono⟩ := init_evals hc (hw _ hroot) h0 hz hi
      obtain ⟨q1, q2, q3, q4, q5, q6, q7, q8, q9⟩ := solveIsland_spec (st' := y.1) (isl' := y.2) hN cfg h0 hb hs
      have key : y.2.awake = true → (∃ D ∈ done, NearAwake N st0 D) ∨ NearAwake N st0 ⟨y.2.bodies, y.2.links, y.2.awake⟩ := by
        intro hy
        by_cases hia : isl.awake = true
        · exact Or.inl (h1 hia)
        have hs := h2 (by simpa using hia)
        right
        rw [q4] at hy
        unfold NearAwake
        simp only [q2]
        rcases hcause hy with h | h | ⟨b, hb', _, l, hl, h⟩
        · exact absurd h hia
        · exact ⟨root, hrb, Or.inl (by rw [← hs]; exact h)⟩
        · rw [hs, hs] at h
          exact ⟨b, hb', Or.inr ⟨l, hl, h⟩⟩
      refine ih (fun b hb => hw b (List.mem_filter.1 hb).1) q1 (Isl.clear_empty _) ?_ ?_ ?_ he'
      · intro hy
        rcases key hy with ⟨D, hD, hn⟩ | h
        · exact ⟨D, List.mem_append_left _ hD, hn⟩
        · exact ⟨_, by simp, h⟩
      · intro hy b
        have hy : x.2.awake = false := by rw [← q4]; exact hy
        have hia : isl.awake = false := by
          by_contra hne
          rw [hmono (by simpa using hne)] at hy
          exact Bool.noConfusion hy
        by_cases hm : b ∈ x.2.bodies
        · rw [q8 b hm, hy, ← h2 hia b]; simp
        · rw [q7 b hm, h2 hia b]
      · intro k E hk hE
        rw [List.getElem?_append] at hk
        split at hk
        · obtain ⟨j, hj, D, hD, hn⟩ := h3 k E hk hE
          exact ⟨j, hj, D, by rw [List.getElem?_append_left (List.getElem?_eq_some_iff.1 hD).1]; exact hD, hn⟩
        · rename_i hlt
          have hk' : k - done.length = 0 := by
            have := (List.getElem?_eq_some_iff.1 hk).1
            simp at this; omega
          rw [hk'] at hk
          have : E = ⟨y.2.bodies, y.2.links, y.2.awake⟩ := by simpa using hk.symm
          subst this
          rcases key hE with ⟨D, hD, hn⟩ | h
          · obtain ⟨j, hj⟩ := List.mem_iff_getElem?.1 hD
            have hjl := (List.getElem?_eq_some_iff.1 hj).1
            exact ⟨j, by omega, D, by rw [List.getElem?_append_left hjl]; exact hj, hn⟩
          · exact ⟨k, le_refl k, _, by rw [List.getElem?_append_right (by omega), hk']; rfl, h⟩

/-- With enough fuel the loop ends. -/
theorem solveLoop_ends {N : Net P V S} (hN : Lawful N) {cfg : Settings} {world : List Nat} (hc : Closed N world) (fuel : Nat) {toProcess : List Nat}
    {st : St P V S} {isl : Isl P V} {done : List Record} (hw : ∀ b ∈ toProcess, b ∈ world) (h0 : Idle st) (hz : isl.Empty)
    (hf : toProcess.length < fuel) :
    solveLoop N cfg (fuel + world.length) toProcess st isl done ≠ none := by
  induction fuel generalizing toProcess st isl done with
  | zero => omega
  | succ fuel ih =>
    rw [show fuel + 1 + world.length = (fuel + world.length) + 1 by omega, solveLoop]
    cases hr : toProcess.getLast? with
    | none => simp
    | some root =>
      dsimp only
      have hroot := List.mem_of_getLast? hr
      cases hi : init N (fuel + world.length + 1) st isl root with
      | none =>
        exfalso
        obtain ⟨hb, hbs, hls, hev, haw⟩ := addBody_building (N := N) h0 hz root
        unfold init at hi
        dsimp only at hi
        set y := addBody st isl root
        refine initLoop_ends (x := (y.1, y.2.1)) hc (fuel + world.length + 1) 0 hb ?_ (by omega) (by simp) hi
        rw [show (y.1, y.2.1).2.bodies = [root] from hbs]
        simpa using hw root hroot
      | some o =>
        cases o with
        | throw => simp
        | ub => simp
        | ok x =>
          dsimp only
          cases hs : solveIsland N cfg x.1 x.2 with
          | throw => simp
          | ub => simp
          | ok y =>
            dsimp only
            obtain ⟨hb, -, hrb, -⟩ := init_evals hc (hw _ hroot) h0 hz hi
            obtain ⟨q1, -⟩ := solveIsland_spec (st' := y.1) (isl' := y.2) hN cfg h0 hb hs
            have hlt : (toProcess.filter fun b => decide (b ∉ x.2.bodies)).length < toProcess.length := by
              refine lt_of_le_of_ne (List.length_filter_le _ _) fun heq => ?_
              have := (List.length_filter_eq_length_iff.1 heq) root hroot
              simp [hrb] at this
            exact ih (fun b hb => hw b (List.mem_filter.1 hb).1) q1 (Isl.clear_empty _) (by omega)

end Simu.Island
