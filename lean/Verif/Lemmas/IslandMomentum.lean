import Verif.Lemmas.IslandRun
import Verif.Spec.IslandMomentum
import Verif.Props.Island
/-
Lemmas on the sums of quantities exchanged by constraints.
-/
namespace Simu.Island
open Finset
variable {P V S M : Type*} [AddCommGroup M]

theorem sum_exchange {n : Nat} {f g : Nat → M} {i j : Nat} (hi : i < n) (hj : j < n) (hij : i ≠ j) (h : f i + f j = g i + g j)
    (ho : ∀ k, k ≠ i → k ≠ j → f k = g k) : ∑ k ∈ range n, f k = ∑ k ∈ range n, g k := by
  rw [← sub_eq_zero, ← Finset.sum_sub_distrib]
  rw [Finset.sum_eq_add_of_mem i j (by simpa) (by simpa) hij fun k _ hk => by rw [ho k hk.1 hk.2, sub_self]]
  rw [sub_add_sub_comm, h, sub_self]

/-- The amounts of the bodies of an island, in its vectors. -/
def amountV (qv : Nat → V → M) (bs : List Nat) (vs : Nat → V) : M := ∑ i ∈ range bs.length, qv (bs.getD i 0) (vs i)

theorem getD_of {bs : List Nat} {i b : Nat} (h : bs[i]? = some b) : bs.getD i 0 = b := by simp [List.getD, h]

theorem lt_of_get {bs : List Nat} {i b : Nat} (h : bs[i]? = some b) : i < bs.length := (List.getElem?_eq_some_iff.1 h).1

theorem sum_getD (F : Nat → M) (bs : List Nat) : ∑ i ∈ range bs.length, F (bs.getD i 0) = (bs.map F).sum := by
  induction bs with
  | nil => simp
  | cons b bs ih =>
    rw [List.length_cons, Finset.sum_range_succ', List.map_cons, List.sum_cons, add_comm]
    simp only [List.getD_cons_succ, List.getD_cons_zero]
    rw [ih]

theorem amount_eq {qv : Nat → V → M} {bs : List Nat} (hn : bs.Nodup) {vs : Nat → V} {val : Nat → V} (h : ∀ b i, bs[i]? = some b → val b = vs i) :
    amountV qv bs vs = ∑ b ∈ bs.toFinset, qv b (val b) := by
  rw [List.sum_toFinset _ hn, amountV, ← sum_getD (fun b => qv b (val b))]
  refine Finset.sum_congr rfl fun i hi => ?_
  have hi : i < bs.length := by simpa using hi
  have hb : bs[i]? = some (bs.getD i 0) := by simp [List.getD, List.getElem?_eq_getElem hi]
  rw [h _ _ hb]

section
variable {N : Net P V S} {good : S → Prop} {qv : Nat → V → M} {qp : Nat → P → M}

theorem Call.amounts {Q : Phase → Prop} (hN : Lawful N) (hg : Steady N good) {x y : St P V S × Isl P V} (hl : Linked N x.1 x.2)
    (he : ∀ l ∈ x.2.links, Exchanges N good qv qp l) (hs : good x.1.s) (h : Call N Q x y) :
    good y.1.s ∧ amountV qv y.2.bodies y.2.vs = amountV qv x.2.bodies x.2.vs ∧ amountV qp y.2.bodies y.2.ps = amountV qp x.2.bodies x.2.ps := by
  obtain ⟨ph, l, i0, i1, s, ps, vs, -, hm, hp, ha, rfl⟩ := h
  obtain ⟨j0, j1, hp', h0, h1⟩ := hl l hm
  rw [hp] at hp'
  simp only [Option.some.injEq, Prod.mk.injEq] at hp'
  obtain ⟨rfl, rfl⟩ := hp'
  have hx := he l hm
  have hne : i0 ≠ i1 := by
    rintro rfl
    rw [h0] at h1
    exact hx.two (Option.some.inj h1)
  obtain ⟨e1, e2⟩ := hx.act ph i0 i1 _ _ _ _ _ _ hne hs ha
  have ho : ∀ k, k ≠ i0 → k ≠ i1 → ps k = x.2.ps k ∧ vs k = x.2.vs k := fun k k0 k1 =>
    hN.act ph l i0 i1 _ _ _ _ _ _ ha k (fun h => absurd h k0) (fun h => absurd h k1)
  refine ⟨hg.act _ _ _ _ _ _ _ _ _ _ hs ha, ?_, ?_⟩
  · refine sum_exchange (lt_of_get h0) (lt_of_get h1) hne ?_ fun k k0 k1 => ?_
    · rw [getD_of h0, getD_of h1]; exact e1
    · show qv _ (vs k) = _; rw [(ho k k0 k1).2]
  · refine sum_exchange (lt_of_get h0) (lt_of_get h1) hne ?_ fun k k0 k1 => ?_
    · rw [getD_of h0, getD_of h1]; exact e2
    · show qp _ (ps k) = _; rw [(ho k k0 k1).1]

theorem Run.amounts {Q : Phase → Prop} (hN : Lawful N) (hg : Steady N good) {x y : St P V S × Isl P V} (hl : Linked N x.1 x.2)
    (he : ∀ l ∈ x.2.links, Exchanges N good qv qp l) (hs : good x.1.s) (h : Run N Q x y) :
    good y.1.s ∧ amountV qv y.2.bodies y.2.vs = amountV qv x.2.bodies x.2.vs ∧ amountV qp y.2.bodies y.2.ps = amountV qp x.2.bodies x.2.ps := by
  induction h with
  | refl => exact ⟨hs, rfl, rfl⟩
  | tail hr hc ih =>
    obtain ⟨f1, f2, f3, f4⟩ := Run.frame hr
    obtain ⟨a, b, c⟩ := ih
    obtain ⟨a', b', c'⟩ := hc.amounts hN hg (fun l hm => by rw [f1, f3]; exact hl l (by rw [← f4]; exact hm)) (by rw [f4]; exact he) a
    exact ⟨a', b'.trans b, c'.trans c⟩

/-- Solving keeps what calls keep, whatever the constraints exchange. -/
theorem Run.steady {Q : Phase → Prop} (hg : Steady N good) {x y : St P V S × Isl P V} (hs : good x.1.s) (h : Run N Q x y) : good y.1.s := by
  induction h with
  | refl => exact hs
  | tail _ hc ih =>
    obtain ⟨ph, l, i0, i1, s, ps, vs, -, hm, hp, ha, rfl⟩ := hc
    exact hg.act _ _ _ _ _ _ _ _ _ _ ih ha

theorem solveIsland_steady (hg : Steady N good) (cfg : Settings) {st0 st st' : St P V S} {isl isl' : Isl P V} (h : Building N st0 st isl)
    (hs : good st.s) (he : solveIsland N cfg st isl = .ok (st', isl')) : good st'.s := by
  obtain ⟨a, x, y, -, -, -, h4, -, h6, h7, h8, -⟩ := solveIsland_runs cfg h he
  rw [h8]
  have h1 : good x.1.s := Run.steady (x := a) hg (by rw [h4]; exact hs) h6
  replace h1 : good (integrate N x).1.s := h1
  exact Run.steady hg h1 h7

/-- What one island keeps. -/
theorem solveIsland_amounts (hN : Lawful N) (hg : Steady N good) (cfg : Settings) {st0 st st' : St P V S} {isl isl' : Isl P V}
    (h : Building N st0 st isl) (hs : good st.s) (hx : ∀ l ∈ isl.links, Exchanges N good qv qp l) (τ : M →+ M)
    (ha : ∀ b p v, qp b (N.advance p v) = qp b p + τ (qv b v)) (he : solveIsland N cfg st isl = .ok (st', isl')) :
    ∑ b ∈ isl.bodies.toFinset, qv b (st'.body b).vel = ∑ b ∈ isl.bodies.toFinset, qv b (st0.body b).vel ∧
    ∑ b ∈ isl.bodies.toFinset, qp b (st'.body b).pos =
      ∑ b ∈ isl.bodies.toFinset, qp b (st0.body b).pos + τ (∑ b ∈ isl.bodies.toFinset, qv b (st0.body b).vel) := by
  obtain ⟨a, x, y, h1, h2, h3, h4, h5, h6, h7, h8, h9⟩ := solveIsland_runs cfg h he
  have hn := h.indexed.nodup
  obtain ⟨f1, f2, f3, f4⟩ := Run.frame h6
  obtain ⟨g1, g2, g3, g4⟩ := Run.frame h7
  have g3' : y.2.bodies = x.2.bodies := g3
  obtain ⟨k1, k2, k3⟩ := Run.amounts (qv := qv) (qp := qp) hN hg h1 (by rw [h3]; exact hx) (by rw [h4]; exact hs) h6
  have hl : Linked N (integrate N x).1 (integrate N x).2 := fun l hm => by
    show ∃ i0 i1, x.1.proxies l = _ ∧ x.2.bodies[i0]? = _ ∧ x.2.bodies[i1]? = _
    rw [f1, f3]; exact h1 l (by rw [← f4]; exact hm)
  obtain ⟨m1, m2, m3⟩ := Run.amounts (qv := qv) (qp := qp) hN hg hl (by
    show ∀ l ∈ x.2.links, _
    rw [f4, h3]; exact hx) (show good (integrate N x).1.s from k1) h7
  have hint : amountV qp (integrate N x).2.bodies (integrate N x).2.ps = amountV qp x.2.bodies x.2.ps + τ (amountV qv x.2.bodies x.2.vs) := by
    unfold amountV
    rw [map_sum, ← Finset.sum_add_distrib]
    refine Finset.sum_congr rfl fun i hi => ?_
    have hi : i < x.2.bodies.length := by simpa [integrate] using hi
    simp only [integrate, if_pos hi, ha]
  have e1 : amountV qv isl.bodies y.2.vs = ∑ b ∈ isl.bodies.toFinset, qv b (st'.body b).vel := amount_eq (val := fun b => (st'.body b).vel) hn fun b i hb => (h9 b i hb).2
  have e2 : amountV qp isl.bodies y.2.ps = ∑ b ∈ isl.bodies.toFinset, qp b (st'.body b).pos := amount_eq (val := fun b => (st'.body b).pos) hn fun b i hb => (h9 b i hb).1
  have e3 : amountV qv isl.bodies a.2.vs = ∑ b ∈ isl.bodies.toFinset, qv b (st0.body b).vel :=
    amount_eq (val := fun b => (st0.body b).vel) hn fun b i hb => (h5 b i hb).2.symm
  have e4 : amountV qp isl.bodies a.2.ps = ∑ b ∈ isl.bodies.toFinset, qp b (st0.body b).pos :=
    amount_eq (val := fun b => (st0.body b).pos) hn fun b i hb => (h5 b i hb).1.symm
  have fb : x.2.bodies = isl.bodies := f3.trans h2
  have m2' : amountV qv y.2.bodies y.2.vs = amountV qv x.2.bodies x.2.vs := m2
  rw [← e1, ← e2, ← e3, ← e4]
  rw [g3', fb] at m2'
  rw [g3', fb] at m3
  rw [fb, h2] at k2 k3
  constructor
  · rw [m2', k2]
  · rw [m3, hint, fb, k3, k2]

open Classical in
/-- The bodies of the group already solved. -/
noncomputable def doneIn (group : Finset Nat) (done : List Record) : Finset Nat := group.filter fun b => ∃ D ∈ done, b ∈ D.bodies

/-- What is known of a group while islands are solved one after the other. -/
structure GroupKept (good : S → Prop) (qv : Nat → V → M) (qp : Nat → P → M) (τ : M →+ M) (group : Finset Nat) (st0 st : St P V S) (done : List Record) : Prop where
  steady : good st.s
  vel : ∑ b ∈ group, qv b (st.body b).vel = ∑ b ∈ group, qv b (st0.body b).vel
  pos : ∑ b ∈ group, qp b (st.body b).pos = ∑ b ∈ group, qp b (st0.body b).pos + τ (∑ b ∈ doneIn group done, qv b (st.body b).vel)

theorem GroupKept.step {A : Link → Bool} {world : List Nat} {st0 st : St P V S} {toProcess : List Nat} {done : List Record} {group : Finset Nat} {τ : M →+ M}
    (hN : Lawful N) (hg : Steady N good) (hc : Consistent N world) (hiso : Isolated N A group)
    (hx : ∀ b ∈ group, ∀ l ∈ linksOf N b, A l = true → Exchanges N good qv qp l) (hadv : ∀ b p v, qp b (N.advance p v) = qp b p + τ (qv b v))
    (h : Progress N A world st0 st toProcess done) (k : GroupKept good qv qp τ group st0 st done) {isl : Isl P V} (hz : isl.Empty) {root fuel : Nat}
    (hroot : root ∈ toProcess) {x : St P V S × Isl P V} (hi : init N fuel st isl root = some (.ok x)) (cfg : Settings) {y : St P V S × Isl P V}
    (hs : solveIsland N cfg x.1 x.2 = .ok y) (hA : ∀ e ∈ y.1.evals, e.2 = A e.1) :
    GroupKept good qv qp τ group st0 y.1 (done ++ [⟨y.2.bodies, y.2.links, y.2.awake⟩]) := by
  classical
  obtain ⟨hrw, hrd⟩ := (h.remaining root).1 hroot
  obtain ⟨hb, ⟨ev, hev⟩, hrb, hbw, _, _⟩ := init_evals hc.closed hrw h.idle hz hi
  obtain ⟨q1, q2, q3, q4, q5, q6, q7, q8, q9⟩ := solveIsland_spec (st' := y.1) (isl' := y.2) hN cfg h.idle hb hs
  have hAx : ∀ e ∈ x.1.evals, e.2 = A e.1 := by rw [← q5]; exact hA
  obtain ⟨i1, i2⟩ := init_spec (A := A) hc.closed hrw h.idle hz hi hAx
  rw [touches_congr h.structural] at i1
  simp only [h.structural] at i2
  have hgx : good x.1.s := init_s hg.isActive hi k.steady
  have hgy : good y.1.s := solveIsland_steady (st' := y.1) (isl' := y.2) hg cfg hb hgx hs
  have hstep := (Progress.step hN hc h hz hroot hi cfg hs hA).1
  have hfix : ∀ b, interactsAsStructural N st0 b = true → (y.1.body b).pos = (st.body b).pos ∧ (y.1.body b).vel = (st.body b).vel := by
    intro b hsb
    obtain ⟨a1, a2⟩ := hstep.fixed b hsb
    obtain ⟨b1, b2⟩ := h.fixed b hsb
    exact ⟨a1.trans b1.symm, a2.trans b2.symm⟩
  have hzero : ∀ b, interactsAsStructural N st0 b = true → τ (qv b (st.body b).vel) = 0 := by
    intro b hsb
    have hr := ((structural_iff N st b).1 (by rw [h.structural]; exact hsb)).1
    have := hadv b (st.body b).pos (st.body b).vel
    rw [hN.rest _ _ hr] at this
    simpa using this
  have hdisj : ∀ D ∈ done, ∀ b, b ∈ D.bodies → b ∈ x.2.bodies → interactsAsStructural N st0 b = true := by
    intro D hD b hbD hbx
    have := (List.pairwise_append.1 hstep.disjoint).2.2 D hD ⟨y.2.bodies, y.2.links, y.2.awake⟩ (by simp) b hbD (by simp only; rw [q2]; exact hbx)
    exact this
  -- the bodies solved
  have hdone : doneIn group (done ++ [⟨y.2.bodies, y.2.links, y.2.awake⟩]) = doneIn group done ∪ group.filter (· ∈ x.2.bodies) := by
    ext b
    simp only [doneIn, Finset.mem_filter, Finset.mem_union, List.mem_append, List.mem_singleton]
    constructor
    · rintro ⟨hbg, D, hD | rfl, hbD⟩
      · exact Or.inl ⟨hbg, D, hD, hbD⟩
      · exact Or.inr ⟨hbg, by rw [← q2]; exact hbD⟩
    · rintro (⟨hbg, D, hD, hbD⟩ | ⟨hbg, hbD⟩)
      · exact ⟨hbg, D, Or.inl hD, hbD⟩
      · exact ⟨hbg, _, Or.inr rfl, by simp only; rw [q2]; exact hbD⟩
  have hinter : ∀ b ∈ doneIn group done ∩ group.filter (· ∈ x.2.bodies), τ (qv b (st.body b).vel) = 0 := by
    intro b hbm
    simp only [doneIn, Finset.mem_filter, Finset.mem_inter] at hbm
    obtain ⟨⟨_, D, hD, hbD⟩, _, hbx⟩ := hbm
    exact hzero b (hdisj D hD b hbD hbx)
  have hunion : τ (∑ b ∈ doneIn group done ∪ group.filter (· ∈ x.2.bodies), qv b (st.body b).vel) =
      τ (∑ b ∈ doneIn group done, qv b (st.body b).vel) + τ (∑ b ∈ group.filter (· ∈ x.2.bodies), qv b (st.body b).vel) := by
    have := Finset.sum_union_inter (s₁ := doneIn group done) (s₂ := group.filter (· ∈ x.2.bodies)) (f := fun b => qv b (st.body b).vel)
    have h0 : τ (∑ b ∈ doneIn group done ∩ group.filter (· ∈ x.2.bodies), qv b (st.body b).vel) = 0 := by
      rw [map_sum]; exact Finset.sum_eq_zero hinter
    rw [← map_add, ← this, map_add, h0, add_zero]
  have hout : ∀ b, b ∉ x.2.bodies → y.1.body b = st.body b := q7
  by_cases hcase : ∃ b ∈ x.2.bodies, b ∈ group ∧ interactsAsStructural N st0 b = false
  · -- the island is in the group
    obtain ⟨c, hcx, hcg, hcf⟩ := hcase
    have hsub : ∀ b ∈ x.2.bodies, b ∈ group := by
      intro b hbx
      have hcb := (reach_symm hc hrw ((i1 c).1 hcx) hcf).trans ((i1 b).1 hbx)
      clear hbx
      induction hcb with
      | refl => exact hcg
      | tail _ ht ih =>
        obtain ⟨_, l, hl, ha, rfl | rfl⟩ := ht
        · exact (hiso _ ih l hl ha).1
        · exact (hiso _ ih l hl ha).2
    have hfilt : group.filter (· ∈ x.2.bodies) = x.2.bodies.toFinset := by
      ext b; simp only [Finset.mem_filter, List.mem_toFinset]
      exact ⟨fun h => h.2, fun h => ⟨hsub b h, h⟩⟩
    have hxl : ∀ l ∈ x.2.links, Exchanges N good qv qp l := by
      intro l hl
      obtain ⟨a, b, hbx, _, hbl⟩ := (i2 l).1 hl
      exact hx b (hsub b hbx) l hbl a
    obtain ⟨v, p⟩ := solveIsland_amounts (st' := y.1) (isl' := y.2) hN hg cfg hb hgx hxl τ hadv hs
    have hss : x.2.bodies.toFinset ⊆ group := fun b hb' => hsub b (List.mem_toFinset.1 hb')
    have sv : ∀ s : Finset Nat, ∑ b ∈ s \ x.2.bodies.toFinset, qv b (y.1.body b).vel = ∑ b ∈ s \ x.2.bodies.toFinset, qv b (st.body b).vel := fun s =>
      Finset.sum_congr rfl fun b hb' => by rw [hout b (by simpa using (Finset.mem_sdiff.1 hb').2)]
    have sp : ∀ s : Finset Nat, ∑ b ∈ s \ x.2.bodies.toFinset, qp b (y.1.body b).pos = ∑ b ∈ s \ x.2.bodies.toFinset, qp b (st.body b).pos := fun s =>
      Finset.sum_congr rfl fun b hb' => by rw [hout b (by simpa using (Finset.mem_sdiff.1 hb').2)]
    refine ⟨hgy, ?_, ?_⟩
    · rw [← k.vel, ← Finset.sum_sdiff hss, ← Finset.sum_sdiff (f := fun b => qv b (st.body b).vel) hss, sv, v]
    · have hE : ∑ b ∈ doneIn group done ∪ x.2.bodies.toFinset, qv b (y.1.body b).vel =
          ∑ b ∈ doneIn group done ∪ x.2.bodies.toFinset, qv b (st.body b).vel := by
        have hss' : x.2.bodies.toFinset ⊆ doneIn group done ∪ x.2.bodies.toFinset := Finset.subset_union_right
        rw [← Finset.sum_sdiff hss', ← Finset.sum_sdiff (f := fun b => qv b (st.body b).vel) hss', sv, v]
      rw [hdone, hfilt, hE, ← hfilt, hunion, hfilt, ← add_assoc, ← k.pos, ← Finset.sum_sdiff hss, sp, p, ← add_assoc,
        Finset.sum_sdiff hss]
  · -- the island has only fixed bodies of the group
    have hsame : ∀ b ∈ group, (y.1.body b).pos = (st.body b).pos ∧ (y.1.body b).vel = (st.body b).vel := by
      intro b hbg
      by_cases hm : b ∈ x.2.bodies
      · refine hfix b ?_
        by_contra hf
        exact hcase ⟨b, hm, hbg, by simpa using hf⟩
      · rw [hout b hm]; exact ⟨rfl, rfl⟩
    have h0 : τ (∑ b ∈ group.filter (· ∈ x.2.bodies), qv b (st.body b).vel) = 0 := by
      rw [map_sum]
      refine Finset.sum_eq_zero fun b hb' => hzero b ?_
      obtain ⟨hbg, hm⟩ := Finset.mem_filter.1 hb'
      by_contra hf
      exact hcase ⟨b, hm, hbg, by simpa using hf⟩
    refine ⟨hgy, ?_, ?_⟩
    · rw [← k.vel]
      exact Finset.sum_congr rfl fun b hb' => by rw [(hsame b hb').2]
    · have e1 : ∑ b ∈ group, qp b (y.1.body b).pos = ∑ b ∈ group, qp b (st.body b).pos :=
        Finset.sum_congr rfl fun b hb' => by rw [(hsame b hb').1]
      have e2 : ∑ b ∈ doneIn group done ∪ group.filter (· ∈ x.2.bodies), qv b (y.1.body b).vel =
          ∑ b ∈ doneIn group done ∪ group.filter (· ∈ x.2.bodies), qv b (st.body b).vel := by
        refine Finset.sum_congr rfl fun b hb' => ?_
        rw [(hsame b ?_).2]
        rcases Finset.mem_union.1 hb' with hb' | hb' <;> exact (Finset.mem_filter.1 hb').1
      rw [hdone, e2, hunion, h0, add_zero, e1, k.pos]

theorem solveLoop_group {A : Link → Bool} {cfg : Settings} {world : List Nat} {group : Finset Nat} {τ : M →+ M}
    (hN : Lawful N) (hg : Steady N good) (hc : Consistent N world) (hiso : Isolated N A group)
    (hx : ∀ b ∈ group, ∀ l ∈ linksOf N b, A l = true → Exchanges N good qv qp l) (hadv : ∀ b p v, qp b (N.advance p v) = qp b p + τ (qv b v))
    (fuel : Nat) {toProcess : List Nat} {st0 st st' : St P V S} {isl : Isl P V} {done log : List Record} (h : Progress N A world st0 st toProcess done)
    (k : GroupKept good qv qp τ group st0 st done)
    (hz : isl.Empty) (he : solveLoop N cfg fuel toProcess st isl done = some (.ok (st', log))) (hA : ∀ e ∈ st'.evals, e.2 = A e.1) :
    GroupKept good qv qp τ group st0 st' log := by
  induction fuel generalizing toProcess st isl done with
  | zero => simp [solveLoop] at he
  | succ fuel ih =>
    rcases solveLoop_cases he with ⟨_, rfl, rfl⟩ | ⟨n, root, x, y, hn, hroot, hi, hs, he'⟩
    · exact k
    · have hn : n = fuel := by omega
      subst hn
      have hb := (init_evals hc.closed ((h.remaining root).1 hroot).1 h.idle hz hi).1
      have q1 := (solveIsland_spec (st' := y.1) (isl' := y.2) hN cfg h.idle hb hs).1
      have hAy : ∀ e ∈ y.1.evals, e.2 = A e.1 := by
        obtain ⟨⟨ev, hev⟩, -⟩ := solveLoop_evals hN hc.closed n (fun b hb => ((h.remaining b).1 (List.mem_filter.1 hb).1).1) q1 (Isl.clear_empty _) he'
        intro e hm
        exact hA e (by rw [hev]; exact List.mem_append_left _ hm)
      exact ih (h.step hN hc hz hroot hi cfg hs hAy).1 (k.step hN hg hc hiso hx hadv h hz hroot hi cfg hs hAy) (Isl.clear_empty _) he'

end
end Simu.Island
