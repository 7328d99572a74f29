import Verif.Lemmas.IslandMomentum
import Verif.Spec.IslandEnergy
import Mathlib.Tactic.Abel
import Mathlib.Algebra.Order.BigOperators.Group.Finset
/-
Lemmas on the energy of islands.
-/
namespace Simu.Island
open Finset
variable {P V S K : Type*} [AddCommGroup K] [LinearOrder K] [IsOrderedAddMonoid K]

theorem sum_spend {n : Nat} {f g : Nat → K} {i j : Nat} (hi : i < n) (hj : j < n) (hij : i ≠ j) {d : K} (h : f i + f j + d ≤ g i + g j)
    (ho : ∀ k, k ≠ i → k ≠ j → f k = g k) : ∑ k ∈ range n, f k + d ≤ ∑ k ∈ range n, g k := by
  have : ∑ k ∈ range n, f k - ∑ k ∈ range n, g k = (f i - g i) + (f j - g j) := by
    rw [← Finset.sum_sub_distrib, Finset.sum_eq_add_of_mem i j (by simpa) (by simpa) hij fun k _ hk => by rw [ho k hk.1 hk.2, sub_self]]
  rw [← sub_nonpos] at h ⊢
  calc ∑ k ∈ range n, f k + d - ∑ k ∈ range n, g k = (∑ k ∈ range n, f k - ∑ k ∈ range n, g k) + d := by abel
    _ = f i + f j + d - (g i + g j) := by rw [this]; abel
    _ ≤ 0 := h

section
variable {N : Net P V S} {good : S → Prop} {ready : Link → Nat → Nat → S → Prop} {en : Nat → V → K} {store : Link → S → K} {ok : Nat → V → Prop}

/-- All bodies of the island have velocities that are `ok`. -/
def AllOk (ok : Nat → V → Prop) (bs : List Nat) (vs : Nat → V) : Prop := ∀ b i, bs[i]? = some b → ok b (vs i)

/-- What the constraints of the island are ready for. -/
def AllReady (ready : Link → Nat → Nat → S → Prop) (ls : List Link) (st : St P V S) : Prop :=
  ∀ l ∈ ls, ∀ i0 i1, st.proxies l = some (i0, i1) → ready l i0 i1 st.s

/-- Energy of the bodies of an island and in its constraints. -/
def total (en : Nat → V → K) (store : Link → S → K) (ls : List Link) (x : St P V S × Isl P V) : K :=
  amountV en x.2.bodies x.2.vs + ∑ l ∈ ls.toFinset, store l x.1.s

/-- One call as seen by the island. -/
theorem actAll_cons {ph : Phase} {l : Link} {ls : List Link} {x y : St P V S × Isl P V} (hl : Linked N x.1 x.2) (hm : l ∈ x.2.links)
    (he : actAll N ph (l :: ls) x = .ok y) :
    ∃ i0 i1 s ps vs, x.1.proxies l = some (i0, i1) ∧ x.2.bodies[i0]? = some (N.ends l).1 ∧ x.2.bodies[i1]? = some (N.ends l).2 ∧
      N.act ph l i0 i1 x.1.s x.2.ps x.2.vs = .ok (s, ps, vs) ∧ actAll N ph ls ({ x.1 with s := s }, { x.2 with ps := ps, vs := vs }) = .ok y := by
  obtain ⟨st, isl⟩ := x
  obtain ⟨i0, i1, hp, h0, h1⟩ := hl l hm
  have hp : st.proxies l = some (i0, i1) := hp
  unfold actAll at he
  rw [hp] at he
  dsimp only at he
  rw [bind_ok_iff] at he
  obtain ⟨⟨s', ps', vs'⟩, ha, he⟩ := he
  exact ⟨i0, i1, s', ps', vs', hp, h0, h1, ha, he⟩

theorem ends_ne {bs : List Nat} {i0 i1 a b : Nat} (h : a ≠ b) (h0 : bs[i0]? = some a) (h1 : bs[i1]? = some b) : i0 ≠ i1 := by
  rintro rfl
  rw [h0] at h1
  exact h (Option.some.inj h1)

theorem actAll_quiet (hN : Lawful N) (hg : Steady N good) {ph : Phase} (ls : List Link) {x y : St P V S × Isl P V} (hl : Linked N x.1 x.2)
    (hls : ∀ l ∈ ls, l ∈ x.2.links) (hx : ∀ l ∈ ls, Spends N good ready en store ok l) (hs : good x.1.s)
    (hq : ∀ l ∈ ls, ∀ i0 i1 s ps vs s' ps' vs', i0 ≠ i1 → good s → N.act ph l i0 i1 s ps vs = .ok (s', ps', vs') → vs' i0 = vs i0 ∧ vs' i1 = vs i1)
    (he : actAll N ph ls x = .ok y) : y.2.vs = x.2.vs ∧ good y.1.s := by
  induction ls generalizing x with
  | nil => obtain ⟨st, isl⟩ := x; cases Outcome.ok.inj he; exact ⟨rfl, hs⟩
  | cons l ls ih =>
    obtain ⟨i0, i1, s, ps, vs, hp, h0, h1, ha, he⟩ := actAll_cons hl (hls l (by simp)) he
    have hne := ends_ne (hx l (by simp)).two h0 h1
    obtain ⟨q0, q1⟩ := hq l (by simp) i0 i1 _ _ _ _ _ _ hne hs ha
    have hv : vs = x.2.vs := by
      funext k
      by_cases k0 : k = i0
      · rw [k0, q0]
      by_cases k1 : k = i1
      · rw [k1, q1]
      exact (hN.act ph l i0 i1 _ _ _ _ _ _ ha k (fun h => absurd h k0) (fun h => absurd h k1)).2
    obtain ⟨a, b⟩ := ih (x := ({ x.1 with s := s }, { x.2 with ps := ps, vs := vs })) hl (fun l' hl' => hls l' (List.mem_cons_of_mem _ hl'))
      (fun l' hl' => hx l' (List.mem_cons_of_mem _ hl')) (hg.act _ _ _ _ _ _ _ _ _ _ hs ha) (fun l' hl' => hq l' (List.mem_cons_of_mem _ hl')) he
    exact ⟨a.trans hv, b⟩

theorem actRounds_quiet (hN : Lawful N) (hg : Steady N good) {ph : Phase} (ls : List Link) (n : Nat) {x y : St P V S × Isl P V} (hl : Linked N x.1 x.2)
    (hls : ∀ l ∈ ls, l ∈ x.2.links) (hx : ∀ l ∈ ls, Spends N good ready en store ok l) (hs : good x.1.s)
    (hq : ∀ l ∈ ls, ∀ i0 i1 s ps vs s' ps' vs', i0 ≠ i1 → good s → N.act ph l i0 i1 s ps vs = .ok (s', ps', vs') → vs' i0 = vs i0 ∧ vs' i1 = vs i1)
    (he : actRounds N ph ls n x = .ok y) : y.2.vs = x.2.vs := by
  induction n generalizing x with
  | zero => cases Outcome.ok.inj he; rfl
  | succ n ih =>
    unfold actRounds at he
    rw [bind_ok_iff] at he
    obtain ⟨z, hz, he⟩ := he
    obtain ⟨a, b⟩ := actAll_quiet hN hg ls hl hls hx hs hq hz
    obtain ⟨f1, f2, f3, f4⟩ := (actAll_run (Q := fun _ => True) trivial ls hls hz).frame
    have := ih (x := z) (fun l hm => by rw [f1, f3]; exact hl l (by rw [← f4]; exact hm)) (fun l hm => by rw [f4]; exact hls l hm) b he
    exact this.trans a

/-- After `initSolve` the stores are empty. -/
theorem actAll_init (hg : Steady N good) (ls done : List Link) {x y : St P V S × Isl P V} (hl : Linked N x.1 x.2)
    (hls : ∀ l ∈ ls, l ∈ x.2.links) (hx : ∀ l ∈ ls, Spends N good ready en store ok l) (hs : good x.1.s)
    (hd : ∀ l ∈ done, store l x.1.s = 0 ∧ ∀ i0 i1, x.1.proxies l = some (i0, i1) → ready l i0 i1 x.1.s)
    (he : actAll N .initSolve ls x = .ok y) :
    ∀ l, l ∈ done ∨ l ∈ ls → store l y.1.s = 0 ∧ ∀ i0 i1, x.1.proxies l = some (i0, i1) → ready l i0 i1 y.1.s := by
  induction ls generalizing x done with
  | nil => obtain ⟨st, isl⟩ := x; cases Outcome.ok.inj he; simpa using hd
  | cons l ls ih =>
    obtain ⟨i0, i1, s, ps, vs, hp, h0, h1, ha, he⟩ := actAll_cons hl (hls l (by simp)) he
    have hne := ends_ne (hx l (by simp)).two h0 h1
    obtain ⟨-, -, q1, q2⟩ := (hx l (by simp)).init i0 i1 _ _ _ _ _ _ hne hs ha
    have key := ih (l :: done) (x := ({ x.1 with s := s }, { x.2 with ps := ps, vs := vs })) hl (fun l' hl' => hls l' (List.mem_cons_of_mem _ hl'))
      (fun l' hl' => hx l' (List.mem_cons_of_mem _ hl')) (hg.act _ _ _ _ _ _ _ _ _ _ hs ha) (by
        intro l' hl'
        by_cases h : l' = l
        · subst h
          refine ⟨q2, fun j0 j1 hj => ?_⟩
          have hj : x.1.proxies l' = some (j0, j1) := hj
          rw [hp] at hj
          simp only [Option.some.injEq, Prod.mk.injEq] at hj
          rw [← hj.1, ← hj.2]
          exact q1
        · obtain ⟨o1, o2⟩ := (hx l (by simp)).others _ _ _ _ _ _ _ _ _ ha l' h
          obtain ⟨d1, d2⟩ := hd l' (by rcases List.mem_cons.1 hl' with h' | h'; exact absurd h' h; exact h')
          exact ⟨o1.trans d1, fun j0 j1 hj => o2 _ _ (d2 _ _ hj)⟩) he
    intro l' hl'
    exact key l' (by
      rcases hl' with hl' | hl'
      · exact Or.inl (List.mem_cons_of_mem _ hl')
      · rcases List.mem_cons.1 hl' with h | h
        · exact Or.inl (by simp [h])
        · exact Or.inr h)

/-- Velocity iterations spend energy. -/
theorem actAll_spend (hN : Lawful N) (hg : Steady N good) (ls all : List Link) {x y : St P V S × Isl P V} (hl : Linked N x.1 x.2)
    (hall : ∀ l ∈ ls, l ∈ all) (hls : ∀ l ∈ all, l ∈ x.2.links) (hx : ∀ l ∈ all, Spends N good ready en store ok l) (hs : good x.1.s)
    (hr : AllReady ready all x.1) (ho : AllOk ok x.2.bodies x.2.vs) (he : actAll N .solveVelocities ls x = .ok y) :
    good y.1.s ∧ AllReady ready all y.1 ∧ AllOk ok y.2.bodies y.2.vs ∧ total en store all y ≤ total en store all x := by
  induction ls generalizing x with
  | nil => obtain ⟨st, isl⟩ := x; cases Outcome.ok.inj he; exact ⟨hs, hr, ho, le_rfl⟩
  | cons l ls ih =>
    have hla := hall l (by simp)
    obtain ⟨i0, i1, s, ps, vs, hp, h0, h1, ha, he⟩ := actAll_cons hl (hls l hla) he
    have hne := ends_ne (hx l hla).two h0 h1
    obtain ⟨q1, q2, q3, q4⟩ := (hx l hla).velocities i0 i1 _ _ _ _ _ _ hne hs (hr l hla _ _ hp) (ho _ _ h0) (ho _ _ h1) ha
    have hsame : ∀ k, k ≠ i0 → k ≠ i1 → vs k = x.2.vs k := fun k k0 k1 =>
      (hN.act _ l i0 i1 _ _ _ _ _ _ ha k (fun h => absurd h k0) (fun h => absurd h k1)).2
    have hother := (hx l hla).others _ _ _ _ _ _ _ _ _ ha
    obtain ⟨k1, k2, k3, k4⟩ := ih (x := ({ x.1 with s := s }, { x.2 with ps := ps, vs := vs })) hl (fun l' hl' => hall l' (List.mem_cons_of_mem _ hl'))
      hls (hg.act _ _ _ _ _ _ _ _ _ _ hs ha) (by
        intro l' hl' j0 j1 hj
        by_cases h : l' = l
        · subst h
          have hj : x.1.proxies l' = some (j0, j1) := hj
          rw [hp] at hj
          simp only [Option.some.injEq, Prod.mk.injEq] at hj
          rw [← hj.1, ← hj.2]
          exact q1
        · exact (hother l' h).2 _ _ (hr l' hl' _ _ hj)) (by
        intro b i hb
        by_cases k0 : i = i0
        · subst k0
          have : b = (N.ends l).1 := Option.some.inj (hb.symm.trans h0)
          rw [this]; exact q2
        by_cases k1 : i = i1
        · subst k1
          have : b = (N.ends l).2 := Option.some.inj (hb.symm.trans h1)
          rw [this]; exact q3
        show ok b (vs i)
        rw [hsame i k0 k1]; exact ho b i hb) he
    refine ⟨k1, k2, k3, k4.trans ?_⟩
    unfold total
    have hst : ∑ l' ∈ all.toFinset, store l' s = ∑ l' ∈ all.toFinset, store l' x.1.s + (store l s - store l x.1.s) := by
      have hm : l ∈ all.toFinset := by simpa using hla
      rw [← Finset.add_sum_erase _ _ hm, ← Finset.add_sum_erase _ (fun l' => store l' x.1.s) hm]
      rw [Finset.sum_congr rfl (g := fun l' => store l' x.1.s) fun l' hl' => (hother l' (Finset.ne_of_mem_erase hl')).1]
      abel
    have hv : amountV en x.2.bodies vs + (store l s - store l x.1.s) ≤ amountV en x.2.bodies x.2.vs := by
      refine sum_spend (lt_of_get h0) (lt_of_get h1) hne ?_ fun k k0 k1 => by rw [hsame k k0 k1]
      rw [getD_of h0, getD_of h1]
      have := sub_le_sub_right q4 (store l x.1.s)
      rw [add_sub_assoc, add_sub_cancel_right] at this
      exact this
    show amountV en x.2.bodies vs + ∑ l' ∈ all.toFinset, store l' s ≤ _
    rw [hst, add_comm (∑ l' ∈ all.toFinset, store l' x.1.s), ← add_assoc]
    exact add_le_add hv le_rfl

theorem actRounds_spend (hN : Lawful N) (hg : Steady N good) (ls : List Link) (n : Nat) {x y : St P V S × Isl P V} (hl : Linked N x.1 x.2)
    (hls : ∀ l ∈ ls, l ∈ x.2.links) (hx : ∀ l ∈ ls, Spends N good ready en store ok l) (hs : good x.1.s)
    (hr : AllReady ready ls x.1) (ho : AllOk ok x.2.bodies x.2.vs) (he : actRounds N .solveVelocities ls n x = .ok y) :
    good y.1.s ∧ AllReady ready ls y.1 ∧ AllOk ok y.2.bodies y.2.vs ∧ total en store ls y ≤ total en store ls x := by
  induction n generalizing x with
  | zero => cases Outcome.ok.inj he; exact ⟨hs, hr, ho, le_rfl⟩
  | succ n ih =>
    unfold actRounds at he
    rw [bind_ok_iff] at he
    obtain ⟨z, hz, he⟩ := he
    obtain ⟨a, b, c, d⟩ := actAll_spend hN hg ls ls hl (fun _ h => h) hls hx hs hr ho hz
    obtain ⟨f1, f2, f3, f4⟩ := (actAll_run (Q := fun _ => True) trivial ls hls hz).frame
    obtain ⟨a', b', c', d'⟩ := ih (x := z) (fun l hm => by rw [f1, f3]; exact hl l (by rw [← f4]; exact hm)) (fun l hm => by rw [f4]; exact hls l hm) a b c he
    exact ⟨a', b', c', d'.trans d⟩

/-- What one island spends. -/
theorem solveIsland_spend (hN : Lawful N) (hg : Steady N good) (cfg : Settings) (hw : cfg.enableWarmstarting = false) {st0 st st' : St P V S} {isl isl' : Isl P V}
    (h : Building N st0 st isl) (hs : good st.s) (hx : ∀ l ∈ isl.links, Spends N good ready en store ok l) (ho : ∀ b ∈ isl.bodies, ok b (st0.body b).vel)
    (he : solveIsland N cfg st isl = .ok (st', isl')) :
    ∑ b ∈ isl.bodies.toFinset, en b (st'.body b).vel ≤ ∑ b ∈ isl.bodies.toFinset, en b (st0.body b).vel ∧ ∀ b ∈ isl.bodies, ok b (st'.body b).vel := by
  obtain ⟨a, x1, x2, x, y, h1, h2, h3, h4, h5, e1, e2, e3, e4, h8, h9⟩ := solveIsland_phases cfg h he
  rw [hw] at e2
  simp only [Bool.false_eq_true, if_false] at e2
  cases Outcome.ok.inj e2
  have hn := h.indexed.nodup
  have hga : good a.1.s := by rw [h4]; exact hs
  have hls : ∀ l ∈ isl.links, l ∈ a.2.links := fun l hl => by rw [h3]; exact hl
  obtain ⟨v1, g1⟩ := actAll_quiet hN hg isl.links h1 hls hx hga (fun l hl i0 i1 s ps vs s' ps' vs' hne hs ha =>
    ⟨((hx l hl).init i0 i1 s ps vs s' ps' vs' hne hs ha).1, ((hx l hl).init i0 i1 s ps vs s' ps' vs' hne hs ha).2.1⟩) e1
  obtain ⟨f1, f2, f3, f4⟩ := (actAll_run (Q := fun _ => True) trivial _ hls e1).frame
  have r1 := actAll_init hg isl.links [] h1 hls hx hga (by simp) e1
  have l1 : Linked N x1.1 x1.2 := fun l hm => by rw [f1, f3]; exact h1 l (by rw [← f4]; exact hm)
  have hls1 : ∀ l ∈ isl.links, l ∈ x1.2.links := fun l hl => by rw [f4]; exact hls l hl
  obtain ⟨g2, r2, o2, t2⟩ := actRounds_spend hN hg isl.links _ l1 hls1 hx g1 (fun l hl i0 i1 hp => (r1 l (Or.inr hl)).2 i0 i1 (by rw [← f1]; exact hp)) (by
    intro b i hb
    rw [f3, h2] at hb
    rw [v1, (h5 b i hb).2]
    exact ho b (List.mem_of_getElem? hb)) e3
  obtain ⟨k1, k2, k3, k4⟩ := (actRounds_run (Q := fun _ => True) trivial _ _ hls1 e3).frame
  have lx : Linked N (integrate N x).1 (integrate N x).2 := fun l hm => by
    show ∃ i0 i1, x.1.proxies l = _ ∧ x.2.bodies[i0]? = _ ∧ x.2.bodies[i1]? = _
    rw [k1, k3]; exact l1 l (by rw [← k4]; exact hm)
  have v3 := actRounds_quiet hN hg isl.links _ lx (fun l hl => by
    show l ∈ x.2.links
    rw [k4]; exact hls1 l hl) hx (show good x.1.s from g2) (fun l hl i0 i1 s ps vs s' ps' vs' hne hs ha =>
    (hx l hl).positions i0 i1 s ps vs s' ps' vs' hne hs ha) e4
  have v3 : y.2.vs = x.2.vs := v3
  have hxb : x.2.bodies = isl.bodies := (k3.trans f3).trans h2
  constructor
  · have t0 : total en store isl.links x1 = amountV en isl.bodies a.2.vs := by
      unfold total
      rw [f3, h2, v1, Finset.sum_eq_zero fun l hl => (r1 l (Or.inr (by simpa using hl))).1, add_zero]
    have t1 : amountV en isl.bodies x.2.vs ≤ total en store isl.links x := by
      unfold total
      rw [hxb]
      refine le_add_of_nonneg_right (Finset.sum_nonneg fun l hl => ?_)
      have hl : l ∈ isl.links := by simpa using hl
      obtain ⟨i0, i1, hp, -⟩ := l1 l (hls1 l hl)
      exact (hx l hl).nonneg i0 i1 _ g2 (r2 l hl i0 i1 (by rw [k1]; exact hp))
    rw [← amount_eq (qv := en) (val := fun b => (st'.body b).vel) (vs := x.2.vs) hn fun b i hb => by rw [(h9 b i hb).2, v3],
      ← amount_eq (qv := en) (val := fun b => (st0.body b).vel) (vs := a.2.vs) hn fun b i hb => (h5 b i hb).2.symm]
    exact t1.trans (t2.trans (le_of_eq t0))
  · intro b hb
    obtain ⟨i, hi⟩ := List.getElem?_of_mem hb
    rw [(h9 b i hi).2, v3]
    exact o2 b i (by rw [hxb]; exact hi)

/-- What is known of a group while islands are solved one after the other. -/
structure GroupSpent (good : S → Prop) (en : Nat → V → K) (ok : Nat → V → Prop) (group : Finset Nat) (st0 st : St P V S) : Prop where
  steady : good st.s
  energy : ∑ b ∈ group, en b (st.body b).vel ≤ ∑ b ∈ group, en b (st0.body b).vel
  ok : ∀ b ∈ group, ok b (st.body b).vel

theorem GroupSpent.step {A : Link → Bool} {world : List Nat} {st0 st : St P V S} {toProcess : List Nat} {done : List Record} {group : Finset Nat}
    (hN : Lawful N) (hg : Steady N good) (hc : Consistent N world) (hiso : Isolated N A group)
    (hx : ∀ b ∈ group, ∀ l ∈ linksOf N b, A l = true → Spends N good ready en store ok l)
    (h : Progress N A world st0 st toProcess done) (k : GroupSpent good en ok group st0 st) {isl : Isl P V} (hz : isl.Empty) {root fuel : Nat}
    (hroot : root ∈ toProcess) {x : St P V S × Isl P V} (hi : init N fuel st isl root = some (.ok x)) (cfg : Settings) (hw : cfg.enableWarmstarting = false)
    {y : St P V S × Isl P V} (hs : solveIsland N cfg x.1 x.2 = .ok y) (hA : ∀ e ∈ y.1.evals, e.2 = A e.1) : GroupSpent good en ok group st0 y.1 := by
  obtain ⟨hrw, hrd⟩ := (h.remaining root).1 hroot
  obtain ⟨hb, ⟨ev, hev⟩, hrb, hbw, _, _⟩ := init_evals hc.closed hrw h.idle hz hi
  obtain ⟨q1, q2, q3, q4, q5, q6, q7, q8, q9⟩ := solveIsland_spec (st' := y.1) (isl' := y.2) hN cfg h.idle hb hs
  have hAx : ∀ e ∈ x.1.evals, e.2 = A e.1 := by rw [← q5]; exact hA
  obtain ⟨i1, i2⟩ := init_spec (A := A) hc.closed hrw h.idle hz hi hAx
  rw [touches_congr h.structural] at i1
  simp only [h.structural] at i2
  have hgx : good x.1.s := init_s hg.isActive hi k.steady
  have hgy : good y.1.s := solveIsland_steady (st' := y.1) (isl' := y.2) hg cfg hb hgx hs
  have hstep := (Progress.step hN hc h hz hroot hi cfg hs hA).1
  have hfix : ∀ b, interactsAsStructural N st0 b = true → (y.1.body b).vel = (st.body b).vel := by
    intro b hsb
    exact (hstep.fixed b hsb).2.trans (h.fixed b hsb).2.symm
  have hout : ∀ b, b ∉ x.2.bodies → y.1.body b = st.body b := q7
  by_cases hcase : ∃ b ∈ x.2.bodies, b ∈ group ∧ interactsAsStructural N st0 b = false
  · obtain ⟨c, hcx, hcg, hcf⟩ := hcase
    have hsub : ∀ b ∈ x.2.bodies, b ∈ group := by
      intro b hbx
      have hcb := (reach_symm hc hrw ((i1 c).1 hcx) hcf).trans ((i1 b).1 hbx)
      clear hbx
      induction hcb with
      | refl => exact hcg
      | tail _ ht ih =>
        obtain ⟨_, l, hl, ha, rfl | rfl⟩ := ht
        · exact (hiso _ ih l hl ha).1
        · exact (hiso _ ih l hl ha).2
    have hxl : ∀ l ∈ x.2.links, Spends N good ready en store ok l := by
      intro l hl
      obtain ⟨a, b, hbx, _, hbl⟩ := (i2 l).1 hl
      exact hx b (hsub b hbx) l hbl a
    obtain ⟨v, o⟩ := solveIsland_spend (st' := y.1) (isl' := y.2) hN hg cfg hw hb hgx hxl (fun b hb' => k.ok b (hsub b hb')) hs
    have hss : x.2.bodies.toFinset ⊆ group := fun b hb' => hsub b (List.mem_toFinset.1 hb')
    refine ⟨hgy, le_trans ?_ k.energy, fun b hb' => ?_⟩
    · rw [← Finset.sum_sdiff hss, ← Finset.sum_sdiff (f := fun b => en b (st.body b).vel) hss]
      refine add_le_add (le_of_eq (Finset.sum_congr rfl fun b hb' => ?_)) v
      rw [hout b (by simpa using (Finset.mem_sdiff.1 hb').2)]
    · by_cases hm : b ∈ x.2.bodies
      · exact o b hm
      · rw [hout b hm]; exact k.ok b hb'
  · have hsame : ∀ b ∈ group, (y.1.body b).vel = (st.body b).vel := by
      intro b hbg
      by_cases hm : b ∈ x.2.bodies
      · refine hfix b ?_
        by_contra hf
        exact hcase ⟨b, hm, hbg, by simpa using hf⟩
      · rw [hout b hm]
    exact ⟨hgy, le_trans (le_of_eq (Finset.sum_congr rfl fun b hb' => by rw [hsame b hb'])) k.energy, fun b hb' => by rw [hsame b hb']; exact k.ok b hb'⟩

theorem solveLoop_spend {A : Link → Bool} {cfg : Settings} (hw : cfg.enableWarmstarting = false) {world : List Nat} {group : Finset Nat}
    (hN : Lawful N) (hg : Steady N good) (hc : Consistent N world) (hiso : Isolated N A group)
    (hx : ∀ b ∈ group, ∀ l ∈ linksOf N b, A l = true → Spends N good ready en store ok l)
    (fuel : Nat) {toProcess : List Nat} {st0 st st' : St P V S} {isl : Isl P V} {done log : List Record} (h : Progress N A world st0 st toProcess done)
    (k : GroupSpent good en ok group st0 st)
    (hz : isl.Empty) (he : solveLoop N cfg fuel toProcess st isl done = some (.ok (st', log))) (hA : ∀ e ∈ st'.evals, e.2 = A e.1) :
    GroupSpent good en ok group st0 st' := by
  induction fuel generalizing toProcess st isl done with
  | zero => simp [solveLoop] at he
  | succ fuel ih =>
    rcases solveLoop_cases he with ⟨_, rfl, rfl⟩ | ⟨n, root, x, y, hn, hroot, hi, hs, he'⟩
    · exact k
    · have hn : n = fuel := by omega
      subst hn
      have hb := (init_evals hc.closed ((h.remaining root).1 hroot).1 h.idle hz hi).1
      have q1 := (solveIsland_spec (st' := y.1) (isl' := y.2) hN cfg h.idle hb hs).1
      have hAy : ∀ e ∈ y.1.evals, e.2 = A e.1 := by
        obtain ⟨⟨ev, hev⟩, -⟩ := solveLoop_evals hN hc.closed n (fun b hb => ((h.remaining b).1 (List.mem_filter.1 hb).1).1) q1 (Isl.clear_empty _) he'
        intro e hm
        exact hA e (by rw [hev]; exact List.mem_append_left _ hm)
      exact ih (h.step hN hc hz hroot hi cfg hs hAy).1 (k.step hN hg hc hiso hx h hz hroot hi cfg hw hs hAy) (Isl.clear_empty _) he'

end
end Simu.Island
