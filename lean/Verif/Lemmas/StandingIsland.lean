import Verif.Lemmas.Standing
import Verif.Lemmas.IslandTwin
import Verif.Props.Library
/-
Islands whose constraints carry their bodies.
-/
namespace Simu
open Island Mat Contact
variable {K : Type*} [Field K] [LinearOrder K] [IsStrictOrderedRing K] [Trig K] {L : Library K} {c : CallCfg K}
variable {pos : Nat → Pose K} {vel : Nat → Velocity K} {P : Link → Six K}

/-- Every constraint is called once. -/
theorem actAll_each {ph : Phase} :
    ∀ (ls : List Link) {x y : St (Pose K) (Velocity K) ((l : Link) → (L.kind l).State) × Isl (Pose K) (Velocity K)}, ls.Nodup →
      actAll (L.net c) ph ls x = .ok y → ∀ l ∈ ls, ∃ p s s', (L.kind l).act c ph p (x.1.s l) s = .ok (y.1.s l, s')
  | [], x, y, _, _, l, hl => (List.not_mem_nil hl).elim
  | k :: ks, x, y, hn, h, l, hl => by
    obtain ⟨n1, n2⟩ := List.nodup_cons.1 hn
    obtain ⟨ends, e', s', -, ha, h⟩ := actAll_library_cons h
    rcases List.mem_cons.1 hl with rfl | hl
    · refine ⟨L.proxies l ends, x.2.view, s', ?_⟩
      rw [actAll_untouched ks n1 h]
      simp only [Function.update_self]
      exact ha
    · obtain ⟨p, s, t, i⟩ := actAll_each ks n2 h l hl
      have : l ≠ k := fun e => n1 (e ▸ hl)
      simp only [Function.update_of_ne this] at i
      exact ⟨p, s, t, i⟩

omit [LinearOrder K] [IsStrictOrderedRing K] [Trig K] in
/-- Bodies by their places in the island. -/
theorem kick_index {bs : List Nat} (hn : bs.Nodup) {i i0 i1 b b0 b1 : Nat} (h : bs[i]? = some b) (h0 : bs[i0]? = some b0) (h1 : bs[i1]? = some b1) (m : InvMasses K) (Q : Six K) :
    kick ⟨i0, i1, m⟩ Q i = kick ⟨b0, b1, m⟩ Q b := by
  have key : ∀ {j a : Nat}, bs[j]? = some a → (i = j ↔ b = a) := by
    intro j a hj
    constructor
    · rintro rfl; exact Option.some.inj (h.symm.trans hj)
    · rintro rfl
      exact (List.getElem?_inj (lt_of_get h) hn).1 (h.trans hj.symm)
  unfold kick
  simp only [key h0, key h1]

omit [IsStrictOrderedRing K] in
theorem act_apart {ph : Phase} {l : Link} {i0 i1 : Nat} {s s' : (l : Link) → (L.kind l).State} {ps ps' : Nat → Pose K} {vs vs' : Nat → Velocity K}
    (h : (L.net c).act ph l i0 i1 s ps vs = .ok (s', ps', vs')) {l' : Link} (hl : l' ≠ l) : s' l' = s l' := by
  obtain ⟨e', t, -, he, -⟩ := Library.act_ok h
  rw [he, Function.update_of_ne hl]

/-- The position iterations. -/
theorem actRounds_standing (hN : Lawful (L.net c)) (hs : ∀ x, 0 ≤ x → c.sqrt x * c.sqrt x = x) (ls : List Link) :
    ∀ (n : Nat) {x y : St (Pose K) (Velocity K) ((l : Link) → (L.kind l).State) × Isl (Pose K) (Velocity K)}, Linked (L.net c) x.1 x.2 → (∀ l ∈ ls, l ∈ x.2.links) →
      (∀ l ∈ ls, L.Carrying c pos vel P x.1.s l) → InPlace pos (fun _ => ⟨0, 0⟩) x.2 → actRounds (L.net c) .solvePositions ls n x = .ok y →
      InPlace pos (fun _ => ⟨0, 0⟩) y.2 ∧ ∀ l ∈ ls, L.Carrying c pos vel P y.1.s l
  | 0, x, y, _, _, hx, hp, he => by cases Outcome.ok.inj he; exact ⟨hp, hx⟩
  | n + 1, x, y, hl, hls, hx, hp, he => by
    unfold actRounds at he
    obtain ⟨z, hz, he⟩ := bind_ok_iff.1 he
    have other : ∀ l i0 i1 s ps vs s' ps' vs', (L.net c).act .solvePositions l i0 i1 s ps vs = .ok (s', ps', vs') → ∀ l', l' ≠ l →
        L.Carrying c pos vel P s l' → L.Carrying c pos vel P s' l' := by
      intro l i0 i1 s ps vs s' ps' vs' h l' hne hc
      unfold Library.Carrying at hc ⊢
      rw [act_apart h hne]; exact hc
    obtain ⟨a, b⟩ := actAll_still (pre := fun l s => L.Carrying c pos vel P s l) (post := fun l s => L.Carrying c pos vel P s l) hN (fun _ _ h => h)
      (fun l i0 i1 s ps vs s' ps' vs' h l' hne => ⟨other l i0 i1 s ps vs s' ps' vs' h l' hne, other l i0 i1 s ps vs s' ps' vs' h l' hne⟩) ls [] hl hls
      (by
        intro l hm i0 i1 s ps vs s' ps' vs' hc p0 p1 v0 v1 ha
        obtain ⟨e', t, hk, he, hv, hpt⟩ := Library.act_ok ha
        obtain ⟨c1, c2, c3, c4⟩ := hc
        obtain ⟨r1, r2⟩ := Kind.repeats_positions (s := ⟨fun i => (ps i).1, vs⟩) hs (pos (L.bodies l).i0).2 (pos (L.bodies l).i1).2 c4 (congrArg Subtype.val p0) (congrArg Subtype.val p1) hk
        have r3 := Kind.fresh_positions (s := ⟨fun i => (ps i).1, vs⟩) (congrArg Subtype.val p0) (congrArg Subtype.val p1) hk
        subst r2
        refine ⟨⟨c1, c2, ?_, ?_⟩, Subtype.ext (hpt i0), Subtype.ext (hpt i1), by rw [hv], by rw [hv]⟩
        · rw [he, Function.update_self]; exact r3
        · rw [he, Function.update_self]; exact r1.carrying c4) hx (by simp) hp hz
    obtain ⟨f1, f2, f3, f4⟩ := (actAll_run (Q := fun _ => True) trivial ls hls hz).frame
    exact actRounds_standing hN hs ls n (x := z) (fun l hm => by rw [f1, f3]; exact hl l (by rw [← f4]; exact hm)) (fun l hm => by rw [f4]; exact hls l hm) (fun l hm => b l (Or.inr hm)) a he

/-- An island in equilibrium. -/
theorem solveIsland_standing (hN : Lawful (L.net c)) (hsq : ∀ x, 0 ≤ x → c.sqrt x * c.sqrt x = x) (heps : 0 ≤ c.epsilon) (hfuel : 1 ≤ c.fuel) (cfg : Settings)
    {warm : Bool} (hwarm : cfg.enableWarmstarting = warm)
    (hcold : warm = false → ∀ l, P l = 0) {st0 st st' : St (Pose K) (Velocity K) ((l : Link) → (L.kind l).State)} {isl isl' : Isl (Pose K) (Velocity K)}
    (h : Building (L.net c) st0 st isl) (hbear : ∀ l ∈ isl.links, L.Bears warm c pos vel P st.s l) (hp : ∀ b ∈ isl.bodies, (st0.body b).pos = pos b ∧ (st0.body b).vel = vel b)
    (hbal : ∀ b ∈ isl.bodies, vel b + ∑ l ∈ isl.links.toFinset, L.share l (P l) b = 0) (he : solveIsland (L.net c) cfg st isl = .ok (st', isl')) :
    (∀ l ∈ isl.links, L.Bears warm c pos vel P st'.s l) ∧ ∀ b ∈ isl.bodies, (st'.body b).pos = pos b ∧ (st'.body b).vel = ⟨0, 0⟩ := by
  obtain ⟨a, x1, x2, x, y, h1, h2, h3, h4, h5, e1, e2, e3, e4, h8, h9⟩ := solveIsland_phases cfg h he
  have hls : ∀ l ∈ isl.links, l ∈ a.2.links := fun l hl => by rw [h3]; exact hl
  have hnb := h.indexed.nodup
  have link : ∀ l ∈ isl.links, ∃ i0 i1, a.1.proxies l = some (i0, i1) ∧ isl.bodies[i0]? = some (L.bodies l).i0 ∧ isl.bodies[i1]? = some (L.bodies l).i1 := by
    intro l hl
    obtain ⟨i0, i1, q1, q2, q3⟩ := h1 l (hls l hl)
    rw [h2] at q2 q3
    exact ⟨i0, i1, q1, q2, q3⟩
  have place : ∀ b i, isl.bodies[i]? = some b → a.2.ps i = pos b ∧ a.2.vs i = vel b := by
    intro b i hb
    obtain ⟨p, v⟩ := h5 b i hb
    obtain ⟨p', v'⟩ := hp b (List.mem_of_getElem? hb)
    exact ⟨p.trans p', v.trans v'⟩
  have hposed : Posed L c isl.links a := by
    refine ⟨hsq, heps, hfuel, h.nodup, fun l hl => (hbear l hl).choose_spec.2.1, fun l hl => ?_⟩
    obtain ⟨i0, i1, q1, q2, q3⟩ := link l hl
    obtain ⟨Q, -, c1, c2, c3, c4⟩ := hbear l hl
    refine ⟨(i0, i1), q1, ?_⟩
    rw [h4]
    refine Kind.carrying_regular (s := a.2.view) c4 ?_ (congrArg Subtype.val (place _ _ q2).1) (congrArg Subtype.val (place _ _ q3).1) c3
    intro hi
    have hi : i0 = i1 := hi
    subst hi
    exact c2 (Option.some.inj (q2.symm.trans q3))
  have hreach : Reached L c isl.links 0 a x2 := by
    refine ⟨x1, x2, e1, ?_, rfl⟩
    split at e2
    · exact Or.inr e2
    · exact Or.inl (Outcome.ok.inj e2).symm
  have hgo := hreach.going hposed
  set Pr : Link → Proxies K := fun l => L.proxies l ((a.1.proxies l).getD (0, 0)) with hPr
  have tal := hreach.tallied (P := Pr) hposed (fun l hl => by
    obtain ⟨i0, i1, q1, -⟩ := link l hl
    exact ⟨(i0, i1), q1, by rw [hPr]; simp only [q1, Option.getD_some]⟩)
  obtain ⟨s0, hx, hrep⟩ : ∃ s0 : (l : Link) → (L.kind l).State, (∀ l ∈ isl.links, L.Carrying c pos vel P s0 l) ∧ ∀ l ∈ isl.links, (L.kind l).Repeats (s0 l) (x2.1.s l) := by
    cases hw : cfg.enableWarmstarting with
    | true =>
      rw [if_pos hw] at e2
      have hx : ∀ l ∈ isl.links, L.Carrying c pos vel P a.1.s l := fun l hl => by
        obtain ⟨Q, hQ, hc⟩ := hbear l hl
        rw [← hQ (hwarm.symm.trans hw), h4]
        exact hc
      refine ⟨a.1.s, hx, fun l hl => ?_⟩
      obtain ⟨p, s, s', q1⟩ := actAll_each isl.links h.nodup e1 l hl
      obtain ⟨p', t, t', q2⟩ := actAll_each isl.links h.nodup e2 l hl
      obtain ⟨b1, b2, -⟩ := actAll_blank isl.links e1 l hl
      obtain ⟨-, -, -, c4⟩ := hx l hl
      exact Kind.repeats_warmstart c4 (Kind.recalls_init q1) b1 b2 q2
    | false =>
      rw [if_neg (by rw [hw]; decide)] at e2
      obtain rfl : x1 = x2 := Outcome.ok.inj e2
      refine ⟨fun l => (L.kind l).forget (a.1.s l), fun l hl => ?_, fun l hl => ?_⟩
      · obtain ⟨Q, -, c1, c2, c3, c4⟩ := hbear l hl
        refine ⟨c1, c2, ?_, ?_⟩
        · rw [← h4] at c3
          exact Kind.fresh_forget c3
        · rw [hcold (hwarm.symm.trans hw)]
          rw [← h4] at c4
          exact Kind.carrying_forget c4
      · obtain ⟨b1, b2, -⟩ := actAll_blank isl.links e1 l hl
        exact Kind.repeats_forget b1 b2
  have hgiven : ∀ l ∈ isl.links, (L.kind l).given (x2.1.s l) = P l := by
    intro l hl
    obtain ⟨i0, i1, q1, q2, q3⟩ := link l hl
    obtain ⟨-, -, -, c4⟩ := hx l hl
    obtain ⟨ends, p1, -, p2⟩ := hgo l hl
    have : ends = (i0, i1) := by rw [tal.proxies, q1] at p1; exact (Option.some.inj p1).symm
    subst this
    exact Kind.given_repeats (s := a.2.view) c4 (congrArg Subtype.val (place _ _ q2).1) (congrArg Subtype.val (place _ _ q3).1) (hrep l hl) p2
  have stop : ∀ b i, isl.bodies[i]? = some b → x2.2.ps i = pos b ∧ x2.2.vs i = ⟨0, 0⟩ := by
    intro b i hb
    refine ⟨by rw [tal.still]; exact (place b i hb).1, ?_⟩
    rw [tal.total, (place b i hb).2]
    have := hbal b (List.mem_of_getElem? hb)
    rw [show (⟨0, 0⟩ : Velocity K) = 0 from rfl, ← this]
    congr 1
    refine Finset.sum_congr rfl fun l hl => ?_
    have hl := List.mem_toFinset.1 hl
    obtain ⟨i0, i1, q1, q2, q3⟩ := link l hl
    rw [hgiven l hl, hPr]
    simp only [q1, Option.getD_some]
    exact kick_index hnb hb q2 q3 _ _
  have hlaws : Laws L c isl.links a x2 := by
    intro l hl
    obtain ⟨i0, i1, q1, q2, q3⟩ := link l hl
    obtain ⟨-, -, -, c4⟩ := hx l hl
    refine ⟨(i0, i1), by rw [tal.proxies]; exact q1, ?_⟩
    exact Kind.law_rest (s := a.2.view) (t := x2.2.view) c4 (congrArg Subtype.val (place _ _ q2).1) (congrArg Subtype.val (place _ _ q3).1) (hrep l hl)
      (congrArg Subtype.val (stop _ _ q2).1) (congrArg Subtype.val (stop _ _ q3).1) (stop _ _ q2).2 (stop _ _ q3).2 (place _ _ q2).2 (place _ _ q3).2
  have hxx : x = x2 := by
    have := C102_stays hposed hreach hlaws cfg.nVelocityIterations
    rw [e3] at this
    exact Outcome.ok.inj this
  subst hxx
  obtain ⟨f1, f2, f3, f4⟩ := (actAll_run (Q := fun _ => True) trivial _ hls e1).frame
  have hls1 : ∀ l ∈ isl.links, l ∈ x1.2.links := fun l hl => by rw [f4]; exact hls l hl
  have hrun2 : Run (L.net c) (fun _ => True) x1 x := by
    split at e2
    · exact actAll_run (Q := fun _ => True) trivial _ hls1 e2
    · rw [Outcome.ok.inj e2]; exact .refl
  obtain ⟨g1, g2, g3, g4⟩ := hrun2.frame
  have hxb : x.2.bodies = isl.bodies := (g3.trans f3).trans h2
  have hxl : x.2.links = isl.links := (g4.trans f4).trans h3
  have lx : Linked (L.net c) (integrate (L.net c) x).1 (integrate (L.net c) x).2 := fun l hm => by
    show ∃ i0 i1, x.1.proxies l = _ ∧ x.2.bodies[i0]? = _ ∧ x.2.bodies[i1]? = _
    have hm : l ∈ x.2.links := hm
    rw [hxl] at hm
    rw [tal.proxies, hxb]
    exact link l hm
  have px : InPlace pos (fun _ => ⟨0, 0⟩) (integrate (L.net c) x).2 := by
    intro b i hb
    have hb : x.2.bodies[i]? = some b := hb
    obtain ⟨p, v⟩ := stop b i (by rw [← hxb]; exact hb)
    refine ⟨?_, v⟩
    simp only [integrate, if_pos (lt_of_get hb)]
    rw [p, v, hN.rest _ _ (by simp [Library.net])]
  have hcx : ∀ l ∈ isl.links, L.Carrying c pos vel P (integrate (L.net c) x).1.s l := by
    intro l hl
    obtain ⟨i0, i1, q1, q2, q3⟩ := link l hl
    obtain ⟨c1, c2, -, c4⟩ := hx l hl
    obtain ⟨ends, p1, p2, -⟩ := hgo l hl
    have : ends = (i0, i1) := by rw [tal.proxies, q1] at p1; exact (Option.some.inj p1).symm
    subst this
    exact ⟨c1, c2, Kind.fresh_regular (s := a.2.view) (congrArg Subtype.val (place _ _ q2).1) (congrArg Subtype.val (place _ _ q3).1) p2, (hrep l hl).carrying c4⟩
  obtain ⟨p4, r4⟩ := actRounds_standing hN hsq isl.links cfg.nPositionIterations lx (fun l hl => by show l ∈ x.2.links; rw [hxl]; exact hl) hcx px e4
  have hyb : y.2.bodies = isl.bodies :=
    ((actRounds_run (Q := fun _ => True) trivial _ _ (fun l hl => by show l ∈ x.2.links; rw [hxl]; exact hl) e4).frame.2.2.1).trans hxb
  refine ⟨fun l hl => ⟨P, fun _ => rfl, by rw [h8]; exact r4 l hl⟩, fun b hb => ?_⟩
  obtain ⟨i, hi⟩ := List.getElem?_of_mem hb
  obtain ⟨p, v⟩ := h9 b i hi
  obtain ⟨p', v'⟩ := p4 b i (by rw [hyb]; exact hi)
  exact ⟨p.trans p', v.trans v'⟩

end Simu
