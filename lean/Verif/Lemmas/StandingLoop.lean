import Verif.Lemmas.StandingIsland
import Verif.Lemmas.IslandStill
/-
Groups in equilibrium while the islands are solved one after the other.
-/
namespace Simu
open Island Mat

namespace Island
variable {P V S : Type*}

/-- Asking constraints at the places of their bodies. -/
theorem addConstraints_placed {N : Net P V S} {st0 : St P V S} {good : S → Prop} (hg : ∀ l s, good s → good (N.isActive l s (st0.body (N.ends l).1).pos (st0.body (N.ends l).2).pos).1)
    (ls : List Link) {x y : St P V S × Isl P V} (h : Building N st0 x.1 x.2) (hp : Placed st0 x.2) (he : addConstraints N ls x = .ok y) (hs : good x.1.s) :
    good y.1.s ∧ Placed st0 y.2 := by
  induction ls generalizing x with
  | nil => cases Outcome.ok.inj he; exact ⟨hs, hp⟩
  | cons l ls ih =>
    unfold addConstraints at he
    obtain ⟨z, hz, he⟩ := bind_ok_iff.1 he
    have hb := (addConstraint_spec (st' := z.1) (isl' := z.2) h hz).1
    have : good z.1.s ∧ Placed st0 z.2 := by
      by_cases hm : l ∈ x.2.links
      · rw [addConstraint, if_pos ((h.proxy l).2 hm)] at hz
        cases Outcome.ok.inj hz
        exact ⟨hs, hp⟩
      · obtain ⟨e1, -, e3, -⟩ := addConstraint_detail h hp hm hz
        exact ⟨by rw [e1]; exact hg l _ hs, e3⟩
    exact ih hb this.2 he this.1

theorem initLoop_placed {N : Net P V S} {st0 : St P V S} {good : S → Prop} (hg : ∀ l s, good s → good (N.isActive l s (st0.body (N.ends l).1).pos (st0.body (N.ends l).2).pos).1)
    (fuel current : Nat) {x y : St P V S × Isl P V} (h : Building N st0 x.1 x.2) (hp : Placed st0 x.2) (he : initLoop N fuel current x = some (.ok y)) (hs : good x.1.s) : good y.1.s := by
  induction fuel generalizing current x with
  | zero => simp [initLoop] at he
  | succ fuel ih =>
    rw [initLoop_succ] at he
    cases hr : x.2.bodies[current]? with
    | none =>
      rw [hr] at he
      simp only [Option.some.injEq] at he
      cases Outcome.ok.inj he
      exact hs
    | some root =>
      rw [hr] at he
      dsimp only at he
      cases hst : initStep N root x with
      | throw => rw [hst] at he; simp at he
      | ub => rw [hst] at he; simp at he
      | ok z =>
        rw [hst] at he
        dsimp only at he
        obtain ⟨bz, -⟩ := initStep_building h hst
        have hz : good z.1.s ∧ Placed st0 z.2 := by
          unfold initStep at hst
          cases hm : interactsAsStructural N x.1 root with
          | true =>
            rw [hm] at hst
            simp only [if_true] at hst
            cases Outcome.ok.inj hst
            exact ⟨hs, hp⟩
          | false =>
            rw [hm] at hst
            simp only [Bool.false_eq_true, if_false] at hst
            exact addConstraints_placed hg _ h hp hst hs
        exact ih (current + 1) bz hz.2 he hz.1

theorem init_placed {N : Net P V S} {good : S → Prop} {st : St P V S} (hg : ∀ l s, good s → good (N.isActive l s (st.body (N.ends l).1).pos (st.body (N.ends l).2).pos).1)
    {isl : Isl P V} {root fuel : Nat} {y : St P V S × Isl P V} (h0 : Idle st) (hz : isl.Empty) (he : init N fuel st isl root = some (.ok y)) (hs : good st.s) : good y.1.s := by
  obtain ⟨hb, hbs, -⟩ := addBody_building (N := N) h0 hz root
  obtain ⟨k1, k2, -⟩ := addBody_start h0 hz root
  unfold init at he
  dsimp only at he
  exact initLoop_placed (x := ((addBody st isl root).1, (addBody st isl root).2.1)) hg fuel 0 hb k1 he (by show good (addBody st isl root).1.s; rw [k2]; exact hs)

end Island

variable {K : Type*} [Field K] [LinearOrder K] [IsStrictOrderedRing K] [Trig K] {L : Library K} {c : CallCfg K}
variable {pos : Nat → Pose K} {vel : Nat → Velocity K} {P : Link → Six K} {A : Link → Bool} {world : List Nat} {group : Finset Nat}

omit [IsStrictOrderedRing K] in
/-- Solving an island does not change the constraints outside of it. -/
theorem solveIsland_others (cfg : Settings) {st0 st st' : St (Pose K) (Velocity K) ((l : Link) → (L.kind l).State)} {isl isl' : Isl (Pose K) (Velocity K)} (h : Building (L.net c) st0 st isl)
    {l : Link} (hl : l ∉ isl.links) (he : solveIsland (L.net c) cfg st isl = .ok (st', isl')) : st'.s l = st.s l := by
  have key : ∀ {Q : Phase → Prop} {x y : St (Pose K) (Velocity K) ((l : Link) → (L.kind l).State) × Isl (Pose K) (Velocity K)}, Run (L.net c) Q x y → l ∉ x.2.links → y.1.s l = x.1.s l := by
    intro Q x y hr hx
    induction hr with
    | refl => rfl
    | tail hr hc ih =>
      obtain ⟨ph, l', i0, i1, s, ps, vs, -, hm, hp, hact, rfl⟩ := hc
      rw [← ih]
      exact act_apart hact (by rintro rfl; rw [Run.frame hr |>.2.2.2] at hm; exact hx hm)
  obtain ⟨a, x, y, -, -, h3, h4, -, h6, h7, h8, -⟩ := solveIsland_runs cfg h he
  have e1 := key h6 (by rw [h3]; exact hl)
  have e2 := key h7 (by show l ∉ x.2.links; rw [h6.frame.2.2.2, h3]; exact hl)
  rw [h8, e2, ← h4]
  exact e1

/-- The group is in equilibrium at the positions `pos` when the forces give it the velocities `vel`, with the impulses `P` of its constraints. -/
structure Held (L : Library K) (c : CallCfg K) (A : Link → Bool) (group : Finset Nat) (pos : Nat → Pose K) (vel : Nat → Velocity K) (P : Link → Six K)
    (st0 : St (Pose K) (Velocity K) ((l : Link) → (L.kind l).State)) : Prop where
  place : ∀ b ∈ group, (st0.body b).pos = pos b ∧ (st0.body b).vel = vel b
  enclosed : ∀ b ∈ group, interactsAsStructural (L.net c) st0 b = false → ∀ l ∈ linksOf (L.net c) b, A l = true → (L.bodies l).i0 ∈ group ∧ (L.bodies l).i1 ∈ group
  balance : ∀ b ∈ group, interactsAsStructural (L.net c) st0 b = false →
    vel b + ∑ l ∈ (linksOf (L.net c) b).toFinset with A l = true, L.share l (P l) b = 0

/-- What is known of a group in equilibrium when the islands `done` are solved. -/
structure GroupStands (L : Library K) (warm : Bool) (c : CallCfg K) (A : Link → Bool) (group : Finset Nat) (pos : Nat → Pose K) (vel : Nat → Velocity K) (P : Link → Six K)
    (st0 st : St (Pose K) (Velocity K) ((l : Link) → (L.kind l).State)) (done : List Record) : Prop where
  carrying : ∀ b ∈ group, interactsAsStructural (L.net c) st0 b = false → ∀ l ∈ linksOf (L.net c) b, A l = true → L.Bears warm c pos vel P st.s l
  stopped : ∀ b ∈ group, (∃ D ∈ done, b ∈ D.bodies) → (st.body b).pos = pos b ∧ (st.body b).vel = ⟨0, 0⟩

omit [IsStrictOrderedRing K] in
theorem rest_zero {st : St (Pose K) (Velocity K) ((l : Link) → (L.kind l).State)} {b : Nat} (h : interactsAsStructural (L.net c) st b = true) : (st.body b).vel = ⟨0, 0⟩ := by
  obtain ⟨h, -⟩ := (structural_iff _ _ _).1 h
  have h : (st.body b).vel.linear.x = 0 ∧ (st.body b).vel.linear.y = 0 ∧ (st.body b).vel.angular = 0 := of_decide_eq_true h
  cases e : (st.body b).vel with
  | mk lin ang =>
    rw [e] at h
    cases lin
    simp only at h
    rw [h.1, h.2.1, h.2.2]
    rfl

omit [LinearOrder K] [IsStrictOrderedRing K] [Trig K] in
theorem share_other {l : Link} {b : Nat} (Q : Six K) (h0 : b ≠ (L.bodies l).i0) (h1 : b ≠ (L.bodies l).i1) : L.share l Q b = 0 := by
  unfold Library.share kick
  simp only [if_neg h0, if_neg h1, add_zero]

omit [IsStrictOrderedRing K] in
theorem share_structural {body : Nat → Body K} (hm : L.MadeFor body) {l : Link} {b : Nat} (Q : Six K) (h : (L.net c).structuralIn l b = true) : L.share l Q b = 0 := by
  obtain ⟨s0, s1⟩ := Library.structural hm c l
  unfold Library.share kick
  have z : (⟨⟨0, 0⟩, 0⟩ : Velocity K) = 0 := rfl
  by_cases h0 : b = (L.bodies l).i0
  · obtain ⟨m0, i0⟩ := s0 (by show (L.net c).structuralIn l (L.bodies l).i0 = true; rw [← h0]; exact h)
    by_cases h1 : b = (L.bodies l).i1
    · obtain ⟨m1, i1⟩ := s1 (by show (L.net c).structuralIn l (L.bodies l).i1 = true; rw [← h1]; exact h)
      simp only [if_pos h0, if_pos h1, m0, i0, m1, i1, zero_mul, z, add_zero]
    · simp only [if_pos h0, if_neg h1, m0, i0, zero_mul, z, add_zero]
  · by_cases h1 : b = (L.bodies l).i1
    · obtain ⟨m1, i1⟩ := s1 (by show (L.net c).structuralIn l (L.bodies l).i1 = true; rw [← h1]; exact h)
      simp only [if_neg h0, if_pos h1, m1, i1, zero_mul, z, add_zero]
    · simp only [if_neg h0, if_neg h1, add_zero]

theorem GroupStands.step {warm : Bool} {body : Nat → Body K} (hm : L.MadeFor body) (hN : Lawful (L.net c)) (hc : Consistent (L.net c) world) (hin : ∀ b ∈ group, b ∈ world)
    (hsq : ∀ x, 0 ≤ x → c.sqrt x * c.sqrt x = x) (heps : 0 ≤ c.epsilon) (hfuel : 1 ≤ c.fuel)
    {st0 st : St (Pose K) (Velocity K) ((l : Link) → (L.kind l).State)} {toProcess : List Nat} {done : List Record} (hH : Held L c A group pos vel P st0)
    (h : Progress (L.net c) A world st0 st toProcess done) (k : GroupStands L warm c A group pos vel P st0 st done) {isl : Isl (Pose K) (Velocity K)} (hz : isl.Empty) {root fuel : Nat}
    (hroot : root ∈ toProcess) {x : St (Pose K) (Velocity K) ((l : Link) → (L.kind l).State) × Isl (Pose K) (Velocity K)} (hi : init (L.net c) fuel st isl root = some (.ok x))
    (cfg : Settings) (hwarm : cfg.enableWarmstarting = warm) (hcold : warm = false → ∀ l, P l = 0) {y : St (Pose K) (Velocity K) ((l : Link) → (L.kind l).State) × Isl (Pose K) (Velocity K)}
    (hs : solveIsland (L.net c) cfg x.1 x.2 = .ok y) (hA : ∀ e ∈ y.1.evals, e.2 = A e.1) :
    GroupStands L warm c A group pos vel P st0 y.1 (done ++ [⟨y.2.bodies, y.2.links, y.2.awake⟩]) := by
  obtain ⟨hrw, hrd⟩ := (h.remaining root).1 hroot
  obtain ⟨hb, ⟨ev, hev⟩, hrb, hbw, _, _⟩ := init_evals hc.closed hrw h.idle hz hi
  obtain ⟨q1, q2, q3, q4, q5, q6, q7, q8, q9⟩ := solveIsland_spec (st' := y.1) (isl' := y.2) hN cfg h.idle hb hs
  have hAx : ∀ e ∈ x.1.evals, e.2 = A e.1 := by rw [← q5]; exact hA
  obtain ⟨i1, i2⟩ := init_spec (A := A) hc.closed hrw h.idle hz hi hAx
  rw [touches_congr h.structural] at i1
  simp only [h.structural] at i2
  have hstep := (Progress.step hN hc h hz hroot hi cfg hs hA).1
  -- where the bodies of the group are
  have hpos : ∀ b ∈ group, (st.body b).pos = pos b := by
    intro b hbg
    by_cases hd : ∃ D ∈ done, b ∈ D.bodies
    · exact (k.stopped b hbg hd).1
    · rw [h.pending b (fun D hD hb => hd ⟨D, hD, hb⟩)]
      exact (hH.place b hbg).1
  have hgx : ∀ b ∈ group, interactsAsStructural (L.net c) st0 b = false → ∀ l ∈ linksOf (L.net c) b, A l = true → L.Bears warm c pos vel P x.1.s l := by
    intro b hbg hbf l hl hal
    refine init_placed (good := fun s => L.Bears warm c pos vel P s l) ?_ h.idle hz hi (k.carrying b hbg hbf l hl hal)
    intro l' s hg
    by_cases hll : l = l'
    · subst hll
      obtain ⟨g0, g1⟩ := hH.enclosed b hbg hbf l hl hal
      obtain ⟨Q, hQ, c1, c2, c3, c4⟩ := hg
      obtain ⟨r1, r2⟩ := Kind.carrying_isActive (pr := ⟨0, 1, (L.bodies l).masses⟩)
        (s := ⟨fun i => if i = 0 then (st.body (L.bodies l).i0).pos.1 else (st.body (L.bodies l).i1).pos.1, fun _ => ⟨0, 0⟩⟩) c4
        (congrArg Subtype.val (hpos _ g0)) (congrArg Subtype.val (hpos _ g1)) c3
      refine ⟨Q, hQ, c1, c2, ?_, ?_⟩
      · show (L.kind l).Fresh _ _ (Function.update s l _ l)
        rw [Function.update_self]; exact r2
      · show (L.kind l).Carrying c _ _ _ _ _ _ (Function.update s l _ l)
        rw [Function.update_self]; exact r1
    · have : ((L.net c).isActive l' s (st.body ((L.net c).ends l').1).pos (st.body ((L.net c).ends l').2).pos).1 l = s l := Function.update_of_ne hll _ _
      unfold Library.Bears Library.Carrying at hg ⊢
      rw [this]; exact hg
  have hfix : ∀ b ∈ group, interactsAsStructural (L.net c) st0 b = true → (y.1.body b).pos = pos b ∧ (y.1.body b).vel = ⟨0, 0⟩ := by
    intro b hbg hsb
    obtain ⟨a1, a2⟩ := hstep.fixed b hsb
    rw [a1, a2]
    exact ⟨(hH.place b hbg).1, rest_zero hsb⟩
  have hout : ∀ b, b ∉ x.2.bodies → y.1.body b = st.body b := q7
  have hold : ∀ b ∈ group, b ∉ x.2.bodies → (∃ D ∈ done ++ [⟨y.2.bodies, y.2.links, y.2.awake⟩], b ∈ D.bodies) → (y.1.body b).pos = pos b ∧ (y.1.body b).vel = ⟨0, 0⟩ := by
    rintro b hbg hbx ⟨D, hD, hbD⟩
    rw [hout b hbx]
    rcases List.mem_append.1 hD with hD | hD
    · exact k.stopped b hbg ⟨D, hD, hbD⟩
    · rw [List.mem_singleton.1 hD] at hbD
      exact absurd (by rw [← q2]; exact hbD) hbx
  have houtl : ∀ l, l ∉ x.2.links → L.Bears warm c pos vel P x.1.s l → L.Bears warm c pos vel P y.1.s l := by
    intro l hl hcl
    unfold Library.Bears Library.Carrying at hcl ⊢
    rw [solveIsland_others (st' := y.1) (isl' := y.2) cfg hb hl hs]
    exact hcl
  by_cases hcase : ∃ b ∈ x.2.bodies, b ∈ group ∧ interactsAsStructural (L.net c) st0 b = false
  · obtain ⟨d, hdx, hdg, hdf⟩ := hcase
    have hsub : ∀ b ∈ x.2.bodies, b ∈ group := by
      intro b hbx
      have hcb := (reach_symm hc hrw ((i1 d).1 hdx) hdf).trans ((i1 b).1 hbx)
      clear hbx
      induction hcb with
      | refl => exact hdg
      | tail _ ht ih =>
        obtain ⟨hnf, l, hl, ha, rfl | rfl⟩ := ht
        · exact (hH.enclosed _ ih hnf l hl ha).1
        · exact (hH.enclosed _ ih hnf l hl ha).2
    have hbefore : ∀ b ∈ x.2.bodies, (st.body b).pos = pos b ∧ (st.body b).vel = vel b := by
      intro b hbx
      cases hbf : interactsAsStructural (L.net c) st0 b with
      | true =>
        obtain ⟨a1, a2⟩ := h.fixed b hbf
        rw [a1, a2]; exact hH.place b (hsub b hbx)
      | false =>
        rw [h.pending b (fun D hD hbD => by
          have := (List.pairwise_append.1 hstep.disjoint).2.2 D hD _ (List.mem_singleton_self _) b hbD (by show b ∈ y.2.bodies; rw [q2]; exact hbx)
          rw [hbf] at this
          cases this)]
        exact hH.place b (hsub b hbx)
    have hcar : ∀ l ∈ x.2.links, L.Bears warm c pos vel P x.1.s l := by
      intro l hl
      obtain ⟨a, b, hbx, hbf, hbl⟩ := (i2 l).1 hl
      exact hgx b (hsub b hbx) hbf l hbl a
    have hbal : ∀ b ∈ x.2.bodies, vel b + ∑ l ∈ x.2.links.toFinset, L.share l (P l) b = 0 := by
      intro b hbx
      cases hbf : interactsAsStructural (L.net c) st0 b with
      | true =>
        rw [← (hH.place b (hsub b hbx)).2, rest_zero hbf, Finset.sum_eq_zero, add_zero]
        · rfl
        · intro l hl
          by_cases hlb : l ∈ linksOf (L.net c) b
          · exact share_structural hm _ (((structural_iff _ _ _).1 hbf).2 l hlb)
          · obtain ⟨-, b', hb', -, hbl⟩ := (i2 l).1 (List.mem_toFinset.1 hl)
            obtain ⟨m0, m1⟩ := hc.listed b' (hbw b' hb') l hbl
            exact share_other _ (fun e => hlb (by rw [e]; exact m0)) (fun e => hlb (by rw [e]; exact m1))
      | false =>
        rw [← hH.balance b (hsub b hbx) hbf]
        congr 1
        symm
        refine Finset.sum_subset ?_ ?_
        · intro l hl
          obtain ⟨hl, ha⟩ := Finset.mem_filter.1 hl
          exact List.mem_toFinset.2 ((i2 l).2 ⟨ha, b, hbx, hbf, List.mem_toFinset.1 hl⟩)
        · intro l hl hn
          obtain ⟨ha, b', hb', -, hbl⟩ := (i2 l).1 (List.mem_toFinset.1 hl)
          obtain ⟨m0, m1⟩ := hc.listed b' (hbw b' hb') l hbl
          have hlb : l ∉ linksOf (L.net c) b := fun hlb => hn (Finset.mem_filter.2 ⟨List.mem_toFinset.2 hlb, ha⟩)
          exact share_other _ (fun e => hlb (by rw [e]; exact m0)) (fun e => hlb (by rw [e]; exact m1))
    obtain ⟨g, p⟩ := solveIsland_standing (st' := y.1) (isl' := y.2) hN hsq heps hfuel cfg hwarm hcold hb hcar hbefore hbal hs
    refine ⟨fun b hbg hbf l hl hal => ?_, fun b hbg hD => ?_⟩
    · by_cases hm : l ∈ x.2.links
      · exact g l hm
      · exact houtl l hm (hgx b hbg hbf l hl hal)
    · by_cases hm : b ∈ x.2.bodies
      · exact p b hm
      · exact hold b hbg hm hD
  · have hnot : ∀ b ∈ group, b ∈ x.2.bodies → interactsAsStructural (L.net c) st0 b = true := by
      intro b hbg hm
      by_contra hf
      exact hcase ⟨b, hm, hbg, by simpa using hf⟩
    refine ⟨fun b hbg hbf l hl hal => houtl l ?_ (hgx b hbg hbf l hl hal), fun b hbg hD => ?_⟩
    · intro hm
      obtain ⟨-, b', hbx, hnf, hbl⟩ := (i2 l).1 hm
      obtain ⟨e0, e1⟩ := hH.enclosed b hbg hbf l hl hal
      have hb'g : b' ∈ group := by
        rcases hc.isEnd b' (hbw b' hbx) l hbl with h | h <;> rw [h] <;> assumption
      rw [hnot b' hb'g hbx] at hnf
      simp at hnf
    · by_cases hm : b ∈ x.2.bodies
      · exact hfix b hbg (hnot b hbg hm)
      · exact hold b hbg hm hD

theorem solveLoop_stands {body : Nat → Body K} (hm : L.MadeFor body) {cfg : Settings} {warm : Bool} (hwarm : cfg.enableWarmstarting = warm) (hcold : warm = false → ∀ l, P l = 0)
    (hN : Lawful (L.net c)) (hc : Consistent (L.net c) world) (hin : ∀ b ∈ group, b ∈ world)
    (hsq : ∀ x, 0 ≤ x → c.sqrt x * c.sqrt x = x) (heps : 0 ≤ c.epsilon) (hfuel : 1 ≤ c.fuel) (fuel : Nat) {toProcess : List Nat}
    {st0 st st' : St (Pose K) (Velocity K) ((l : Link) → (L.kind l).State)} {isl : Isl (Pose K) (Velocity K)} {done log : List Record} (hH : Held L c A group pos vel P st0)
    (h : Progress (L.net c) A world st0 st toProcess done) (k : GroupStands L warm c A group pos vel P st0 st done)
    (hz : isl.Empty) (he : solveLoop (L.net c) cfg fuel toProcess st isl done = some (.ok (st', log))) (hA : ∀ e ∈ st'.evals, e.2 = A e.1) :
    (∀ b ∈ group, interactsAsStructural (L.net c) st0 b = false → ∀ l ∈ linksOf (L.net c) b, A l = true → L.Bears warm c pos vel P st'.s l) ∧
      ∀ b ∈ group, (st'.body b).pos = pos b ∧ (st'.body b).vel = ⟨0, 0⟩ := by
  induction fuel generalizing toProcess st isl done with
  | zero => simp [solveLoop] at he
  | succ fuel ih =>
    rcases solveLoop_cases he with ⟨rfl, rfl, rfl⟩ | ⟨n, root, x, y, hn, hroot, hi, hs, he'⟩
    · refine ⟨k.carrying, fun b hb => k.stopped b hb ?_⟩
      by_contra hno
      have := (h.remaining b).2 ⟨hin b hb, fun D hD hbD => hno ⟨D, hD, hbD⟩⟩
      simp at this
    · have hn : n = fuel := by omega
      subst hn
      have hb := (init_evals hc.closed ((h.remaining root).1 hroot).1 h.idle hz hi).1
      have q1 := (solveIsland_spec (st' := y.1) (isl' := y.2) hN cfg h.idle hb hs).1
      have hAy : ∀ e ∈ y.1.evals, e.2 = A e.1 := by
        obtain ⟨⟨ev, hev⟩, -⟩ := solveLoop_evals hN hc.closed n (fun b hb => ((h.remaining b).1 (List.mem_filter.1 hb).1).1) q1 (Isl.clear_empty _) he'
        intro e hm
        exact hA e (by rw [hev]; exact List.mem_append_left _ hm)
      exact ih (h.step hN hc hz hroot hi cfg hs hAy).1 (k.step hm hN hc hin hsq heps hfuel hH h hz hroot hi cfg hwarm hcold hs hAy) (Isl.clear_empty _) he'

end Simu
