import Verif.Lemmas.IslandEnergy
import Verif.Spec.IslandStill
/-
Lemmas on islands whose constraints have nothing to do.
-/
namespace Simu.Island
variable {P V S : Type*} {N : Net P V S} {idle primed : Link → S → Prop} {pos : Nat → P} {vel : Nat → V}

/-- The bodies of the island are at their places. -/
def InPlace (pos : Nat → P) (vel : Nat → V) (isl : Isl P V) : Prop := ∀ b i, isl.bodies[i]? = some b → isl.ps i = pos b ∧ isl.vs i = vel b

theorem actAll_still (hN : Lawful N) {ph : Phase} {pre post : Link → S → Prop} (hpp : ∀ l s, post l s → pre l s)
    (ho : ∀ l i0 i1 s ps vs s' ps' vs', N.act ph l i0 i1 s ps vs = .ok (s', ps', vs') → ∀ l', l' ≠ l → (pre l' s → pre l' s') ∧ (post l' s → post l' s'))
    (ls done : List Link) {x y : St P V S × Isl P V} (hl : Linked N x.1 x.2) (hls : ∀ l ∈ ls, l ∈ x.2.links)
    (hx : ∀ l ∈ ls, ∀ i0 i1 s ps vs s' ps' vs', pre l s → ps i0 = pos (N.ends l).1 → ps i1 = pos (N.ends l).2 → vs i0 = vel (N.ends l).1 → vs i1 = vel (N.ends l).2 →
      N.act ph l i0 i1 s ps vs = .ok (s', ps', vs') → post l s' ∧ ps' i0 = ps i0 ∧ ps' i1 = ps i1 ∧ vs' i0 = vs i0 ∧ vs' i1 = vs i1)
    (hpre : ∀ l ∈ ls, pre l x.1.s) (hdone : ∀ l ∈ done, post l x.1.s) (hp : InPlace pos vel x.2) (he : actAll N ph ls x = .ok y) :
    InPlace pos vel y.2 ∧ ∀ l, l ∈ done ∨ l ∈ ls → post l y.1.s := by
  induction ls generalizing x done with
  | nil => obtain ⟨st, isl⟩ := x; cases Outcome.ok.inj he; exact ⟨hp, fun l hl => hdone l (by simpa using hl)⟩
  | cons l ls ih =>
    obtain ⟨i0, i1, s, ps, vs, hpr, h0, h1, ha, he⟩ := actAll_cons hl (hls l (by simp)) he
    obtain ⟨q, p0, p1, v0, v1⟩ := hx l (by simp) i0 i1 _ _ _ _ _ _ (hpre l (by simp)) (hp _ _ h0).1 (hp _ _ h1).1 (hp _ _ h0).2 (hp _ _ h1).2 ha
    have hsame : ∀ k, ps k = x.2.ps k ∧ vs k = x.2.vs k := by
      intro k
      by_cases k0 : k = i0
      · subst k0; exact ⟨p0, v0⟩
      by_cases k1 : k = i1
      · subst k1; exact ⟨p1, v1⟩
      exact hN.act ph l i0 i1 _ _ _ _ _ _ ha k (fun h => absurd h k0) (fun h => absurd h k1)
    have hpost : ∀ l' ∈ l :: done, post l' s := by
      intro l' hl'
      by_cases e : l' = l
      · rw [e]; exact q
      · exact (ho _ _ _ _ _ _ _ _ _ ha l' e).2 (hdone l' ((List.mem_cons.1 hl').resolve_left e))
    obtain ⟨a, b⟩ := ih (l :: done) (x := ({ x.1 with s := s }, { x.2 with ps := ps, vs := vs })) hl (fun l' hl' => hls l' (List.mem_cons_of_mem _ hl'))
      (fun l' hl' => hx l' (List.mem_cons_of_mem _ hl')) (by
        intro l' hl'
        by_cases e : l' = l
        · rw [e]; exact hpp _ _ q
        · exact (ho _ _ _ _ _ _ _ _ _ ha l' e).1 (hpre l' (List.mem_cons_of_mem _ hl'))) hpost (by
        intro b i hb
        obtain ⟨a, c⟩ := hp b i hb
        exact ⟨(hsame i).1.trans a, (hsame i).2.trans c⟩) he
    refine ⟨a, fun l' hl' => b l' ?_⟩
    rcases hl' with hl' | hl'
    · exact Or.inl (List.mem_cons_of_mem _ hl')
    · rcases List.mem_cons.1 hl' with h | h
      · exact Or.inl (by simp [h])
      · exact Or.inr h

theorem actRounds_still (hN : Lawful N) (ha : Apart N idle primed) {ph : Phase} (hph : ph ≠ .initSolve) (ls : List Link) (n : Nat) {x y : St P V S × Isl P V}
    (hl : Linked N x.1 x.2) (hls : ∀ l ∈ ls, l ∈ x.2.links) (hx : ∀ l ∈ ls, Rests N idle primed pos vel l) (hpre : ∀ l ∈ ls, primed l x.1.s) (hp : InPlace pos vel x.2)
    (he : actRounds N ph ls n x = .ok y) : InPlace pos vel y.2 ∧ ∀ l ∈ ls, primed l y.1.s := by
  induction n generalizing x with
  | zero => cases Outcome.ok.inj he; exact ⟨hp, hpre⟩
  | succ n ih =>
    unfold actRounds at he
    rw [bind_ok_iff] at he
    obtain ⟨z, hz, he⟩ := he
    obtain ⟨a, b⟩ := actAll_still (pre := primed) (post := primed) hN (fun _ _ h => h)
      (fun l i0 i1 s ps vs s' ps' vs' h l' hne => ⟨(ha.act _ _ _ _ _ _ _ _ _ _ h l' hne).2, (ha.act _ _ _ _ _ _ _ _ _ _ h l' hne).2⟩) ls [] hl hls
      (fun l hm i0 i1 s ps vs s' ps' vs' h0 h1 h2 h3 h4 h5 => (hx l hm).calls ph i0 i1 s ps vs s' ps' vs' h0 h1 h2 h3 h4 h5 hph) hpre (by simp) hp hz
    obtain ⟨f1, f2, f3, f4⟩ := (actAll_run (Q := fun _ => True) trivial ls hls hz).frame
    exact ih (x := z) (fun l hm => by rw [f1, f3]; exact hl l (by rw [← f4]; exact hm)) (fun l hm => by rw [f4]; exact hls l hm) (fun l hm => b l (Or.inr hm)) a he

/-- An island whose constraints have nothing to do. -/
theorem solveIsland_still (hN : Lawful N) (ha : Apart N idle primed) (cfg : Settings) {st0 st st' : St P V S} {isl isl' : Isl P V} (h : Building N st0 st isl)
    (hx : ∀ l ∈ isl.links, Rests N idle primed pos vel l) (hs : ∀ l ∈ isl.links, idle l st.s) (hp : ∀ b ∈ isl.bodies, (st0.body b).pos = pos b ∧ (st0.body b).vel = vel b)
    (hr : ∀ b ∈ isl.bodies, N.isRest (vel b) = true) (he : solveIsland N cfg st isl = .ok (st', isl')) :
    (∀ l ∈ isl.links, idle l st'.s) ∧ ∀ b ∈ isl.bodies, (st'.body b).pos = pos b ∧ (st'.body b).vel = vel b := by
  obtain ⟨a, x1, x2, x, y, h1, h2, h3, h4, h5, e1, e2, e3, e4, h8, h9⟩ := solveIsland_phases cfg h he
  have hpa : InPlace pos vel a.2 := by
    intro b i hb
    rw [h2] at hb
    obtain ⟨p, v⟩ := h5 b i hb
    obtain ⟨p', v'⟩ := hp b (List.mem_of_getElem? hb)
    exact ⟨p.trans p', v.trans v'⟩
  have hls : ∀ l ∈ isl.links, l ∈ a.2.links := fun l hl => by rw [h3]; exact hl
  obtain ⟨p1, r1⟩ := actAll_still (pre := fun l s => idle l s ∧ l ∈ isl.links) (post := fun l s => primed l s ∧ l ∈ isl.links) hN
    (fun l s h => ⟨(hx l h.2).weaken _ h.1, h.2⟩) (fun l i0 i1 s ps vs s' ps' vs' h l' hne =>
      ⟨fun g => ⟨(ha.act _ _ _ _ _ _ _ _ _ _ h l' hne).1 g.1, g.2⟩, fun g => ⟨(ha.act _ _ _ _ _ _ _ _ _ _ h l' hne).2 g.1, g.2⟩⟩) isl.links [] h1 hls
    (fun l hm i0 i1 s ps vs s' ps' vs' g h1 h2 h3 h4 h5 => by
      obtain ⟨q, r⟩ := (hx l hm).init i0 i1 s ps vs s' ps' vs' g.1 h1 h2 h3 h4 h5
      exact ⟨⟨q, hm⟩, r⟩) (fun l hm => ⟨by rw [h4]; exact hs l hm, hm⟩) (by simp) hpa e1
  replace r1 : ∀ l ∈ isl.links, primed l x1.1.s := fun l hm => (r1 l (Or.inr hm)).1
  obtain ⟨f1, f2, f3, f4⟩ := (actAll_run (Q := fun _ => True) trivial _ hls e1).frame
  have l1 : Linked N x1.1 x1.2 := fun l hm => by rw [f1, f3]; exact h1 l (by rw [← f4]; exact hm)
  have hls1 : ∀ l ∈ isl.links, l ∈ x1.2.links := fun l hl => by rw [f4]; exact hls l hl
  have hw : ∃ n, actRounds N .warmstart isl.links n x1 = .ok x2 := by
    split at e2
    · refine ⟨1, ?_⟩
      unfold actRounds
      rw [e2]; rfl
    · cases Outcome.ok.inj e2; exact ⟨0, rfl⟩
  obtain ⟨n, e2⟩ := hw
  obtain ⟨p2, r2⟩ := actRounds_still hN ha (by decide) _ _ l1 hls1 hx r1 p1 e2
  obtain ⟨g1, g2, g3, g4⟩ := (actRounds_run (Q := fun _ => True) trivial _ _ hls1 e2).frame
  have l2 : Linked N x2.1 x2.2 := fun l hm => by rw [g1, g3]; exact l1 l (by rw [← g4]; exact hm)
  have hls2 : ∀ l ∈ isl.links, l ∈ x2.2.links := fun l hl => by rw [g4]; exact hls1 l hl
  obtain ⟨p3, r3⟩ := actRounds_still hN ha (by decide) _ _ l2 hls2 hx r2 p2 e3
  obtain ⟨k1, k2, k3, k4⟩ := (actRounds_run (Q := fun _ => True) trivial _ _ hls2 e3).frame
  have hxb : x.2.bodies = isl.bodies := ((k3.trans g3).trans f3).trans h2
  have lx : Linked N (integrate N x).1 (integrate N x).2 := fun l hm => by
    show ∃ i0 i1, x.1.proxies l = _ ∧ x.2.bodies[i0]? = _ ∧ x.2.bodies[i1]? = _
    rw [k1, k3]; exact l2 l (by rw [← k4]; exact hm)
  have px : InPlace pos vel (integrate N x).2 := by
    intro b i hb
    have hb : x.2.bodies[i]? = some b := hb
    obtain ⟨p, v⟩ := p3 b i hb
    refine ⟨?_, v⟩
    simp only [integrate, if_pos (lt_of_get hb)]
    rw [p, v, hN.rest _ _ (hr b (by rw [← hxb]; exact List.mem_of_getElem? hb))]
  obtain ⟨p4, r4⟩ := actRounds_still hN ha (by decide) _ _ lx (fun l hl => by
    show l ∈ x.2.links
    rw [k4]; exact hls2 l hl) hx r3 px e4
  have hyb : y.2.bodies = isl.bodies := by
    have := (actRounds_run (Q := fun _ => True) trivial _ _ (fun l hl => by
      show l ∈ x.2.links
      rw [k4]; exact hls2 l hl) e4).frame.2.2.1
    exact this.trans hxb
  refine ⟨fun l hl => (hx l hl).weaken _ (by rw [h8]; exact r4 l hl), fun b hb => ?_⟩
  obtain ⟨i, hi⟩ := List.getElem?_of_mem hb
  obtain ⟨p, v⟩ := h9 b i hi
  obtain ⟨p', v'⟩ := p4 b i (by rw [hyb]; exact hi)
  exact ⟨p.trans p', v.trans v'⟩

/-- Calls to other constraints leave a constraint idle. -/
theorem Run.apart {Q : Phase → Prop} (ha : Apart N idle primed) {l : Link} {x y : St P V S × Isl P V} (hl : l ∉ x.2.links) (hs : idle l x.1.s) (h : Run N Q x y) : idle l y.1.s := by
  induction h with
  | refl => exact hs
  | tail hr hc ih =>
    obtain ⟨ph, l', i0, i1, s, ps, vs, -, hm, hp, hact, rfl⟩ := hc
    exact (ha.act _ _ _ _ _ _ _ _ _ _ hact l (by rintro rfl; rw [Run.frame hr |>.2.2.2] at hm; exact hl hm)).1 ih

theorem solveIsland_apart (ha : Apart N idle primed) (cfg : Settings) {st0 st st' : St P V S} {isl isl' : Isl P V} (h : Building N st0 st isl) {l : Link} (hl : l ∉ isl.links)
    (hs : idle l st.s) (he : solveIsland N cfg st isl = .ok (st', isl')) : idle l st'.s := by
  obtain ⟨a, x, y, -, -, h3, h4, -, h6, h7, h8, -⟩ := solveIsland_runs cfg h he
  rw [h8]
  have h1 : idle l x.1.s := Run.apart (x := a) ha (by rw [h3]; exact hl) (by rw [h4]; exact hs) h6
  replace h1 : idle l (integrate N x).1.s := h1
  refine Run.apart ha ?_ h1 h7
  show l ∉ x.2.links
  rw [h6.frame.2.2.2, h3]; exact hl

/-- What is known of a group at rest while islands are solved one after the other. -/
structure GroupStill (N : Net P V S) (A : Link → Bool) (idle : Link → S → Prop) (pos : Nat → P) (vel : Nat → V) (group : Finset Nat) (st : St P V S) : Prop where
  quiet : ∀ b ∈ group, ∀ l ∈ linksOf N b, A l = true → idle l st.s
  still : ∀ b ∈ group, (st.body b).pos = pos b ∧ (st.body b).vel = vel b

theorem GroupStill.step {A : Link → Bool} {world : List Nat} {st0 st : St P V S} {toProcess : List Nat} {done : List Record} {group : Finset Nat}
    (hN : Lawful N) (ha : Apart N idle primed) (hc : Consistent N world) (hin : ∀ b ∈ group, b ∈ world) (hiso : Isolated N A group) (hr : ∀ b ∈ group, N.isRest (vel b) = true)
    (hx : ∀ b ∈ group, ∀ l ∈ linksOf N b, A l = true → Rests N idle primed pos vel l)
    (h : Progress N A world st0 st toProcess done) (k : GroupStill N A idle pos vel group st) {isl : Isl P V} (hz : isl.Empty) {root fuel : Nat}
    (hroot : root ∈ toProcess) {x : St P V S × Isl P V} (hi : init N fuel st isl root = some (.ok x)) (cfg : Settings)
    {y : St P V S × Isl P V} (hs : solveIsland N cfg x.1 x.2 = .ok y) (hA : ∀ e ∈ y.1.evals, e.2 = A e.1) : GroupStill N A idle pos vel group y.1 := by
  obtain ⟨hrw, hrd⟩ := (h.remaining root).1 hroot
  obtain ⟨hb, ⟨ev, hev⟩, hrb, hbw, _, _⟩ := init_evals hc.closed hrw h.idle hz hi
  obtain ⟨q1, q2, q3, q4, q5, q6, q7, q8, q9⟩ := solveIsland_spec (st' := y.1) (isl' := y.2) hN cfg h.idle hb hs
  have hAx : ∀ e ∈ x.1.evals, e.2 = A e.1 := by rw [← q5]; exact hA
  obtain ⟨i1, i2⟩ := init_spec (A := A) hc.closed hrw h.idle hz hi hAx
  rw [touches_congr h.structural] at i1
  simp only [h.structural] at i2
  have hgx : ∀ b ∈ group, ∀ l ∈ linksOf N b, A l = true → idle l x.1.s := by
    intro b hbg l hl hal
    exact init_s (good := idle l) (fun l' s p q => ha.isActive l' l s p q) hi (k.quiet b hbg l hl hal)
  have hstep := (Progress.step hN hc h hz hroot hi cfg hs hA).1
  have hfix : ∀ b, interactsAsStructural N st0 b = true → (y.1.body b).pos = (st.body b).pos ∧ (y.1.body b).vel = (st.body b).vel := by
    intro b hsb
    obtain ⟨a1, a2⟩ := hstep.fixed b hsb
    obtain ⟨b1, b2⟩ := h.fixed b hsb
    exact ⟨a1.trans b1.symm, a2.trans b2.symm⟩
  have hout : ∀ b, b ∉ x.2.bodies → y.1.body b = st.body b := q7
  by_cases hcase : ∃ b ∈ x.2.bodies, b ∈ group ∧ interactsAsStructural N st0 b = false
  · obtain ⟨c, hcx, hcg, hcf⟩ := hcase
    have hsub : ∀ b ∈ x.2.bodies, b ∈ group := by
      intro b hbx
      have hcb := (reach_symm hc hrw ((i1 c).1 hcx) hcf).trans ((i1 b).1 hbx)
      clear hbx
      induction hcb with
      | refl => exact hcg
      | tail _ ht ih =>
        obtain ⟨_, l, hl, ha, rfl | rfl⟩ := ht
        · exact (hiso _ ih l hl ha).1
        · exact (hiso _ ih l hl ha).2
    have hxl : ∀ l ∈ x.2.links, Rests N idle primed pos vel l ∧ idle l x.1.s := by
      intro l hl
      obtain ⟨a, b, hbx, _, hbl⟩ := (i2 l).1 hl
      exact ⟨hx b (hsub b hbx) l hbl a, hgx b (hsub b hbx) l hbl a⟩
    obtain ⟨g, p⟩ := solveIsland_still (st' := y.1) (isl' := y.2) hN ha cfg hb (fun l hl => (hxl l hl).1) (fun l hl => (hxl l hl).2)
      (fun b hb' => k.still b (hsub b hb')) (fun b hb' => hr b (hsub b hb')) hs
    refine ⟨fun b hbg l hl hal => ?_, fun b hbg => ?_⟩
    · by_cases hm : l ∈ x.2.links
      · exact g l hm
      · exact solveIsland_apart (st' := y.1) (isl' := y.2) ha cfg hb hm (hgx b hbg l hl hal) hs
    · by_cases hm : b ∈ x.2.bodies
      · exact p b hm
      · rw [hout b hm]; exact k.still b hbg
  · have hnot : ∀ b ∈ group, b ∈ x.2.bodies → interactsAsStructural N st0 b = true := by
      intro b hbg hm
      by_contra hf
      exact hcase ⟨b, hm, hbg, by simpa using hf⟩
    refine ⟨fun b hbg l hl hal => ?_, fun b hbg => ?_⟩
    · refine solveIsland_apart (st' := y.1) (isl' := y.2) ha cfg hb ?_ (hgx b hbg l hl hal) hs
      intro hm
      obtain ⟨-, b', hbx, hnf, hbl⟩ := (i2 l).1 hm
      obtain ⟨e0, e1⟩ := hiso b hbg l hl hal
      have hb'g : b' ∈ group := by
        rcases hc.isEnd b' (hbw b' hbx) l hbl with h | h <;> rw [h] <;> assumption
      rw [hnot b' hb'g hbx] at hnf
      simp at hnf
    · by_cases hm : b ∈ x.2.bodies
      · obtain ⟨p, v⟩ := hfix b (hnot b hbg hm)
        rw [p, v]; exact k.still b hbg
      · rw [hout b hm]; exact k.still b hbg

theorem solveLoop_still {A : Link → Bool} {cfg : Settings} {world : List Nat} {group : Finset Nat}
    (hN : Lawful N) (ha : Apart N idle primed) (hc : Consistent N world) (hin : ∀ b ∈ group, b ∈ world) (hiso : Isolated N A group) (hr : ∀ b ∈ group, N.isRest (vel b) = true)
    (hx : ∀ b ∈ group, ∀ l ∈ linksOf N b, A l = true → Rests N idle primed pos vel l)
    (fuel : Nat) {toProcess : List Nat} {st0 st st' : St P V S} {isl : Isl P V} {done log : List Record} (h : Progress N A world st0 st toProcess done)
    (k : GroupStill N A idle pos vel group st)
    (hz : isl.Empty) (he : solveLoop N cfg fuel toProcess st isl done = some (.ok (st', log))) (hA : ∀ e ∈ st'.evals, e.2 = A e.1) :
    GroupStill N A idle pos vel group st' := by
  induction fuel generalizing toProcess st isl done with
  | zero => simp [solveLoop] at he
  | succ fuel ih =>
    rcases solveLoop_cases he with ⟨_, rfl, rfl⟩ | ⟨n, root, x, y, hn, hroot, hi, hs, he'⟩
    · exact k
    · have hn : n = fuel := by omega
      subst hn
      have hb := (init_evals hc.closed ((h.remaining root).1 hroot).1 h.idle hz hi).1
      have q1 := (solveIsland_spec (st' := y.1) (isl' := y.2) hN cfg h.idle hb hs).1
      have hAy : ∀ e ∈ y.1.evals, e.2 = A e.1 := by
        obtain ⟨⟨ev, hev⟩, -⟩ := solveLoop_evals hN hc.closed n (fun b hb => ((h.remaining b).1 (List.mem_filter.1 hb).1).1) q1 (Isl.clear_empty _) he'
        intro e hm
        exact hA e (by rw [hev]; exact List.mem_append_left _ hm)
      exact ih (h.step hN hc hz hroot hi cfg hs hAy).1 (k.step hN ha hc hin hiso hr hx h hz hroot hi cfg hs hAy) (Isl.clear_empty _) he'

end Simu.Island
