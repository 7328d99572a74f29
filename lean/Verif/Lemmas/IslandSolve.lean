import Verif.Lemmas.Island
/-
Lemmas on the solution of one island.
-/
namespace Simu.Island
variable {P V S : Type*}

/-- What every constraint of the library does with the vectors: an element is only changed if it is the one of a body that is
not structural in the constraint (the inverse masses of a structural body are zero). A body at rest does not move. -/
structure Lawful (N : Net P V S) : Prop where
  act : ∀ ph l i0 i1 s ps vs s' ps' vs', N.act ph l i0 i1 s ps vs = .ok (s', ps', vs') →
    ∀ i, (i = i0 → N.structuralIn l (N.ends l).1 = true) → (i = i1 → N.structuralIn l (N.ends l).2 = true) → ps' i = ps i ∧ vs' i = vs i
  rest : ∀ p v, N.isRest v = true → N.advance p v = p

/-- The constraints of the island have proxies to their bodies. -/
def Linked (N : Net P V S) (st : St P V S) (isl : Isl P V) : Prop :=
  ∀ l ∈ isl.links, ∃ i0 i1, st.proxies l = some (i0, i1) ∧ isl.bodies[i0]? = some (N.ends l).1 ∧ isl.bodies[i1]? = some (N.ends l).2

/-- No constraint of the island may change the body. -/
def Untouched (N : Net P V S) (ls : List Link) (b : Nat) : Prop :=
  ∀ l ∈ ls, (b = (N.ends l).1 → N.structuralIn l (N.ends l).1 = true) ∧ (b = (N.ends l).2 → N.structuralIn l (N.ends l).2 = true)

/-- What solving constraints keeps. -/
structure Kept (N : Net P V S) (x y : St P V S × Isl P V) : Prop where
  body : y.1.body = x.1.body
  proxies : y.1.proxies = x.1.proxies
  evals : y.1.evals = x.1.evals
  moved : y.1.moved = x.1.moved
  bodies : y.2.bodies = x.2.bodies
  joints : y.2.joints = x.2.joints
  contacts : y.2.contacts = x.2.contacts
  awake : y.2.awake = x.2.awake
  values : ∀ i b, x.2.bodies[i]? = some b → Untouched N x.2.links b → y.2.ps i = x.2.ps i ∧ y.2.vs i = x.2.vs i

theorem Kept.refl (N : Net P V S) (x : St P V S × Isl P V) : Kept N x x := ⟨rfl, rfl, rfl, rfl, rfl, rfl, rfl, rfl, fun _ _ _ _ => ⟨rfl, rfl⟩⟩

theorem Kept.links {N : Net P V S} {x y : St P V S × Isl P V} (h : Kept N x y) : y.2.links = x.2.links := by
  unfold Isl.links; rw [h.joints, h.contacts]

theorem Kept.trans {N : Net P V S} {x y z : St P V S × Isl P V} (h : Kept N x y) (g : Kept N y z) : Kept N x z where
  body := g.body.trans h.body
  proxies := g.proxies.trans h.proxies
  evals := g.evals.trans h.evals
  moved := g.moved.trans h.moved
  bodies := g.bodies.trans h.bodies
  joints := g.joints.trans h.joints
  contacts := g.contacts.trans h.contacts
  awake := g.awake.trans h.awake
  values := fun i b hb hu => by
    obtain ⟨h1, h2⟩ := h.values i b hb hu
    obtain ⟨g1, g2⟩ := g.values i b (by rw [h.bodies]; exact hb) (by rw [h.links]; exact hu)
    exact ⟨g1.trans h1, g2.trans h2⟩

theorem Kept.linked {N : Net P V S} {x y : St P V S × Isl P V} (h : Kept N x y) (hl : Linked N x.1 x.2) : Linked N y.1 y.2 := by
  intro l hm
  rw [h.proxies, h.bodies]
  exact hl l (by rw [← h.links]; exact hm)

theorem actAll_kept {N : Net P V S} (hN : Lawful N) (ph : Phase) (ls : List Link) {x y : St P V S × Isl P V} (hl : Linked N x.1 x.2)
    (hls : ∀ l ∈ ls, l ∈ x.2.links) (he : actAll N ph ls x = .ok y) : Kept N x y := by
  induction ls generalizing x with
  | nil => obtain ⟨st, isl⟩ := x; cases Outcome.ok.inj he; exact Kept.refl N _
  | cons l ls ih =>
    obtain ⟨st, isl⟩ := x
    unfold actAll at he
    obtain ⟨i0, i1, hp, h0, h1⟩ := hl l (hls l (by simp))
    rw [show st.proxies l = some (i0, i1) from hp] at he
    dsimp only at he
    rw [bind_ok_iff] at he
    obtain ⟨⟨s', ps', vs'⟩, ha, he⟩ := he
    dsimp only at he
    have hk : Kept N (st, isl) ({ st with s := s' }, { isl with ps := ps', vs := vs' }) := by
      refine ⟨rfl, rfl, rfl, rfl, rfl, rfl, rfl, rfl, fun i b hb hu => ?_⟩
      obtain ⟨u0, u1⟩ := hu l (hls l (by simp))
      refine hN.act ph l i0 i1 _ _ _ _ _ _ ha i (fun hi => ?_) (fun hi => ?_)
      · subst hi
        dsimp only at hb h0
        rw [hb] at h0
        exact u0 (Option.some.inj h0)
      · subst hi
        dsimp only at hb h1
        rw [hb] at h1
        exact u1 (Option.some.inj h1)
    exact hk.trans (ih (hk.linked hl) (fun l' hl' => by rw [hk.links]; exact hls l' (List.mem_cons_of_mem _ hl')) he)

theorem actRounds_kept {N : Net P V S} (hN : Lawful N) (ph : Phase) (ls : List Link) (n : Nat) {x y : St P V S × Isl P V} (hl : Linked N x.1 x.2)
    (hls : ∀ l ∈ ls, l ∈ x.2.links) (he : actRounds N ph ls n x = .ok y) : Kept N x y := by
  induction n generalizing x with
  | zero => cases Outcome.ok.inj he; exact Kept.refl N _
  | succ n ih =>
    unfold actRounds at he
    rw [bind_ok_iff] at he
    obtain ⟨z, hz, he⟩ := he
    have hk := actAll_kept hN ph ls hl hls hz
    exact hk.trans (ih (hk.linked hl) (fun l' hl' => by rw [hk.links]; exact hls l' hl') he)

/-- `refreshProxies`: the vectors hold the bodies. -/
theorem copyBodies_spec (st : St P V S) (bs : List Nat) {isl isl' : Isl P V} (hi : ∀ b i, (st.body b).index = some i ↔ isl.bodies[i]? = some b)
    (hold : ∀ b i, isl.bodies[i]? = some b → b ∉ bs → isl.ps i = (st.body b).pos ∧ isl.vs i = (st.body b).vel)
    (he : copyBodies st bs isl = .ok isl') :
    isl'.bodies = isl.bodies ∧ isl'.joints = isl.joints ∧ isl'.contacts = isl.contacts ∧ isl'.awake = isl.awake ∧
      ∀ b i, isl.bodies[i]? = some b → isl'.ps i = (st.body b).pos ∧ isl'.vs i = (st.body b).vel := by
  induction bs generalizing isl with
  | nil => cases Outcome.ok.inj he; exact ⟨rfl, rfl, rfl, rfl, fun b i hb => hold b i hb (by simp)⟩
  | cons c bs ih =>
    unfold copyBodies at he
    cases hx : (st.body c).index with
    | none => rw [hx] at he; simp at he
    | some k =>
      rw [hx] at he
      dsimp only at he
      refine ih (isl := { isl with
        ps := Function.update isl.ps k (st.body c).pos
        vs := Function.update isl.vs k (st.body c).vel }) hi ?_ he
      intro b i hb hnb
      dsimp only at hb ⊢
      have hk := (hi c k).1 hx
      by_cases hik : i = k
      · subst hik
        rw [hk] at hb
        cases Option.some.inj hb
        simp
      · simp only [Function.update_of_ne hik]
        refine hold b i hb ?_
        simp only [List.mem_cons, not_or]
        refine ⟨?_, hnb⟩
        rintro rfl
        have := (hi b i).2 hb
        rw [hx] at this
        exact hik (Option.some.inj this).symm

theorem startAll_spec {N : Net P V S} (ls : List Link) {st st' : St P V S} {bodies : List Nat}
    (hi : ∀ b i, (st.body b).index = some i ↔ bodies[i]? = some b) (done : List Link)
    (hd : ∀ l ∈ done, ∃ i0 i1, st.proxies l = some (i0, i1) ∧ bodies[i0]? = some (N.ends l).1 ∧ bodies[i1]? = some (N.ends l).2)
    (he : startAll N ls st = .ok st') :
    st'.body = st.body ∧ st'.evals = st.evals ∧ st'.moved = st.moved ∧ (∀ l, l ∉ ls → st'.proxies l = st.proxies l) ∧
      ∀ l, l ∈ done ∨ l ∈ ls → ∃ i0 i1, st'.proxies l = some (i0, i1) ∧ bodies[i0]? = some (N.ends l).1 ∧ bodies[i1]? = some (N.ends l).2 := by
  induction ls generalizing st done with
  | nil => cases Outcome.ok.inj he; exact ⟨rfl, rfl, rfl, fun _ _ => rfl, fun l hl => hd l (by simpa using hl)⟩
  | cons l ls ih =>
    unfold startAll at he
    rw [bind_ok_iff] at he
    obtain ⟨st1, h1, he⟩ := he
    unfold startSolve at h1
    cases hx0 : (st.body (N.ends l).1).index with
    | none => rw [hx0] at h1; simp at h1
    | some i0 =>
    cases hx1 : (st.body (N.ends l).2).index with
    | none => rw [hx0, hx1] at h1; simp at h1
    | some i1 =>
    rw [hx0, hx1] at h1
    cases Outcome.ok.inj h1
    obtain ⟨q1, q2, q3, q4, q5⟩ := ih (st := { st with proxies := Function.update st.proxies l (some (i0, i1)) }) hi (l :: done) (by
      intro l' hl'
      by_cases hll : l' = l
      · subst hll
        exact ⟨i0, i1, by simp, (hi _ _).1 hx0, (hi _ _).1 hx1⟩
      · rcases List.mem_cons.1 hl' with h' | h'
        · exact absurd h' hll
        · simp only [Function.update_of_ne hll]
          exact hd l' h') he
    refine ⟨q1, q2, q3, ?_, ?_⟩
    · intro l' hl'
      rw [q4 l' (fun h => hl' (List.mem_cons_of_mem _ h))]
      have : l' ≠ l := fun h => hl' (by rw [h]; simp)
      simp only [Function.update_of_ne this]
    · intro l' hl'
      refine q5 l' ?_
      rcases hl' with h' | h'
      · exact Or.inl (List.mem_cons_of_mem _ h')
      · rcases List.mem_cons.1 h' with h' | h'
        · exact Or.inl (by rw [h']; simp)
        · exact Or.inr h'

theorem writeBack_spec (isl : Isl P V) (bs : List Nat) {st st' : St P V S} (hn : bs.Nodup)
    (hi : ∀ b ∈ bs, ∀ i, (st.body b).index = some i ↔ isl.bodies[i]? = some b) (he : writeBack isl bs st = .ok st') :
    st'.proxies = st.proxies ∧ st'.evals = st.evals ∧ st'.moved = st.moved ∧ (∀ b, b ∉ bs → st'.body b = st.body b) ∧
      ∀ b ∈ bs, (st'.body b).index = none ∧ (st'.body b).asleep = (st.body b).asleep ∧
        ∃ i, isl.bodies[i]? = some b ∧ (st'.body b).pos = isl.ps i ∧ (st'.body b).vel = isl.vs i := by
  induction bs generalizing st with
  | nil => cases Outcome.ok.inj he; exact ⟨rfl, rfl, rfl, fun _ _ => rfl, by simp⟩
  | cons c bs ih =>
    unfold writeBack at he
    cases hx : (st.body c).index with
    | none => rw [hx] at he; simp at he
    | some k =>
      rw [hx] at he
      dsimp only at he
      have hc : c ∉ bs := (List.nodup_cons.1 hn).1
      obtain ⟨q1, q2, q3, q4, q5⟩ := ih (List.nodup_cons.1 hn).2 (by
        intro b hb i
        have : b ≠ c := by rintro rfl; exact hc hb
        rw [setBody_ne _ _ this]
        exact hi b (List.mem_cons_of_mem _ hb) i) he
      refine ⟨q1, q2, q3, ?_, ?_⟩
      · intro b hb
        have h1 : b ≠ c := fun h => hb (by rw [h]; simp)
        rw [q4 b (fun h => hb (List.mem_cons_of_mem _ h)), setBody_ne _ _ h1]
      · intro b hb
        rcases List.mem_cons.1 hb with rfl | hb'
        · rw [q4 b hc, setBody_same]
          exact ⟨rfl, rfl, k, (hi b (by simp) k).1 hx, rfl, rfl⟩
        · have h1 : b ≠ c := by rintro rfl; exact hc hb'
          have := q5 b hb'
          rw [setBody_ne _ _ h1] at this
          exact this

/-- What solving an island does. -/
theorem solveIsland_spec {N : Net P V S} (hN : Lawful N) (cfg : Settings) {st0 st st' : St P V S} {isl isl' : Isl P V} (h0 : Idle st0)
    (h : Building N st0 st isl) (he : solveIsland N cfg st isl = .ok (st', isl')) :
    Idle st' ∧ isl'.bodies = isl.bodies ∧ isl'.links = isl.links ∧ isl'.awake = isl.awake ∧ st'.evals = st.evals ∧
      st'.moved = st.moved ++ isl.bodies ∧ (∀ b, b ∉ isl.bodies → st'.body b = st0.body b) ∧
      (∀ b ∈ isl.bodies, (st'.body b).asleep = if isl.awake then false else (st0.body b).asleep) ∧
      (∀ b ∈ isl.bodies, Untouched N isl.links b →
        (st'.body b).vel = (st0.body b).vel ∧ (st'.body b).pos = N.advance (st0.body b).pos (st0.body b).vel) := by
  unfold solveIsland at he
  dsimp only at he
  -- waking
  set stW : St P V S := if isl.awake = true then wakeAll isl.bodies st else st with hstW
  have hWi : ∀ b, (stW.body b).index = (st.body b).index := by
    intro b; rw [hstW]; split
    · simp only [wakeAll]; split <;> rfl
    · rfl
  have hWpv : ∀ b, (stW.body b).pos = (st.body b).pos ∧ (stW.body b).vel = (st.body b).vel := by
    intro b; rw [hstW]; split
    · simp only [wakeAll]; split <;> exact ⟨rfl, rfl⟩
    · exact ⟨rfl, rfl⟩
  have hWa : ∀ b ∈ isl.bodies, (stW.body b).asleep = if isl.awake then false else (st0.body b).asleep := by
    intro b hb; rw [hstW]; split
    · simp only [wakeAll, if_pos hb]
    · exact (h.indexed.frame b).2.2
  have hWn : ∀ b, b ∉ isl.bodies → stW.body b = st.body b := by
    intro b hb; rw [hstW]; split
    · simp only [wakeAll, if_neg hb]
    · rfl
  have hWp : stW.proxies = st.proxies := by rw [hstW]; split <;> rfl
  have hWe : stW.evals = st.evals := by rw [hstW]; split <;> rfl
  have hWm : stW.moved = st.moved := by rw [hstW]; split <;> rfl
  clear_value stW
  have hidx : ∀ b i, (stW.body b).index = some i ↔ isl.bodies[i]? = some b := fun b i => by rw [hWi]; exact h.indexed.index b i
  -- refreshing
  rw [bind_ok_iff] at he
  obtain ⟨islR, hR, he⟩ := he
  obtain ⟨r1, r2, r3, r4, r5⟩ := copyBodies_spec stW isl.bodies hidx (fun b i hb hnb => absurd (List.mem_of_getElem? hb) hnb) hR
  have rl : islR.links = isl.links := by unfold Isl.links; rw [r2, r3]
  rw [bind_ok_iff] at he
  obtain ⟨stS, hS, he⟩ := he
  obtain ⟨s1, s2, s3, s4, s5⟩ := startAll_spec (N := N) islR.links hidx [] (by simp) hS
  have hlinked : Linked N stS islR := by
    intro l hl
    obtain ⟨i0, i1, q⟩ := s5 l (Or.inr hl)
    rw [r1]
    exact ⟨i0, i1, q⟩
  rw [bind_ok_iff] at he
  obtain ⟨y, hy, he⟩ := he
  -- solving
  have hsolve : ∃ x z, Kept N (stS, islR) x ∧ z = integrate N x ∧ Kept N z y := by
    by_cases hl : islR.links ≠ []
    · rw [if_pos hl] at hy
      rw [bind_ok_iff] at hy
      obtain ⟨x1, h1, hy⟩ := hy
      rw [bind_ok_iff] at hy
      obtain ⟨x2, h2, hy⟩ := hy
      rw [bind_ok_iff] at hy
      obtain ⟨x3, h3, hy⟩ := hy
      have k1 := actAll_kept (x := (stS, islR)) hN _ _ hlinked (fun _ hl => hl) h1
      have k2 : Kept N x1 x2 := by
        by_cases hw : cfg.enableWarmstarting = true
        · rw [if_pos hw] at h2
          exact actAll_kept hN _ _ (k1.linked hlinked) (fun _ hl => by rw [k1.links]; exact hl) h2
        · rw [if_neg hw] at h2
          cases Outcome.ok.inj h2
          exact Kept.refl N _
      have k12 := k1.trans k2
      have k3 := actRounds_kept hN _ _ _ (k12.linked hlinked) (fun _ hl => by rw [k12.links]; exact hl) h3
      have k := k12.trans k3
      have hli : Linked N (integrate N x3).1 (integrate N x3).2 := k.linked hlinked
      have hls : (integrate N x3).2.links = islR.links := k.links
      exact ⟨x3, _, k, rfl, actRounds_kept hN _ _ _ hli (fun _ hl => by rw [hls]; exact hl) hy⟩
    · rw [if_neg hl] at hy
      cases Outcome.ok.inj hy
      exact ⟨_, _, Kept.refl N _, rfl, Kept.refl N _⟩
  obtain ⟨x, z, kx, hz, ky⟩ := hsolve
  have hzb : z.1.body = x.1.body := by rw [hz]; rfl
  have hzp : z.1.proxies = x.1.proxies := by rw [hz]; rfl
  have hze : z.1.evals = x.1.evals := by rw [hz]; rfl
  have hzm : z.1.moved = x.1.moved ++ x.2.bodies := by rw [hz]; rfl
  have hzbs : z.2.bodies = x.2.bodies := by rw [hz]; rfl
  have hzj : z.2.joints = x.2.joints := by rw [hz]; rfl
  have hzc : z.2.contacts = x.2.contacts := by rw [hz]; rfl
  have hza : z.2.awake = x.2.awake := by rw [hz]; rfl
  have hzl : z.2.links = x.2.links := by unfold Isl.links; rw [hzj, hzc]
  have hybody : y.1.body = stW.body := by rw [ky.body, hzb, kx.body, s1]
  have hybs : y.2.bodies = isl.bodies := by rw [ky.bodies, hzbs, kx.bodies, r1]
  have hyl : y.2.links = isl.links := by rw [ky.links, hzl, kx.links, rl]
  obtain ⟨sty, isly⟩ := y
  dsimp only at he hybody hybs hyl
  rw [bind_ok_iff] at he
  obtain ⟨stE, hE, he⟩ := he
  have he := Outcome.ok.inj he
  simp only [Prod.mk.injEq] at he
  obtain ⟨rfl, rfl⟩ := he
  unfold endSolve at hE
  rw [bind_ok_iff] at hE
  obtain ⟨stB, hB, hE⟩ := hE
  have hE := (Outcome.ok.inj hE).symm
  subst hE
  obtain ⟨w1, w2, w3, w4, w5⟩ := writeBack_spec isly isly.bodies (by rw [hybs]; exact h.indexed.nodup) (by
    intro b hb i
    rw [hybody, hybs]; exact hidx b i) hB
  have hsty : sty.proxies = stS.proxies := ky.proxies.trans (hzp.trans kx.proxies)
  refine ⟨⟨?_, ?_⟩, hybs, hyl, ?_, ?_, ?_, ?_, ?_, ?_⟩
  · intro b
    by_cases hb : b ∈ isly.bodies
    · exact (w5 b hb).1
    · show (stB.body b).index = none
      rw [w4 b hb, hybody, hWi]
      rw [hybs] at hb
      exact (h.indexed.none_iff b).2 hb
  · intro l
    show (if l ∈ isly.links then none else stB.proxies l) = none
    split
    · rfl
    · rename_i hl
      rw [w1, hsty, s4 l (by rw [rl, ← hyl]; exact hl), hWp]
      rw [hyl] at hl
      have := (not_congr (h.proxy l)).2 hl
      simpa using this
  · rw [ky.awake, hza, kx.awake, r4]
  · show stB.evals = _
    rw [w2]; show sty.evals = _; rw [ky.evals, hze, kx.evals, s2, hWe]
  · show stB.moved = _
    rw [w3]
    show sty.moved = _
    rw [ky.moved, hzm, kx.moved, kx.bodies, s3, hWm, r1]
  · intro b hb
    show stB.body b = _
    rw [w4 b (by rw [hybs]; exact hb), hybody, hWn b hb]
    have h1 := h.indexed.frame b
    have h2 := (h.indexed.none_iff b).2 hb
    have h3 := h0.index b
    cases hs : st.body b with
    | mk a1 a2 a3 a4 =>
      cases hs0 : st0.body b with
      | mk c1 c2 c3 c4 =>
        rw [hs, hs0] at h1
        rw [hs] at h2
        rw [hs0] at h3
        simp only at h1 h2 h3
        rw [h1.1, h1.2.1, h1.2.2, h2, h3]
  · intro b hb
    show (stB.body b).asleep = _
    rw [(w5 b (by rw [hybs]; exact hb)).2.1, hybody, hWa b hb]
  · intro b hb hu
    obtain ⟨_, _, i, hi, hp, hv⟩ := w5 b (by rw [hybs]; exact hb)
    show (stB.body b).vel = _ ∧ (stB.body b).pos = _
    rw [hp, hv]
    rw [hybs] at hi
    obtain ⟨v1, v2⟩ := ky.values i b (by rw [hzbs, kx.bodies, r1]; exact hi) (by rw [hzl, kx.links, rl]; exact hu)
    obtain ⟨x1, x2⟩ := kx.values i b (by rw [r1]; exact hi) (by rw [rl]; exact hu)
    obtain ⟨c1, c2⟩ := r5 b i hi
    have hpz : z.2.ps i = N.advance (x.2.ps i) (x.2.vs i) := by
      rw [hz]
      show (if i < x.2.bodies.length then _ else _) = _
      rw [if_pos]
      rw [kx.bodies, r1]
      exact (List.getElem?_eq_some_iff.1 hi).1
    have hvz : z.2.vs i = x.2.vs i := by rw [hz]; rfl
    have f := h.indexed.frame b
    constructor
    · rw [v2, hvz, x2]; show islR.vs i = _; rw [c2, (hWpv b).2, f.2.1]
    · rw [v1, hpz, x1, x2]; show N.advance (islR.ps i) (islR.vs i) = _
      rw [c1, c2, (hWpv b).1, (hWpv b).2, f.1, f.2.1]

end Simu.Island
