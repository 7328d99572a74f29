import Verif.Lemmas.IslandLoop
/-
The solution of an island as a sequence of calls to its constraints.
-/
namespace Simu.Island
variable {P V S : Type*}

/-- One call of a virtual function of a constraint of the island, in one of the phases `Q`. -/
def Call (N : Net P V S) (Q : Phase → Prop) (x y : St P V S × Isl P V) : Prop :=
  ∃ ph l i0 i1 s ps vs, Q ph ∧ l ∈ x.2.links ∧ x.1.proxies l = some (i0, i1) ∧ N.act ph l i0 i1 x.1.s x.2.ps x.2.vs = .ok (s, ps, vs) ∧
    y = ({ x.1 with s := s }, { x.2 with ps := ps, vs := vs })

/-- Any number of calls. -/
def Run (N : Net P V S) (Q : Phase → Prop) : St P V S × Isl P V → St P V S × Isl P V → Prop := Relation.ReflTransGen (Call N Q)

theorem Call.frame {N : Net P V S} {Q : Phase → Prop} {x y : St P V S × Isl P V} (h : Call N Q x y) :
    y.1.proxies = x.1.proxies ∧ y.1.body = x.1.body ∧ y.2.bodies = x.2.bodies ∧ y.2.links = x.2.links := by
  obtain ⟨ph, l, i0, i1, s, ps, vs, -, -, -, -, rfl⟩ := h
  exact ⟨rfl, rfl, rfl, rfl⟩

theorem Run.frame {N : Net P V S} {Q : Phase → Prop} {x y : St P V S × Isl P V} (h : Run N Q x y) :
    y.1.proxies = x.1.proxies ∧ y.1.body = x.1.body ∧ y.2.bodies = x.2.bodies ∧ y.2.links = x.2.links := by
  induction h with
  | refl => exact ⟨rfl, rfl, rfl, rfl⟩
  | tail _ hs ih =>
    obtain ⟨a, b, c, d⟩ := hs.frame
    obtain ⟨a', b', c', d'⟩ := ih
    exact ⟨a.trans a', b.trans b', c.trans c', d.trans d'⟩

theorem actAll_run {N : Net P V S} {Q : Phase → Prop} {ph : Phase} (hQ : Q ph) (ls : List Link) {x y : St P V S × Isl P V}
    (hls : ∀ l ∈ ls, l ∈ x.2.links) (he : actAll N ph ls x = .ok y) : Run N Q x y := by
  induction ls generalizing x with
  | nil => obtain ⟨st, isl⟩ := x; cases Outcome.ok.inj he; exact .refl
  | cons l ls ih =>
    obtain ⟨st, isl⟩ := x
    unfold actAll at he
    cases hp : st.proxies l with
    | none => rw [hp] at he; simp at he
    | some ij =>
      obtain ⟨i0, i1⟩ := ij
      rw [hp] at he
      dsimp only at he
      rw [bind_ok_iff] at he
      obtain ⟨⟨s', ps', vs'⟩, ha, he⟩ := he
      dsimp only at he
      exact Relation.ReflTransGen.head ⟨ph, l, i0, i1, s', ps', vs', hQ, hls l (by simp), hp, ha, rfl⟩
        (ih (fun l' hl' => hls l' (List.mem_cons_of_mem _ hl')) he)

theorem actRounds_run {N : Net P V S} {Q : Phase → Prop} {ph : Phase} (hQ : Q ph) (ls : List Link) (n : Nat) {x y : St P V S × Isl P V}
    (hls : ∀ l ∈ ls, l ∈ x.2.links) (he : actRounds N ph ls n x = .ok y) : Run N Q x y := by
  induction n generalizing x with
  | zero => cases Outcome.ok.inj he; exact .refl
  | succ n ih =>
    unfold actRounds at he
    rw [bind_ok_iff] at he
    obtain ⟨z, hz, he⟩ := he
    have h1 := actAll_run (Q := Q) hQ ls hls hz
    exact Relation.ReflTransGen.trans h1 (ih (fun l' hl' => by rw [h1.frame.2.2.2]; exact hls l' hl') he)

theorem startAll_s {N : Net P V S} (ls : List Link) {st st' : St P V S} (he : startAll N ls st = .ok st') : st'.s = st.s := by
  induction ls generalizing st with
  | nil => cases Outcome.ok.inj he; rfl
  | cons l ls ih =>
    unfold startAll at he
    rw [bind_ok_iff] at he
    obtain ⟨st1, h1, he⟩ := he
    rw [ih he]
    unfold startSolve at h1
    split at h1
    · cases Outcome.ok.inj h1; rfl
    · simp at h1

theorem writeBack_s (isl : Isl P V) (bs : List Nat) {st st' : St P V S} (he : writeBack isl bs st = .ok st') : st'.s = st.s := by
  induction bs generalizing st with
  | nil => cases Outcome.ok.inj he; rfl
  | cons c bs ih =>
    unfold writeBack at he
    split at he
    · simp at he
    · rw [ih he]; rfl

/-- The calls of an island, without their order. -/
theorem phases_run {N : Net P V S} (cfg : Settings) {ls : List Link} {a x1 x2 x y : St P V S × Isl P V} (hl : a.2.links = ls)
    (h1 : actAll N .initSolve ls a = .ok x1) (h2 : (if cfg.enableWarmstarting then actAll N .warmstart ls x1 else .ok x1) = .ok x2)
    (h3 : actRounds N .solveVelocities ls cfg.nVelocityIterations x2 = .ok x)
    (h4 : actRounds N .solvePositions ls cfg.nPositionIterations (integrate N x) = .ok y) :
    Run N (· ≠ .solvePositions) a x ∧ Run N (· = .solvePositions) (integrate N x) y := by
  subst hl
  have k1 : Run N (· ≠ .solvePositions) a x1 := actAll_run (by simp) _ (fun _ hl => hl) h1
  have k2 : Run N (· ≠ .solvePositions) x1 x2 := by
    by_cases hw : cfg.enableWarmstarting = true
    · rw [if_pos hw] at h2
      exact actAll_run (by simp) _ (fun _ hl => by rw [k1.frame.2.2.2]; exact hl) h2
    · rw [if_neg hw] at h2
      cases Outcome.ok.inj h2
      exact .refl
  have k12 : Run N (· ≠ .solvePositions) a x2 := Relation.ReflTransGen.trans k1 k2
  have k3 : Run N (· ≠ .solvePositions) x2 x := actRounds_run (by simp) _ _ (fun _ hl => by rw [k12.frame.2.2.2]; exact hl) h3
  have k : Run N (· ≠ .solvePositions) a x := Relation.ReflTransGen.trans k12 k3
  refine ⟨k, actRounds_run (Q := (· = .solvePositions)) rfl _ _ (fun _ hl => ?_) h4⟩
  have : (integrate N x).2.links = x.2.links := rfl
  rw [this, k.frame.2.2.2]; exact hl

/-- Solving an island: the calls in their order. -/
theorem solveIsland_phases {N : Net P V S} (cfg : Settings) {st0 st st' : St P V S} {isl isl' : Isl P V}
    (h : Building N st0 st isl) (he : solveIsland N cfg st isl = .ok (st', isl')) :
    ∃ a x1 x2 x y, Linked N a.1 a.2 ∧ a.2.bodies = isl.bodies ∧ a.2.links = isl.links ∧ a.1.s = st.s ∧
      (∀ b i, isl.bodies[i]? = some b → a.2.ps i = (st0.body b).pos ∧ a.2.vs i = (st0.body b).vel) ∧
      actAll N .initSolve isl.links a = .ok x1 ∧ (if cfg.enableWarmstarting then actAll N .warmstart isl.links x1 else .ok x1) = .ok x2 ∧
      actRounds N .solveVelocities isl.links cfg.nVelocityIterations x2 = .ok x ∧
      actRounds N .solvePositions isl.links cfg.nPositionIterations (integrate N x) = .ok y ∧ st'.s = y.1.s ∧
      ∀ b i, isl.bodies[i]? = some b → (st'.body b).pos = y.2.ps i ∧ (st'.body b).vel = y.2.vs i := by
  unfold solveIsland at he
  dsimp only at he
  set stW : St P V S := if isl.awake = true then wakeAll isl.bodies st else st with hstW
  have hWi : ∀ b, (stW.body b).index = (st.body b).index := by
    intro b; rw [hstW]; split
    · simp only [wakeAll]; split <;> rfl
    · rfl
  have hWpv : ∀ b, (stW.body b).pos = (st.body b).pos ∧ (stW.body b).vel = (st.body b).vel := by
    intro b; rw [hstW]; split
    · simp only [wakeAll]; split <;> exact ⟨rfl, rfl⟩
    · exact ⟨rfl, rfl⟩
  have hWs : stW.s = st.s := by rw [hstW]; split <;> rfl
  clear_value stW
  have hidx : ∀ b i, (stW.body b).index = some i ↔ isl.bodies[i]? = some b := fun b i => by rw [hWi]; exact h.indexed.index b i
  rw [bind_ok_iff] at he
  obtain ⟨islR, hR, he⟩ := he
  obtain ⟨r1, r2, r3, r4, r5⟩ := copyBodies_spec stW isl.bodies hidx (fun b i hb hnb => absurd (List.mem_of_getElem? hb) hnb) hR
  have rl : islR.links = isl.links := by unfold Isl.links; rw [r2, r3]
  rw [bind_ok_iff] at he
  obtain ⟨stS, hS, he⟩ := he
  obtain ⟨s1, s2, s3, s4, s5⟩ := startAll_spec (N := N) islR.links hidx [] (by simp) hS
  have hlinked : Linked N stS islR := by
    intro l hl
    obtain ⟨i0, i1, q⟩ := s5 l (Or.inr hl)
    rw [r1]
    exact ⟨i0, i1, q⟩
  rw [bind_ok_iff] at he
  obtain ⟨y, hy, he⟩ := he
  have nil : ∀ (ph : Phase) n (x : St P V S × Isl P V), actRounds N ph [] n x = .ok x := by
    intro ph n
    induction n with
    | zero => exact fun x => rfl
    | succ n ih => exact fun x => ih x
  have hsolve : ∃ x1 x2 x, actAll N .initSolve islR.links (stS, islR) = .ok x1 ∧
      (if cfg.enableWarmstarting then actAll N .warmstart islR.links x1 else .ok x1) = .ok x2 ∧
      actRounds N .solveVelocities islR.links cfg.nVelocityIterations x2 = .ok x ∧
      actRounds N .solvePositions islR.links cfg.nPositionIterations (integrate N x) = .ok y := by
    by_cases hl : islR.links ≠ []
    · rw [if_pos hl] at hy
      rw [bind_ok_iff] at hy
      obtain ⟨x1, h1, hy⟩ := hy
      rw [bind_ok_iff] at hy
      obtain ⟨x2, h2, hy⟩ := hy
      rw [bind_ok_iff] at hy
      obtain ⟨x3, h3, hy⟩ := hy
      exact ⟨x1, x2, x3, h1, h2, h3, hy⟩
    · rw [if_neg hl] at hy
      have hl : islR.links = [] := by simpa using hl
      cases Outcome.ok.inj hy
      rw [hl]
      exact ⟨_, _, _, rfl, by split <;> rfl, nil _ _ _, nil _ _ _⟩
  obtain ⟨x1, x2, x, e1, e2, e3, e4⟩ := hsolve
  obtain ⟨kx, ky⟩ := phases_run (a := (stS, islR)) cfg rfl e1 e2 e3 e4
  have hybs : y.2.bodies = isl.bodies := by
    rw [ky.frame.2.2.1, show (integrate N x).2.bodies = x.2.bodies from rfl, kx.frame.2.2.1]; exact r1
  have hybody : y.1.body = stW.body := by
    rw [ky.frame.2.1, show (integrate N x).1.body = x.1.body from rfl, kx.frame.2.1]; exact s1
  refine ⟨(stS, islR), x1, x2, x, y, hlinked, r1, rl, by rw [show (stS, islR).1 = stS from rfl, startAll_s _ hS, hWs], ?_, rl ▸ e1, rl ▸ e2, rl ▸ e3, rl ▸ e4, ?_⟩
  · intro b i hb
    obtain ⟨c1, c2⟩ := r5 b i hb
    have f := h.indexed.frame b
    exact ⟨by rw [← f.1, ← (hWpv b).1]; exact c1, by rw [← f.2.1, ← (hWpv b).2]; exact c2⟩
  obtain ⟨sty, isly⟩ := y
  dsimp only at he hybody hybs
  rw [bind_ok_iff] at he
  obtain ⟨stE, hE, he⟩ := he
  have he := Outcome.ok.inj he
  simp only [Prod.mk.injEq] at he
  obtain ⟨rfl, rfl⟩ := he
  unfold endSolve at hE
  rw [bind_ok_iff] at hE
  obtain ⟨stB, hB, hE⟩ := hE
  have hE := (Outcome.ok.inj hE).symm
  subst hE
  obtain ⟨-, -, -, -, w5⟩ := writeBack_spec isly isly.bodies (by rw [hybs]; exact h.indexed.nodup) (by
    intro b hb i
    rw [hybody, hybs]; exact hidx b i) hB
  refine ⟨show stB.s = sty.s from writeBack_s _ _ hB, fun b i hb => ?_⟩
  obtain ⟨_, _, j, hj, hp, hv⟩ := w5 b (by rw [hybs]; exact List.mem_of_getElem? hb)
  have hij : i = j := by
    rw [hybs] at hj
    have h1 := (hidx b i).2 hb
    rw [(hidx b j).2 hj] at h1
    exact (Option.some.inj h1).symm
  subst hij
  exact ⟨hp, hv⟩

/-- Solving an island: calls before the positions are integrated, and calls to correct positions afterwards. -/
theorem solveIsland_runs {N : Net P V S} (cfg : Settings) {st0 st st' : St P V S} {isl isl' : Isl P V}
    (h : Building N st0 st isl) (he : solveIsland N cfg st isl = .ok (st', isl')) :
    ∃ a x y, Linked N a.1 a.2 ∧ a.2.bodies = isl.bodies ∧ a.2.links = isl.links ∧ a.1.s = st.s ∧
      (∀ b i, isl.bodies[i]? = some b → a.2.ps i = (st0.body b).pos ∧ a.2.vs i = (st0.body b).vel) ∧
      Run N (· ≠ .solvePositions) a x ∧ Run N (· = .solvePositions) (integrate N x) y ∧ st'.s = y.1.s ∧
      ∀ b i, isl.bodies[i]? = some b → (st'.body b).pos = y.2.ps i ∧ (st'.body b).vel = y.2.vs i := by
  obtain ⟨a, x1, x2, x, y, h1, h2, h3, h4, h5, e1, e2, e3, e4, h8, h9⟩ := solveIsland_phases cfg h he
  obtain ⟨kx, ky⟩ := phases_run cfg h3 e1 e2 e3 e4
  exact ⟨a, x, y, h1, h2, h3, h4, h5, kx, ky, h8, h9⟩

/-- Building an island keeps what `isActive` keeps. -/
theorem addConstraint_s {N : Net P V S} {good : S → Prop} (hg : ∀ l s p q, good s → good (N.isActive l s p q).1) {st : St P V S} {isl : Isl P V}
    {l : Link} {y : St P V S × Isl P V} (he : addConstraint N st isl l = .ok y) (h : good st.s) : good y.1.s := by
  have hadd : ∀ (st : St P V S) isl b, (addBody st isl b).1.s = st.s := by
    intro st isl b; unfold addBody; split <;> rfl
  unfold addConstraint at he
  by_cases hp : (st.proxies l).isSome = true
  · rw [if_pos hp] at he
    cases Outcome.ok.inj he
    exact h
  rw [if_neg hp] at he
  dsimp only at he
  have q1 := hadd st (isl.push l) (N.ends l).1
  cases h1 : addBody st (isl.push l) (N.ends l).1 with
  | mk st1 r1 =>
  obtain ⟨isl1, added1⟩ := r1
  rw [h1] at he q1
  dsimp only at he q1
  have q2 := hadd st1 isl1 (N.ends l).2
  cases h2 : addBody st1 isl1 (N.ends l).2 with
  | mk st2 r2 =>
  obtain ⟨isl2, added2⟩ := r2
  rw [h2] at he q2
  dsimp only at he q2
  rw [bind_ok_iff] at he
  obtain ⟨st3, h3, he⟩ := he
  have q3 : st3.s = st2.s := by
    unfold startSolve at h3
    split at h3
    · cases Outcome.ok.inj h3; rfl
    · simp at h3
  cases hpr : st3.proxies l with
  | none => rw [hpr] at he; simp at he
  | some ij =>
    obtain ⟨i0, i1⟩ := ij
    rw [hpr] at he
    dsimp only at he
    have hs : good (N.isActive l st3.s (isl2.ps i0) (isl2.ps i1)).1 := hg _ _ _ _ (by rw [q3, q2, q1]; exact h)
    split at he
    · cases Outcome.ok.inj he
      exact hs
    · cases Outcome.ok.inj he
      cases added1 <;> cases added2 <;> simpa [dropBody, St.setBody] using hs

theorem addConstraints_s {N : Net P V S} {good : S → Prop} (hg : ∀ l s p q, good s → good (N.isActive l s p q).1) (ls : List Link)
    {x y : St P V S × Isl P V} (he : addConstraints N ls x = .ok y) (h : good x.1.s) : good y.1.s := by
  induction ls generalizing x with
  | nil => cases Outcome.ok.inj he; exact h
  | cons l ls ih =>
    unfold addConstraints at he
    rw [bind_ok_iff] at he
    obtain ⟨z, hz, he⟩ := he
    exact ih he (addConstraint_s hg hz h)

theorem init_s {N : Net P V S} {good : S → Prop} (hg : ∀ l s p q, good s → good (N.isActive l s p q).1) {st : St P V S} {isl : Isl P V}
    {root fuel : Nat} {x' : St P V S × Isl P V} (he : init N fuel st isl root = some (.ok x')) (h : good st.s) : good x'.1.s := by
  have loop : ∀ fuel current (x y : St P V S × Isl P V), initLoop N fuel current x = some (.ok y) → good x.1.s → good y.1.s := by
    intro fuel
    induction fuel with
    | zero => intro c x y he; simp [initLoop] at he
    | succ fuel ih =>
      intro current x y he h
      rw [initLoop] at he
      cases hb : x.2.bodies[current]? with
      | none => rw [hb] at he; cases Outcome.ok.inj (Option.some.inj he); exact h
      | some root =>
        rw [hb] at he
        dsimp only at he
        cases hz : (if interactsAsStructural N x.1 root then .ok x else addConstraints N (linksOf N root) x) with
        | throw => rw [hz] at he; simp at he
        | ub => rw [hz] at he; simp at he
        | ok z =>
          rw [hz] at he
          dsimp only at he
          refine ih _ _ _ he ?_
          by_cases hs : interactsAsStructural N x.1 root = true
          · rw [if_pos hs] at hz; cases Outcome.ok.inj hz; exact h
          · rw [if_neg hs] at hz; exact addConstraints_s hg _ hz h
  unfold init at he
  dsimp only at he
  refine loop _ _ _ _ he ?_
  show good (addBody st isl root).1.s
  unfold addBody; split <;> exact h

end Simu.Island
