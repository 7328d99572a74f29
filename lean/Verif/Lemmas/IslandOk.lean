import Verif.Lemmas.IslandLoop
/-
`solveIslands` succeeds if the constraints do; a body left with an index by an interrupted step is never processed.
-/
namespace Simu.Island
variable {P V S : Type*}

theorem addBody_index (st : St P V S) (isl : Isl P V) (b : Nat) : ((addBody st isl b).1.body b).index ≠ none := by
  unfold addBody; split
  · rw [setBody_same]; simp
  · assumption

theorem addBody_index_mono {st : St P V S} {isl : Isl P V} (b c : Nat) (h : (st.body c).index ≠ none) : ((addBody st isl b).1.body c).index ≠ none := by
  unfold addBody; split
  · rename_i hn
    have : c ≠ b := by rintro rfl; exact h hn
    rw [setBody_ne _ _ this]; exact h
  · exact h

theorem addConstraint_ok (N : Net P V S) (st : St P V S) (isl : Isl P V) (l : Link) : ∃ y, addConstraint N st isl l = .ok y := by
  unfold addConstraint
  by_cases hp : (st.proxies l).isSome = true
  · exact ⟨_, if_pos hp⟩
  rw [if_neg hp]
  dsimp only
  have q1 := addBody_index st (isl.push l) (N.ends l).1
  cases h1 : addBody st (isl.push l) (N.ends l).1 with
  | mk st1 r1 =>
  obtain ⟨isl1, added1⟩ := r1
  rw [h1] at q1
  dsimp only at q1 ⊢
  have q2 := addBody_index_mono (st := st1) (isl := isl1) (N.ends l).2 _ q1
  have q3 := addBody_index st1 isl1 (N.ends l).2
  cases h2 : addBody st1 isl1 (N.ends l).2 with
  | mk st2 r2 =>
  obtain ⟨isl2, added2⟩ := r2
  rw [h2] at q2 q3
  dsimp only at q2 q3 ⊢
  unfold startSolve
  obtain ⟨i0, hi0⟩ := Option.ne_none_iff_exists'.1 q2
  obtain ⟨i1, hi1⟩ := Option.ne_none_iff_exists'.1 q3
  rw [hi0, hi1]
  simp only [Outcome.bind, Function.update_self]
  split
  · exact ⟨_, rfl⟩
  · exact ⟨_, rfl⟩

theorem addConstraints_ok (N : Net P V S) (ls : List Link) (x : St P V S × Isl P V) : ∃ y, addConstraints N ls x = .ok y := by
  induction ls generalizing x with
  | nil => exact ⟨x, rfl⟩
  | cons l ls ih =>
    obtain ⟨y, hy⟩ := addConstraint_ok N x.1 x.2 l
    unfold addConstraints
    rw [hy]
    exact ih y

theorem initLoop_ok (N : Net P V S) (fuel current : Nat) (x : St P V S × Isl P V) {o : Outcome (St P V S × Isl P V)}
    (h : initLoop N fuel current x = some o) : ∃ y, o = .ok y := by
  induction fuel generalizing current x with
  | zero => simp [initLoop] at h
  | succ fuel ih =>
    rw [initLoop] at h
    cases hb : x.2.bodies[current]? with
    | none => rw [hb] at h; exact ⟨x, (Option.some.inj h).symm⟩
    | some root =>
      rw [hb] at h
      dsimp only at h
      obtain ⟨z, hz⟩ : ∃ z, (if interactsAsStructural N x.1 root then .ok x else addConstraints N (linksOf N root) x) = .ok z := by
        by_cases hs : interactsAsStructural N x.1 root = true
        · exact ⟨x, if_pos hs⟩
        · rw [if_neg hs]; exact addConstraints_ok N _ x
      rw [hz] at h
      exact ih _ _ h

theorem copyBodies_ok (st : St P V S) (bs : List Nat) (isl : Isl P V) (h : ∀ b ∈ bs, (st.body b).index ≠ none) : ∃ y, copyBodies st bs isl = .ok y := by
  induction bs generalizing isl with
  | nil => exact ⟨isl, rfl⟩
  | cons c bs ih =>
    unfold copyBodies
    obtain ⟨i, hi⟩ := Option.ne_none_iff_exists'.1 (h c (by simp))
    rw [hi]
    exact ih _ fun b hb => h b (List.mem_cons_of_mem _ hb)

theorem startAll_ok (N : Net P V S) (ls : List Link) (st : St P V S)
    (h : ∀ l ∈ ls, (st.body (N.ends l).1).index ≠ none ∧ (st.body (N.ends l).2).index ≠ none) : ∃ y, startAll N ls st = .ok y := by
  induction ls generalizing st with
  | nil => exact ⟨st, rfl⟩
  | cons l ls ih =>
    unfold startAll startSolve
    obtain ⟨i, hi⟩ := Option.ne_none_iff_exists'.1 (h l (by simp)).1
    obtain ⟨j, hj⟩ := Option.ne_none_iff_exists'.1 (h l (by simp)).2
    rw [hi, hj]
    exact ih _ fun l hl => h l (List.mem_cons_of_mem _ hl)

/-- The virtual functions of the constraints do not throw. -/
def ActsOk (N : Net P V S) : Prop := ∀ ph l i0 i1 s ps vs, ∃ r, N.act ph l i0 i1 s ps vs = .ok r

theorem actAll_ok {N : Net P V S} (hN : ActsOk N) (ph : Phase) (ls : List Link) (x : St P V S × Isl P V) (h : ∀ l ∈ ls, x.1.proxies l ≠ none) :
    ∃ y, actAll N ph ls x = .ok y := by
  induction ls generalizing x with
  | nil => exact ⟨x, rfl⟩
  | cons l ls ih =>
    obtain ⟨st, isl⟩ := x
    unfold actAll
    obtain ⟨⟨i0, i1⟩, hi⟩ := Option.ne_none_iff_exists'.1 (h l (by simp))
    rw [show st.proxies l = some (i0, i1) from hi]
    obtain ⟨⟨s, ps, vs⟩, hr⟩ := hN ph l i0 i1 st.s isl.ps isl.vs
    dsimp only
    rw [hr]
    exact ih _ fun l hl => h l (List.mem_cons_of_mem _ hl)

theorem Linked.proxies {N : Net P V S} {st : St P V S} {isl : Isl P V} (h : Linked N st isl) : ∀ l ∈ isl.links, st.proxies l ≠ none := by
  intro l hl
  obtain ⟨i0, i1, hp, -⟩ := h l hl
  rw [hp]; simp

theorem actRounds_ok {N : Net P V S} (hN : Lawful N) (ho : ActsOk N) (ph : Phase) (ls : List Link) (n : Nat) (x : St P V S × Isl P V)
    (hl : Linked N x.1 x.2) (hls : ∀ l ∈ ls, l ∈ x.2.links) : ∃ y, actRounds N ph ls n x = .ok y := by
  induction n generalizing x with
  | zero => exact ⟨x, rfl⟩
  | succ n ih =>
    unfold actRounds
    obtain ⟨y, hy⟩ := actAll_ok ho ph ls x fun l h => hl.proxies l (hls l h)
    rw [hy]
    have hk := actAll_kept hN ph ls hl hls hy
    exact ih y (hk.linked hl) fun l h => by rw [hk.links]; exact hls l h

theorem writeBack_ok (isl : Isl P V) (bs : List Nat) (st : St P V S) (hn : bs.Nodup) (h : ∀ b ∈ bs, (st.body b).index ≠ none) :
    ∃ y, writeBack isl bs st = .ok y := by
  induction bs generalizing st with
  | nil => exact ⟨st, rfl⟩
  | cons c bs ih =>
    unfold writeBack
    obtain ⟨i, hi⟩ := Option.ne_none_iff_exists'.1 (h c (by simp))
    rw [hi]
    refine ih _ (List.nodup_cons.1 hn).2 fun b hb => ?_
    have : b ≠ c := by rintro rfl; exact (List.nodup_cons.1 hn).1 hb
    rw [setBody_ne _ _ this]
    exact h b (List.mem_cons_of_mem _ hb)

theorem solveIsland_ok {N : Net P V S} (hN : Lawful N) (ho : ActsOk N) (cfg : Settings) {st0 st : St P V S} {isl : Isl P V}
    (h : Building N st0 st isl) : ∃ y, solveIsland N cfg st isl = .ok y := by
  unfold solveIsland
  dsimp only
  set stW : St P V S := if isl.awake = true then wakeAll isl.bodies st else st with hstW
  have hWi : ∀ b, (stW.body b).index = (st.body b).index := by
    intro b; rw [hstW]; split
    · simp only [wakeAll]; split <;> rfl
    · rfl
  clear_value stW
  have hidx : ∀ b i, (stW.body b).index = some i ↔ isl.bodies[i]? = some b := fun b i => by rw [hWi]; exact h.indexed.index b i
  have hix : ∀ b ∈ isl.bodies, (stW.body b).index ≠ none := fun b hb => by
    rw [hWi]; exact fun hn => (h.indexed.none_iff b).1 hn hb
  obtain ⟨islR, hR⟩ := copyBodies_ok stW isl.bodies isl hix
  rw [hR]
  obtain ⟨r1, r2, r3, r4, r5⟩ := copyBodies_spec stW isl.bodies hidx (fun b i hb hnb => absurd (List.mem_of_getElem? hb) hnb) hR
  have rl : islR.links = isl.links := by unfold Isl.links; rw [r2, r3]
  simp only [Outcome.bind]
  obtain ⟨stS, hS⟩ := startAll_ok N islR.links stW fun l hl => by
    obtain ⟨e1, e2⟩ := h.ends l (by rw [← rl]; exact hl)
    exact ⟨hix _ e1, hix _ e2⟩
  rw [hS]
  obtain ⟨s1, s2, s3, s4, s5⟩ := startAll_spec (N := N) islR.links hidx [] (by simp) hS
  have hlinked : Linked N stS islR := by
    intro l hl
    obtain ⟨i0, i1, q⟩ := s5 l (Or.inr hl)
    rw [r1]
    exact ⟨i0, i1, q⟩
  dsimp only
  have hend : ∀ y : St P V S × Isl P V, y.1.body = stS.body → y.2.bodies = islR.bodies → ∃ z, endSolve y.1 y.2 = .ok z := by
    intro y hb hbs
    unfold endSolve
    obtain ⟨z, hz⟩ := writeBack_ok y.2 y.2.bodies y.1 (by rw [hbs, r1]; exact h.indexed.nodup) (by
      rw [hbs, r1, hb, s1]; exact hix)
    rw [hz]
    exact ⟨_, rfl⟩
  by_cases hl : islR.links ≠ []
  · rw [if_pos hl]
    obtain ⟨x1, h1⟩ := actAll_ok ho .initSolve islR.links (stS, islR) hlinked.proxies
    rw [h1]
    have k1 := actAll_kept (x := (stS, islR)) hN _ _ hlinked (fun _ hl => hl) h1
    dsimp only
    obtain ⟨x2, h2⟩ : ∃ x2, (if cfg.enableWarmstarting = true then actAll N .warmstart islR.links x1 else .ok x1) = .ok x2 := by
      by_cases hw : cfg.enableWarmstarting = true
      · rw [if_pos hw]
        exact actAll_ok ho _ _ _ fun l hl => (k1.linked hlinked).proxies l (by rw [k1.links]; exact hl)
      · exact ⟨x1, if_neg hw⟩
    have k2 : Kept N x1 x2 := by
      by_cases hw : cfg.enableWarmstarting = true
      · rw [if_pos hw] at h2
        exact actAll_kept hN _ _ (k1.linked hlinked) (fun _ hl => by rw [k1.links]; exact hl) h2
      · rw [if_neg hw] at h2
        cases Outcome.ok.inj h2
        exact Kept.refl N _
    rw [h2]
    dsimp only
    have k12 := k1.trans k2
    obtain ⟨x3, h3⟩ := actRounds_ok hN ho .solveVelocities islR.links cfg.nVelocityIterations x2 (k12.linked hlinked)
      (fun _ hl => by rw [k12.links]; exact hl)
    rw [h3]
    dsimp only
    have k3 := actRounds_kept hN _ _ _ (k12.linked hlinked) (fun _ hl => by rw [k12.links]; exact hl) h3
    have k := k12.trans k3
    have hli : Linked N (integrate N x3).1 (integrate N x3).2 := k.linked hlinked
    have hls : (integrate N x3).2.links = islR.links := k.links
    obtain ⟨x4, h4⟩ := actRounds_ok hN ho .solvePositions islR.links cfg.nPositionIterations (integrate N x3) hli
      (fun _ hl => by rw [hls]; exact hl)
    rw [h4]
    have k4 := actRounds_kept hN _ _ _ hli (fun _ hl => by rw [hls]; exact hl) h4
    obtain ⟨z, hz⟩ := hend x4 (by rw [k4.body]; exact k.body) (by rw [k4.bodies]; exact k.bodies)
    dsimp only
    rw [hz]
    exact ⟨_, rfl⟩
  · rw [if_neg hl]
    dsimp only
    obtain ⟨z, hz⟩ := hend (integrate N (stS, islR)) rfl rfl
    rw [hz]
    exact ⟨_, rfl⟩

theorem init_ok (N : Net P V S) {fuel : Nat} {st : St P V S} {isl : Isl P V} {root : Nat} {o : Outcome (St P V S × Isl P V)}
    (h : init N fuel st isl root = some o) : ∃ y, o = .ok y := initLoop_ok N fuel 0 _ h

theorem solveLoop_ok {N : Net P V S} (hN : Lawful N) (ho : ActsOk N) (cfg : Settings) {world : List Nat} (hc : Closed N world) (fuel : Nat)
    {toProcess : List Nat} {st : St P V S} {isl : Isl P V} {done : List Record} (hw : ∀ b ∈ toProcess, b ∈ world) (h0 : Idle st) (hz : isl.Empty)
    {o : Outcome (St P V S × List Record)} (he : solveLoop N cfg fuel toProcess st isl done = some o) : ∃ y, o = .ok y := by
  induction fuel generalizing toProcess st isl done with
  | zero => simp [solveLoop] at he
  | succ fuel ih =>
    rw [solveLoop] at he
    cases hr : toProcess.getLast? with
    | none => rw [hr] at he; exact ⟨_, (Option.some.inj he).symm⟩
    | some root =>
      rw [hr] at he
      dsimp only at he
      have hroot := List.mem_of_getLast? hr
      cases hi : init N (fuel + 1) st isl root with
      | none => rw [hi] at he; simp at he
      | some o' =>
        obtain ⟨x, rfl⟩ := init_ok N hi
        rw [hi] at he
        dsimp only at he
        obtain ⟨hb, -⟩ := init_evals hc (hw _ hroot) h0 hz hi
        obtain ⟨y, hs⟩ := solveIsland_ok hN ho cfg hb
        rw [hs] at he
        obtain ⟨q1, -⟩ := solveIsland_spec (st' := y.1) (isl' := y.2) hN cfg h0 hb hs
        exact ih (fun b hb => hw b (List.mem_filter.1 hb).1) q1 (Isl.clear_empty _) he

/-! ### A body left with an index -/

/-- The body has an index but is not in the island. -/
def Stale (c : Nat) (st : St P V S) (isl : Isl P V) : Prop := (st.body c).index ≠ none ∧ c ∉ isl.bodies

theorem addBody_stale {c : Nat} {st : St P V S} {isl : Isl P V} (h : Stale c st isl) (b : Nat) :
    Stale c (addBody st isl b).1 (addBody st isl b).2.1 ∧ ((addBody st isl b).2.2 = true → b ≠ c) := by
  unfold addBody; split
  · rename_i hn
    have hcb : c ≠ b := by rintro rfl; exact h.1 hn
    refine ⟨⟨?_, ?_⟩, fun _ => hcb.symm⟩
    · show ((st.setBody b _).body c).index ≠ none
      rw [setBody_ne _ _ hcb]; exact h.1
    · simp only [List.mem_append, List.mem_singleton, not_or]
      exact ⟨h.2, hcb⟩
  · exact ⟨h, by simp⟩

theorem dropBody_stale {c : Nat} {st : St P V S} {isl : Isl P V} (h : Stale c st isl) {b : Nat} (hb : b ≠ c) (i : Option Nat) :
    Stale c (dropBody st isl b i).1 (dropBody st isl b i).2 := by
  refine ⟨?_, fun hm => h.2 (List.dropLast_subset _ hm)⟩
  show ((st.setBody b _).body c).index ≠ none
  rw [setBody_ne _ _ hb.symm]; exact h.1

theorem addConstraint_stale {N : Net P V S} {c : Nat} {st : St P V S} {isl : Isl P V} {l : Link} {y : St P V S × Isl P V} (h : Stale c st isl)
    (he : addConstraint N st isl l = .ok y) : Stale c y.1 y.2 := by
  unfold addConstraint at he
  by_cases hp : (st.proxies l).isSome = true
  · rw [if_pos hp] at he
    cases Outcome.ok.inj he
    exact h
  rw [if_neg hp] at he
  dsimp only at he
  have hpush : Stale c st (isl.push l) := by cases l <;> exact h
  obtain ⟨q1, a1⟩ := addBody_stale hpush (N.ends l).1
  cases h1 : addBody st (isl.push l) (N.ends l).1 with
  | mk st1 r1 =>
  obtain ⟨isl1, added1⟩ := r1
  rw [h1] at he q1 a1
  dsimp only at he q1 a1
  obtain ⟨q2, a2⟩ := addBody_stale q1 (N.ends l).2
  cases h2 : addBody st1 isl1 (N.ends l).2 with
  | mk st2 r2 =>
  obtain ⟨isl2, added2⟩ := r2
  rw [h2] at he q2 a2
  dsimp only at he q2 a2
  rw [bind_ok_iff] at he
  obtain ⟨st3, h3, he⟩ := he
  have q3 : Stale c st3 isl2 := by
    unfold startSolve at h3
    split at h3
    · cases Outcome.ok.inj h3; exact q2
    · simp at h3
  cases hpr : st3.proxies l with
  | none => rw [hpr] at he; simp at he
  | some ij =>
    obtain ⟨i0, i1⟩ := ij
    rw [hpr] at he
    dsimp only at he
    set answer := N.isActive l st3.s (isl2.ps i0) (isl2.ps i1)
    have q4 : Stale c { st3 with s := answer.1, evals := st3.evals ++ [(l, answer.2)] } isl2 := q3
    split at he
    · cases Outcome.ok.inj he
      exact q4
    · cases Outcome.ok.inj he
      set A1 : St P V S × Isl P V := if added2 = true then
        dropBody { st3 with s := answer.1, evals := st3.evals ++ [(l, answer.2)] } isl2 (N.ends l).2 (st.body (N.ends l).2).index
        else ({ st3 with s := answer.1, evals := st3.evals ++ [(l, answer.2)] }, isl2) with hA1
      have s1 : Stale c A1.1 A1.2 := by
        rw [hA1]; split
        · rename_i ha; exact dropBody_stale q4 (a2 ha) _
        · exact q4
      set A2 : St P V S × Isl P V := if added1 = true then dropBody A1.1 A1.2 (N.ends l).1 (st.body (N.ends l).1).index else (A1.1, A1.2) with hA2
      have s2 : Stale c A2.1 A2.2 := by
        rw [hA2]; split
        · rename_i ha; exact dropBody_stale s1 (a1 ha) _
        · exact s1
      exact ⟨s2.1, by cases l <;> exact s2.2⟩

theorem addConstraints_stale {N : Net P V S} {c : Nat} (ls : List Link) {x y : St P V S × Isl P V} (h : Stale c x.1 x.2)
    (he : addConstraints N ls x = .ok y) : Stale c y.1 y.2 := by
  induction ls generalizing x with
  | nil => cases Outcome.ok.inj he; exact h
  | cons l ls ih =>
    unfold addConstraints at he
    rw [bind_ok_iff] at he
    obtain ⟨z, hz, he⟩ := he
    exact ih (addConstraint_stale h hz) he

theorem initLoop_stale {N : Net P V S} {c : Nat} (fuel current : Nat) {x y : St P V S × Isl P V} (h : Stale c x.1 x.2)
    (he : initLoop N fuel current x = some (.ok y)) : Stale c y.1 y.2 := by
  induction fuel generalizing current x with
  | zero => simp [initLoop] at he
  | succ fuel ih =>
    rw [initLoop] at he
    cases hb : x.2.bodies[current]? with
    | none => rw [hb] at he; cases Outcome.ok.inj (Option.some.inj he); exact h
    | some root =>
      rw [hb] at he
      dsimp only at he
      cases hz : (if interactsAsStructural N x.1 root then .ok x else addConstraints N (linksOf N root) x) with
      | throw => rw [hz] at he; simp at he
      | ub => rw [hz] at he; simp at he
      | ok z =>
        rw [hz] at he
        dsimp only at he
        refine ih _ ?_ he
        by_cases hs : interactsAsStructural N x.1 root = true
        · rw [if_pos hs] at hz; cases Outcome.ok.inj hz; exact h
        · rw [if_neg hs] at hz; exact addConstraints_stale _ h hz

theorem copyBodies_bodies {st : St P V S} (bs : List Nat) {isl y : Isl P V} (he : copyBodies st bs isl = .ok y) : y.bodies = isl.bodies := by
  induction bs generalizing isl with
  | nil => cases Outcome.ok.inj he; rfl
  | cons c bs ih =>
    unfold copyBodies at he
    cases hx : (st.body c).index with
    | none => rw [hx] at he; simp at he
    | some i => rw [hx] at he; have := ih he; exact this

theorem startAll_body {N : Net P V S} (ls : List Link) {st y : St P V S} (he : startAll N ls st = .ok y) : y.body = st.body := by
  induction ls generalizing st with
  | nil => cases Outcome.ok.inj he; rfl
  | cons l ls ih =>
    unfold startAll at he
    rw [bind_ok_iff] at he
    obtain ⟨st1, h1, he⟩ := he
    rw [ih he]
    unfold startSolve at h1
    split at h1
    · cases Outcome.ok.inj h1; rfl
    · simp at h1

theorem actAll_body {N : Net P V S} (ph : Phase) (ls : List Link) {x y : St P V S × Isl P V} (he : actAll N ph ls x = .ok y) :
    y.1.body = x.1.body ∧ y.2.bodies = x.2.bodies := by
  induction ls generalizing x with
  | nil => obtain ⟨st, isl⟩ := x; cases Outcome.ok.inj he; exact ⟨rfl, rfl⟩
  | cons l ls ih =>
    obtain ⟨st, isl⟩ := x
    unfold actAll at he
    cases hp : st.proxies l with
    | none => rw [hp] at he; simp at he
    | some ij =>
      obtain ⟨i0, i1⟩ := ij
      rw [hp] at he
      dsimp only at he
      rw [bind_ok_iff] at he
      obtain ⟨⟨s', ps', vs'⟩, ha, he⟩ := he
      have := ih he
      exact this

theorem actRounds_body {N : Net P V S} (ph : Phase) (ls : List Link) (n : Nat) {x y : St P V S × Isl P V} (he : actRounds N ph ls n x = .ok y) :
    y.1.body = x.1.body ∧ y.2.bodies = x.2.bodies := by
  induction n generalizing x with
  | zero => cases Outcome.ok.inj he; exact ⟨rfl, rfl⟩
  | succ n ih =>
    unfold actRounds at he
    rw [bind_ok_iff] at he
    obtain ⟨z, hz, he⟩ := he
    obtain ⟨h1, h2⟩ := ih he
    obtain ⟨g1, g2⟩ := actAll_body _ _ hz
    exact ⟨h1.trans g1, h2.trans g2⟩

theorem writeBack_body {isl : Isl P V} (bs : List Nat) {st y : St P V S} (he : writeBack isl bs st = .ok y) {c : Nat} (hc : c ∉ bs) :
    y.body c = st.body c := by
  induction bs generalizing st with
  | nil => cases Outcome.ok.inj he; rfl
  | cons d bs ih =>
    unfold writeBack at he
    have hcd : c ≠ d := fun h => hc (by rw [h]; simp)
    cases hx : (st.body d).index with
    | none => rw [hx] at he; simp at he
    | some i =>
      rw [hx] at he
      rw [ih he fun h => hc (List.mem_cons_of_mem _ h), setBody_ne _ _ hcd]

theorem solveIsland_stale {N : Net P V S} {cfg : Settings} {c : Nat} {x y : St P V S × Isl P V} (h : Stale c x.1 x.2)
    (he : solveIsland N cfg x.1 x.2 = .ok y) : (y.1.body c).index ≠ none := by
  unfold solveIsland at he
  dsimp only at he
  set stW : St P V S := if x.2.awake = true then wakeAll x.2.bodies x.1 else x.1 with hstW
  have hWi : (stW.body c).index = (x.1.body c).index := by
    rw [hstW]; split
    · simp only [wakeAll]; split <;> rfl
    · rfl
  clear_value stW
  rw [bind_ok_iff] at he
  obtain ⟨islR, hR, he⟩ := he
  rw [bind_ok_iff] at he
  obtain ⟨stS, hS, he⟩ := he
  rw [bind_ok_iff] at he
  obtain ⟨z, hz, he⟩ := he
  have hkeep : z.1.body = stS.body ∧ z.2.bodies = islR.bodies := by
    by_cases hl : islR.links ≠ []
    · rw [if_pos hl] at hz
      rw [bind_ok_iff] at hz
      obtain ⟨x1, h1, hz⟩ := hz
      rw [bind_ok_iff] at hz
      obtain ⟨x2, h2, hz⟩ := hz
      rw [bind_ok_iff] at hz
      obtain ⟨x3, h3, hz⟩ := hz
      obtain ⟨a1, b1⟩ := actAll_body _ _ h1
      have k2 : x2.1.body = x1.1.body ∧ x2.2.bodies = x1.2.bodies := by
        by_cases hw : cfg.enableWarmstarting = true
        · rw [if_pos hw] at h2; exact actAll_body _ _ h2
        · rw [if_neg hw] at h2; cases Outcome.ok.inj h2; exact ⟨rfl, rfl⟩
      obtain ⟨a3, b3⟩ := actRounds_body _ _ _ h3
      obtain ⟨a4, b4⟩ := actRounds_body _ _ _ hz
      exact ⟨a4.trans (a3.trans (k2.1.trans a1)), b4.trans (b3.trans (k2.2.trans b1))⟩
    · rw [if_neg hl] at hz
      cases Outcome.ok.inj hz
      exact ⟨rfl, rfl⟩
  obtain ⟨stz, islz⟩ := z
  dsimp only at he hkeep
  rw [bind_ok_iff] at he
  obtain ⟨stE, hE, he⟩ := he
  cases Outcome.ok.inj he
  unfold endSolve at hE
  rw [bind_ok_iff] at hE
  obtain ⟨stB, hB, hE⟩ := hE
  cases Outcome.ok.inj hE
  show (stB.body c).index ≠ none
  rw [writeBack_body _ hB (by rw [hkeep.2, copyBodies_bodies _ hR]; exact h.2), hkeep.1, startAll_body _ hS, hWi]
  exact h.1

/-- The loop never ends normally. -/
theorem solveLoop_stale {N : Net P V S} {cfg : Settings} {c : Nat} (fuel : Nat) {toProcess : List Nat} {st : St P V S} {isl : Isl P V}
    {done : List Record} (hc : c ∈ toProcess) (h : Stale c st isl) (r : St P V S × List Record) :
    solveLoop N cfg fuel toProcess st isl done ≠ some (.ok r) := by
  induction fuel generalizing toProcess st isl done with
  | zero => simp [solveLoop]
  | succ fuel ih =>
    intro he
    obtain ⟨st', log⟩ := r
    rcases solveLoop_cases he with ⟨rfl, _, _⟩ | ⟨n, root, x, y, hn, hroot, hi, hs, he'⟩
    · simp at hc
    · have hn : n = fuel := by omega
      subst hn
      have hx : Stale c x.1 x.2 := by
        unfold init at hi
        dsimp only at hi
        exact initLoop_stale _ _ (addBody_stale h root).1 hi
      refine ih ?_ ⟨solveIsland_stale hx hs, by simp [Isl.clear]⟩ he'
      rw [List.mem_filter]
      exact ⟨hc, by simpa using hx.2⟩

end Simu.Island
