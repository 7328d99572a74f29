import Verif.Lemmas.IslandOk
import Verif.Lemmas.IslandRun
import Verif.Spec.IslandSound
/-
`solveIslands` succeeds if the constraints can be solved.
-/
namespace Simu.Island
variable {P V S : Type*} {N : Net P V S} {T : Link → Prop} {A : Link → Bool} {good : S → Prop} {ready : Link → S → Prop}

theorem actAll_sound (hS : Sound N T A good ready) (ph : Phase) (ls : List Link) (x : St P V S × Isl P V) (h : ∀ l ∈ ls, x.1.proxies l ≠ none)
    (hT : ∀ l ∈ ls, T l) (hg : good x.1.s) (hr : ph ≠ .initSolve → ∀ l ∈ ls, ready l x.1.s) :
    ∃ y, actAll N ph ls x = .ok y ∧ good y.1.s ∧ (∀ l ∈ ls, ready l y.1.s) ∧ ∀ l, ready l x.1.s → ready l y.1.s := by
  induction ls generalizing x with
  | nil => exact ⟨x, rfl, hg, by simp, fun _ h => h⟩
  | cons l ls ih =>
    obtain ⟨st, isl⟩ := x
    unfold actAll
    obtain ⟨⟨i0, i1⟩, hi⟩ := Option.ne_none_iff_exists'.1 (h l (by simp))
    rw [show st.proxies l = some (i0, i1) from hi]
    obtain ⟨s, ps, vs, ha, hg', hrl, hk⟩ := hS.act ph l i0 i1 st.s isl.ps isl.vs (hT l (by simp)) hg fun hp => hr hp l (by simp)
    dsimp only
    rw [ha]
    obtain ⟨y, hy, h1, h2, h3⟩ := ih ({ st with s := s }, { isl with ps := ps, vs := vs }) (fun l hl => h l (List.mem_cons_of_mem _ hl))
      (fun l hl => hT l (List.mem_cons_of_mem _ hl)) hg' fun hp l hl => hk l (hr hp l (List.mem_cons_of_mem _ hl))
    refine ⟨y, hy, h1, ?_, fun l' hl' => h3 l' (hk l' hl')⟩
    intro l' hl'
    rcases List.mem_cons.1 hl' with rfl | hl'
    · exact h3 _ hrl
    · exact h2 l' hl'

theorem actRounds_sound (hN : Lawful N) (hS : Sound N T A good ready) {ph : Phase} (hph : ph ≠ .initSolve) (ls : List Link) (n : Nat)
    (x : St P V S × Isl P V) (hl : Linked N x.1 x.2) (hls : ∀ l ∈ ls, l ∈ x.2.links) (hT : ∀ l ∈ ls, T l) (hg : good x.1.s)
    (hr : ∀ l ∈ ls, ready l x.1.s) : ∃ y, actRounds N ph ls n x = .ok y ∧ good y.1.s ∧ ∀ l ∈ ls, ready l y.1.s := by
  induction n generalizing x with
  | zero => exact ⟨x, rfl, hg, hr⟩
  | succ n ih =>
    unfold actRounds
    obtain ⟨y, hy, h1, h2, -⟩ := actAll_sound hS ph ls x (fun l h => hl.proxies l (hls l h)) hT hg fun _ => hr
    rw [hy]
    have hk := actAll_kept hN ph ls hl hls hy
    exact ih y (hk.linked hl) (fun l h => by rw [hk.links]; exact hls l h) h1 h2

theorem solveIsland_sound (hN : Lawful N) (hS : Sound N T A good ready) (cfg : Settings) {st0 st : St P V S} {isl : Isl P V}
    (h : Building N st0 st isl) (hT : ∀ l ∈ isl.links, T l) (hg : good st.s) : ∃ y, solveIsland N cfg st isl = .ok y ∧ good y.1.s := by
  unfold solveIsland
  dsimp only
  set stW : St P V S := if isl.awake = true then wakeAll isl.bodies st else st with hstW
  have hWi : ∀ b, (stW.body b).index = (st.body b).index := by
    intro b; rw [hstW]; split
    · simp only [wakeAll]; split <;> rfl
    · rfl
  have hWg : good stW.s := by
    rw [hstW]; split <;> exact hg
  clear_value stW
  have hidx : ∀ b i, (stW.body b).index = some i ↔ isl.bodies[i]? = some b := fun b i => by rw [hWi]; exact h.indexed.index b i
  have hix : ∀ b ∈ isl.bodies, (stW.body b).index ≠ none := fun b hb => by
    rw [hWi]; exact fun hn => (h.indexed.none_iff b).1 hn hb
  obtain ⟨islR, hR⟩ := copyBodies_ok stW isl.bodies isl hix
  rw [hR]
  obtain ⟨r1, r2, r3, r4, r5⟩ := copyBodies_spec stW isl.bodies hidx (fun b i hb hnb => absurd (List.mem_of_getElem? hb) hnb) hR
  have rl : islR.links = isl.links := by unfold Isl.links; rw [r2, r3]
  simp only [Outcome.bind]
  obtain ⟨stS, hSt⟩ := startAll_ok N islR.links stW fun l hl => by
    obtain ⟨e1, e2⟩ := h.ends l (by rw [← rl]; exact hl)
    exact ⟨hix _ e1, hix _ e2⟩
  rw [hSt]
  obtain ⟨s1, s2, s3, s4, s5⟩ := startAll_spec (N := N) islR.links hidx [] (by simp) hSt
  have hlinked : Linked N stS islR := by
    intro l hl
    obtain ⟨i0, i1, q⟩ := s5 l (Or.inr hl)
    rw [r1]
    exact ⟨i0, i1, q⟩
  have hSg : good stS.s := by rw [startAll_s _ hSt]; exact hWg
  have hTl : ∀ l ∈ islR.links, T l := fun l hl => hT l (by rw [← rl]; exact hl)
  dsimp only
  have hend : ∀ y : St P V S × Isl P V, y.1.body = stS.body → y.2.bodies = islR.bodies → good y.1.s →
      ∃ z, endSolve y.1 y.2 = .ok z ∧ good z.s := by
    intro y hb hbs hgy
    unfold endSolve
    obtain ⟨z, hz⟩ := writeBack_ok y.2 y.2.bodies y.1 (by rw [hbs, r1]; exact h.indexed.nodup) (by
      rw [hbs, r1, hb, s1]; exact hix)
    rw [hz]
    exact ⟨_, rfl, by show good z.s; rw [writeBack_s _ _ hz]; exact hgy⟩
  by_cases hl : islR.links ≠ []
  · rw [if_pos hl]
    obtain ⟨x1, h1, g1, rd1, -⟩ := actAll_sound hS .initSolve islR.links (stS, islR) hlinked.proxies hTl hSg (fun h => absurd rfl h)
    rw [h1]
    have k1 := actAll_kept (x := (stS, islR)) hN _ _ hlinked (fun _ hl => hl) h1
    dsimp only
    obtain ⟨x2, h2, g2, rd2⟩ : ∃ x2, (if cfg.enableWarmstarting = true then actAll N .warmstart islR.links x1 else .ok x1) = .ok x2 ∧
        good x2.1.s ∧ ∀ l ∈ islR.links, ready l x2.1.s := by
      by_cases hw : cfg.enableWarmstarting = true
      · rw [if_pos hw]
        obtain ⟨x2, a, b, c, -⟩ := actAll_sound hS .warmstart islR.links x1
          (fun l hl => (k1.linked hlinked).proxies l (by rw [k1.links]; exact hl)) hTl g1 fun _ => rd1
        exact ⟨x2, a, b, c⟩
      · exact ⟨x1, if_neg hw, g1, rd1⟩
    have k2 : Kept N x1 x2 := by
      by_cases hw : cfg.enableWarmstarting = true
      · rw [if_pos hw] at h2
        exact actAll_kept hN _ _ (k1.linked hlinked) (fun _ hl => by rw [k1.links]; exact hl) h2
      · rw [if_neg hw] at h2
        cases Outcome.ok.inj h2
        exact Kept.refl N _
    rw [h2]
    dsimp only
    have k12 := k1.trans k2
    obtain ⟨x3, h3, g3, rd3⟩ := actRounds_sound hN hS (ph := .solveVelocities) (by decide) islR.links cfg.nVelocityIterations x2
      (k12.linked hlinked) (fun _ hl => by rw [k12.links]; exact hl) hTl g2 rd2
    rw [h3]
    dsimp only
    have k3 := actRounds_kept hN _ _ _ (k12.linked hlinked) (fun _ hl => by rw [k12.links]; exact hl) h3
    have k := k12.trans k3
    have hli : Linked N (integrate N x3).1 (integrate N x3).2 := k.linked hlinked
    have hls : (integrate N x3).2.links = islR.links := k.links
    obtain ⟨x4, h4, g4, -⟩ := actRounds_sound hN hS (ph := .solvePositions) (by decide) islR.links cfg.nPositionIterations (integrate N x3) hli
      (fun _ hl => by rw [hls]; exact hl) hTl g3 rd3
    rw [h4]
    have k4 := actRounds_kept hN _ _ _ hli (fun _ hl => by rw [hls]; exact hl) h4
    obtain ⟨z, hz, gz⟩ := hend x4 (by rw [k4.body]; exact k.body) (by rw [k4.bodies]; exact k.bodies) g4
    dsimp only
    rw [hz]
    exact ⟨_, rfl, gz⟩
  · rw [if_neg hl]
    dsimp only
    obtain ⟨z, hz, gz⟩ := hend (integrate N (stS, islR)) rfl rfl hSg
    rw [hz]
    exact ⟨_, rfl, gz⟩

/-- What holds while an island is built. -/
structure Tidy (T : Link → Prop) (A : Link → Bool) (good : S → Prop) (x : St P V S × Isl P V) : Prop where
  good : good x.1.s
  answers : ∀ e ∈ x.1.evals, e.2 = A e.1
  links : ∀ l ∈ x.2.links, T l

theorem addBody_tidy {st : St P V S} {isl : Isl P V} (h : Tidy T A good (st, isl)) (b : Nat) :
    Tidy T A good ((addBody st isl b).1, (addBody st isl b).2.1) := by
  unfold addBody
  split
  · exact ⟨h.good, h.answers, h.links⟩
  · exact h

theorem dropBody_tidy {x : St P V S × Isl P V} (h : Tidy T A good x) (b : Nat) (i : Option Nat) : Tidy T A good (dropBody x.1 x.2 b i) :=
  ⟨h.good, h.answers, h.links⟩

theorem addConstraint_tidy (hS : Sound N T A good ready) {st : St P V S} {isl : Isl P V} {l : Link} (hl : T l) {y : St P V S × Isl P V}
    (h : Tidy T A good (st, isl)) (he : addConstraint N st isl l = .ok y) : Tidy T A good y := by
  unfold addConstraint at he
  by_cases hp : (st.proxies l).isSome = true
  · rw [if_pos hp] at he
    cases Outcome.ok.inj he
    exact h
  rw [if_neg hp] at he
  dsimp only at he
  have h0 : Tidy T A good (st, isl.push l) := by
    refine ⟨h.good, h.answers, fun l' hl' => ?_⟩
    have : l' ∈ isl.links ∨ l' = l := by
      cases l <;> simp [Isl.push, Isl.links] at hl' ⊢ <;> grind
    rcases this with hm | rfl
    · exact h.links l' hm
    · exact hl
  have q1 := addBody_tidy h0 (N.ends l).1
  cases h1 : addBody st (isl.push l) (N.ends l).1 with
  | mk st1 r1 =>
  obtain ⟨isl1, added1⟩ := r1
  rw [h1] at he q1
  dsimp only at he q1
  have q2 := addBody_tidy q1 (N.ends l).2
  cases h2 : addBody st1 isl1 (N.ends l).2 with
  | mk st2 r2 =>
  obtain ⟨isl2, added2⟩ := r2
  rw [h2] at he q2
  dsimp only at he q2
  rw [bind_ok_iff] at he
  obtain ⟨st3, h3, he⟩ := he
  have q3 : Tidy T A good (st3, isl2) := by
    unfold startSolve at h3
    split at h3
    · cases Outcome.ok.inj h3; exact ⟨q2.good, q2.answers, q2.links⟩
    · simp at h3
  cases hpr : st3.proxies l with
  | none => rw [hpr] at he; simp at he
  | some ij =>
    obtain ⟨i0, i1⟩ := ij
    rw [hpr] at he
    dsimp only at he
    obtain ⟨hs, ha⟩ := hS.isActive l st3.s (isl2.ps i0) (isl2.ps i1) hl q3.good
    generalize hans : N.isActive l st3.s (isl2.ps i0) (isl2.ps i1) = ans at he hs ha
    have q4 : Tidy T A good ({ st3 with s := ans.1, evals := st3.evals ++ [(l, ans.2)] }, isl2) := by
      refine ⟨hs, ?_, q3.links⟩
      intro e hm
      rcases List.mem_append.1 hm with hm | hm
      · exact q3.answers e hm
      · rw [List.mem_singleton.1 hm]; exact ha
    split at he
    · cases Outcome.ok.inj he
      exact q4
    · have pop : ∀ {x : St P V S × Isl P V} (f : Link → Option (Nat × Nat)), Tidy T A good x → Tidy T A good ({ x.1 with proxies := f }, x.2.pop l) := by
        intro x f hx
        refine ⟨hx.good, hx.answers, fun l' hl' => hx.links l' ?_⟩
        cases l <;> simp only [Isl.pop, Isl.links, List.mem_append, List.mem_map] at hl' ⊢
        · rcases hl' with ⟨a, ha, e⟩ | h
          · exact Or.inl ⟨a, List.dropLast_subset _ ha, e⟩
          · exact Or.inr h
        · rcases hl' with h | ⟨a, ha, e⟩
          · exact Or.inl h
          · exact Or.inr ⟨a, List.dropLast_subset _ ha, e⟩
      cases Outcome.ok.inj he
      cases added1 <;> cases added2
      · exact pop _ q4
      · exact pop _ (dropBody_tidy q4 _ _)
      · exact pop _ (dropBody_tidy q4 _ _)
      · exact pop _ (dropBody_tidy (dropBody_tidy q4 _ _) _ _)

theorem addConstraints_tidy (hS : Sound N T A good ready) (ls : List Link) (hl : ∀ l ∈ ls, T l) {x y : St P V S × Isl P V}
    (h : Tidy T A good x) (he : addConstraints N ls x = .ok y) : Tidy T A good y := by
  induction ls generalizing x with
  | nil => cases Outcome.ok.inj he; exact h
  | cons l ls ih =>
    unfold addConstraints at he
    rw [bind_ok_iff] at he
    obtain ⟨z, hz, he⟩ := he
    exact ih (fun l hm => hl l (List.mem_cons_of_mem _ hm)) (addConstraint_tidy hS (hl l (by simp)) h hz) he

theorem initLoop_tidy (hS : Sound N T A good ready) {world : List Nat} (hc : Closed N world) (hT : ∀ b ∈ world, ∀ l ∈ linksOf N b, T l)
    {st0 : St P V S} (fuel current : Nat) {x y : St P V S × Isl P V} (hb : Building N st0 x.1 x.2) (hw : ∀ b ∈ x.2.bodies, b ∈ world)
    (h : Tidy T A good x) (he : initLoop N fuel current x = some (.ok y)) : Tidy T A good y := by
  induction fuel generalizing current x with
  | zero => simp [initLoop] at he
  | succ fuel ih =>
    rw [initLoop_succ] at he
    cases hr : x.2.bodies[current]? with
    | none => rw [hr] at he; cases Outcome.ok.inj (Option.some.inj he); exact h
    | some root =>
      rw [hr] at he
      dsimp only at he
      have hroot := hw root (List.mem_of_getElem? hr)
      cases hs : initStep N root x with
      | throw => rw [hs] at he; simp at he
      | ub => rw [hs] at he; simp at he
      | ok z =>
        rw [hs] at he
        dsimp only at he
        obtain ⟨h1, ⟨n1, hn1, hn1'⟩, -, -⟩ := initStep_building hb hs
        refine ih _ h1 ?_ ?_ he
        · intro b hb
          rw [hn1] at hb
          rcases List.mem_append.1 hb with hb | hb
          · exact hw b hb
          · obtain ⟨l, hl, hb | hb⟩ := hn1' b hb
            · rw [hb]; exact (hc root hroot l hl).1
            · rw [hb]; exact (hc root hroot l hl).2
        · unfold initStep at hs
          split at hs
          · cases Outcome.ok.inj hs; exact h
          · exact addConstraints_tidy hS _ (hT root hroot) h hs

theorem init_tidy (hS : Sound N T A good ready) {world : List Nat} (hc : Closed N world) (hT : ∀ b ∈ world, ∀ l ∈ linksOf N b, T l)
    {st : St P V S} {isl : Isl P V} {root fuel : Nat} {y : St P V S × Isl P V} (hroot : root ∈ world) (hi : Idle st) (hz : isl.Empty) (hg : good st.s)
    (hA : ∀ e ∈ st.evals, e.2 = A e.1) (he : init N fuel st isl root = some (.ok y)) : Tidy T A good y := by
  obtain ⟨hb, hbs, hls, hev, haw⟩ := addBody_building (N := N) hi hz root
  unfold init at he
  dsimp only at he
  refine initLoop_tidy hS hc hT fuel 0 (x := ((addBody st isl root).1, (addBody st isl root).2.1)) hb (by
    intro b hb; rw [show ((addBody st isl root).1, (addBody st isl root).2.1).2.bodies = [root] from hbs] at hb
    rw [List.mem_singleton.1 hb]; exact hroot) (addBody_tidy ⟨hg, hA, ?_⟩ root) he
  intro l hl
  obtain ⟨-, hj, hk⟩ := hz
  rw [show (st, isl).2.links = [] by simp [Isl.links, hj, hk]] at hl
  simp at hl

theorem solveLoop_sound (hN : Lawful N) (hS : Sound N T A good ready) (cfg : Settings) {world : List Nat} (hc : Closed N world)
    (hT : ∀ b ∈ world, ∀ l ∈ linksOf N b, T l) (fuel : Nat)
    {toProcess : List Nat} {st : St P V S} {isl : Isl P V} {done : List Record} (hw : ∀ b ∈ toProcess, b ∈ world) (h0 : Idle st) (hz : isl.Empty)
    (hg : good st.s) (hA : ∀ e ∈ st.evals, e.2 = A e.1)
    {o : Outcome (St P V S × List Record)} (he : solveLoop N cfg fuel toProcess st isl done = some o) :
    ∃ y, o = .ok y ∧ good y.1.s ∧ ∀ e ∈ y.1.evals, e.2 = A e.1 := by
  induction fuel generalizing toProcess st isl done with
  | zero => simp [solveLoop] at he
  | succ fuel ih =>
    rw [solveLoop] at he
    cases hr : toProcess.getLast? with
    | none => rw [hr] at he; exact ⟨_, (Option.some.inj he).symm, hg, hA⟩
    | some root =>
      rw [hr] at he
      dsimp only at he
      have hroot := List.mem_of_getLast? hr
      cases hi : init N (fuel + 1) st isl root with
      | none => rw [hi] at he; simp at he
      | some o' =>
        obtain ⟨x, rfl⟩ := init_ok N hi
        rw [hi] at he
        dsimp only at he
        obtain ⟨hb, -⟩ := init_evals hc (hw _ hroot) h0 hz hi
        have ht := init_tidy hS hc hT (hw _ hroot) h0 hz hg hA hi
        obtain ⟨y, hs, gy⟩ := solveIsland_sound hN hS cfg hb ht.links ht.good
        rw [hs] at he
        obtain ⟨q1, -, -, -, q5, -⟩ := solveIsland_spec (st' := y.1) (isl' := y.2) hN cfg h0 hb hs
        exact ih (fun b hb => hw b (List.mem_filter.1 hb).1) q1 (Isl.clear_empty _) gy (by rw [q5]; exact ht.answers) he

end Simu.Island
