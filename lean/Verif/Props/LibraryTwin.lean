import Verif.Lemmas.LibraryTwin
import Verif.Props.IslandTwin
import Verif.Props.MotionStill
/-
C79: what happens to a group of bodies depends on the group only, for whole steps of worlds with the constraints of the library.
-/
namespace Simu
open Island
variable {K : Type*} [Field K] [LinearOrder K] [Trig K]

/-- C79: the functions of the constraints, motors and of the mouse only look at their own bodies. -/
theorem C79_functions (bodies : Nat → Body K) (b : Bodies K) (shared p0 p1 : Vec2 K) :
    (Kind.equality 2 (hingeFunOf bodies b shared)).Local ∧ (Kind.equality 1 (rotationFunOf bodies b)).Local ∧ (Kind.equality 3 (weldFunOf bodies b)).Local ∧
    (Kind.limits (distanceFunOf bodies b p0 p1)).Local ∧ (∀ m, (Kind.equality 1 (rotationMotor m : CFun K 1)).Local) ∧ (∀ m, (Kind.equality 2 (translationMotor m : CFun K 2)).Local) ∧
    (∀ body : Body K, (Kind.mouse (mouseFunOf body shared)).Local) ∧ (Kind.contact : Kind K).Local ∧
    (∀ (d : Nat) (f : CFun K d), f.Local → (Kind.inequality d (inequalityFun f)).Local) ∧
    ∀ (d e : Nat) (f : CFun K d) (g : CFun K e), f.Local → g.Local → (stackFun f g).Local := by
  have hs : ∀ (d e : Nat) (f : CFun K d) (g : CFun K e), f.Local → g.Local → (stackFun f g).Local := fun d e f g hf hg => by
    refine ⟨fun p s t h => ?_, fun p s t h => ?_, fun p s t h => ?_⟩
    · show assignRows d (le_refl _) (g.eval p s) (assignRows 0 (by omega) (f.eval p s) Mat.zero) = assignRows d (le_refl _) (g.eval p t) (assignRows 0 (by omega) (f.eval p t) Mat.zero)
      rw [hf.eval p s t h, hg.eval p s t h]
    · show assignRows d (le_refl _) (g.bias p s) (assignRows 0 (by omega) (f.bias p s) Mat.zero) = assignRows d (le_refl _) (g.bias p t) (assignRows 0 (by omega) (f.bias p t) Mat.zero)
      rw [hf.bias p s t h, hg.bias p s t h]
    · show assignRows d (le_refl _) (g.jacobian p s) (assignRows 0 (by omega) (f.jacobian p s) Mat.zero) = assignRows d (le_refl _) (g.jacobian p t) (assignRows 0 (by omega) (f.jacobian p t) Mat.zero)
      rw [hf.jacobian p s t h, hg.jacobian p s t h]
  have hh : ∀ l0 l1 : Vec2 K, (hingeFun l0 l1).Local := fun l0 l1 => by
    refine ⟨fun p s t h => ?_, fun _ _ _ _ => rfl, fun p s t h => ?_⟩ <;> simp only [hingeFun, h.pos0, h.pos1]
  have hr : ∀ a : K, (rotationFun a).Local := fun a => by
    refine ⟨fun p s t h => ?_, fun _ _ _ _ => rfl, fun p s t h => rfl⟩
    simp only [rotationFun, h.pos0, h.pos1]
  refine ⟨hh _ _, hr _, hs _ _ _ _ (hh _ _) (hr _), ?_, fun m => ⟨fun _ _ _ _ => rfl, fun _ _ _ _ => rfl, fun _ _ _ _ => rfl⟩,
    fun m => ⟨fun _ _ _ _ => rfl, fun _ _ _ _ => rfl, fun _ _ _ _ => rfl⟩, fun body => ?_, trivial, fun d f hf => ⟨hf.eval, hf.bias, hf.jacobian⟩, hs⟩
  · refine ⟨fun p s t h => ?_, fun _ _ _ _ => rfl, fun p s t h => ?_⟩ <;> simp only [distanceFunOf, distanceFun, h.pos0, h.pos1]
  · refine ⟨fun p s t h => ?_, fun _ _ _ _ => rfl, fun p s t h => ?_⟩ <;> simp only [mouseFunOf, mouseFun, h.pos0]

variable [IsStrictOrderedRing K]

omit [Trig K] [IsStrictOrderedRing K] in
theorem Sleep.update_time (sl : Sleep.Settings K) (dt x y w : K) (a a' : Bool) (t : K) : (Sleep.update sl dt x y w ⟨a, t⟩).timeImmobile = (Sleep.update sl dt x y w ⟨a', t⟩).timeImmobile := by
  unfold Sleep.update Sleep.updateTimeImmobile Sleep.canSleep Sleep.sleep
  dsimp only
  split
  · split <;> split <;> simp_all
  · rfl

/-- Fields of force leave bodies awake. -/
theorem applyForces_awake {fields : List (ForceField K)} {dt : K} {tree : List (Nat × Collider K)} {bodies bodies' : Nat → Body K} {i : Nat} (hi : (bodies i).asleep = false)
    (h : applyForces fields dt tree bodies = .ok bodies') : (bodies' i).asleep = false := by
  have one : ∀ (f : ForceField K) (l : List (Nat × Collider K)) (B B' : Nat → Body K), (B i).asleep = false → foldlO (applyToCollider f dt) B l = .ok B' → (B' i).asleep = false := by
    intro f l
    induction l with
    | nil => intro B B' hB h; cases Outcome.ok.inj h; exact hB
    | cons e l ih =>
      intro B B' hB h
      obtain ⟨B1, h1, h2⟩ := bind_ok_iff.1 h
      refine ih B1 B' ?_ h2
      unfold applyToCollider at h1
      dsimp only at h1
      split at h1
      · obtain ⟨p, -, h1⟩ := bind_ok_iff.1 h1
        rw [← Outcome.ok.inj h1, Function.update_apply]
        split
        · rw [ForceField.apply_eq]; rfl
        · exact hB
      · rw [← Outcome.ok.inj h1]; exact hB
  unfold applyForces at h
  induction fields generalizing bodies with
  | nil => cases Outcome.ok.inj h; exact hi
  | cons f fields ih =>
    obtain ⟨B1, h1, h2⟩ := bind_ok_iff.1 h
    exact ih (one f _ _ _ hi h1) h2

section
variable {L L' : Library K} {m m1 : Motion L} {m' m1' : Motion L'} {c : CallCfg K} {cfg : Island.Settings} {sl : Sleep.Settings K} {fields : List (ForceField K)}
  {tree tree' : List (Nat × Collider K)} {world world' : List Nat} {fuel fuel' : Nat} {A A' : Link → Bool} {group : Finset Nat} {log log' : List Record}
  {evals evals' : List (Link × Bool)}

/-- C79: two worlds with the same group of bodies in the same state make a step with the same settings and fields of force. Afterwards the bodies of the group have the same positions,
velocities and colliders, and its constraints the same states, whatever else is in the worlds; if the group was awake then it is also awake or asleep in both. -/
theorem C79_step (hW : Alongside c A A' tree tree' world world' group m m') (hS : Agree group (L.Own group) m.snapshot m'.snapshot)
    (h : m.step c cfg sl fields tree world fuel = some (.ok (m1, log, evals))) (h' : m'.step c cfg sl fields tree' world' fuel' = some (.ok (m1', log', evals')))
    (hA : ∀ e ∈ evals, e.2 = A e.1) (hA' : ∀ e ∈ evals', e.2 = A' e.1) :
    (∀ b ∈ group, m1.body b = { m1'.body b with asleep := (m1.body b).asleep } ∧ m1.timeImmobile b = m1'.timeImmobile b) ∧
    (∀ l, L.Own group l → m1.snapshot.link l = m1'.snapshot.link l) ∧
    ((∀ b ∈ group, (m.body b).asleep = false) → Agree group (L.Own group) m1.snapshot m1'.snapshot) := by
  obtain ⟨body, st, h1, h2, rfl, h4, h5⟩ := Motion.step_ok h
  obtain ⟨body', st', h1', h2', rfl, h4', h5'⟩ := Motion.step_ok h'
  have hbody : ∀ b ∈ group, body b = body' b := applyForces_twin fields c.dt group hW.colliders (fun b hb => (hS.bodies b hb).1) h1 h1'
  have hsol : Solved (L.net c) A world ({ m with body := body } : Motion L).start st log := ⟨C37_library hW.made c, hW.wellFormed, ⟨fun _ => rfl, fun _ => rfl⟩, ⟨_, _, _, _, h2⟩, hA⟩
  have hsol' : Solved (L'.net c) A' world' ({ m' with body := body' } : Motion L').start st' log' :=
    ⟨C37_library hW.made' c, hW.wellFormed', ⟨fun _ => rfl, fun _ => rfl⟩, ⟨_, _, _, _, h2'⟩, hA'⟩
  have anch : ∀ b, Anchored c m b → Fixed (L.net c) ({ m with body := body } : Motion L).start b := by
    rintro b ⟨⟨k1, k2⟩, k3⟩
    have : body b = m.body b := applyForces_untouched (Or.inr (Or.inl k3)) h1
    refine ⟨?_, k2⟩
    show (L.net c).isRest ⟨(body b).velocity, (body b).angular⟩ = true
    rw [this]; exact k1
  have anch' : ∀ b, Anchored c m' b → Fixed (L'.net c) ({ m' with body := body' } : Motion L').start b := by
    rintro b ⟨⟨k1, k2⟩, k3⟩
    have : body' b = m'.body b := applyForces_untouched (Or.inr (Or.inl k3)) h1'
    refine ⟨?_, k2⟩
    show (L'.net c).isRest ⟨(body' b).velocity, (body' b).angular⟩ = true
    rw [this]; exact k1
  have own : ∀ l, Inner (L.net c) ({ m with body := body } : Motion L).start group l → L.Own group l := by
    rintro l ⟨⟨b, hb, -, hl⟩, hi⟩
    exact ⟨⟨b, hb, hl⟩, hi⟩
  have inner : ∀ l, L.Own group l → Inner (L.net c) ({ m with body := body } : Motion L).start group l := by
    rintro l ⟨⟨b, hb, hl⟩, hi⟩
    have hl : l ∈ linksOf (L.net c) b := hl
    have hw := (hW.inside b hb).1
    obtain ⟨l0, l1⟩ := hW.wellFormed.listed b hw l hl
    refine ⟨?_, hi⟩
    rcases hW.wellFormed.oneMoves b hw l hl with hm | hm
    · refine ⟨((L.net c).ends l).1, hi.1, fun hF => ?_, l0⟩
      have := hF.2 l l0
      rw [hm] at this; cases this
    · refine ⟨((L.net c).ends l).2, hi.2, fun hF => ?_, l1⟩
      have := hF.2 l l1
      rw [hm] at this; cases this
  have key := C79_group hsol hsol' h2 h2' (L.private L' c) (L.private' L' c) (group := group)
    (fun b hb hf l hl hA => hW.enclosed b hb (fun k => hf (anch b k)) l hl hA) (fun b hb hf l hl hA => hW.enclosed' b hb (fun k => hf (anch' b k)) l hl hA)
    ⟨hW.order, fun b hb => by
        refine and_congr ?_ (hW.solid b hb)
        show (L.net c).isRest ⟨(body b).velocity, (body b).angular⟩ = true ↔ (L'.net c).isRest ⟨(body' b).velocity, (body' b).angular⟩ = true
        rw [hbody b hb]; exact Iff.rfl,
      fun b hb hf => hW.links b hb fun k => hf (anch b k), fun l hl => Library.alike c (hW.alike l (own l hl)).1 (hW.alike l (own l hl)).2, rfl⟩
    ⟨fun b hb => ⟨by show Pose.of (body b).position = Pose.of (body' b).position; rw [hbody b hb],
        by show (⟨(body b).velocity, (body b).angular⟩ : Velocity K) = ⟨(body' b).velocity, (body' b).angular⟩; rw [hbody b hb]⟩,
      fun l hl => hS.links l (own l hl)⟩
  have links : ∀ l, L.Own group l → m1.snapshot.link l = m1'.snapshot.link l := fun l hl => by
    have := key.links l (inner l hl)
    unfold Motion.snapshot
    dsimp only
    rw [h4, h4']
    exact this
  have hb1 : ∀ b ∈ group, m1.body b = { m1'.body b with asleep := (m1.body b).asleep } := fun b hb => by
    rw [h5 b (hW.inside b hb).1, h5' b (hW.inside b hb).2]
    unfold Body.rest Body.settle Body.update
    dsimp only
    rw [(key.bodies b hb).1, (key.bodies b hb).2, hbody b hb]
  have time : ∀ b ∈ group, m1.timeImmobile b = m1'.timeImmobile b := fun b hb => by
    obtain ⟨a, ha⟩ := Motion.step_clock h (hW.inside b hb).1
    obtain ⟨a', ha'⟩ := Motion.step_clock h' (hW.inside b hb).2
    have e := congrArg Sleep.Clock.timeImmobile ha
    have e' := congrArg Sleep.Clock.timeImmobile ha'
    dsimp only at e e'
    have ht : m.timeImmobile b = m'.timeImmobile b := (hS.bodies b hb).2
    rw [e, e', hb1 b hb, ht]
    exact Sleep.update_time _ _ _ _ _ _ _ _
  refine ⟨fun b hb => ⟨hb1 b hb, time b hb⟩, links, fun haw => ⟨fun b hb => ⟨?_, time b hb⟩, links⟩⟩
  show m1.body b = m1'.body b
  have w : (st.body b).asleep = false := hsol.progress.stillAwake b (applyForces_awake (haw b hb) h1)
  have w' : (st'.body b).asleep = false := hsol'.progress.stillAwake b (by show (body' b).asleep = false; rw [← hbody b hb]; exact applyForces_awake (haw b hb) h1)
  rw [h5 b (hW.inside b hb).1, h5' b (hW.inside b hb).2]
  unfold Body.rest Body.settle Body.update
  dsimp only
  have ht : m.timeImmobile b = m'.timeImmobile b := (hS.bodies b hb).2
  rw [(key.bodies b hb).1, (key.bodies b hb).2, hbody b hb, w, w', ht]

end

/-- C79: whatever happens elsewhere, the same group of awake bodies is in the same state in two worlds after any number of steps. -/
theorem C79_steps {group : Finset Nat} {n : Nat} {own own' : Link → Prop} {S0 S0' S S' : Snapshot K} (h : SideBySide group n own S0 S0' own' S S') (h0 : Agree group own S0 S0') :
    Agree group own' S S' := by
  induction h with
  | start => exact h0
  | step before kept kept' treated awake alongside stepped stepped' active active' ih =>
    have ih := ih h0
    refine (C79_step alongside ⟨fun b hb => ?_, fun l hl => ?_⟩ stepped stepped' active active').2.2 awake
    · obtain ⟨e1, e2⟩ := kept b hb
      obtain ⟨e1', e2'⟩ := kept' b hb
      obtain ⟨e3, e4⟩ := ih.bodies b hb
      exact ⟨e1.trans (e3.trans e1'.symm), e2.trans (e4.trans e2'.symm)⟩
    · rcases treated l hl with e | ⟨ho, f, e, e'⟩
      · exact e
      · rw [e, e', ih.links l ho]

/-! ### The two squares of `fly_launched`, alone and with a third body flying by -/
section

/-- The hypotheses of `C79_step` and `C79_steps` are met: two squares joined by a hinge, one of them moving, make a step alone in one world; in another world a third body comes before them and moves. -/
example : ∃ (B : Nat → Body ℝ) (m m' m1 m1' : Motion (flyLib B)) (tree : List (Nat × Collider ℝ)) (log log' : List Record) (evals evals' : List (Link × Bool)),
    Alongside libCfg (fun _ => true) (fun _ => true) tree tree [0, 1] [2, 0, 1] {0, 1} m m' ∧ Agree {0, 1} ((flyLib B).Own {0, 1}) m.snapshot m'.snapshot ∧
    m.step libCfg ⟨8, 2, true⟩ ⟨true, 1, 1, 1⟩ [] tree [0, 1] 7 = some (.ok (m1, log, evals)) ∧
    m'.step libCfg ⟨8, 2, true⟩ ⟨true, 1, 1, 1⟩ [] tree [2, 0, 1] 7 = some (.ok (m1', log', evals')) ∧ (∀ e ∈ evals, e.2 = true) ∧ (∀ e ∈ evals', e.2 = true) ∧
    (m.body 0).velocity = ⟨3, 1⟩ ∧ (m.body 2).velocity ≠ (m'.body 2).velocity ∧ (flyLib B).Own {0, 1} (.joint 0) ∧
    SideBySide {0, 1} 1 ((flyLib B).Own {0, 1}) m.snapshot m'.snapshot ((flyLib B).Own {0, 1}) m1.snapshot m1'.snapshot := by
  obtain ⟨B, tree, hl, hf, hmass, hB⟩ := fly_launched
  let m : Motion (flyLib B) := flyMotion B
  let m' : Motion (flyLib B) := { flyMotion B with body := fun b => if b = 2 then { B 2 with velocity := ⟨7, 7⟩ } else B b }
  have hB' : ∀ b, (m'.body b).mass = (B b).mass ∧ (m'.body b).inertia = (B b).inertia ∧ (m'.body b).dominance = (B b).dominance := by
    intro b
    show (if b = 2 then { B 2 with velocity := ⟨7, 7⟩ } else B b : Body ℝ).mass = _ ∧ (if b = 2 then { B 2 with velocity := ⟨7, 7⟩ } else B b : Body ℝ).inertia = _ ∧
      (if b = 2 then { B 2 with velocity := ⟨7, 7⟩ } else B b : Body ℝ).dominance = _
    split
    · rename_i h; subst h; exact ⟨rfl, rfl, rfl⟩
    · exact ⟨rfl, rfl, rfl⟩
  have hg : ∀ b ∈ ({0, 1} : Finset Nat), m'.body b = m.body b := fun b hb => by
    have : b ≠ 2 := by rintro rfl; simp at hb
    exact if_neg this
  have lk : ∀ b l, l ∈ linksOf ((flyLib B).net libCfg) b → b ∈ [0, 1] := fun b l h => by
    rcases (fly_links B b l h).1 with rfl | rfl <;> simp
  have wf' : WellFormed ((flyLib B).net libCfg) [2, 0, 1] :=
    ⟨fun b _ l h => hl.wellFormed.own b (lk b l h) l h,
      fun b _ l h => ⟨List.mem_cons_of_mem _ (hl.wellFormed.ends b (lk b l h) l h).1, List.mem_cons_of_mem _ (hl.wellFormed.ends b (lk b l h) l h).2⟩,
      fun b _ l h => hl.wellFormed.listed b (lk b l h) l h, fun b _ l h => hl.wellFormed.oneMoves b (lk b l h) l h⟩
  have made' : (flyLib B).MadeFor m'.body := hl.made.same hB'
  have iso : ∀ b ∈ ({0, 1} : Finset Nat), ∀ l ∈ linksOf ((flyLib B).net libCfg) b, ((flyLib B).bodies l).i0 ∈ ({0, 1} : Finset Nat) ∧ ((flyLib B).bodies l).i1 ∈ ({0, 1} : Finset Nat) :=
    fun b hb l h => hl.isolated b hb l h rfl
  have hW : Alongside libCfg (fun _ => true) (fun _ => true) tree tree [0, 1] [2, 0, 1] {0, 1} m m' :=
    ⟨hl.wellFormed, wf', hl.made, made', by decide, by decide, rfl, fun _ _ => Iff.rfl, fun b hb _ l h _ => iso b hb l h, fun b hb _ l h _ => iso b hb l h, fun _ _ _ => rfl,
      fun l _ => ⟨rfl, (C79_functions B (Bodies.make B 0 1 none) ⟨1, 0⟩ 0 0).1⟩⟩
  have hS : Agree {0, 1} ((flyLib B).Own {0, 1}) m.snapshot m'.snapshot := ⟨fun b hb => ⟨(hg b hb).symm, rfl⟩, fun _ _ => rfl⟩
  obtain ⟨st, log, h1, -, -, h4⟩ := C73_answers hl.made sqrt_lawful hl.wellFormed (st := m.start) ⟨fun _ => rfl, fun _ => rfl⟩ rfl hf
    (A := fun _ => true) (fun _ _ _ _ => rfl) ⟨8, 2, true⟩ (.of (m.body 0).position) ⟨0, 0⟩ (fuel := 7) (by decide)
  obtain ⟨st', log', h1', -, -, h4'⟩ := C73_answers made' sqrt_lawful wf' (st := m'.start) ⟨fun _ => rfl, fun _ => rfl⟩ rfl (fun b _ l h => hf b (lk b l h) l h)
    (A := fun _ => true) (fun _ _ _ _ => rfl) ⟨8, 2, true⟩ (.of (m'.body 0).position) ⟨0, 0⟩ (fuel := 7) (by decide)
  obtain ⟨m1, hstep, -⟩ := Motion.step_of (sl := ⟨true, 1, 1, 1⟩) (tree := tree) (fields := []) (m := m) rfl h1
  obtain ⟨m1', hstep', -⟩ := Motion.step_of (sl := ⟨true, 1, 1, 1⟩) (tree := tree) (fields := []) (m := m') rfl h1'
  refine ⟨B, m, m', m1, m1', tree, log, log', st.evals, st'.evals, hW, hS, hstep, hstep', h4.stable, h4'.stable, ?_, ?_, ?_, ?_⟩
  · show (B 0).velocity = _
    rw [(hB 0).2.2.2.2.1]; simp
  · show (B 2).velocity ≠ ⟨7, 7⟩
    rw [(hB 2).2.2.2.2.1]
    intro h
    have := congrArg Vec2.x h
    simp at this
  · exact ⟨⟨0, by simp, by simp [linksOf, Library.net, flyLib]⟩, by simp [flyLib, Bodies.make], by simp [flyLib, Bodies.make]⟩
  · exact .step (m := m) (m' := m') (A := fun _ => true) (A' := fun _ => true) (.start _ _ _) (fun _ _ => ⟨rfl, rfl⟩) (fun _ _ => ⟨rfl, rfl⟩) (fun _ _ => Or.inl rfl) (fun b hb => hl.awake b hb) hW hstep hstep' h4.stable h4'.stable

end

end Simu
