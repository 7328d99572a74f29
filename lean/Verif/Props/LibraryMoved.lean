import Verif.Model.Penetration
import Verif.Lemmas.ContactMoved
import Verif.Props.IslandFrames
import Verif.Props.LibraryTwin
/-
C80, C81: what happens to a group of bodies depends neither on where it is nor on its uniform motion.
-/
namespace Simu
open Island

section
variable {K : Type*} [Field K]

theorem CFun.Carries.later {n : Nat} {d u : Vec2 K} {f f' : CFun K n} (h : f.Carries d u f') (σ : K) : f.Carries (d + σ • u) u f' := by
  have e : ∀ τ : K, d + σ • u + τ • u = d + (σ + τ) • u := fun τ => by rw [add_assoc, ← add_smul]
  refine ⟨fun τ p s t k => h.eval (σ + τ) p s t (e τ ▸ k), fun τ p s t k => h.bias (σ + τ) p s t (e τ ▸ k), fun τ p s t k => h.jacobian (σ + τ) p s t (e τ ▸ k), h.clampLambda, h.clampPositionLambda⟩

theorem Kind.Carries.later {d u : Vec2 K} {x y : Σ k : Kind K, k.State} (h : Kind.Carries d u x y) (σ : K) : Kind.Carries (d + σ • u) u x y := by
  cases h with
  | equality h e => exact .equality (h.later σ) e
  | inequality h e => exact .inequality (h.later σ) e
  | limits h e => exact .limits (h.later σ) e
  | mouse h e => exact .mouse (h.later σ) e
  | contact e fr => exact .contact e fr

end

section
variable {K : Type*} [Field K] [LinearOrder K] [IsStrictOrderedRing K] [Trig K]

/-- C80: the functions of constraints made for bodies that are elsewhere, at points that are elsewhere by as much, have the same values wherever both are; the mouse has to pull towards a point that is elsewhere too,
and stays there. -/
theorem C80_functions (d u : Vec2 K) {bodies bodies' : Nat → Body K} (hB : ∀ i, (bodies' i).position = (bodies i).position.shift d) (b : Bodies K) (shared p0 p1 : Vec2 K) :
    (hingeFunOf bodies b shared).Carries d u (hingeFunOf bodies' b (shared + d)) ∧ (rotationFunOf bodies b).Carries d u (rotationFunOf bodies' b) ∧
    (weldFunOf bodies b).Carries d u (weldFunOf bodies' b) ∧ (distanceFunOf bodies b p0 p1).Carries d u (distanceFunOf bodies' b (p0 + d) (p1 + d)) ∧
    (∀ m, (rotationMotor m : CFun K 1).Carries d u (rotationMotor m)) ∧ (∀ m, (translationMotor m : CFun K 2).Carries d u (translationMotor m)) ∧
    (∀ i, (mouseFunOf (bodies i) shared).Carries d 0 (mouseFunOf (bodies' i) (shared + d))) ∧
    (∀ (n : Nat) (f f' : CFun K n), f.Carries d u f' → (inequalityFun f).Carries d u (inequalityFun f')) ∧
    ∀ (n k : Nat) (f f' : CFun K n) (g g' : CFun K k), f.Carries d u f' → g.Carries d u g' → (stackFun f g).Carries d u (stackFun f' g') := by
  have hs : ∀ (n k : Nat) (f f' : CFun K n) (g g' : CFun K k), f.Carries d u f' → g.Carries d u g' → (stackFun f g).Carries d u (stackFun f' g') := fun n k f f' g g' hf hg => by
    refine ⟨fun τ p s t h => ?_, fun τ p s t h => ?_, fun τ p s t h => ?_, ?_, ?_⟩
    · simp only [stackFun, hf.eval τ p s t h, hg.eval τ p s t h]
    · simp only [stackFun, hf.bias τ p s t h, hg.bias τ p s t h]
    · simp only [stackFun, hf.jacobian τ p s t h, hg.jacobian τ p s t h]
    · simp only [stackFun, hf.clampLambda, hg.clampLambda]
    · simp only [stackFun, hf.clampPositionLambda, hg.clampPositionLambda]
  have hh : ∀ v : Vec2 K, (hingeFunOf bodies b v).Carries d u (hingeFunOf bodies' b (v + d)) := fun v => by
    unfold hingeFunOf
    rw [hB, hB, Position.shift_local, Position.shift_local]
    refine ⟨fun τ p s t h => ?_, fun _ _ _ _ _ => rfl, fun τ p s t h => ?_, rfl, rfl⟩ <;> simp only [hingeFun, h.pos0, h.pos1, Position.shift_app, Position.shift_centroid, sub_shift]
  have hr : (rotationFunOf bodies b).Carries d u (rotationFunOf bodies' b) := by
    unfold rotationFunOf
    rw [hB, hB]
    refine ⟨fun τ p s t h => ?_, fun _ _ _ _ _ => rfl, fun _ _ _ _ _ => rfl, rfl, rfl⟩
    simp only [rotationFun, h.pos0, h.pos1]
    rfl
  refine ⟨hh _, hr, ?_, ?_, fun m => ⟨fun _ _ _ _ _ => rfl, fun _ _ _ _ _ => rfl, fun _ _ _ _ _ => rfl, rfl, rfl⟩, fun m => ⟨fun _ _ _ _ _ => rfl, fun _ _ _ _ _ => rfl, fun _ _ _ _ _ => rfl, rfl, rfl⟩,
    fun i => ?_, fun n f f' hf => ⟨hf.eval, hf.bias, hf.jacobian, rfl, rfl⟩, hs⟩
  · have e : ((bodies' b.i0).centroid + (bodies' b.i1).centroid).sdiv 2 = ((bodies b.i0).centroid + (bodies b.i1).centroid).sdiv 2 + d := by
      unfold Body.centroid
      rw [hB, hB, Position.shift_centroid, Position.shift_centroid]
      ext <;> simp [Vec2.sdiv] <;> ring
    unfold weldFunOf
    rw [e]
    exact hs _ _ _ _ _ _ (hh _) hr
  · unfold distanceFunOf
    rw [hB, hB, Position.shift_local, Position.shift_local]
    refine ⟨fun τ p s t h => ?_, fun _ _ _ _ _ => rfl, fun τ p s t h => ?_, rfl, rfl⟩ <;> simp only [distanceFun, h.pos0, h.pos1, Position.shift_app, Position.shift_centroid, sub_shift]
  · unfold mouseFunOf
    rw [hB, Position.shift_local]
    refine ⟨fun τ p s t h => ?_, fun _ _ _ _ _ => rfl, fun τ p s t h => ?_, rfl, rfl⟩ <;>
      simp only [mouseFun, h.pos0, Position.shift_app, Position.shift_centroid, sub_shift, smul_zero, add_zero]

omit [Trig K] in
/-- C80: the tests for collisions, the distance between geometries and their penetration do not depend on where both are, and neither does the time they take. -/
theorem C80_penetration (fuel fuel' : Nat) (eps : K) (first second : List (Vec2 K)) (dir d : Vec2 K) :
    Gjk.make fuel (first.map (· + d)) (second.map (· + d)) dir = Gjk.make fuel first second dir ∧
    (∀ s c, Gjk.penetration fuel' (first.map (· + d)) (second.map (· + d)) s c = Gjk.penetration fuel' first second s c) ∧
    ∀ s c, Gjk.separation eps fuel' (first.map (· + d)) (second.map (· + d)) s c = Gjk.separation eps fuel' first second s c := by
  refine ⟨Gjk.run_shift _ _ _ _ _, fun s c => ?_, fun s c => ?_⟩
  · unfold Gjk.penetration; rw [Gjk.expand_shift]
  · unfold Gjk.separation; rw [Gjk.refine_shift]

/-- C80: contacts between colliders that are elsewhere are the same, made anew or updated: they fail in the same cases, have the same manifold, and their points in world coordinates are moved. -/
theorem C80_contacts {sqrt : K → K} {penetration : List (Vec2 K) → List (Vec2 K) → Vec2 K → Outcome (Vec2 K)} (hp : Relative penetration) (d : Vec2 K) (sides : Fin 2 → Side K) :
    (∀ first second, Contact.make sqrt penetration first second (fun i => (sides i).shift d) =
      (Contact.make sqrt penetration first second sides).bind fun e => .ok { e with frame := e.frame.shift d }) ∧
    ∀ (e : Contact K) (fr : Frame K), ({ e with frame := fr } : Contact K).updateContacts sqrt penetration (fun i => (sides i).shift d) =
      (e.updateContacts sqrt penetration sides).bind fun e => .ok { e with frame := e.frame.shift d } :=
  ⟨fun first second => Contact.make_shift (hp d) first second sides, fun e fr => Contact.updateContacts_shift (hp d) e fr sides⟩

end

section
variable {K : Type*} [Field K] [LinearOrder K] [IsStrictOrderedRing K] [Trig K] {L L' : Library K} {m m1 : Motion L} {m' m1' : Motion L'} {c : CallCfg K} {cfg : Island.Settings} {sl : Sleep.Settings K}
  {fields : List (ForceField K)} {tree tree' : List (Nat × Collider K)} {world world' : List Nat} {fuel fuel' : Nat} {A A' : Link → Bool} {group : Finset Nat} {log log' : List Record}
  {evals evals' : List (Link × Bool)} {d u : Vec2 K}

theorem elsewhere_step (hW : Accompanied d u c A A' tree tree' world world' group m m') (hS : Elsewhere d u group (L.Own group) m.snapshot m'.snapshot)
    (h : m.step c cfg sl fields tree world fuel = some (.ok (m1, log, evals)))
    (h' : m'.step c cfg sl (fields.map (·.shift d)) tree' world' fuel' = some (.ok (m1', log', evals'))) (hA : ∀ e ∈ evals, e.2 = A e.1) (hA' : ∀ e ∈ evals', e.2 = A' e.1) :
    Elsewhere (d + c.dt • u) u group (L.Own group) m1.snapshot m1'.snapshot := by
  obtain ⟨body, st, h1, h2, rfl, h4, h5⟩ := Motion.step_ok h
  obtain ⟨body', st', h1', h2', rfl, h4', h5'⟩ := Motion.step_ok h'
  have hbody : ∀ b ∈ group, (body b).asleep = false ∧ body' b = (body b).carried d u := applyForces_moved fields c.dt hW.colliders (fun b hb => by
    refine ⟨(hW.awake b hb).1, ?_⟩
    have e : m'.body b = { (m.body b).carried d u with asleep := (m'.body b).asleep } := hS.bodies b hb
    rw [e, (hW.awake b hb).2]
    show ({ (m.body b).carried d u with asleep := false } : Body K) = (m.body b).carried d u
    rw [← (hW.awake b hb).1]
    rfl) h1 h1'
  have hsol : Solved (L.net c) A world ({ m with body := body } : Motion L).start st log := ⟨C37_library hW.made c, hW.wellFormed, ⟨fun _ => rfl, fun _ => rfl⟩, ⟨_, _, _, _, h2⟩, hA⟩
  have hsol' : Solved (L'.net c) A' world' ({ m' with body := body' } : Motion L').start st' log' :=
    ⟨C37_library hW.made' c, hW.wellFormed', ⟨fun _ => rfl, fun _ => rfl⟩, ⟨_, _, _, _, h2'⟩, hA'⟩
  have anch : ∀ b, Anchored c m b → Fixed (L.net c) ({ m with body := body } : Motion L).start b := by
    rintro b ⟨⟨k1, k2⟩, k3⟩
    have : body b = m.body b := applyForces_untouched (Or.inr (Or.inl k3)) h1
    refine ⟨?_, k2⟩
    show (L.net c).isRest ⟨(body b).velocity, (body b).angular⟩ = true
    rw [this]; exact k1
  have anch' : ∀ b, Anchored c m' b → Fixed (L'.net c) ({ m' with body := body' } : Motion L').start b := by
    rintro b ⟨⟨k1, k2⟩, k3⟩
    have : body' b = m'.body b := applyForces_untouched (Or.inr (Or.inl k3)) h1'
    refine ⟨?_, k2⟩
    show (L'.net c).isRest ⟨(body' b).velocity, (body' b).angular⟩ = true
    rw [this]; exact k1
  have own : ∀ l, Inner (L.net c) ({ m with body := body } : Motion L).start group l → L.Own group l := by
    rintro l ⟨⟨b, hb, -, hl⟩, hi⟩
    exact ⟨⟨b, hb, hl⟩, hi⟩
  have inner : ∀ l, L.Own group l → Inner (L.net c) ({ m with body := body } : Motion L).start group l := by
    rintro l ⟨⟨b, hb, hl⟩, hi⟩
    have hl : l ∈ linksOf (L.net c) b := hl
    have hw := (hW.inside b hb).1
    obtain ⟨l0, l1⟩ := hW.wellFormed.listed b hw l hl
    refine ⟨?_, hi⟩
    rcases hW.wellFormed.oneMoves b hw l hl with hm | hm
    · refine ⟨((L.net c).ends l).1, hi.1, fun hF => ?_, l0⟩
      have := hF.2 l l0
      rw [hm] at this; cases this
    · refine ⟨((L.net c).ends l).2, hi.2, fun hF => ?_, l1⟩
      have := hF.2 l l1
      rw [hm] at this; cases this
  have hfix : ∀ b ∈ group, Fixed (L.net c) ({ m with body := body } : Motion L).start b ↔ Fixed (L'.net c) ({ m' with body := body' } : Motion L').start b := by
    intro b hb
    rcases hW.free with hu | ⟨hf, -⟩
    · refine and_congr ?_ (hW.solid b hb)
      show (L.net c).isRest ⟨(body b).velocity, (body b).angular⟩ = true ↔ (L'.net c).isRest ⟨(body' b).velocity, (body' b).angular⟩ = true
      rw [(hbody b hb).2, hu]
      show _ ↔ (L'.net c).isRest ⟨(body b).velocity + 0, (body b).angular⟩ = true
      rw [add_zero]; exact Iff.rfl
    · have n : ¬ ∀ l ∈ linksOf (L.net c) b, (L.net c).structuralIn l b = true := fun k => by
        obtain ⟨l, hl, hs⟩ := hf b hb
        rw [k l hl] at hs; cases hs
      exact ⟨fun k => (n k.2).elim, fun k => (n ((hW.solid b hb).2 k.2)).elim⟩
  have key := corresponding_group hsol hsol' h2 h2' (F := movedFrames c d u) (known := fun l (s : ∀ l, (L.kind l).State) (t : ∀ l, (L'.kind l).State) => LinkMoves d u ⟨L.kind l, s l⟩ ⟨L'.kind l, t l⟩)
    (asked := fun l (s : ∀ l, (L.kind l).State) (t : ∀ l, (L'.kind l).State) => LinkAsked d u ⟨L.kind l, s l⟩ ⟨L'.kind l, t l⟩) (group := group) (L.private_of L' c (LinkMoves d u)) (L'.private_of L c fun x y => LinkMoves d u y x)
    (L.private_of L' c (LinkAsked d u)) (L'.private_of L c fun x y => LinkAsked d u y x)
    (fun b hb hf l hl hA => hW.enclosed b hb (fun k => hf (anch b k)) l hl hA) (fun b hb hf l hl hA => hW.enclosed' b hb (fun k => hf (anch' b k)) l hl hA)
    ⟨hW.order, hfix, fun b hb hf => hW.links b hb fun k => hf (anch b k), fun l hl => Library.matched c (hW.same l (own l hl)), movedFrames_advance c d u, by
      rcases hW.free with hu | ⟨hf, ha⟩
      · left
        unfold movedFrames
        rw [hu, smul_zero, add_zero]
      · refine Or.inr ⟨fun b hb => ⟨(hW.inside b hb).1, fun k => ?_⟩, fun l hl => ha l (own l hl)⟩
        obtain ⟨l, hl, hs⟩ := hf b hb
        rw [k.2 l hl] at hs; cases hs⟩
    ⟨fun b hb => ⟨by show (Pose.of (body' b).position).1 = _; rw [(hbody b hb).2]; rfl, by
        show (⟨(body' b).velocity, (body' b).angular⟩ : Velocity K) = _; rw [(hbody b hb).2]; rfl⟩,
      fun l hl => hS.links l (own l hl)⟩
  have hb1 : ∀ b ∈ group, m1'.body b = { (m1.body b).carried (d + c.dt • u) u with asleep := (m1'.body b).asleep } := fun b hb => by
    have e := Body.settle_carried (d := d) (u := u) (body b) (st.body b) (st'.body b) (d + c.dt • u) (key.bodies b hb).1 (key.bodies b hb).2
    rw [h5 b (hW.inside b hb).1, h5' b (hW.inside b hb).2, (hbody b hb).2]
    unfold Body.rest
    dsimp only
    rw [e]
    rfl
  refine ⟨hb1, fun hu b hb => ?_, fun l hl => ?_⟩
  · have ht : m'.timeImmobile b = m.timeImmobile b := (hS.clocks hu b hb).2
    have w : (st.body b).asleep = false := hsol.progress.stillAwake b (hbody b hb).1
    have w' : (st'.body b).asleep = false := hsol'.progress.stillAwake b (by show (body' b).asleep = false; rw [(hbody b hb).2]; exact (hbody b hb).1)
    have v1 : (m1'.body b).velocity = (m1.body b).velocity ∧ (m1'.body b).angular = (m1.body b).angular := by
      rw [hb1 b hb, hu]
      exact ⟨add_zero _, rfl⟩
    have asleep : (m1'.body b).asleep = (m1.body b).asleep := by
      have e := Body.settle_carried (d := d) (u := u) (body b) (st.body b) (st'.body b) (d + c.dt • u) (key.bodies b hb).1 (key.bodies b hb).2
      rw [h5 b (hW.inside b hb).1, h5' b (hW.inside b hb).2, (hbody b hb).2, e, hu, w', ht]
      unfold Body.rest Body.carried Body.settle
      dsimp only [Body.update]
      rw [add_zero, w]
    refine ⟨asleep, ?_⟩
    obtain ⟨a, ha⟩ := Motion.step_clock h (hW.inside b hb).1
    obtain ⟨a', ha'⟩ := Motion.step_clock h' (hW.inside b hb).2
    have e := congrArg Sleep.Clock.timeImmobile ha
    have e' := congrArg Sleep.Clock.timeImmobile ha'
    dsimp only at e e'
    show m1'.timeImmobile b = m1.timeImmobile b
    rw [e, e', v1.1, v1.2, ht]
    exact Sleep.update_time _ _ _ _ _ _ _ _
  · have := key.links l (inner l hl)
    show LinkMoves (d + c.dt • u) u ⟨L.kind l, m1.s l⟩ ⟨L'.kind l, m1'.s l⟩
    rw [h4, h4']
    exact ⟨this.1.later _, this.2⟩

/-- C80: one step of the same group at another place, with the force fields of the second world moved by as much: it ends in the same state there. It may be held to the ground, driven by motors and pulled by the
mouse. -/
theorem C80_step (hW : Accompanied d 0 c A A' tree tree' world world' group m m') (hS : Elsewhere d 0 group (L.Own group) m.snapshot m'.snapshot)
    (h : m.step c cfg sl fields tree world fuel = some (.ok (m1, log, evals)))
    (h' : m'.step c cfg sl (fields.map (·.shift d)) tree' world' fuel' = some (.ok (m1', log', evals'))) (hA : ∀ e ∈ evals, e.2 = A e.1) (hA' : ∀ e ∈ evals', e.2 = A' e.1) :
    Elsewhere d 0 group (L.Own group) m1.snapshot m1'.snapshot ∧ ∀ b ∈ group, m1'.body b = (m1.body b).carried d 0 := by
  have k := elsewhere_step hW hS h h' hA hA'
  rw [smul_zero, add_zero] at k
  refine ⟨k, fun b hb => ?_⟩
  have e : m1'.body b = _ := k.bodies b hb
  rw [e, show (m1'.snapshot.body b).asleep = (m1.body b).asleep from (k.clocks rfl b hb).1]
  rfl

/-- C81: one step of the same group at another place and with the velocity `u` added: it ends in the same state up to that velocity, and is further by what it makes of the way. -/
theorem C81_step (hW : Accompanied d u c A A' tree tree' world world' group m m') (hS : Elsewhere d u group (L.Own group) m.snapshot m'.snapshot)
    (h : m.step c cfg sl fields tree world fuel = some (.ok (m1, log, evals)))
    (h' : m'.step c cfg sl (fields.map (·.shift d)) tree' world' fuel' = some (.ok (m1', log', evals'))) (hA : ∀ e ∈ evals, e.2 = A e.1) (hA' : ∀ e ∈ evals', e.2 = A' e.1) :
    Elsewhere (d + c.dt • u) u group (L.Own group) m1.snapshot m1'.snapshot ∧
    ∀ b ∈ group, (m1'.body b).centroid = (m1.body b).centroid + (d + c.dt • u) ∧ (m1'.body b).position.orient = (m1.body b).position.orient ∧ (m1'.body b).velocity = (m1.body b).velocity + u ∧
      (m1'.body b).angular = (m1.body b).angular := by
  have k := elsewhere_step hW hS h h' hA hA'
  refine ⟨k, fun b hb => ?_⟩
  have e : m1'.body b = _ := k.bodies b hb
  rw [e]
  exact ⟨Position.shift_centroid _ _, rfl, rfl, rfl⟩

end

section
variable {K : Type*} [Field K] [LinearOrder K] [IsStrictOrderedRing K] [Trig K] {sqrt : K → K} {penetration : List (Vec2 K) → List (Vec2 K) → Vec2 K → Outcome (Vec2 K)} {group : Finset Nat} {n : Nat} {T : K}
  {own own' : Link → Prop} {S0 S0' S S' : Snapshot K} {d u : Vec2 K}

/-- C81: after any number of steps that take the time `T` the group is in the same state in both worlds, up to the velocity and the way it has made with it. -/
theorem C81_steps (hp : Relative penetration) (h : Apart sqrt penetration d u group n T own S0 S0' own' S S') (h0 : Elsewhere d u group own S0 S0') : Elsewhere (d + T • u) u group own' S S' := by
  induction h with
  | start => rw [zero_smul, add_zero]; exact h0
  | @step n T own0 own S0 S0' S S' before L L' m m1 m' m1' c cfg sl fields tree tree' world world' fuel fuel' A A' log log' evals evals' kept kept' readied accompanied stepped stepped' active active' ih =>
    have ih := ih h0
    have hb : ∀ b ∈ group, m'.body b = { (m.body b).carried (d + T • u) u with asleep := (m'.body b).asleep } := fun b hb => by
      rw [(kept b hb).1, (kept' b hb).1]; exact ih.bodies b hb
    have k := elsewhere_step accompanied ⟨hb, fun hu b hb => ?_, fun l hl => ?_⟩ stepped stepped' active active'
    · rw [add_smul, ← add_assoc]; exact k
    · have e := ih.clocks hu b hb
      show (m'.body b).asleep = (m.body b).asleep ∧ m'.timeImmobile b = m.timeImmobile b
      rw [(kept b hb).1, (kept' b hb).1, (kept b hb).2, (kept' b hb).2]
      exact e
    · obtain ⟨o, ho, hr⟩ := readied l hl
      refine hr.moves hp hb fun z hz => ?_
      obtain ⟨h1, rfl⟩ := ho z hz
      exact ih.links l h1

/-- C80: after any number of steps the group is in the same state in both worlds, at places as far from each other as they were. -/
theorem C80_steps (hp : Relative penetration) (h : Apart sqrt penetration d 0 group n T own S0 S0' own' S S') (h0 : Elsewhere d 0 group own S0 S0') :
    Elsewhere d 0 group own' S S' ∧ ∀ b ∈ group, S'.body b = (S.body b).carried d 0 := by
  have k := C81_steps hp h h0
  rw [smul_zero, add_zero] at k
  refine ⟨k, fun b hb => ?_⟩
  rw [k.bodies b hb, (k.clocks rfl b hb).1]
  rfl

end

/-! ### The two squares of `fly_launched`, at another place and with another velocity -/
section

/-- The hypothesis on the penetration is met by the one of `Gjk`. -/
theorem relative_gjk {K : Type*} [Field K] [LinearOrder K] [IsStrictOrderedRing K] (fuel : Nat) : Relative (boundedPenetration (K := K) fuel) := fun d f s dir => by
  unfold boundedPenetration
  rw [(C80_penetration fuel fuel 0 f s dir d).1]
  simp only [(C80_penetration fuel fuel 0 f s dir d).2.1]

/-- Two squares joined by a hinge, one of them moving, make a step in one world. In another world they are further by `d` and faster by `u`, and another body comes before them. -/
theorem fly_elsewhere (d u : Vec2 ℝ) : ∃ (B : Nat → Body ℝ) (m m' m1 m1' : Motion (flyLib B)) (tree tree' : List (Nat × Collider ℝ)) (log log' : List Record) (evals evals' : List (Link × Bool)),
    Accompanied d u libCfg (fun _ => true) (fun _ => true) tree tree' [0, 1] [2, 0, 1] {0, 1} m m' ∧ Elsewhere d u {0, 1} ((flyLib B).Own {0, 1}) m.snapshot m'.snapshot ∧
    m.step libCfg ⟨8, 2, true⟩ ⟨true, 1, 1, 1⟩ [] tree [0, 1] 7 = some (.ok (m1, log, evals)) ∧
    m'.step libCfg ⟨8, 2, true⟩ ⟨true, 1, 1, 1⟩ [] tree' [2, 0, 1] 7 = some (.ok (m1', log', evals')) ∧ (∀ e ∈ evals, e.2 = true) ∧ (∀ e ∈ evals', e.2 = true) ∧
    (m.body 0).velocity = ⟨3, 1⟩ ∧ (flyLib B).Own {0, 1} (.joint 0) ∧
    Apart Real.sqrt (boundedPenetration 9) d u {0, 1} 1 (0 + libCfg.dt) ((flyLib B).Own {0, 1}) m.snapshot m'.snapshot ((flyLib B).Own {0, 1}) m1.snapshot m1'.snapshot := by
  obtain ⟨B, tree, hl, hf, hmass, hB⟩ := fly_launched
  let m : Motion (flyLib B) := flyMotion B
  let m' : Motion (flyLib B) := { flyMotion B with body := fun b => (B b).carried d u }
  have lk : ∀ b l, l ∈ linksOf ((flyLib B).net libCfg) b → b ∈ [0, 1] := fun b l h => by
    rcases (fly_links B b l h).1 with rfl | rfl <;> simp
  have wf' : WellFormed ((flyLib B).net libCfg) [2, 0, 1] :=
    ⟨fun b _ l h => hl.wellFormed.own b (lk b l h) l h,
      fun b _ l h => ⟨List.mem_cons_of_mem _ (hl.wellFormed.ends b (lk b l h) l h).1, List.mem_cons_of_mem _ (hl.wellFormed.ends b (lk b l h) l h).2⟩,
      fun b _ l h => hl.wellFormed.listed b (lk b l h) l h, fun b _ l h => hl.wellFormed.oneMoves b (lk b l h) l h⟩
  have made' : (flyLib B).MadeFor m'.body := hl.made.same fun b => ⟨rfl, rfl, rfl⟩
  have iso : ∀ b ∈ ({0, 1} : Finset Nat), ∀ l ∈ linksOf ((flyLib B).net libCfg) b, ((flyLib B).bodies l).i0 ∈ ({0, 1} : Finset Nat) ∧ ((flyLib B).bodies l).i1 ∈ ({0, 1} : Finset Nat) :=
    fun b hb l h => hl.isolated b hb l h rfl
  have free : ∀ b ∈ ({0, 1} : Finset Nat), ∃ l ∈ linksOf ((flyLib B).net libCfg) b, ((flyLib B).net libCfg).structuralIn l b = false := by
    intro b hb
    have hb : b = 0 ∨ b = 1 := by simpa using hb
    refine ⟨.joint 0, by rcases hb with rfl | rfl <;> simp [linksOf, Library.net, flyLib], ?_⟩
    show (match ((flyLib B).bodies (.joint 0)).isBodyStructural b with | .ok r => r | _ => false) = false
    unfold Bodies.isBodyStructural
    rw [hmass]
    rcases hb with rfl | rfl <;> simp [flyLib, Bodies.make]
  have hW : ∀ d u : Vec2 ℝ, Accompanied d u libCfg (fun _ => true) (fun _ => true) tree (tree.map fun e => (e.1, e.2.shift d)) [0, 1] [2, 0, 1] {0, 1} m m' := fun d u =>
    ⟨hl.wellFormed, wf', hl.made, made', by decide, fun b hb => ⟨hl.awake b hb, hl.awake b hb⟩, by decide, List.filter_map, fun _ _ => Iff.rfl, fun b hb _ l h _ => iso b hb l h,
      fun b hb _ l h _ => iso b hb l h, fun _ _ _ => rfl, fun _ _ => rfl, Or.inr ⟨free, fun _ _ => rfl⟩⟩
  have hc : ∀ v : Vec2 ℝ, (hingeFunOf B (Bodies.make B 0 1 none) ⟨1, 0⟩).Carries d v (hingeFunOf B (Bodies.make B 0 1 none) ⟨1, 0⟩) := fun v => by
    refine ⟨fun τ p s t h => ?_, fun _ _ _ _ _ => rfl, fun τ p s t h => ?_, rfl, rfl⟩ <;> simp only [hingeFunOf, hingeFun, h.pos0, h.pos1, Position.shift_app, Position.shift_centroid, sub_shift]
  have hS : Elsewhere d u {0, 1} ((flyLib B).Own {0, 1}) m.snapshot m'.snapshot :=
    ⟨fun b hb => rfl, fun _ b hb => ⟨rfl, rfl⟩, fun l _ => ⟨.equality (hc u) _, Or.inr ⟨fun p s => (C32_opposite p s).1 _ _, oppositeLinear_zero⟩⟩⟩
  obtain ⟨st, log, h1, -, -, h4⟩ := C73_answers hl.made sqrt_lawful hl.wellFormed (st := m.start) ⟨fun _ => rfl, fun _ => rfl⟩ rfl hf
    (A := fun _ => true) (fun _ _ _ _ => rfl) ⟨8, 2, true⟩ (.of (m.body 0).position) ⟨0, 0⟩ (fuel := 7) (by decide)
  obtain ⟨st', log', h1', -, -, h4'⟩ := C73_answers made' sqrt_lawful wf' (st := m'.start) ⟨fun _ => rfl, fun _ => rfl⟩ rfl (fun b _ l h => hf b (lk b l h) l h)
    (A := fun _ => true) (fun _ _ _ _ => rfl) ⟨8, 2, true⟩ (.of (m'.body 0).position) ⟨0, 0⟩ (fuel := 7) (by decide)
  obtain ⟨m1, hstep, -⟩ := Motion.step_of (sl := ⟨true, 1, 1, 1⟩) (tree := tree) (fields := []) (m := m) rfl h1
  obtain ⟨m1', hstep', -⟩ := Motion.step_of (sl := ⟨true, 1, 1, 1⟩) (tree := tree.map fun e => (e.1, e.2.shift d)) (fields := []) (m := m') rfl h1'
  refine ⟨B, m, m', m1, m1', tree, _, log, log', st.evals, st'.evals, hW d u, hS, hstep, hstep', h4.stable, h4'.stable, ?_, ?_, ?_⟩
  · show (B 0).velocity = _
    rw [(hB 0).2.2.2.2.1]; simp
  · exact ⟨⟨0, by simp, by simp [linksOf, Library.net, flyLib]⟩, by simp [flyLib, Bodies.make], by simp [flyLib, Bodies.make]⟩
  · have e0 : d + (0 : ℝ) • u = d := by rw [zero_smul, add_zero]
    exact .step (m := m) (m' := m') (A := fun _ => true) (A' := fun _ => true) (tree := tree) (tree' := tree.map fun e => (e.1, e.2.shift d)) (fields := []) (.start _ _ _) (fun _ _ => ⟨rfl, rfl⟩)
      (fun _ _ => ⟨rfl, rfl⟩) (fun l hl => ⟨none, (fun x hx => by cases hx), .given _ (e0.symm ▸ hS.links l hl)⟩) (e0.symm ▸ hW d u) hstep hstep' h4.stable h4'.stable

/-- The hypotheses of `C80_step` and `C80_steps` are met: the squares, a hundred units to the right. -/
example := fly_elsewhere ⟨100, 0⟩ 0

/-- The hypotheses of `C81_step` and `C81_steps` are met: the squares, starting at the same place and faster by (7, -2). -/
example := fly_elsewhere 0 ⟨7, -2⟩

end

end Simu
