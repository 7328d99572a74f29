import Verif.Lemmas.SlowMotionStep
import Verif.Props.LibraryHeavier
/-
C101: only the unit of time changes.
-/
namespace Simu
open Island

section
variable {K : Type*} [Field K] [LinearOrder K] [IsStrictOrderedRing K] [Trig K] {σ : K}

/-- The motor that gets to `σ` times the velocity in a `σ`-th of the time. -/
def Motor.faster {n : Nat} (m : Motor K n) (σ : K) : Motor K n := { m with maxVelocity := σ * m.maxVelocity, maxForce := σ ^ 2 * m.maxForce }

omit [Trig K] in
theorem Motor.clampLambda_faster (hσ : 0 < σ) {n : Nat} (m : Motor K n) (l : MVec K n) (dt : K) : (m.faster σ).clampLambda (l.smul σ) (dt / σ) = (m.clampLambda l dt).smul σ := by
  apply Mat.ext_at; intro r
  have h0 := hσ.ne'
  have e : m.direction.at_ r * m.throttle * (σ ^ 2 * m.maxForce) * (dt / σ) = m.direction.at_ r * m.throttle * m.maxForce * dt * σ := by field_simp
  have e1 : (m.faster σ).lo (dt / σ) r = m.lo dt r * σ := by
    show min 0 (m.direction.at_ r * m.throttle * (σ ^ 2 * m.maxForce) * (dt / σ)) = min 0 _ * σ
    rw [e, min_mul_of_nonneg _ _ hσ.le, zero_mul]
  have e2 : (m.faster σ).hi (dt / σ) r = m.hi dt r * σ := by
    show max 0 (m.direction.at_ r * m.throttle * (σ ^ 2 * m.maxForce) * (dt / σ)) = max 0 _ * σ
    rw [e, max_mul_of_nonneg _ _ hσ.le, zero_mul]
  rw [Mat.at_smul, Motor.clampLambda_at, Motor.clampLambda_at, e1, e2, Mat.at_smul, Algo.clamp_scale hσ]

omit [Trig K] in
theorem Motor.bias_faster {n : Nat} (m : Motor K n) : (m.faster σ).bias = m.bias.smul σ := by
  apply Mat.ext_at; intro r
  unfold Motor.bias Motor.faster
  rw [Mat.at_smul, Mat.at_smul, Mat.at_smul]
  ring

/-- C101: the functions of constraints made for faster bodies have the same values. Motors have to be given larger velocities and forces. A new mouse constraint is the same. -/
theorem C101_functions (hσ : 0 < σ) {bodies bodies' : Nat → Body K} (hB : ∀ i, bodies' i = (bodies i).faster σ) (b : Bodies K) (shared p0 p1 : Vec2 K) :
    (hingeFunOf bodies b shared).Faster σ (hingeFunOf bodies' b shared) ∧ (rotationFunOf bodies b).Faster σ (rotationFunOf bodies' b) ∧
    (weldFunOf bodies b).Faster σ (weldFunOf bodies' b) ∧ (distanceFunOf bodies b p0 p1).Faster σ (distanceFunOf bodies' b p0 p1) ∧
    (∀ m, (rotationMotor m : CFun K 1).Faster σ (rotationMotor (m.faster σ))) ∧ (∀ m, (translationMotor m : CFun K 2).Faster σ (translationMotor (m.faster σ))) ∧
    (∀ i v a, ∃ m m', rotationMotorOf (bodies i) (.fromAccel v a none) = .ok m ∧ rotationMotorOf (bodies' i) (.fromAccel (σ * v) (σ ^ 2 * a) none) = .ok m' ∧ m' = m.faster σ) ∧
    (∀ i v a, ∃ m m', translationMotorOf (bodies i) (.fromAccel v a none) = .ok m ∧ translationMotorOf (bodies' i) (.fromAccel (σ * v) (σ ^ 2 * a) none) = .ok m' ∧ m' = m.faster σ) ∧
    (∀ i, (mouseFunOf (bodies i) shared).Faster σ (mouseFunOf (bodies' i) shared)) ∧ (mouseBase : SolverBase K 2).faster σ = mouseBase ∧
    (∀ (n : Nat) (f f' : CFun K n), f.Faster σ f' → (inequalityFun f).Faster σ (inequalityFun f')) ∧
    ∀ (n k : Nat) (f f' : CFun K n) (g g' : CFun K k), f.Faster σ f' → g.Faster σ g' → (stackFun f g).Faster σ (stackFun f' g') := by
  have hp : ∀ i, (bodies' i).position = (bodies i).position := fun i => by rw [hB]; rfl
  have z : ∀ {n : Nat}, (Mat.zero : MVec K n) = (Mat.zero : MVec K n).smul σ := (Mat.smul_zero σ).symm
  have hs : ∀ (n k : Nat) (f f' : CFun K n) (g g' : CFun K k), f.Faster σ f' → g.Faster σ g' → (stackFun f g).Faster σ (stackFun f' g') := fun n k f f' g g' hf hg => by
    refine ⟨fun p s t h => ?_, fun p s t h => ?_, fun p s t h => ?_, fun l dt => ?_, fun l => ?_⟩
    · simp only [stackFun, hf.eval p s t h, hg.eval p s t h]
    · simp only [stackFun, hf.bias p s t h, hg.bias p s t h]
      apply Mat.ext_at; intro r
      rw [Mat.at_smul]
      rw [Mat.at_eq_get, Mat.at_eq_get, assignRows_get, assignRows_get, assignRows_get, assignRows_get]
      split
      · rw [Mat.get_smul]
      · split
        · rw [Mat.get_smul]
        · rw [Mat.get_zero, zero_mul]
    · simp only [stackFun, hf.jacobian p s t h, hg.jacobian p s t h]
    · exact stack_smul (F := fun l => f.clampLambda l dt) (F' := fun l => f'.clampLambda l (dt / σ)) (G := fun l => g.clampLambda l dt) (G' := fun l => g'.clampLambda l (dt / σ))
        (fun l => hf.clampLambda l dt) (fun l => hg.clampLambda l dt) l
    · simp only [stackFun, hf.clampPositionLambda, hg.clampPositionLambda]
  have hh : ∀ v : Vec2 K, (hingeFunOf bodies b v).Faster σ (hingeFunOf bodies' b v) := fun v => by
    unfold hingeFunOf
    rw [hp, hp]
    refine ⟨fun p s t h => ?_, fun _ _ _ _ => z, fun p s t h => ?_, fun _ _ => rfl, fun _ => rfl⟩ <;> simp only [hingeFun, h.pos0, h.pos1]
  have hr : (rotationFunOf bodies b).Faster σ (rotationFunOf bodies' b) := by
    unfold rotationFunOf
    rw [hp, hp]
    refine ⟨fun p s t h => ?_, fun _ _ _ _ => z, fun p s t h => ?_, fun _ _ => rfl, fun _ => rfl⟩ <;> simp only [rotationFun, h.pos0, h.pos1]
  have ha : ∀ x : K, |σ ^ 2 * x| = σ ^ 2 * |x| := fun x => by rw [abs_mul, abs_of_pos (by positivity)]
  refine ⟨hh _, hr, ?_, ?_, fun m => ?_, fun m => ?_, fun i v a => ?_, fun i v a => ?_, fun i => ?_, ?_, fun n f f' hf => ?_, hs⟩
  · unfold weldFunOf Body.centroid
    rw [hp, hp]
    exact hs _ _ _ _ _ _ (hh _) hr
  · unfold distanceFunOf
    rw [hp, hp]
    refine ⟨fun p s t h => ?_, fun _ _ _ _ => z, fun p s t h => ?_, fun _ _ => rfl, fun _ => rfl⟩ <;> simp only [distanceFun, h.pos0, h.pos1]
  · exact ⟨fun _ _ _ _ => rfl, fun _ _ _ _ => m.bias_faster, fun _ _ _ _ => rfl, m.clampLambda_faster hσ, fun _ => rfl⟩
  · exact ⟨fun _ _ _ _ => rfl, fun _ _ _ _ => m.bias_faster, fun _ _ _ _ => rfl, m.clampLambda_faster hσ, fun _ => rfl⟩
  · refine ⟨_, _, rfl, rfl, ?_⟩
    rw [hB]
    show (⟨1, Mat.zero, |σ * v|, |σ ^ 2 * a * (bodies i).inertia|⟩ : Motor K 1) = ⟨1, Mat.zero, σ * |v|, σ ^ 2 * |a * (bodies i).inertia|⟩
    rw [mul_assoc, ha, abs_mul σ, abs_of_pos hσ]
  · refine ⟨_, _, rfl, rfl, ?_⟩
    rw [hB]
    show (⟨1, Mat.zero, |σ * v|, |σ ^ 2 * a * (bodies i).mass|⟩ : Motor K 2) = ⟨1, Mat.zero, σ * |v|, σ ^ 2 * |a * (bodies i).mass|⟩
    rw [mul_assoc, ha, abs_mul σ, abs_of_pos hσ]
  · unfold mouseFunOf
    rw [hp]
    refine ⟨fun p s t h => ?_, fun _ _ _ _ => z, fun p s t h => ?_, fun _ _ => rfl, fun _ => rfl⟩ <;> simp only [mouseFun, h.pos0]
  · unfold SolverBase.faster mouseBase SolverBase.init
    dsimp only
    rw [← z]
  · exact ⟨hf.eval, hf.bias, hf.jacobian, fun l _ => maxZero_smul hσ l, fun l => rfl⟩

theorem Body.recenter_faster (b : Body K) (v : Vec2 K) : (b.faster σ).recenter v = (b.recenter v).faster σ := by
  unfold Body.recenter Body.setVelocity Body.update Body.faster
  dsimp only
  congr 1
  show σ • b.velocity + (b.angular * σ) • Vec2.perp (b.centroid - v) = σ • (b.velocity + b.angular • Vec2.perp (b.centroid - v))
  ext <;> simp <;> ring

/-- C101: a faster body is made by giving it larger velocities and otherwise the same: colliders that are added or removed change it in the same way, and the bodies of constraints are the same. -/
theorem C101_bodies (σ : K) :
    (∀ (b : Body K) id polygon (material : Material K), (b.faster σ).addCollider id polygon material = ((b.addCollider id polygon material).1.faster σ, (b.addCollider id polygon material).2)) ∧
    (∀ (b : Body K) id, (b.faster σ).removeCollider id = ((b.removeCollider id).1.faster σ, (b.removeCollider id).2)) ∧
    (∀ (position : Vec2 K) orientation dominance, (Body.make position orientation dominance).faster σ = Body.make position orientation dominance) ∧
    (∀ (b : Body K) v, (b.faster σ).setVelocity (σ • v) = (b.setVelocity v).faster σ) ∧ (∀ (b : Body K) i w, (b.faster σ).applyImpulse (σ • i) w = (b.applyImpulse i w).faster σ) ∧
    (∀ (bodies : Nat → Body K) i0 i1 d, Bodies.make (fun i => (bodies i).faster σ) i0 i1 d = Bodies.make bodies i0 i1 d) := by
  refine ⟨fun b id polygon material => ?_, fun b id => ?_, fun p o d => ?_, fun b v => rfl, Body.applyImpulse_faster, fun bodies i0 i1 d => rfl⟩
  · unfold Body.addCollider
    rw [show (b.faster σ).attached = b.attached from rfl, show (b.faster σ).colliders = b.colliders from rfl]
    cases b.attached
    · rfl
    · simp only [Bool.not_true, Bool.false_eq_true, if_false]
      cases (b.colliders.add id polygon material).2 with
      | throw => rfl
      | ub => rfl
      | ok u =>
        dsimp only
        rw [← Body.recenter_faster]
        rfl
  · unfold Body.removeCollider
    rw [show (b.faster σ).attached = b.attached from rfl, show (b.faster σ).colliders = b.colliders from rfl]
    cases b.attached
    · rfl
    · simp only [Bool.not_true, Bool.false_eq_true, if_false]
      cases (b.colliders.remove id).2 with
      | throw => rfl
      | ub => rfl
      | ok u =>
        dsimp only
        split
        · rfl
        · rw [← Body.recenter_faster]
          rfl
  · unfold Body.make Body.update Body.faster
    dsimp only
    congr 1
    · ext <;> simp
    · exact zero_mul σ

end

section
variable {K : Type*} [Field K] [LinearOrder K] [IsStrictOrderedRing K] [Trig K] {L L' : Library K} {m m1 : Motion L} {m' m1' : Motion L'} {c : CallCfg K} {cfg : Island.Settings} {sl : Sleep.Settings K}
  {fields : List (ForceField K)} {tree tree' : List (Nat × Collider K)} {world world' : List Nat} {fuel fuel' : Nat} {A A' : Link → Bool} {group : Finset Nat} {log log' : List Record}
  {evals evals' : List (Link × Bool)} {σ : K}

/-- C101, one step: a group of bodies for which everything happens `σ` times as fast, in a step that takes a `σ`-th of the time, gets to the same places, goes to sleep as before, and all impulses are larger by this factor. What pulls it
has to be stronger by its square, and what counts as slow and long has to be scaled too. Missing are contacts that bounce (`C101_bounce_disagreement`) and inequalities of more than one dimension
(`C101_inequalities_disagreement`). -/
theorem C101_step_partial (hσ : 0 < σ) (hl : ∀ x, 0 ≤ x → c.sqrt x * c.sqrt x = x) (hW : Timed c (c.faster σ) A A' tree tree' world world' group m m')
    (hS : AsFast σ group (L.Own group) m.snapshot m'.snapshot) (h : m.step c cfg sl fields tree world fuel = some (.ok (m1, log, evals)))
    (h' : m'.step (c.faster σ) cfg (sl.faster σ) (fields.map (·.faster σ)) tree' world' fuel' = some (.ok (m1', log', evals'))) (hA : ∀ e ∈ evals, e.2 = A e.1) (hA' : ∀ e ∈ evals', e.2 = A' e.1) :
    AsFast σ group (L.Own group) m1.snapshot m1'.snapshot := by
  obtain ⟨body, st, h1, h2, rfl, h4, h5⟩ := Motion.step_ok h
  obtain ⟨body', st', h1', h2', rfl, h4', h5'⟩ := Motion.step_ok h'
  have hbody : ∀ b ∈ group, (body b).asleep = false ∧ body' b = (body b).faster σ := applyForces_faster hσ.ne' fields c.dt hW.colliders (fun b hb => ⟨hW.awake b hb, hS.bodies b hb⟩) h1 h1'
  have hsol : Solved (L.net c) A world ({ m with body := body } : Motion L).start st log := ⟨C37_library hW.made c, hW.wellFormed, ⟨fun _ => rfl, fun _ => rfl⟩, ⟨_, _, _, _, h2⟩, hA⟩
  have hsol' : Solved (L'.net (c.faster σ)) A' world' ({ m' with body := body' } : Motion L').start st' log' :=
    ⟨C37_library hW.made' (c.faster σ), hW.wellFormed', ⟨fun _ => rfl, fun _ => rfl⟩, ⟨_, _, _, _, h2'⟩, hA'⟩
  have anch : ∀ b, Anchored c m b → Fixed (L.net c) ({ m with body := body } : Motion L).start b := by
    rintro b ⟨⟨k1, k2⟩, k3⟩
    have : body b = m.body b := applyForces_untouched (Or.inr (Or.inl k3)) h1
    refine ⟨?_, k2⟩
    show (L.net c).isRest ⟨(body b).velocity, (body b).angular⟩ = true
    rw [this]; exact k1
  have anch' : ∀ b, Anchored (c.faster σ) m' b → Fixed (L'.net (c.faster σ)) ({ m' with body := body' } : Motion L').start b := by
    rintro b ⟨⟨k1, k2⟩, k3⟩
    have : body' b = m'.body b := applyForces_untouched (Or.inr (Or.inl k3)) h1'
    refine ⟨?_, k2⟩
    show (L'.net (c.faster σ)).isRest ⟨(body' b).velocity, (body' b).angular⟩ = true
    rw [this]; exact k1
  have own : ∀ l, Inner (L.net c) ({ m with body := body } : Motion L).start group l → L.Own group l := by
    rintro l ⟨⟨b, hb, -, hl⟩, hi⟩
    exact ⟨⟨b, hb, hl⟩, hi⟩
  have inner : ∀ l, L.Own group l → Inner (L.net c) ({ m with body := body } : Motion L).start group l := by
    rintro l ⟨⟨b, hb, hl⟩, hi⟩
    have hl : l ∈ linksOf (L.net c) b := hl
    have hw := (hW.inside b hb).1
    obtain ⟨l0, l1⟩ := hW.wellFormed.listed b hw l hl
    refine ⟨?_, hi⟩
    rcases hW.wellFormed.oneMoves b hw l hl with hm | hm
    · refine ⟨((L.net c).ends l).1, hi.1, fun hF => ?_, l0⟩
      have := hF.2 l l0
      rw [hm] at this; cases this
    · refine ⟨((L.net c).ends l).2, hi.2, fun hF => ?_, l1⟩
      have := hF.2 l l1
      rw [hm] at this; cases this
  have hfix : ∀ b ∈ group, Fixed (L.net c) ({ m with body := body } : Motion L).start b ↔ Fixed (L'.net (c.faster σ)) ({ m' with body := body' } : Motion L').start b := by
    intro b hb
    refine and_congr ?_ (hW.solid b hb)
    show (L.net c).isRest ⟨(body b).velocity, (body b).angular⟩ = true ↔ (L'.net (c.faster σ)).isRest ⟨(body' b).velocity, (body' b).angular⟩ = true
    rw [(hbody b hb).2]
    show decide ((body b).velocity.x = 0 ∧ (body b).velocity.y = 0 ∧ (body b).angular = 0) = true ↔ decide ((σ • (body b).velocity).x = 0 ∧ (σ • (body b).velocity).y = 0 ∧ (body b).angular * σ = 0) = true
    simp [hσ.ne']
  have key := corresponding_group hsol hsol' h2 h2' (F := fasterFrames σ) (known := fun l (s : ∀ l, (L.kind l).State) (t : ∀ l, (L'.kind l).State) => Kind.Faster σ ⟨L.kind l, s l⟩ ⟨L'.kind l, t l⟩)
    (asked := fun l (s : ∀ l, (L.kind l).State) (t : ∀ l, (L'.kind l).State) => Kind.Faster σ ⟨L.kind l, s l⟩ ⟨L'.kind l, t l⟩) (group := group) (L.private_of L' c (Kind.Faster σ))
    (L'.private_of L (c.faster σ) fun x y => Kind.Faster σ y x) (L.private_of L' c (Kind.Faster σ)) (L'.private_of L (c.faster σ) fun x y => Kind.Faster σ y x)
    (fun b hb hf l hl hA => hW.enclosed b hb (fun k => hf (anch b k)) l hl hA) (fun b hb hf l hl hA => hW.enclosed' b hb (fun k => hf (anch' b k)) l hl hA)
    ⟨hW.order, hfix, fun b hb hf => hW.links b hb fun k => hf (anch b k), fun l hi => Library.matched_faster hσ hl (hW.masses l (own l hi)), fun p q v w hp hv => by
      have hp : q.1 = p.1 := hp
      have hv : w = v.faster σ := hv
      subst hv
      show (Pose.of (q.1.advance ((c.dt / σ) • σ • v.linear) (v.angular * σ * (c.dt / σ)))).1 = (Pose.of (p.1.advance (c.dt • v.linear) (v.angular * c.dt))).1
      rw [hp, smul_smul, div_mul_cancel₀ _ hσ.ne', show v.angular * σ * (c.dt / σ) = v.angular * c.dt by field_simp [hσ.ne']], Or.inl rfl⟩
    ⟨fun b hb => ⟨by show (Pose.of (body' b).position).1 = _; rw [(hbody b hb).2]; rfl, by
        show (⟨(body' b).velocity, (body' b).angular⟩ : Velocity K) = _; rw [(hbody b hb).2]; rfl⟩,
      fun l hl => hS.links l (own l hl)⟩
  have ht : ∀ b ∈ group, m'.timeImmobile b = m.timeImmobile b / σ := hS.clocks
  have hb1 : ∀ b ∈ group, m1'.body b = (m1.body b).faster σ := fun b hb => by
    have e := Body.settle_faster (σ := σ) (body b) (st.body b) (st'.body b) (key.bodies b hb).1 (key.bodies b hb).2
    have w : (st.body b).asleep = false := hsol.progress.stillAwake b (hbody b hb).1
    have w' : (st'.body b).asleep = false := hsol'.progress.stillAwake b (by show (body' b).asleep = false; rw [(hbody b hb).2]; exact (hbody b hb).1)
    rw [h5 b (hW.inside b hb).1, h5' b (hW.inside b hb).2, (hbody b hb).2, e, w', ht b hb]
    have hu := Sleep.update_faster hσ sl c.dt (st.body b).vel.linear.x (st.body b).vel.linear.y (st.body b).vel.angular false (m.timeImmobile b)
    have hu := congrArg Sleep.Clock.asleep hu
    dsimp only at hu
    unfold Body.rest Body.faster Body.settle
    dsimp only [Body.update]
    rw [w]
    congr 1
    simp only [Vec2.smul_x, Vec2.smul_y, mul_comm _ σ] at hu ⊢
    exact hu
  refine ⟨hb1, fun b hb => ?_, fun l hl => ?_⟩
  · have v1 : (m1'.body b).velocity = σ • (m1.body b).velocity ∧ (m1'.body b).angular = (m1.body b).angular * σ := by
      rw [hb1 b hb]; exact ⟨rfl, rfl⟩
    obtain ⟨a, ha⟩ := Motion.step_clock h (hW.inside b hb).1
    obtain ⟨a', ha'⟩ := Motion.step_clock h' (hW.inside b hb).2
    have e := congrArg Sleep.Clock.timeImmobile ha
    have e' := congrArg Sleep.Clock.timeImmobile ha'
    dsimp only at e e'
    show m1'.timeImmobile b = m1.timeImmobile b / σ
    rw [e, e', v1.1, v1.2, ht b hb, Sleep.update_time _ _ _ _ _ a' a, Vec2.smul_x, Vec2.smul_y, mul_comm _ σ, mul_comm (m1.body b).velocity.y σ]
    exact congrArg Sleep.Clock.timeImmobile (Sleep.update_faster hσ sl c.dt (m1.body b).velocity.x (m1.body b).velocity.y (m1.body b).angular a (m.timeImmobile b))
  · have := key.links l (inner l hl)
    show Kind.Faster σ ⟨L.kind l, m1.s l⟩ ⟨L'.kind l, m1'.s l⟩
    rw [h4, h4']
    exact this

end

section
variable {K : Type*} [Field K] [LinearOrder K] [IsStrictOrderedRing K] [Trig K] {sqrt : K → K} {penetration : List (Vec2 K) → List (Vec2 K) → Vec2 K → Outcome (Vec2 K)} {group : Finset Nat} {n : Nat}
  {own own' : Link → Prop} {S0 S0' S S' : Snapshot K} {σ : K}

theorem ReadiedFaster.faster {B B' : Nat → Body K} (hB : ∀ b ∈ group, B' b = (B b).faster σ) {o : Option ((Σ k : Kind K, k.State) × Σ k : Kind K, k.State)} {x y : Σ k : Kind K, k.State}
    (h : ReadiedFaster sqrt penetration σ group B B' o x y) (ho : ∀ z, o = some z → Kind.Faster σ z.1 z.2) : Kind.Faster σ x y := by
  cases h with
  | kept x y => exact ho _ rfl
  | given o h => exact h
  | @made o bodies cols colliders colliders' inGroup collider collider' e e' h h' dead =>
    have hc : colliders' = colliders := by
      funext i
      have := collider' i
      rw [hB _ (inGroup i)] at this
      exact Option.some.inj (this.symm.trans (collider i))
    have hp : ∀ i, (B' (bodies i)).position = (B (bodies i)).position := fun i => by rw [hB _ (inGroup i)]; rfl
    simp only [hc, hp] at h'
    cases Outcome.ok.inj (h'.symm.trans h)
    have := Kind.Faster.contact (σ := σ) e dead
    rwa [Contact.make_faster h] at this
  | @updated e e' e1 e1' bodies cols sides sides' inGroup side side' h h' =>
    have hs : sides' = sides := by
      funext i
      have := side' i
      rw [hB _ (inGroup i)] at this
      exact Option.some.inj (this.symm.trans (side i))
    have hk := ho _ rfl
    dsimp only at hk
    cases hk with
    | contact e dead =>
      rw [hs, Contact.updateContacts_faster, h] at h'
      cases Outcome.ok.inj h'
      exact .contact _ ((Contact.updateContacts_restitution h).trans dead)

/-- C101: after any number of steps the bodies of a group for which everything happens `σ` times as fast are where they would be otherwise, `σ` times as fast, and asleep or awake as they would be. Missing are contacts that bounce
and inequalities of more than one dimension, as in `C101_step_partial`. -/
theorem C101_steps_partial (hσ : 0 < σ) (h : InTempo sqrt penetration σ group n own S0 S0' own' S S') (h0 : AsFast σ group own S0 S0') :
    AsFast σ group own' S S' ∧ ∀ b ∈ group, (S'.body b).position = (S.body b).position ∧ (S'.body b).velocity = σ • (S.body b).velocity ∧ (S'.body b).angular = (S.body b).angular * σ ∧
      (S'.body b).asleep = (S.body b).asleep := by
  suffices k : AsFast σ group own' S S' by
    refine ⟨k, fun b hb => ?_⟩
    rw [k.bodies b hb]
    exact ⟨rfl, rfl, rfl, rfl⟩
  induction h with
  | start => exact h0
  | @step n own0 own S0 S0' S S' before L L' m m1 m' m1' c cfg sl fields tree tree' world world' fuel fuel' A A' log log' evals evals' lawful kept kept' readied timed stepped stepped' active active' ih =>
    have ih := ih h0
    have hb : ∀ b ∈ group, m'.body b = (m.body b).faster σ := fun b hb => by
      rw [(kept b hb).1, (kept' b hb).1]; exact ih.bodies b hb
    refine C101_step_partial hσ lawful timed ⟨hb, fun b hb => ?_, fun l hl => ?_⟩ stepped stepped' active active'
    · show m'.timeImmobile b = m.timeImmobile b / σ
      rw [(kept b hb).2, (kept' b hb).2]
      exact ih.clocks b hb
    · obtain ⟨o, ho, hr⟩ := readied l hl
      refine hr.faster hb fun z hz => ?_
      obtain ⟨h1, rfl⟩ := ho z hz
      exact ih.links l h1

end

/-! ### What is missing in `C101_step_partial` -/
section
variable {K : Type*} [Field K] [LinearOrder K] [IsStrictOrderedRing K] [Trig K]

omit [Trig K] in
/-- The pair of inequalities of `solve_pair`, with half the velocity: the loop stops after one iteration. -/
theorem solve_pair_slow {A : Mat K 2 2} {b : MVec K 2} {ε : K} (hε : 0 < ε) (n : Nat) (h00 : A.get 0 0 = 2) (h01 : A.get 0 1 = -1) (h10 : A.get 1 0 = -1) (h11 : A.get 1 1 = 2)
    (h0 : b.at_ 0 = ε) (h1 : b.at_ 1 = ε) : solveInequalitiesVec A b maxZero Mat.zero ε (n + 2) = some (Mat.ofFn ![1 / 2 * ε, 3 / 4 * ε]) := by
  have ez : (Mat.zero : MVec K 2) = Mat.ofFn ![0, 0] := by
    apply Mat.ext_at; intro r; rw [Mat.at_zero, Mat.at_ofFn]; revert r; simp [Fin.forall_fin_two]
  unfold solveInequalitiesVec solveInequalities
  rw [ez]
  obtain ⟨s1, t1⟩ := sweep_pair (k := 1) (x := 0) (y := 0) (x' := 1 / 2 * ε) (y' := 3 / 4 * ε) one_pos (by rw [h00]; ring) h01 h10 (by rw [h11]; ring) h0 h1 (by ring) (by ring) (by positivity) (by positivity)
  rw [gsLoop_succ _ _ _ _ _ _ _ (by linarith), s1, gsLoop_stop]
  rw [t1 ε hε.le]
  push Not
  constructor <;> rw [abs_le] <;> constructor <;> linarith

/-- C101 is false for inequalities of dimension 2: the loop that solves them stops when impulses change by at most `simu::EPSILON` (Matrix.inl.hpp:485), which is sooner for slow bodies. Whatever this constant is, of two
equal situations, one of them half as fast, the faster body keeps an eighth of its velocity and the slower one half of it. (The duration of the step does not matter here.) -/
theorem C101_inequalities_disagreement (c : CallCfg K) (hε : 0 < c.epsilon) (hf : 2 ≤ c.fuel) :
    solvedOnce c (Kind.inequality 2 (inequalityFun (hingeFun (⟨1, 1⟩ : Vec2 K) ⟨1, 1⟩))) (⟨SolverBase.init, Mat.zero⟩ : InequalitySolver K 2) ⟨0, 1, ⟨1, 1, 0, 0⟩⟩ (pushedPair ⟨2 * c.epsilon, 2 * c.epsilon⟩) = .ok (1 / 4 * c.epsilon) ∧
    solvedOnce (c.faster (1 / 2)) (Kind.inequality 2 (inequalityFun (hingeFun (⟨1, 1⟩ : Vec2 K) ⟨1, 1⟩))) (⟨SolverBase.init, Mat.zero⟩ : InequalitySolver K 2) ⟨0, 1, ⟨1, 1, 0, 0⟩⟩ (pushedPair ⟨c.epsilon, c.epsilon⟩) = .ok (1 / 2 * c.epsilon) := by
  suffices key : ∀ (c : CallCfg K), 2 ≤ c.fuel → ∀ (v l l' : K), (∀ (A : Mat K 2 2) (b : MVec K 2), A.get 0 0 = 2 → A.get 0 1 = -1 → A.get 1 0 = -1 → A.get 1 1 = 2 → b.at_ 0 = v → b.at_ 1 = v →
        solveInequalitiesVec A b maxZero Mat.zero c.epsilon c.fuel = some (Mat.ofFn ![l, l'])) → 0 ≤ l → 0 ≤ l' →
      solvedOnce c (Kind.inequality 2 (inequalityFun (hingeFun (⟨1, 1⟩ : Vec2 K) ⟨1, 1⟩))) (⟨SolverBase.init, Mat.zero⟩ : InequalitySolver K 2) ⟨0, 1, ⟨1, 1, 0, 0⟩⟩ (pushedPair ⟨v, v⟩) = .ok (v - l) by
    obtain ⟨n, hn⟩ := Nat.exists_eq_add_of_le hf
    refine ⟨?_, ?_⟩
    · rw [key c hf _ _ _ (fun A b h1 h2 h3 h4 h5 h6 => by rw [hn, Nat.add_comm]; exact (solve_pair one_pos hε n (by rw [h1]; ring) h2 h3 (by rw [h4]; ring) h5 h6).1 rfl) (by positivity) (by positivity)]
      congr 1; ring
    · rw [key (c.faster (1 / 2)) hf _ _ _ (fun A b h1 h2 h3 h4 h5 h6 => by
        show solveInequalitiesVec A b maxZero Mat.zero c.epsilon c.fuel = _
        rw [hn, Nat.add_comm]; exact solve_pair_slow hε n h1 h2 h3 h4 h5 h6) (by positivity) (by positivity)]
      congr 1; ring
  clear hε hf c
  intro c hfuel
  intro v l l' h p0 p1
  set f : CFun K 2 := inequalityFun (hingeFun (⟨1, 1⟩ : Vec2 K) ⟨1, 1⟩) with hf
  set p : Proxies K := ⟨0, 1, ⟨1, 1, 0, 0⟩⟩ with hp
  set s : SolveState K := pushedPair ⟨v, v⟩ with hs
  have hw : ∀ i v, (s.pos i).toWorldSpace.app v = v := fun i v => by
    ext <;> simp [hs, pushedPair, Position.toWorldSpace, Transform.app, Transform.mulTranslation, Translation.mulRotation, Translation.mul, Translation.inverse, Rotation.app]
  have hJ : ∀ r q, (f.jacobian p s).get r q = (![![-1, 0, 1, 1, 0, -1], ![0, -1, -1, 0, 1, 1]] : Fin 2 → Fin 6 → K) r q := by
    intro r q
    have : (f.jacobian p s).get r q = _ := hinge_get _ _ p s r q
    rw [this]
    simp only [Position.centroid, hw]
    fin_cases r <;> fin_cases q <;> simp [hs, pushedPair]
  have hE : f.eval p s = Mat.zero := by
    show ((s.pos 1).toWorldSpace.app _ - (s.pos 0).toWorldSpace.app _ : Vec2 K).toMVec = _
    rw [hw, hw, sub_self]
    apply Mat.ext_at; intro r; rw [Mat.at_zero]; revert r; simp [Fin.forall_fin_two, Vec2.toMVec]
  have hB : f.bias p s = Mat.zero := rfl
  have hm : p.invMassVec = Mat.ofFn ![1, 1, 1, 0, 0, 0] := rfl
  have hv : p.velocity s = Mat.ofFn ![v, v, 0, 0, 0, 0] := rfl
  unfold solvedOnce
  simp only [Kind.act, Outcome.bind_ok, InequalitySolver.initSolve, InequalitySolver.solveVelocity]
  have hl : (SolverBase.init : SolverBase K 2).initBase.lambda = Mat.zero := rfl
  have hd : (SolverBase.init : SolverBase K 2).initBase.damping = Mat.zero := rfl
  have hz : ∀ r, (((Mat.diagonal (SolverBase.init : SolverBase K 2).initBase.restitution).mul (Mat.zero : MVec K 2)).sdiv c.dt).at_ r = 0 := fun r => by
    rw [Mat.at_eq_get, Mat.get_sdiv, Mat.get_mul]
    simp [Mat.get_zero]
  have e1 : ∀ l : MVec K 2, f.clampLambda l c.dt = maxZero l := fun _ => rfl
  simp only [e1, SolverBase.computeEffectiveMass, hl, hd, if_true]
  rw [h]
  · simp only [Option.map_some, returned]
    show Outcome.ok (((p.applyImpulse _ s).vel 0).linear.x) = _
    rw [Proxies.applyImpulse_vel]
    simp only [SolverBase.impulse, Fin.sum_univ_two, Mat.get_transpose, hJ, kick, Mat.at_mul, Mat.toV]
    have e2 : (Mat.zero.add (Mat.sub (Mat.ofFn ![l, l']) Mat.zero) : MVec K 2).at_ 0 = l := by simp [Mat.at_add, Mat.at_sub, Mat.at_zero]
    simp [hp, hs, pushedPair, maxZero, e1, Mat.at_sub, Mat.at_zero, e2, not_lt.mpr p0]
    ring
  all_goals simp [Mat.get_mul, Mat.get_add, Mat.get_diagonal, Fin.sum_univ_six, hJ, Proxies.inverseMass, hm, Mat.at_zero, Mat.at_add, Mat.at_mul, SolverBase.computeRhs, hE, hB, Mat.at_neg, hv]
  · ring
  · ring
  · rw [hz]
  · rw [hz]

/-- The hypotheses are met. -/
example := C101_inequalities_disagreement (K := ℝ) ⟨1 / 60, Real.sqrt, 1 / 100000, 100⟩ (by norm_num) (by norm_num)

omit [LinearOrder K] [IsStrictOrderedRing K] [Trig K] in
/-- The function of the two situations is the same for faster bodies, so that it is the loop that makes them different. -/
theorem hinge_faster [Trig K] {σ : K} (l0 l1 : Vec2 K) : (hingeFun l0 l1).Faster σ (hingeFun l0 l1) := by
  refine ⟨fun p s t h => ?_, fun _ _ _ _ => (Mat.smul_zero σ).symm, fun p s t h => ?_, fun _ _ => rfl, fun _ => rfl⟩ <;> simp only [hingeFun, h.pos0, h.pos1]

end

section
attribute [local instance] flatTrig

/-- Two bodies touch at the origin, where both have their centroids; the first one gets nearer to the second one when it moves to the left. -/
def bouncer (restitution : ℚ) : Contact ℚ where
  manifold := ⟨fun _ _ => 0, 1, ⟨1, 0⟩, 1 / 200, 1⟩
  frame := ⟨1, fun _ _ => 0, ⟨1, 0⟩, ⟨0, 1⟩⟩
  Jf := fun _ => Mat.zero
  Jn := Mat.zero
  invTangentKs := Mat.zero
  normalSolver := .unset
  tangentLambda := Mat.zero
  previousTangentLambda := Mat.zero
  normalLambda := Mat.zero
  previousNormalLambda := Mat.zero
  bounce := Mat.zero
  restitution := restitution
  friction := 0

/-- C101 is false for contacts that bounce: they do from an absolute velocity on, `restitutionTreshold` (Constraint.hpp:485-496, 592). A body that is elastic is stopped dead if it comes at a speed of 3/4, and thrown back
if it comes at twice this speed. If nothing bounces the second result is twice the first one, as `C101_step_partial` says. -/
theorem C101_bounce_disagreement :
    solvedOnce (K := ℚ) ⟨1 / 60, id, 1 / 100, 9⟩ .contact (bouncer 1) ⟨0, 1, ⟨1, 1, 0, 0⟩⟩ (pushedPair ⟨-3 / 4, 0⟩) = .ok 0 ∧
    solvedOnce (K := ℚ) (CallCfg.faster ⟨1 / 60, id, 1 / 100, 9⟩ 2) .contact ((bouncer 1).faster 2) ⟨0, 1, ⟨1, 1, 0, 0⟩⟩ (pushedPair ⟨-3 / 2, 0⟩) = .ok (3 / 2) ∧
    solvedOnce (K := ℚ) (CallCfg.faster ⟨1 / 60, id, 1 / 100, 9⟩ 2) .contact ((bouncer 0).faster 2) ⟨0, 1, ⟨1, 1, 0, 0⟩⟩ (pushedPair ⟨-3 / 2, 0⟩) = .ok 0 := by
  refine ⟨?_, ?_, ?_⟩ <;> decide +kernel

end

/-! ### The two squares of `fly_launched`, in slow motion -/
section

theorem new_faster (σ : ℝ) : (⟨.init, ⟨false, fun _ => .throw⟩⟩ : EqualitySolver ℝ 2).faster σ = ⟨.init, ⟨false, fun _ => .throw⟩⟩ := by
  have e : (SolverBase.init : SolverBase ℝ 2).faster σ = .init := by
    unfold SolverBase.faster SolverBase.init
    have h1 : (Mat.zero : MVec ℝ 2).smul σ = Mat.zero := Mat.smul_zero σ
    simp only [h1]
  unfold EqualitySolver.faster
  rw [e]
  rfl

/-- Two squares joined by a hinge, one of them moving, make a step in one world. In another world everything happens `σ` times as fast, and another body comes before them. -/
theorem fly_faster (σ : ℝ) (hσ : 0 < σ) : ∃ (B B' : Nat → Body ℝ) (m m1 : Motion (flyLib B)) (m' m1' : Motion (flyLib B')) (tree tree' : List (Nat × Collider ℝ)) (log log' : List Record) (evals evals' : List (Link × Bool)),
    Timed libCfg (libCfg.faster σ) (fun _ => true) (fun _ => true) tree tree' [0, 1] [2, 0, 1] {0, 1} m m' ∧ AsFast σ {0, 1} ((flyLib B).Own {0, 1}) m.snapshot m'.snapshot ∧
    m.step libCfg ⟨8, 2, true⟩ ⟨true, 1, 1, 1⟩ [] tree [0, 1] 7 = some (.ok (m1, log, evals)) ∧
    m'.step (libCfg.faster σ) ⟨8, 2, true⟩ (Sleep.Settings.faster ⟨true, 1, 1, 1⟩ σ) [] tree' [2, 0, 1] 7 = some (.ok (m1', log', evals')) ∧ (∀ e ∈ evals, e.2 = true) ∧ (∀ e ∈ evals', e.2 = true) ∧
    (m.body 0).velocity = ⟨3, 1⟩ ∧ (m'.body 0).velocity = σ • ⟨3, 1⟩ ∧ (m'.body 0).position = (m.body 0).position ∧ (flyLib B).Own {0, 1} (.joint 0) ∧
    InTempo Real.sqrt (boundedPenetration 9) σ {0, 1} 1 ((flyLib B).Own {0, 1}) m.snapshot m'.snapshot ((flyLib B).Own {0, 1}) m1.snapshot m1'.snapshot := by
  obtain ⟨B, tree, hl, hf, hmass, hB⟩ := fly_launched
  let B' : Nat → Body ℝ := fun b => (B b).faster σ
  let m : Motion (flyLib B) := flyMotion B
  let m' : Motion (flyLib B') := flyMotion B'
  have hb : ∀ l, (flyLib B').bodies l = (flyLib B).bodies l := fun l => rfl
  have hst : ∀ l b, ((flyLib B').net (libCfg.faster σ)).structuralIn l b = ((flyLib B).net libCfg).structuralIn l b := fun l b => by
    show (match ((flyLib B').bodies l).isBodyStructural b with | .ok r => r | _ => false) = (match ((flyLib B).bodies l).isBodyStructural b with | .ok r => r | _ => false)
    rw [hb]
  have hlinks : ∀ b, linksOf ((flyLib B').net (libCfg.faster σ)) b = linksOf ((flyLib B).net libCfg) b := fun b => rfl
  have lk : ∀ b l, l ∈ linksOf ((flyLib B).net libCfg) b → b ∈ [0, 1] := fun b l h => by
    rcases (fly_links B b l h).1 with rfl | rfl <;> simp
  have wf' : WellFormed ((flyLib B').net (libCfg.faster σ)) [2, 0, 1] :=
    ⟨fun b _ l h => hl.wellFormed.own b (lk b l h) l h,
      fun b _ l h => ⟨List.mem_cons_of_mem _ (hl.wellFormed.ends b (lk b l h) l h).1, List.mem_cons_of_mem _ (hl.wellFormed.ends b (lk b l h) l h).2⟩,
      fun b _ l h => hl.wellFormed.listed b (lk b l h) l h, fun b _ l h => by rw [hst, hst]; exact hl.wellFormed.oneMoves b (lk b l h) l h⟩
  have hm0 : ∀ b, (B' b).mass ≠ 0 := fun b => by
    rw [show (B' b).mass = (B b).mass from rfl, (hB b).1]; norm_num
  have made' : (flyLib B').MadeFor m'.body := fun l => ⟨none, rfl, hm0 _, hm0 _, by simp⟩
  have iso : ∀ b ∈ ({0, 1} : Finset Nat), ∀ l ∈ linksOf ((flyLib B).net libCfg) b, ((flyLib B).bodies l).i0 ∈ ({0, 1} : Finset Nat) ∧ ((flyLib B).bodies l).i1 ∈ ({0, 1} : Finset Nat) :=
    fun b hb l h => hl.isolated b hb l h rfl
  have hW : Timed libCfg (libCfg.faster σ) (fun _ => true) (fun _ => true) tree tree [0, 1] [2, 0, 1] {0, 1} m m' :=
    ⟨hl.wellFormed, wf', hl.made, made', by decide, fun b hb => hl.awake b hb, by decide, rfl, fun b _ => by simp only [hst]; exact Iff.rfl, fun b hb _ l h _ => iso b hb l h,
      fun b hb _ l h _ => iso b hb l h, fun _ _ _ => rfl, fun l _ => hb l⟩
  have hS : AsFast σ {0, 1} ((flyLib B).Own {0, 1}) m.snapshot m'.snapshot := by
    refine ⟨fun b hb => rfl, fun b hb => (zero_div σ).symm, fun l _ => ?_⟩
    have := Kind.Faster.equality (C101_functions hσ (bodies := B) (bodies' := B') (fun _ => rfl) (Bodies.make B 0 1 none) ⟨1, 0⟩ 0 0).1 (⟨.init, ⟨false, fun _ => .throw⟩⟩ : EqualitySolver ℝ 2)
    rw [new_faster] at this
    exact this
  have hnn : (⟨1 / 4, 3 / 8, 1 / 4, 3 / 8⟩ : InvMasses ℝ).Nonneg := by constructor <;> norm_num
  have hf' : (flyLib B').Firm (libCfg.faster σ) [2, 0, 1] m'.s := by
    intro b _ l _
    rw [show ((flyLib B').bodies l).masses = ((flyLib B).bodies l).masses from rfl, hmass]
    exact ⟨hnn, (C73_effective sqrt_lawful hnn).2.1 _ _ (Or.inl (by norm_num)), fun r => le_of_eq (Mat.at_zero r).symm⟩
  obtain ⟨st, log, h1, -, -, h4⟩ := C73_answers hl.made sqrt_lawful hl.wellFormed (st := m.start) ⟨fun _ => rfl, fun _ => rfl⟩ rfl hf
    (A := fun _ => true) (fun _ _ _ _ => rfl) ⟨8, 2, true⟩ (.of (m.body 0).position) ⟨0, 0⟩ (fuel := 7) (by decide)
  obtain ⟨st', log', h1', -, -, h4'⟩ := C73_answers (c := libCfg.faster σ) made' sqrt_lawful wf' (st := m'.start) ⟨fun _ => rfl, fun _ => rfl⟩ rfl hf'
    (A := fun _ => true) (fun _ _ _ _ => rfl) ⟨8, 2, true⟩ (.of (m'.body 0).position) ⟨0, 0⟩ (fuel := 7) (by decide)
  obtain ⟨m1, hstep, -⟩ := Motion.step_of (sl := ⟨true, 1, 1, 1⟩) (tree := tree) (fields := []) (m := m) rfl h1
  obtain ⟨m1', hstep', -⟩ := Motion.step_of (sl := Sleep.Settings.faster ⟨true, 1, 1, 1⟩ σ) (tree := tree) (fields := []) (m := m') rfl h1'
  have hv : (B 0).velocity = ⟨3, 1⟩ := by rw [(hB 0).2.2.2.2.1]; simp
  refine ⟨B, B', m, m1, m', m1', tree, _, log, log', st.evals, st'.evals, hW, hS, hstep, hstep', h4.stable, h4'.stable, hv, ?_, rfl, ?_, ?_⟩
  · show σ • (B 0).velocity = _
    rw [hv]
  · exact ⟨⟨0, by simp, by simp [linksOf, Library.net, flyLib]⟩, by simp [flyLib, Bodies.make], by simp [flyLib, Bodies.make]⟩
  · exact .step (m := m) (m' := m') (c := libCfg) (sl := ⟨true, 1, 1, 1⟩) (A := fun _ => true) (A' := fun _ => true) (tree := tree) (tree' := tree) (fields := []) (.start _ _ _) sqrt_lawful (fun _ _ => ⟨rfl, rfl⟩)
      (fun _ _ => ⟨rfl, rfl⟩) (fun l hl => ⟨none, (fun x hx => by cases hx), .given _ (hS.links l hl)⟩) hW hstep hstep' h4.stable h4'.stable

/-- The hypotheses of `C101_functions`, `C101_bodies`, `C101_step_partial` and `C101_steps_partial` are met: the squares, a thousand times as fast. -/
example := fly_faster 1000 (by norm_num)

end

end Simu
