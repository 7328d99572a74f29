import Verif.Lemmas.StepHeavier
import Verif.Props.LibraryMoved
import Verif.Props.Equality
/-
C94: only the ratios of masses matter.
-/
namespace Simu
open Island

section
variable {K : Type*} [Field K] [LinearOrder K] [IsStrictOrderedRing K] [Trig K] {κ : K}

/-- The motor, `κ` times as strong. -/
def Motor.stronger {n : Nat} (m : Motor K n) (κ : K) : Motor K n := { m with maxForce := κ * m.maxForce }

omit [Trig K] in
theorem Motor.clampLambda_stronger (hκ : 0 < κ) {n : Nat} (m : Motor K n) (l : MVec K n) (dt : K) : (m.stronger κ).clampLambda (l.smul κ) dt = (m.clampLambda l dt).smul κ := by
  apply Mat.ext_at; intro r
  have e : m.direction.at_ r * m.throttle * (κ * m.maxForce) * dt = m.direction.at_ r * m.throttle * m.maxForce * dt * κ := by ring
  have e1 : (m.stronger κ).lo dt r = m.lo dt r * κ := by
    show min 0 (m.direction.at_ r * m.throttle * (κ * m.maxForce) * dt) = min 0 _ * κ
    rw [e, min_mul_of_nonneg _ _ hκ.le, zero_mul]
  have e2 : (m.stronger κ).hi dt r = m.hi dt r * κ := by
    show max 0 (m.direction.at_ r * m.throttle * (κ * m.maxForce) * dt) = max 0 _ * κ
    rw [e, max_mul_of_nonneg _ _ hκ.le, zero_mul]
  rw [Mat.at_smul, Motor.clampLambda_at, Motor.clampLambda_at, e1, e2, Mat.at_smul, Algo.clamp_scale hκ]

omit [Trig K] [IsStrictOrderedRing K] in
theorem stack_smul {a b : Nat} {F F' : MVec K a → MVec K a} {G G' : MVec K b → MVec K b} (hF : ∀ l, F' (l.smul κ) = (F l).smul κ) (hG : ∀ l, G' (l.smul κ) = (G l).smul κ) (l : MVec K (a + b)) :
    (let l' := assignRows 0 (by omega) (F' (extractRows a 0 (by omega) (l.smul κ))) (l.smul κ); assignRows a (le_refl _) (G' (extractRows b a (le_refl _) l')) l' : MVec K (a + b)) =
    (let l' := assignRows 0 (by omega) (F (extractRows a 0 (by omega) l)) l; assignRows a (le_refl _) (G (extractRows b a (le_refl _) l')) l' : MVec K (a + b)).smul κ := by
  apply Mat.ext_at; intro r
  have e : ∀ {m n : Nat} (v : MVec K n) (g : Fin m → Fin n), (Mat.ofFn fun j => (v.smul κ).at_ (g j) : MVec K m) = (Mat.ofFn fun j => v.at_ (g j) : MVec K m).smul κ := by
    intro m n v g
    apply Mat.ext_at; intro i
    rw [Mat.at_smul, Mat.at_ofFn, Mat.at_ofFn, Mat.at_smul]
  rw [Mat.at_smul, assignRows_clamp, assignRows_clamp, e, e, hF, hG]
  refine Fin.addCases (fun i => ?_) (fun i => ?_) r
  · rw [Fin.addCases_left, Fin.addCases_left, Mat.at_smul]
  · rw [Fin.addCases_right, Fin.addCases_right, Mat.at_smul]

/-- C94: the functions of constraints made for heavier bodies have the same values. Motors have to be stronger; those that are given an acceleration are. -/
theorem C94_functions (hκ : 0 < κ) {bodies bodies' : Nat → Body K} (hB : ∀ i, bodies' i = (bodies i).heavier κ) (b : Bodies K) (shared p0 p1 : Vec2 K) :
    (hingeFunOf bodies b shared).Heavier κ (hingeFunOf bodies' (b.heavier κ) shared) ∧ (rotationFunOf bodies b).Heavier κ (rotationFunOf bodies' (b.heavier κ)) ∧
    (weldFunOf bodies b).Heavier κ (weldFunOf bodies' (b.heavier κ)) ∧ (distanceFunOf bodies b p0 p1).Heavier κ (distanceFunOf bodies' (b.heavier κ) p0 p1) ∧
    (∀ m, (rotationMotor m : CFun K 1).Heavier κ (rotationMotor (m.stronger κ))) ∧ (∀ m, (translationMotor m : CFun K 2).Heavier κ (translationMotor (m.stronger κ))) ∧
    (∀ i v a, ∃ m m', rotationMotorOf (bodies i) (.fromAccel v a none) = .ok m ∧ rotationMotorOf (bodies' i) (.fromAccel v a none) = .ok m' ∧ m' = m.stronger κ) ∧
    (∀ i v a, ∃ m m', translationMotorOf (bodies i) (.fromAccel v a none) = .ok m ∧ translationMotorOf (bodies' i) (.fromAccel v a none) = .ok m' ∧ m' = m.stronger κ) ∧
    (∀ i, (mouseFunOf (bodies i) shared).Heavier κ (mouseFunOf (bodies' i) shared)) ∧
    (∀ (n : Nat) (f f' : CFun K n), f.Heavier κ f' → (inequalityFun f).Heavier κ (inequalityFun f')) ∧
    ∀ (n k : Nat) (f f' : CFun K n) (g g' : CFun K k), f.Heavier κ f' → g.Heavier κ g' → (stackFun f g).Heavier κ (stackFun f' g') := by
  have hp : ∀ i, (bodies' i).position = (bodies i).position := fun i => by rw [hB]; rfl
  have hs : ∀ (n k : Nat) (f f' : CFun K n) (g g' : CFun K k), f.Heavier κ f' → g.Heavier κ g' → (stackFun f g).Heavier κ (stackFun f' g') := fun n k f f' g g' hf hg => by
    refine ⟨fun p s t h => ?_, fun p s t h => ?_, fun p s t h => ?_, fun l dt => ?_, fun l => ?_⟩
    · simp only [stackFun, hf.eval p s t h, hg.eval p s t h]
    · simp only [stackFun, hf.bias p s t h, hg.bias p s t h]
    · simp only [stackFun, hf.jacobian p s t h, hg.jacobian p s t h]
    · exact stack_smul (F := fun l => f.clampLambda l dt) (F' := fun l => f'.clampLambda l dt) (G := fun l => g.clampLambda l dt) (G' := fun l => g'.clampLambda l dt)
        (fun l => hf.clampLambda l dt) (fun l => hg.clampLambda l dt) l
    · exact stack_smul hf.clampPositionLambda hg.clampPositionLambda l
  have hh : ∀ v : Vec2 K, (hingeFunOf bodies b v).Heavier κ (hingeFunOf bodies' (b.heavier κ) v) := fun v => by
    unfold hingeFunOf
    rw [hp, hp]
    refine ⟨fun p s t h => ?_, fun _ _ _ _ => rfl, fun p s t h => ?_, fun _ _ => rfl, fun _ => rfl⟩ <;> simp only [hingeFun, Bodies.heavier, Proxies.heavier, h.pos0, h.pos1]
  have hr : (rotationFunOf bodies b).Heavier κ (rotationFunOf bodies' (b.heavier κ)) := by
    unfold rotationFunOf
    rw [hp, hp]
    refine ⟨fun p s t h => ?_, fun _ _ _ _ => rfl, fun p s t h => ?_, fun _ _ => rfl, fun _ => rfl⟩ <;> simp only [rotationFun, Bodies.heavier, Proxies.heavier, h.pos0, h.pos1]
  refine ⟨hh _, hr, ?_, ?_, fun m => ?_, fun m => ?_, fun i v a => ?_, fun i v a => ?_, fun i => ?_, fun n f f' hf => ?_, hs⟩
  · unfold weldFunOf Body.centroid
    rw [hp, hp]
    exact hs _ _ _ _ _ _ (hh _) hr
  · unfold distanceFunOf
    rw [hp, hp]
    refine ⟨fun p s t h => ?_, fun _ _ _ _ => rfl, fun p s t h => ?_, fun _ _ => rfl, fun _ => rfl⟩ <;> simp only [distanceFun, Bodies.heavier, Proxies.heavier, h.pos0, h.pos1]
  · exact ⟨fun _ _ _ _ => rfl, fun _ _ _ _ => rfl, fun _ _ _ _ => rfl, m.clampLambda_stronger hκ, fun _ => (Mat.smul_zero κ).symm⟩
  · exact ⟨fun _ _ _ _ => rfl, fun _ _ _ _ => rfl, fun _ _ _ _ => rfl, m.clampLambda_stronger hκ, fun _ => (Mat.smul_zero κ).symm⟩
  · refine ⟨_, _, rfl, rfl, ?_⟩
    rw [hB]
    show (⟨1, Mat.zero, |v|, |a * (κ * (bodies i).inertia)|⟩ : Motor K 1) = ⟨1, Mat.zero, |v|, κ * |a * (bodies i).inertia|⟩
    rw [show a * (κ * (bodies i).inertia) = κ * (a * (bodies i).inertia) by ring, abs_mul, abs_of_pos hκ]
  · refine ⟨_, _, rfl, rfl, ?_⟩
    rw [hB]
    show (⟨1, Mat.zero, |v|, |a * (κ * (bodies i).mass)|⟩ : Motor K 2) = ⟨1, Mat.zero, |v|, κ * |a * (bodies i).mass|⟩
    rw [show a * (κ * (bodies i).mass) = κ * (a * (bodies i).mass) by ring, abs_mul, abs_of_pos hκ]
  · unfold mouseFunOf
    rw [hp]
    refine ⟨fun p s t h => ?_, fun _ _ _ _ => rfl, fun p s t h => ?_, fun _ _ => rfl, fun _ => rfl⟩ <;> simp only [mouseFun, Proxies.heavier, h.pos0]
  · exact ⟨hf.eval, hf.bias, hf.jacobian, fun l _ => maxZero_smul hκ l, fun l => maxZero_smul hκ l⟩

omit [Trig K] in
theorem Colliders.recompute_heavier (hκ : 0 < κ) (l : List (Collider K)) (acc : MassProperties K) :
    Colliders.recompute (acc.heavier κ) (l.map (·.heavier κ)) = ((Colliders.recompute acc l).1.heavier κ, (Colliders.recompute acc l).2) := by
  induction l generalizing acc with
  | nil => rfl
  | cons c l ih =>
    rw [List.map_cons]
    unfold Colliders.recompute
    rw [Collider.properties_heavier hκ]
    cases c.properties with
    | throw => rfl
    | ub => rfl
    | ok p =>
      simp only [Outcome.bind_ok]
      rw [MassProperties.combine_heavier hκ.ne', ih]

omit [Trig K] in
theorem Colliders.eraseId_heavier (id : Nat) (l : List (Collider K)) : Colliders.eraseId id (l.map (·.heavier κ)) = (Colliders.eraseId id l).map (·.heavier κ) := by
  induction l with
  | nil => rfl
  | cons c l ih =>
    rw [List.map_cons]
    unfold Colliders.eraseId
    rw [show (c.heavier κ).id = c.id from rfl]
    split
    · rfl
    · rw [ih]; rfl

theorem Body.recenter_heavier (b : Body K) (v : Vec2 K) : (b.heavier κ).recenter v = (b.recenter v).heavier κ := by
  unfold Body.recenter Body.heavier Body.update Colliders.update
  simp only [Body.setVelocity]
  congr 2
  rw [List.map_map, List.map_map]
  rfl

/-- C94: a heavier body is made by giving it colliders of denser materials: each call that adds or removes a collider ends in the same way, and with the same body but for its mass. Its centroid is the same, and so
are the constraints that are accepted and the bodies they do not move. -/
theorem C94_bodies (hκ : 0 < κ) :
    (∀ (b : Body K) id polygon (material : Material K), (b.heavier κ).addCollider id polygon (material.heavier κ) = ((b.addCollider id polygon material).1.heavier κ, (b.addCollider id polygon material).2)) ∧
    (∀ (b : Body K) id, (b.heavier κ).removeCollider id = ((b.removeCollider id).1.heavier κ, (b.removeCollider id).2)) ∧
    (∀ (position : Vec2 K) orientation dominance, (Body.make position orientation dominance).heavier κ = Body.make position orientation dominance) ∧
    (∀ b : Body K, (b.heavier κ).mass = κ * b.mass ∧ (b.heavier κ).inertia = κ * b.inertia ∧ (b.heavier κ).centroid = b.centroid) ∧
    (∀ (bodies : Nat → Body K) i0 i1 d, Bodies.make (fun i => (bodies i).heavier κ) i0 i1 d = (Bodies.make bodies i0 i1 d).heavier κ) ∧
    (∀ (b : Bodies K) i, (b.heavier κ).isBodyStructural i = b.isBodyStructural i) ∧ ∀ b : Bodies K, (b.heavier κ).checkConstraint = b.checkConstraint := by
  have h0 := hκ.ne'
  have hst : ∀ (b : Bodies K) i, (b.heavier κ).isBodyStructural i = b.isBodyStructural i := by
    intro b i
    unfold Bodies.isBodyStructural Bodies.heavier InvMasses.heavier
    simp [h0]
  refine ⟨fun b id polygon material => ?_, fun b id => ?_, fun p o d => ?_, fun b => ⟨rfl, rfl, rfl⟩, fun bodies i0 i1 d => ?_, hst, fun b => ?_⟩
  · unfold Body.addCollider
    rw [show (b.heavier κ).attached = b.attached from rfl]
    cases b.attached
    · rfl
    · simp only [Bool.not_true, Bool.false_eq_true, if_false]
      have e : (b.heavier κ).colliders.add id polygon (material.heavier κ) =
          (⟨(b.colliders.add id polygon material).1.list.map (·.heavier κ), (b.colliders.add id polygon material).1.properties.heavier κ⟩, (b.colliders.add id polygon material).2) := by
        have hp := Collider.properties_heavier hκ ⟨id, .make polygon, material⟩
        unfold Colliders.add
        rw [show (⟨id, .make polygon, material.heavier κ⟩ : Collider K) = (⟨id, .make polygon, material⟩ : Collider K).heavier κ from rfl]
        dsimp only
        rw [hp]
        cases (⟨id, .make polygon, material⟩ : Collider K).properties with
        | throw => simp [Body.heavier, Outcome.bind]
        | ub => simp [Body.heavier, Outcome.bind]
        | ok p =>
          simp only [Outcome.bind_ok, Body.heavier]
          rw [MassProperties.combine_heavier h0]
          simp
      rw [e]
      cases (b.colliders.add id polygon material).2 with
      | throw => rfl
      | ub => rfl
      | ok u =>
        dsimp only
        rw [← Body.recenter_heavier]
        rfl
  · unfold Body.removeCollider
    rw [show (b.heavier κ).attached = b.attached from rfl]
    cases b.attached
    · rfl
    · simp only [Bool.not_true, Bool.false_eq_true, if_false]
      have e : (b.heavier κ).colliders.remove id = (⟨(b.colliders.remove id).1.list.map (·.heavier κ), (b.colliders.remove id).1.properties.heavier κ⟩, (b.colliders.remove id).2) := by
        unfold Colliders.remove
        have z : (0 : MassProperties K) = (0 : MassProperties K).heavier κ := by
          show (⟨0, 0, 0⟩ : MassProperties K) = ⟨κ * 0, κ * 0, 0⟩
          rw [mul_zero]
        rw [show (b.heavier κ).colliders.list = b.colliders.list.map (·.heavier κ) from rfl, Colliders.eraseId_heavier]
        dsimp only
        rw [z, Colliders.recompute_heavier hκ, ← z]
      rw [e]
      cases (b.colliders.remove id).2 with
      | throw => rfl
      | ub => rfl
      | ok u =>
        dsimp only
        rw [List.isEmpty_map]
        split
        · rfl
        · rw [← Body.recenter_heavier]
          rfl
  · unfold Body.make Body.update Body.heavier
    dsimp only
    congr 2
    show (⟨κ * 0, κ * 0, 0⟩ : MassProperties K) = ⟨0, 0, 0⟩
    rw [mul_zero]
  · unfold Bodies.make Bodies.heavier InvMasses.heavier
    dsimp only
    have hi := fun i => Body.heavier_invMass (κ := κ) (bodies i)
    rw [(hi i0).1, (hi i0).2, (hi i1).1, (hi i1).2]
    simp only [mul_div_assoc]
    rfl
  · unfold Bodies.checkConstraint
    rw [hst, hst]
    rfl

end

section
variable {K : Type*} [Field K] [LinearOrder K] [IsStrictOrderedRing K] [Trig K] {L L' : Library K} {m m1 : Motion L} {m' m1' : Motion L'} {c : CallCfg K} {cfg : Island.Settings} {sl : Sleep.Settings K}
  {fields : List (ForceField K)} {tree tree' : List (Nat × Collider K)} {world world' : List Nat} {fuel fuel' : Nat} {A A' : Link → Bool} {group : Finset Nat} {log log' : List Record}
  {evals evals' : List (Link × Bool)} {κ : K}

/-- C94, one step: a group of bodies, of which all masses are multiplied by `κ`, moves as before, goes to sleep as before, and all impulses are larger by the same factor. What it is attached to and what pulls it has
to be stronger by that factor too. Missing are inequalities of more than one dimension (`C94_inequalities_disagreement`); mouse constraints have to be damped less (`C94_mouse_disagreement`). -/
theorem C94_step_partial (hκ : 0 < κ) (hl : ∀ x, 0 ≤ x → c.sqrt x * c.sqrt x = x) (hW : Weighed κ c A A' tree tree' world world' group m m')
    (hS : AsHeavy κ group (L.Own group) m.snapshot m'.snapshot) (h : m.step c cfg sl fields tree world fuel = some (.ok (m1, log, evals)))
    (h' : m'.step c cfg sl (fields.map (·.heavier κ)) tree' world' fuel' = some (.ok (m1', log', evals'))) (hA : ∀ e ∈ evals, e.2 = A e.1) (hA' : ∀ e ∈ evals', e.2 = A' e.1) :
    AsHeavy κ group (L.Own group) m1.snapshot m1'.snapshot := by
  obtain ⟨body, st, h1, h2, rfl, h4, h5⟩ := Motion.step_ok h
  obtain ⟨body', st', h1', h2', rfl, h4', h5'⟩ := Motion.step_ok h'
  have hbody : ∀ b ∈ group, (body b).asleep = false ∧ body' b = (body b).heavier κ := applyForces_heavier hκ fields c.dt hW.colliders (fun b hb => ⟨hW.awake b hb, hS.bodies b hb⟩) h1 h1'
  have hsol : Solved (L.net c) A world ({ m with body := body } : Motion L).start st log := ⟨C37_library hW.made c, hW.wellFormed, ⟨fun _ => rfl, fun _ => rfl⟩, ⟨_, _, _, _, h2⟩, hA⟩
  have hsol' : Solved (L'.net c) A' world' ({ m' with body := body' } : Motion L').start st' log' :=
    ⟨C37_library hW.made' c, hW.wellFormed', ⟨fun _ => rfl, fun _ => rfl⟩, ⟨_, _, _, _, h2'⟩, hA'⟩
  have anch : ∀ b, Anchored c m b → Fixed (L.net c) ({ m with body := body } : Motion L).start b := by
    rintro b ⟨⟨k1, k2⟩, k3⟩
    have : body b = m.body b := applyForces_untouched (Or.inr (Or.inl k3)) h1
    refine ⟨?_, k2⟩
    show (L.net c).isRest ⟨(body b).velocity, (body b).angular⟩ = true
    rw [this]; exact k1
  have anch' : ∀ b, Anchored c m' b → Fixed (L'.net c) ({ m' with body := body' } : Motion L').start b := by
    rintro b ⟨⟨k1, k2⟩, k3⟩
    have : body' b = m'.body b := applyForces_untouched (Or.inr (Or.inl k3)) h1'
    refine ⟨?_, k2⟩
    show (L'.net c).isRest ⟨(body' b).velocity, (body' b).angular⟩ = true
    rw [this]; exact k1
  have own : ∀ l, Inner (L.net c) ({ m with body := body } : Motion L).start group l → L.Own group l := by
    rintro l ⟨⟨b, hb, -, hl⟩, hi⟩
    exact ⟨⟨b, hb, hl⟩, hi⟩
  have inner : ∀ l, L.Own group l → Inner (L.net c) ({ m with body := body } : Motion L).start group l := by
    rintro l ⟨⟨b, hb, hl⟩, hi⟩
    have hl : l ∈ linksOf (L.net c) b := hl
    have hw := (hW.inside b hb).1
    obtain ⟨l0, l1⟩ := hW.wellFormed.listed b hw l hl
    refine ⟨?_, hi⟩
    rcases hW.wellFormed.oneMoves b hw l hl with hm | hm
    · refine ⟨((L.net c).ends l).1, hi.1, fun hF => ?_, l0⟩
      have := hF.2 l l0
      rw [hm] at this; cases this
    · refine ⟨((L.net c).ends l).2, hi.2, fun hF => ?_, l1⟩
      have := hF.2 l l1
      rw [hm] at this; cases this
  have hfix : ∀ b ∈ group, Fixed (L.net c) ({ m with body := body } : Motion L).start b ↔ Fixed (L'.net c) ({ m' with body := body' } : Motion L').start b := by
    intro b hb
    refine and_congr ?_ (hW.solid b hb)
    show (L.net c).isRest ⟨(body b).velocity, (body b).angular⟩ = true ↔ (L'.net c).isRest ⟨(body' b).velocity, (body' b).angular⟩ = true
    rw [(hbody b hb).2]; exact Iff.rfl
  have key := corresponding_group hsol hsol' h2 h2' (F := sameFrames) (known := fun l (s : ∀ l, (L.kind l).State) (t : ∀ l, (L'.kind l).State) => Kind.Heavier κ ⟨L.kind l, s l⟩ ⟨L'.kind l, t l⟩)
    (asked := fun l (s : ∀ l, (L.kind l).State) (t : ∀ l, (L'.kind l).State) => Kind.Heavier κ ⟨L.kind l, s l⟩ ⟨L'.kind l, t l⟩) (group := group) (L.private_of L' c (Kind.Heavier κ))
    (L'.private_of L c fun x y => Kind.Heavier κ y x) (L.private_of L' c (Kind.Heavier κ)) (L'.private_of L c fun x y => Kind.Heavier κ y x)
    (fun b hb hf l hl hA => hW.enclosed b hb (fun k => hf (anch b k)) l hl hA) (fun b hb hf l hl hA => hW.enclosed' b hb (fun k => hf (anch' b k)) l hl hA)
    ⟨hW.order, hfix, fun b hb hf => hW.links b hb fun k => hf (anch b k), fun l hi => Library.matched_heavier hκ hl (hW.masses l (own l hi)), fun p q v w hp hv => by
      have hp : q.1 = p.1 := hp
      have hv : w = v := hv
      subst hv
      show (Pose.of (q.1.advance (c.dt • w.linear) (w.angular * c.dt))).1 = (Pose.of (p.1.advance (c.dt • w.linear) (w.angular * c.dt))).1
      rw [hp], Or.inl rfl⟩
    ⟨fun b hb => ⟨by show (Pose.of (body' b).position).1 = _; rw [(hbody b hb).2]; rfl, by
        show (⟨(body' b).velocity, (body' b).angular⟩ : Velocity K) = _; rw [(hbody b hb).2]; rfl⟩,
      fun l hl => hS.links l (own l hl)⟩
  have ht : ∀ b ∈ group, m'.timeImmobile b = m.timeImmobile b := hS.clocks
  have hb1 : ∀ b ∈ group, m1'.body b = (m1.body b).heavier κ := fun b hb => by
    have e := Body.settle_heavier (κ := κ) (body b) (st.body b) (st'.body b) (key.bodies b hb).1 (key.bodies b hb).2
    have w : (st.body b).asleep = false := hsol.progress.stillAwake b (hbody b hb).1
    have w' : (st'.body b).asleep = false := hsol'.progress.stillAwake b (by show (body' b).asleep = false; rw [(hbody b hb).2]; exact (hbody b hb).1)
    rw [h5 b (hW.inside b hb).1, h5' b (hW.inside b hb).2, (hbody b hb).2, e, w', ht b hb]
    unfold Body.rest Body.heavier Body.settle
    dsimp only [Body.update]
    rw [w]
  refine ⟨hb1, fun b hb => ?_, fun l hl => ?_⟩
  · have v1 : (m1'.body b).velocity = (m1.body b).velocity ∧ (m1'.body b).angular = (m1.body b).angular := by
      rw [hb1 b hb]; exact ⟨rfl, rfl⟩
    obtain ⟨a, ha⟩ := Motion.step_clock h (hW.inside b hb).1
    obtain ⟨a', ha'⟩ := Motion.step_clock h' (hW.inside b hb).2
    have e := congrArg Sleep.Clock.timeImmobile ha
    have e' := congrArg Sleep.Clock.timeImmobile ha'
    dsimp only at e e'
    show m1'.timeImmobile b = m1.timeImmobile b
    rw [e, e', v1.1, v1.2, ht b hb]
    exact Sleep.update_time _ _ _ _ _ _ _ _
  · have := key.links l (inner l hl)
    show Kind.Heavier κ ⟨L.kind l, m1.s l⟩ ⟨L'.kind l, m1'.s l⟩
    rw [h4, h4']
    exact this

end

section
variable {K : Type*} [Field K] [LinearOrder K] [IsStrictOrderedRing K] [Trig K] {sqrt : K → K} {penetration : List (Vec2 K) → List (Vec2 K) → Vec2 K → Outcome (Vec2 K)} {group : Finset Nat} {n : Nat}
  {own own' : Link → Prop} {S0 S0' S S' : Snapshot K} {κ : K}

theorem ReadiedHeavier.heavier {B B' : Nat → Body K} (hB : ∀ b ∈ group, B' b = (B b).heavier κ) {o : Option ((Σ k : Kind K, k.State) × Σ k : Kind K, k.State)} {x y : Σ k : Kind K, k.State}
    (h : ReadiedHeavier sqrt penetration κ group B B' o x y) (ho : ∀ z, o = some z → Kind.Heavier κ z.1 z.2) : Kind.Heavier κ x y := by
  cases h with
  | kept x y => exact ho _ rfl
  | given o h => exact h
  | @made o bodies cols colliders colliders' inGroup collider collider' e e' h h' =>
    have hc : ∀ i, colliders' i = (colliders i).heavier κ := by
      intro i
      have := collider' i
      rw [hB _ (inGroup i)] at this
      have e : ((B (bodies i)).colliders.list.map (·.heavier κ))[cols i]? = some (colliders' i) := this
      rw [List.getElem?_map, collider i] at e
      exact (Option.some.inj e).symm
    have hp : ∀ i, (B' (bodies i)).position = (B (bodies i)).position := fun i => by rw [hB _ (inGroup i)]; rfl
    simp only [hc, hp] at h'
    have := Contact.make_heavier (κ := κ) sqrt penetration (colliders 0).material (colliders 1).material fun i => ⟨(colliders i).geom, (B (bodies i)).position⟩
    rw [h] at this
    have e := h'.symm.trans this
    cases Outcome.ok.inj e
    exact .contact _
  | @updated e e' e1 e1' bodies cols sides sides' inGroup side side' h h' =>
    have hs : sides' = sides := by
      funext i
      have := side' i
      rw [hB _ (inGroup i)] at this
      have k : ((B (bodies i)).heavier κ).side (cols i) = (B (bodies i)).side (cols i) := by
        unfold Body.side Body.heavier
        dsimp only
        rw [List.getElem?_map, Option.map_map]
        rfl
      rw [k, side i] at this
      exact (Option.some.inj this).symm
    have hk := ho _ rfl
    dsimp only at hk
    cases hk with
    | contact e =>
      rw [hs, Contact.updateContacts_heavier, h] at h'
      cases Outcome.ok.inj h'
      exact .contact _

/-- C94: after any number of steps the bodies of a group of which all masses are multiplied by `κ` are where they would be otherwise, as fast, and asleep or awake as they would be. Missing are inequalities of more than
one dimension and the mouse, as in `C94_step_partial`. -/
theorem C94_steps_partial (hκ : 0 < κ) (h : InStep sqrt penetration κ group n own S0 S0' own' S S') (h0 : AsHeavy κ group own S0 S0') :
    AsHeavy κ group own' S S' ∧ ∀ b ∈ group, (S'.body b).position = (S.body b).position ∧ (S'.body b).velocity = (S.body b).velocity ∧ (S'.body b).angular = (S.body b).angular ∧
      (S'.body b).asleep = (S.body b).asleep := by
  suffices k : AsHeavy κ group own' S S' by
    refine ⟨k, fun b hb => ?_⟩
    rw [k.bodies b hb]
    exact ⟨rfl, rfl, rfl, rfl⟩
  induction h with
  | start => exact h0
  | @step n own0 own S0 S0' S S' before L L' m m1 m' m1' c cfg sl fields tree tree' world world' fuel fuel' A A' log log' evals evals' lawful kept kept' readied weighed stepped stepped' active active' ih =>
    have ih := ih h0
    have hb : ∀ b ∈ group, m'.body b = (m.body b).heavier κ := fun b hb => by
      rw [(kept b hb).1, (kept' b hb).1]; exact ih.bodies b hb
    refine C94_step_partial hκ lawful weighed ⟨hb, fun b hb => ?_, fun l hl => ?_⟩ stepped stepped' active active'
    · show m'.timeImmobile b = m.timeImmobile b
      rw [(kept b hb).2, (kept' b hb).2]
      exact ih.clocks b hb
    · obtain ⟨o, ho, hr⟩ := readied l hl
      refine hr.heavier hb fun z hz => ?_
      obtain ⟨h1, rfl⟩ := ho z hz
      exact ih.links l h1

end

/-! ### What is missing in `C94_step_partial` -/
section
variable {K : Type*} [Field K] [LinearOrder K] [IsStrictOrderedRing K] [Trig K]

/-- A constraint is prepared and then solved once for the velocities: the horizontal velocity of its first body. -/
def solvedOnce (c : CallCfg K) (k : Kind K) (e : k.State) (p : Proxies K) (s : SolveState K) : Outcome K :=
  (k.act c .initSolve p e s).bind fun r => (k.act c .solveVelocities p r.1 r.2).bind fun r => .ok (r.2.vel p.i0).linear.x

/-- Bodies at the origin, of which the first one moves. -/
def pushedPair (v : Vec2 K) : SolveState K := ⟨fun _ => ⟨⟨0⟩, ⟨0, 1, 0⟩, ⟨0⟩⟩, fun i => if i = 0 then ⟨v, 0⟩ else ⟨0, 0⟩⟩

omit [Trig K] in
theorem sweep_pair {A : Mat K 2 2} {b : MVec K 2} {k β x y x' y' : K} (hk : 0 < k) (h00 : A.get 0 0 = 2 * k) (h01 : A.get 0 1 = -k) (h10 : A.get 1 0 = -k) (h11 : A.get 1 1 = 2 * k)
    (h0 : b.at_ 0 = β) (h1 : b.at_ 1 = β) (hx : 2 * k * x' = β + k * y) (hy : 2 * k * y' = β + k * x') (p0 : 0 ≤ x') (p1 : 0 ≤ y') :
    (sweep A b.neg (fun v i => (maxZero v).at_ i) (Mat.ofFn ![x, y])).1 = Mat.ofFn ![x', y'] ∧
    ∀ t, 0 ≤ t → (t < (sweep A b.neg (fun v i => (maxZero v).at_ i) (Mat.ofFn ![x, y])).2 ↔ t < |x' - x| ∨ t < |y' - y|) := by
  have e : (fun (v : MVec K 2) (i : Fin 2) => (maxZero v).at_ i) = fun v i => (fun _ (t : K) => if t < 0 then 0 else t) i (v.at_ i) := by
    funext v i
    simp [maxZero, Mat.at_ofFn]
  rw [e]
  obtain ⟨q1, q2, q3, q4⟩ := sweep_spec A b (fun _ (t : K) => if t < 0 then 0 else t) (Mat.ofFn ![x, y])
  generalize sweep A b.neg (fun v i => (fun _ (t : K) => if t < 0 then 0 else t) i (v.at_ i)) (Mat.ofFn ![x, y]) = s at q1 q2 q3 q4
  have e0 : s.1.at_ 0 = x' := by
    rw [q1]
    have : rowValue A.toM b.toV (mixed s.1.toV (Mat.ofFn ![x, y] : MVec K 2).toV 0) 0 = x' := by
      simp only [rowValue, show (Finset.univ : Finset (Fin 2)).erase 0 = {1} from by decide, Finset.sum_singleton, Mat.toM, Mat.toV, Matrix.of_apply, mixed, h00, h01, h0]
      rw [if_neg (by decide), Mat.at_ofFn, div_eq_iff (by positivity)]
      show β - -k * y = _
      linear_combination -hx
    rw [this, if_neg (not_lt.mpr p0)]
  have e1 : s.1.at_ 1 = y' := by
    rw [q1]
    have : rowValue A.toM b.toV (mixed s.1.toV (Mat.ofFn ![x, y] : MVec K 2).toV 1) 1 = y' := by
      simp only [rowValue, show (Finset.univ : Finset (Fin 2)).erase 1 = {0} from by decide, Finset.sum_singleton, Mat.toM, Mat.toV, Matrix.of_apply, mixed, h10, h11, h1]
      rw [if_pos (by decide), e0, div_eq_iff (by positivity)]
      linear_combination -hy
    rw [this, if_neg (not_lt.mpr p1)]
  refine ⟨Mat.ext_at fun r => ?_, fun t ht => ⟨fun h => ?_, fun h => ?_⟩⟩
  · rw [Mat.at_ofFn]; revert r; simp [Fin.forall_fin_two, e0, e1]
  · by_contra hc
    push Not at hc
    have := q4 ?_
    · linarith
    · rw [Fin.forall_fin_two, e0, e1, Mat.at_ofFn, Mat.at_ofFn]
      exact ⟨lt_of_le_of_lt hc.1 h, lt_of_le_of_lt hc.2 h⟩
  · rw [Fin.forall_fin_two, e0, e1, Mat.at_ofFn, Mat.at_ofFn] at q2
    rcases h with h | h
    · exact lt_of_lt_of_le h q2.1
    · exact lt_of_lt_of_le h q2.2

omit [Trig K] in
/-- A pair of inequalities for which the loop stops after two iterations or after one. -/
theorem solve_pair {A : Mat K 2 2} {b : MVec K 2} {k ε : K} (hk : 0 < k) (hε : 0 < ε) (n : Nat) (h00 : A.get 0 0 = 2 * k) (h01 : A.get 0 1 = -k) (h10 : A.get 1 0 = -k) (h11 : A.get 1 1 = 2 * k)
    (h0 : b.at_ 0 = 2 * ε) (h1 : b.at_ 1 = 2 * ε) :
    (k = 1 → solveInequalitiesVec A b maxZero Mat.zero ε (n + 2) = some (Mat.ofFn ![7 / 4 * ε, 15 / 8 * ε])) ∧
    (k = 2 → solveInequalitiesVec A b maxZero Mat.zero ε (n + 2) = some (Mat.ofFn ![1 / 2 * ε, 3 / 4 * ε])) := by
  have ez : (Mat.zero : MVec K 2) = Mat.ofFn ![0, 0] := by
    apply Mat.ext_at; intro r; rw [Mat.at_zero, Mat.at_ofFn]; revert r; simp [Fin.forall_fin_two]
  unfold solveInequalitiesVec solveInequalities
  rw [ez]
  constructor <;> rintro rfl
  · obtain ⟨s1, t1⟩ := sweep_pair (x := 0) (y := 0) (x' := ε) (y' := 3 / 2 * ε) hk h00 h01 h10 h11 h0 h1 (by ring) (by ring) (by positivity) (by positivity)
    obtain ⟨s2, t2⟩ := sweep_pair (x := ε) (y := 3 / 2 * ε) (x' := 7 / 4 * ε) (y' := 15 / 8 * ε) hk h00 h01 h10 h11 h0 h1 (by ring) (by ring) (by positivity) (by positivity)
    rw [gsLoop_succ _ _ _ _ _ _ _ (by linarith), s1, gsLoop_succ _ _ _ _ _ _ _ ((t1 ε hε.le).mpr (Or.inr (by rw [lt_abs]; left; linarith))), s2, gsLoop_stop]
    rw [t2 ε hε.le]
    push Not
    constructor <;> rw [abs_le] <;> constructor <;> linarith
  · obtain ⟨s1, t1⟩ := sweep_pair (x := 0) (y := 0) (x' := 1 / 2 * ε) (y' := 3 / 4 * ε) hk h00 h01 h10 h11 h0 h1 (by ring) (by ring) (by positivity) (by positivity)
    rw [gsLoop_succ _ _ _ _ _ _ _ (by linarith), s1, gsLoop_stop]
    rw [t1 ε hε.le]
    push Not
    constructor <;> rw [abs_le] <;> constructor <;> linarith

/-- C94 is false for inequalities of dimension 2 (no class of the library has them; a user gets them by giving a `HingeConstraintFunction` to an inequality constraint): the loop that solves them stops when impulses change by
at most `simu::EPSILON` (Matrix.inl.hpp:485), which is sooner for light bodies. Whatever this constant is, of two equal situations with masses 1 and 1/2 the heavier body keeps an eighth of its velocity and the lighter
one half of it. -/
theorem C94_inequalities_disagreement (c : CallCfg K) (hε : 0 < c.epsilon) (hf : 2 ≤ c.fuel) :
    solvedOnce c (Kind.inequality 2 (inequalityFun (hingeFun (⟨1, 1⟩ : Vec2 K) ⟨1, 1⟩))) (⟨SolverBase.init, Mat.zero⟩ : InequalitySolver K 2) ⟨0, 1, ⟨1, 1, 0, 0⟩⟩ (pushedPair ⟨2 * c.epsilon, 2 * c.epsilon⟩) = .ok (1 / 4 * c.epsilon) ∧
    solvedOnce c (Kind.inequality 2 (inequalityFun (hingeFun (⟨1, 1⟩ : Vec2 K) ⟨1, 1⟩))) (⟨SolverBase.init, Mat.zero⟩ : InequalitySolver K 2) ((⟨0, 1, ⟨1, 1, 0, 0⟩⟩ : Proxies K).heavier (1 / 2)) (pushedPair ⟨2 * c.epsilon, 2 * c.epsilon⟩) = .ok c.epsilon := by
  obtain ⟨n, hn⟩ := Nat.exists_eq_add_of_le hf
  have key : ∀ (k l l' : K), 0 < k → (∀ (A : Mat K 2 2) (b : MVec K 2), A.get 0 0 = 2 * k → A.get 0 1 = -k → A.get 1 0 = -k → A.get 1 1 = 2 * k → b.at_ 0 = 2 * c.epsilon → b.at_ 1 = 2 * c.epsilon →
        solveInequalitiesVec A b maxZero Mat.zero c.epsilon c.fuel = some (Mat.ofFn ![l, l'])) → 0 ≤ l → 0 ≤ l' →
      solvedOnce c (Kind.inequality 2 (inequalityFun (hingeFun (⟨1, 1⟩ : Vec2 K) ⟨1, 1⟩))) (⟨SolverBase.init, Mat.zero⟩ : InequalitySolver K 2) ⟨0, 1, ⟨k, k, 0, 0⟩⟩ (pushedPair ⟨2 * c.epsilon, 2 * c.epsilon⟩) = .ok (2 * c.epsilon - k * l) := by
    intro k l l' hk h p0 p1
    set f : CFun K 2 := inequalityFun (hingeFun (⟨1, 1⟩ : Vec2 K) ⟨1, 1⟩) with hf
    set p : Proxies K := ⟨0, 1, ⟨k, k, 0, 0⟩⟩ with hp
    set s : SolveState K := pushedPair ⟨2 * c.epsilon, 2 * c.epsilon⟩ with hs
    have hw : ∀ i v, (s.pos i).toWorldSpace.app v = v := fun i v => by
      ext <;> simp [hs, pushedPair, Position.toWorldSpace, Transform.app, Transform.mulTranslation, Translation.mulRotation, Translation.mul, Translation.inverse, Rotation.app]
    have hJ : ∀ r q, (f.jacobian p s).get r q = (![![-1, 0, 1, 1, 0, -1], ![0, -1, -1, 0, 1, 1]] : Fin 2 → Fin 6 → K) r q := by
      intro r q
      have : (f.jacobian p s).get r q = _ := hinge_get _ _ p s r q
      rw [this]
      simp only [Position.centroid, hw]
      fin_cases r <;> fin_cases q <;> simp [hs, pushedPair]
    have hE : f.eval p s = Mat.zero := by
      show ((s.pos 1).toWorldSpace.app _ - (s.pos 0).toWorldSpace.app _ : Vec2 K).toMVec = _
      rw [hw, hw, sub_self]
      apply Mat.ext_at; intro r; rw [Mat.at_zero]; revert r; simp [Fin.forall_fin_two, Vec2.toMVec]
    have hB : f.bias p s = Mat.zero := rfl
    have hm : p.invMassVec = Mat.ofFn ![k, k, k, 0, 0, 0] := rfl
    have hv : p.velocity s = Mat.ofFn ![2 * c.epsilon, 2 * c.epsilon, 0, 0, 0, 0] := rfl
    unfold solvedOnce
    simp only [Kind.act, Outcome.bind_ok, InequalitySolver.initSolve, InequalitySolver.solveVelocity]
    have hl : (SolverBase.init : SolverBase K 2).initBase.lambda = Mat.zero := rfl
    have hd : (SolverBase.init : SolverBase K 2).initBase.damping = Mat.zero := rfl
    have hz : ∀ r, (((Mat.diagonal (SolverBase.init : SolverBase K 2).initBase.restitution).mul (Mat.zero : MVec K 2)).sdiv c.dt).at_ r = 0 := fun r => by
      rw [Mat.at_eq_get, Mat.get_sdiv, Mat.get_mul]
      simp [Mat.get_zero]
    have e1 : ∀ l : MVec K 2, f.clampLambda l c.dt = maxZero l := fun _ => rfl
    simp only [e1, SolverBase.computeEffectiveMass, hl, hd, if_true]
    rw [h]
    · simp only [Option.map_some, returned]
      show Outcome.ok (((p.applyImpulse _ s).vel 0).linear.x) = _
      rw [Proxies.applyImpulse_vel]
      simp only [SolverBase.impulse, Fin.sum_univ_two, Mat.get_transpose, hJ, kick, Mat.at_mul, Mat.toV]
      have e2 : (Mat.zero.add (Mat.sub (Mat.ofFn ![l, l']) Mat.zero) : MVec K 2).at_ 0 = l := by simp [Mat.at_add, Mat.at_sub, Mat.at_zero]
      simp [hp, hs, pushedPair, maxZero, e1, Mat.at_sub, Mat.at_zero, e2, not_lt.mpr p0]
      ring
    all_goals simp [Mat.get_mul, Mat.get_add, Mat.get_diagonal, Fin.sum_univ_six, hJ, Proxies.inverseMass, hm, Mat.at_zero, Mat.at_add, Mat.at_mul, SolverBase.computeRhs, hE, hB, Mat.at_neg, hv]
    · ring
    · ring
    · rw [hz]
    · rw [hz]
  refine ⟨?_, ?_⟩
  · rw [key 1 _ _ one_pos (fun A b h1 h2 h3 h4 h5 h6 => by rw [hn, Nat.add_comm]; exact (solve_pair one_pos hε n h1 h2 h3 h4 h5 h6).1 rfl) (by positivity) (by positivity)]
    congr 1; ring
  · have e : (⟨0, 1, ⟨1, 1, 0, 0⟩⟩ : Proxies K).heavier (1 / 2) = ⟨0, 1, ⟨2, 2, 0, 0⟩⟩ := by simp [Proxies.heavier, InvMasses.heavier]
    rw [e, key 2 _ _ two_pos (fun A b h1 h2 h3 h4 h5 h6 => by rw [hn, Nat.add_comm]; exact (solve_pair two_pos hε n h1 h2 h3 h4 h5 h6).2 rfl) (by positivity) (by positivity)]
    congr 1; ring

/-- The hypotheses are met. -/
example := C94_inequalities_disagreement (K := ℝ) ⟨1 / 60, Real.sqrt, 1 / 100000, 100⟩ (by norm_num) (by norm_num)

omit [LinearOrder K] [IsStrictOrderedRing K] [Trig K] in
/-- The function of the two situations is the same for heavier bodies, so that it is the loop that makes them different. -/
theorem hinge_heavier [Trig K] {κ : K} (l0 l1 : Vec2 K) : (hingeFun l0 l1).Heavier κ (hingeFun l0 l1) := by
  refine ⟨fun p s t h => ?_, fun _ _ _ _ => rfl, fun p s t h => ?_, fun _ _ => rfl, fun _ => rfl⟩ <;> simp only [hingeFun, Proxies.heavier, h.pos0, h.pos1]

end

section
attribute [local instance] flatTrig

/-- C94 is false for a new `MouseConstraint`: its damping is 1 whatever the mass of the body (MouseConstraint.hpp:88-97). A body of mass 1 held at its centroid keeps half of its velocity, one of mass 2 two thirds. -/
theorem C94_mouse_disagreement :
    solvedOnce (K := ℚ) ⟨1 / 60, id, 1 / 100, 9⟩ (.mouse (mouseFun 0 0)) (⟨mouseBase, ⟨false, fun _ => .throw⟩⟩ : EqualitySolver ℚ 2) ⟨0, 0, ⟨1, 1, 1, 1⟩⟩ (pushedPair ⟨3, 0⟩) = .ok (3 / 2) ∧
    solvedOnce (K := ℚ) ⟨1 / 60, id, 1 / 100, 9⟩ (.mouse (mouseFun 0 0)) (⟨mouseBase, ⟨false, fun _ => .throw⟩⟩ : EqualitySolver ℚ 2) ((⟨0, 0, ⟨1, 1, 1, 1⟩⟩ : Proxies ℚ).heavier 2) (pushedPair ⟨3, 0⟩) = .ok 2 := by
  constructor <;> decide +kernel

end

/-! ### The two squares of `fly_launched`, of heavier materials -/
section

theorem new_heavier (κ : ℝ) : (⟨.init, ⟨false, fun _ => .throw⟩⟩ : EqualitySolver ℝ 2).heavier κ = ⟨.init, ⟨false, fun _ => .throw⟩⟩ := by
  have e : (SolverBase.init : SolverBase ℝ 2).heavier κ = .init := by
    unfold SolverBase.heavier SolverBase.init
    have h1 : (Mat.zero : MVec ℝ 2).smul κ = Mat.zero := Mat.smul_zero κ
    have h2 : (Mat.zero : MVec ℝ 2).sdiv κ = Mat.zero := by
      apply Mat.ext_at; intro r; rw [Mat.at_eq_get, Mat.get_sdiv]; simp [Mat.get_zero, Mat.at_zero]
    simp only [h1, h2]
  unfold EqualitySolver.heavier
  rw [e]
  rfl

/-- Two squares joined by a hinge, one of them moving, make a step in one world. In another world they are `κ` times as heavy, and another body comes before them. -/
theorem fly_heavier (κ : ℝ) (hκ : 0 < κ) : ∃ (B B' : Nat → Body ℝ) (m m1 : Motion (flyLib B)) (m' m1' : Motion (flyLib B')) (tree tree' : List (Nat × Collider ℝ)) (log log' : List Record) (evals evals' : List (Link × Bool)),
    Weighed κ libCfg (fun _ => true) (fun _ => true) tree tree' [0, 1] [2, 0, 1] {0, 1} m m' ∧ AsHeavy κ {0, 1} ((flyLib B).Own {0, 1}) m.snapshot m'.snapshot ∧
    m.step libCfg ⟨8, 2, true⟩ ⟨true, 1, 1, 1⟩ [] tree [0, 1] 7 = some (.ok (m1, log, evals)) ∧
    m'.step libCfg ⟨8, 2, true⟩ ⟨true, 1, 1, 1⟩ [] tree' [2, 0, 1] 7 = some (.ok (m1', log', evals')) ∧ (∀ e ∈ evals, e.2 = true) ∧ (∀ e ∈ evals', e.2 = true) ∧
    (m.body 0).velocity = ⟨3, 1⟩ ∧ (m.body 0).mass = 4 ∧ (m'.body 0).mass = κ * 4 ∧ (flyLib B).Own {0, 1} (.joint 0) ∧
    InStep Real.sqrt (boundedPenetration 9) κ {0, 1} 1 ((flyLib B).Own {0, 1}) m.snapshot m'.snapshot ((flyLib B).Own {0, 1}) m1.snapshot m1'.snapshot := by
  obtain ⟨B, tree, hl, hf, hmass, hB⟩ := fly_launched
  let B' : Nat → Body ℝ := fun b => (B b).heavier κ
  let m : Motion (flyLib B) := flyMotion B
  let m' : Motion (flyLib B') := flyMotion B'
  have hb : ∀ l, (flyLib B').bodies l = ((flyLib B).bodies l).heavier κ := fun l => (C94_bodies hκ).2.2.2.2.1 B 0 1 none
  have hst : ∀ l b, ((flyLib B').net libCfg).structuralIn l b = ((flyLib B).net libCfg).structuralIn l b := fun l b => by
    show (match ((flyLib B').bodies l).isBodyStructural b with | .ok r => r | _ => false) = (match ((flyLib B).bodies l).isBodyStructural b with | .ok r => r | _ => false)
    rw [hb, (C94_bodies hκ).2.2.2.2.2.1]
  have hlinks : ∀ b, linksOf ((flyLib B').net libCfg) b = linksOf ((flyLib B).net libCfg) b := fun b => rfl
  have lk : ∀ b l, l ∈ linksOf ((flyLib B).net libCfg) b → b ∈ [0, 1] := fun b l h => by
    rcases (fly_links B b l h).1 with rfl | rfl <;> simp
  have wf' : WellFormed ((flyLib B').net libCfg) [2, 0, 1] :=
    ⟨fun b _ l h => hl.wellFormed.own b (lk b l h) l h,
      fun b _ l h => ⟨List.mem_cons_of_mem _ (hl.wellFormed.ends b (lk b l h) l h).1, List.mem_cons_of_mem _ (hl.wellFormed.ends b (lk b l h) l h).2⟩,
      fun b _ l h => hl.wellFormed.listed b (lk b l h) l h, fun b _ l h => by rw [hst, hst]; exact hl.wellFormed.oneMoves b (lk b l h) l h⟩
  have hm0 : ∀ b, (B' b).mass ≠ 0 := fun b => by
    rw [((C94_bodies hκ).2.2.2.1 (B b)).1, (hB b).1]; positivity
  have made' : (flyLib B').MadeFor m'.body := fun l => ⟨none, rfl, hm0 _, hm0 _, by simp⟩
  have iso : ∀ b ∈ ({0, 1} : Finset Nat), ∀ l ∈ linksOf ((flyLib B).net libCfg) b, ((flyLib B).bodies l).i0 ∈ ({0, 1} : Finset Nat) ∧ ((flyLib B).bodies l).i1 ∈ ({0, 1} : Finset Nat) :=
    fun b hb l h => hl.isolated b hb l h rfl
  have hW : Weighed κ libCfg (fun _ => true) (fun _ => true) tree (tree.map fun e => (e.1, e.2.heavier κ)) [0, 1] [2, 0, 1] {0, 1} m m' :=
    ⟨hl.wellFormed, wf', hl.made, made', by decide, fun b hb => hl.awake b hb, by decide, List.filter_map, fun b _ => by simp only [hst]; exact Iff.rfl, fun b hb _ l h _ => iso b hb l h,
      fun b hb _ l h _ => iso b hb l h, fun _ _ _ => rfl, fun l _ => hb l⟩
  have hS : AsHeavy κ {0, 1} ((flyLib B).Own {0, 1}) m.snapshot m'.snapshot := by
    refine ⟨fun b hb => rfl, fun b hb => rfl, fun l _ => ?_⟩
    have hF := (C94_functions hκ (bodies := B) (bodies' := B') (fun _ => rfl) (Bodies.make B 0 1 none) ⟨1, 0⟩ 0 0).1
    rw [← (C94_bodies hκ).2.2.2.2.1 B 0 1 none] at hF
    have := Kind.Heavier.equality hF (⟨.init, ⟨false, fun _ => .throw⟩⟩ : EqualitySolver ℝ 2)
    rw [new_heavier] at this
    exact this
  have hnn : (⟨1 / 4 / κ, 3 / 8 / κ, 1 / 4 / κ, 3 / 8 / κ⟩ : InvMasses ℝ).Nonneg := by constructor <;> positivity
  have hf' : (flyLib B').Firm libCfg [2, 0, 1] m'.s := by
    intro b _ l _
    rw [show ((flyLib B').bodies l).masses = ((flyLib B).bodies l).masses.heavier κ from by rw [hb]; rfl, hmass]
    exact ⟨hnn, (C73_effective sqrt_lawful hnn).2.1 _ _ (Or.inl (by positivity)), fun r => le_of_eq (Mat.at_zero r).symm⟩
  obtain ⟨st, log, h1, -, -, h4⟩ := C73_answers hl.made sqrt_lawful hl.wellFormed (st := m.start) ⟨fun _ => rfl, fun _ => rfl⟩ rfl hf
    (A := fun _ => true) (fun _ _ _ _ => rfl) ⟨8, 2, true⟩ (.of (m.body 0).position) ⟨0, 0⟩ (fuel := 7) (by decide)
  obtain ⟨st', log', h1', -, -, h4'⟩ := C73_answers made' sqrt_lawful wf' (st := m'.start) ⟨fun _ => rfl, fun _ => rfl⟩ rfl hf'
    (A := fun _ => true) (fun _ _ _ _ => rfl) ⟨8, 2, true⟩ (.of (m'.body 0).position) ⟨0, 0⟩ (fuel := 7) (by decide)
  obtain ⟨m1, hstep, -⟩ := Motion.step_of (sl := ⟨true, 1, 1, 1⟩) (tree := tree) (fields := []) (m := m) rfl h1
  obtain ⟨m1', hstep', -⟩ := Motion.step_of (sl := ⟨true, 1, 1, 1⟩) (tree := tree.map fun e => (e.1, e.2.heavier κ)) (fields := []) (m := m') rfl h1'
  refine ⟨B, B', m, m1, m', m1', tree, _, log, log', st.evals, st'.evals, hW, hS, hstep, hstep', h4.stable, h4'.stable, ?_, (hB 0).1, ?_, ?_, ?_⟩
  · show (B 0).velocity = _
    rw [(hB 0).2.2.2.2.1]; simp
  · rw [← (hB 0).1]; exact ((C94_bodies hκ).2.2.2.1 (B 0)).1
  · exact ⟨⟨0, by simp, by simp [linksOf, Library.net, flyLib]⟩, by simp [flyLib, Bodies.make], by simp [flyLib, Bodies.make]⟩
  · exact .step (m := m) (m' := m') (A := fun _ => true) (A' := fun _ => true) (tree := tree) (tree' := tree.map fun e => (e.1, e.2.heavier κ)) (fields := []) (.start _ _ _) sqrt_lawful (fun _ _ => ⟨rfl, rfl⟩)
      (fun _ _ => ⟨rfl, rfl⟩) (fun l hl => ⟨none, (fun x hx => by cases hx), .given _ (hS.links l hl)⟩) hW hstep hstep' h4.stable h4'.stable

/-- The hypotheses of `C94_functions`, `C94_bodies`, `C94_step_partial` and `C94_steps_partial` are met: the squares, a thousand times as heavy. -/
example := fly_heavier 1000 (by norm_num)

end

end Simu
