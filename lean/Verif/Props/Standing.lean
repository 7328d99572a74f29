import Verif.Lemmas.StandingLoop
import Verif.Props.MotionStill
/-
C106: structures in equilibrium stand still.
-/
namespace Simu
open Island Mat Finset

section
variable {K : Type*} [Field K] [LinearOrder K] [IsStrictOrderedRing K] [Trig K]

omit [IsStrictOrderedRing K] in
/-- Bodies that interact as structural ones. -/
theorem propped_iff {L : Library K} {c : CallCfg K} {vel : Nat → Velocity K} {st : St (Pose K) (Velocity K) ((l : Link) → (L.kind l).State)} {b : Nat} (h : (st.body b).vel = vel b) :
    L.Propped c vel b ↔ interactsAsStructural (L.net c) st b = true := by
  rw [structural_iff]
  refine and_congr ⟨fun e => ?_, fun e => ?_⟩ Iff.rfl
  · rw [h, e]; simp [Library.net]
  · have e : (st.body b).vel.linear.x = 0 ∧ (st.body b).vel.linear.y = 0 ∧ (st.body b).vel.angular = 0 := of_decide_eq_true e
    rw [h] at e
    cases hv : vel b with
    | mk lin ang =>
      rw [hv] at e
      cases lin
      simp only at e
      rw [e.1, e.2.1, e.2.2]
      rfl

/-- C106: a step with warm starting leaves a structure in equilibrium where it is, for any number of iterations and whatever happens elsewhere: after it the bodies are where they were, do not
move, and the constraints bear the same impulses again. -/
theorem C106_step {L : Library K} {m m' : Motion L} {c : CallCfg K} {cfg : Island.Settings} {sl : Sleep.Settings K} {fields : List (ForceField K)}
    {tree : List (Nat × Collider K)} {world : List Nat} {fuel : Nat} {A : Link → Bool} {group : Finset Nat} {vel : Nat → Velocity K} {P : Link → Six K} {log : List Record}
    {evals : List (Link × Bool)} (hr : Standing c A group vel P m) (hl : Supported c fields tree world A group vel P m) (hw : cfg.enableWarmstarting = true)
    (h : m.step c cfg sl fields tree world fuel = some (.ok (m', log, evals))) (hA : ∀ e ∈ evals, e.2 = A e.1) :
    (∀ b ∈ group, (m'.body b).position = (m.body b).position ∧ (m'.body b).velocity = 0 ∧ (m'.body b).angular = 0) ∧ Standing c A group vel P m' := by
  obtain ⟨body, st, h1, h2, rfl, h4, h5⟩ := Motion.step_ok h
  have hpos0 : ∀ b, (body b).position = (m.body b).position := fun b => (applyForces_keeps fields c.dt tree h1 b).2.2
  have hvel := hl.forces body h1
  have hp : ∀ b ∈ group, (L.Propped c vel b ↔ interactsAsStructural (L.net c) ({ m with body := body } : Motion L).start b = true) := fun b hb => propped_iff (hvel b hb)
  have hnp : ∀ b ∈ group, interactsAsStructural (L.net c) ({ m with body := body } : Motion L).start b = false → ¬ L.Propped c vel b := fun b hb hf hq => by
    rw [(hp b hb).1 hq] at hf
    cases hf
  have hH : Held L c A group (fun b => Pose.of (m.body b).position) vel P ({ m with body := body } : Motion L).start := by
    refine ⟨fun b hb => ⟨?_, hvel b hb⟩, fun b hb hf => hl.enclosed b hb (hnp b hb hf), fun b hb hf => hl.balance b hb (hnp b hb hf)⟩
    show Pose.of (body b).position = Pose.of (m.body b).position
    rw [hpos0]
  obtain ⟨k1, k2⟩ := solveLoop_stands hl.made hw (by simp) (C37_library hl.made c).lawful hl.wellFormed.consistent hl.inside hl.sqrt hl.epsilon hl.fuel fuel hH
    (progress_start (Ready.idle ⟨fun _ => rfl, fun _ => rfl⟩)) ⟨fun b hb hf l hl ha => ⟨P, fun _ => rfl, hr.carrying b hb (hnp b hb hf) l hl ha⟩, fun b _ hD => by simp at hD⟩ ⟨rfl, rfl, rfl⟩ h2 hA
  have keep : ∀ b ∈ group, (m'.body b).position = (m.body b).position ∧ (m'.body b).velocity = 0 ∧ (m'.body b).angular = 0 := fun b hb' => by
    rw [h5 b (hl.inside b hb')]
    refine ⟨?_, ?_, ?_⟩
    · show (st.body b).pos.1 = _
      rw [(k2 b hb').1, Pose.of_eq (hr.orient b hb')]
    · show (st.body b).vel.linear = 0
      rw [(k2 b hb').2]
    · show (st.body b).vel.angular = 0
      rw [(k2 b hb').2]
  refine ⟨keep, fun b hb => (keep b hb).2, fun b hb => by rw [(keep b hb).1]; exact hr.orient b hb, fun b hb hq l hlb ha => ?_⟩
  obtain ⟨Q, hQ, this⟩ := k1 b hb (by
    by_contra hf
    exact hq ((hp b hb).2 (by simpa using hf))) l hlb ha
  rw [hQ rfl] at this
  obtain ⟨e0, e1⟩ := hl.enclosed b hb hq l hlb ha
  rw [h4]
  unfold Library.Carrying at this ⊢
  simp only [(keep _ e0).1, (keep _ e1).1]
  exact this

/-- C106: a structure in equilibrium is where it was after any number of steps. -/
theorem C106_stands {L : Library K} {c : CallCfg K} {A : Link → Bool} {group : Finset Nat} {vel : Nat → Velocity K} {P : Link → Six K} {n : Nat} {m m' : Motion L}
    (h : Borne c A group vel P n m m') (hr : Standing c A group vel P m) :
    (∀ b ∈ group, (m'.body b).position = (m.body b).position ∧ (m'.body b).velocity = 0 ∧ (m'.body b).angular = 0) ∧ Standing c A group vel P m' := by
  induction h with
  | start m => exact ⟨fun b hb => ⟨rfl, hr.velocity b hb⟩, hr⟩
  | @step n m0 m1 before m m' cfg sl fields tree world fuel log evals hw same states hl hs hA ih =>
    obtain ⟨i1, i2⟩ := ih hr
    have hr' : Standing c A group vel P m := by
      refine ⟨fun b hb => ?_, fun b hb => ?_, fun b hb hq l hlb ha => ?_⟩
      · rw [same b hb]; exact i2.velocity b hb
      · rw [same b hb]; exact i2.orient b hb
      · have := i2.carrying b hb hq l hlb ha
        obtain ⟨e0, e1⟩ := hl.enclosed b hb hq l hlb ha
        unfold Library.Carrying at this ⊢
        simp only [same _ e0, same _ e1, states b hb l hlb]
        exact this
    obtain ⟨j1, j2⟩ := C106_step hr' hl hw hs hA
    refine ⟨fun b hb => ?_, j2⟩
    obtain ⟨a1, a2, a3⟩ := j1 b hb
    rw [same b hb] at a1
    exact ⟨a1.trans (i1 b hb).1, a2, a3⟩

/-- C106: a hinge whose points coincide carries: its impulse acts on the second body, and the opposite one on the first, at the hinge. -/
theorem C106_hinge (c : CallCfg K) (m : InvMasses K) (p q : Position K) (v w : Velocity K) (l0 l1 : Vec2 K) (e : EqualitySolver K 2) (hd : ∀ r, e.base.damping.at_ r = 0)
    (hx : p.toWorldSpace.app l0 = q.toWorldSpace.app l1) (i : Vec2 K) (hi : e.base.lambda = i.toMVec) :
    let x := p.toWorldSpace.app l0
    (Kind.equality 2 (hingeFun l0 l1)).Carrying c m p q v w
      ![-i.x, -i.y, -Vec2.cross (x - p.centroid) i, i.x, i.y, Vec2.cross (x - q.centroid) i] e := by
  intro x
  have hz : ({ e with base := { e.base with lambda := Mat.zero } } : EqualitySolver K 2).base.lambda = Mat.zero := rfl
  obtain ⟨h1, h2, -⟩ := ((C78_joints m p q).1 l0 l1 _ hz).2 hx
  refine ⟨h1, h2, fun _ => rfl, ⟨(hingeFun l0 l1).jacobian ⟨0, 1, m⟩ ⟨fun i => if i = 0 then p else q, fun _ => ⟨0, 0⟩⟩, fun i0 i1 s e0 e1 => ?_, ?_⟩, fun r => ?_⟩
  · simp only [hingeFun, e0, e1]
    rfl
  · have h0 : (p.toWorldSpace.app l0) = x := rfl
    funext k
    unfold pull
    rw [hi, Fin.sum_univ_two]
    have t0 : (Vec2.toMVec i).toV 0 = i.x := Mat.at_ofFn _ _
    have t1 : (Vec2.toMVec i).toV 1 = i.y := Mat.at_ofFn _ _
    rw [t0, t1]
    fin_cases k <;> simp [hingeFun, Mat.get, idx, Vec2.perp, Vec2.cross, ← hx, h0] <;> ring
  · rw [hd r]; simp

end

/-! ### A square that hangs at another one -/
section

/-- The squares of `fly_launched` at rest. The second is fixed; gravity is in the direction of the first. -/
noncomputable def hungBody (B : Nat → Body ℝ) (b : Nat) : Body ℝ := { B b with velocity := 0, angular := 0, dominance := if b = 0 then 1 else 0 }

/-- The hinge bears the weight. -/
noncomputable def hung (B : Nat → Body ℝ) : Motion (flyLib (hungBody B)) :=
  ⟨hungBody B, fun _ => 0, fun _ => (⟨{ SolverBase.init with lambda := (⟨-2 / 3, 0⟩ : Vec2 ℝ).toMVec }, ⟨false, fun _ => .throw⟩⟩ : EqualitySolver ℝ 2)⟩

/-- What gravity does in a step of a 60th of a second. -/
noncomputable def hungVel (b : Nat) : Velocity ℝ := if b = 0 then ⟨⟨-1 / 6, 0⟩, 0⟩ else ⟨0, 0⟩

noncomputable def hungImpulse (_ : Link) : Six ℝ := ![2 / 3, 0, 0, -2 / 3, 0, 0]

theorem hung_stands : ∃ (B : Nat → Body ℝ) (tree : List (Nat × Collider ℝ)), (∀ b, (B b).mass = 4 ∧ (B b).centroid = ⟨2 * b, 0⟩) ∧
    Standing libCfg (fun _ => true) {0, 1} hungVel hungImpulse (hung B) ∧
    Supported libCfg [.gravity ⟨-10, 0⟩] tree [0, 1] (fun _ => true) {0, 1} hungVel hungImpulse (hung B) ∧
    (∃ body, applyForces [.gravity ⟨-10, 0⟩] libCfg.dt tree (hung B).body = .ok body) ∧ (flyLib (hungBody B)).Firm libCfg [0, 1] (hung B).s := by
  obtain ⟨B, tree, ps, hw, hB⟩ := flyBodies
  have hmass : ∀ l, ((flyLib (hungBody B)).bodies l).masses = ⟨1 / 4, 3 / 8, 0, 0⟩ := fun l => by
    have e0 : ∀ b, (hungBody B b).mass = 4 := fun b => (hB b).1
    have e1 : ∀ b, (hungBody B b).inertia = 8 / 3 := fun b => (hB b).2.1
    have e2 : (hungBody B 0).dominance = 1 := by simp [hungBody]
    have e3 : (hungBody B 1).dominance = 0 := by simp [hungBody]
    simp [flyLib, Bodies.make, Body.invMass, Body.invInertia, e0, e1, e2, e3]
  have hnn : (⟨1 / 4, 3 / 8, 0, 0⟩ : InvMasses ℝ).Nonneg := by constructor <;> norm_num
  have hreach : ∀ b, b = 0 ∨ b = 1 → (hungBody B b).position.orient.Reachable := fun b hb => (hw b hb).inv.orient
  have hpose : ∀ b, b = 0 ∨ b = 1 → (Pose.of (hungBody B b).position).1 = (hungBody B b).position := fun b hb => congrArg Subtype.val (Pose.of_eq (C26_rotation_wf (hreach b hb)))
  have hcent : ∀ b, (hungBody B b).position.centroid = ⟨2 * b, 0⟩ := fun b => (hB b).2.2.2.2.2
  have free : ∀ l, ((flyLib (hungBody B)).net libCfg).structuralIn l (((flyLib (hungBody B)).net libCfg).ends l).1 = false := by
    intro l
    show (match ((flyLib (hungBody B)).bodies l).isBodyStructural ((flyLib (hungBody B)).bodies l).i0 with | .ok r => r | _ => false) = false
    unfold Bodies.isBodyStructural
    rw [if_pos rfl, hmass]
    simp
  have prop1 : (flyLib (hungBody B)).Propped libCfg hungVel 1 := by
    refine ⟨if_neg (by decide), fun l _ => ?_⟩
    show (match ((flyLib (hungBody B)).bodies l).isBodyStructural 1 with | .ok r => r | _ => false) = true
    unfold Bodies.isBodyStructural
    have : ((flyLib (hungBody B)).bodies l).i0 = 0 := rfl
    have h1 : ((flyLib (hungBody B)).bodies l).i1 = 1 := rfl
    rw [this, h1, if_neg (by decide), if_pos rfl, hmass]
    simp
  have only : ∀ b ∈ ({0, 1} : Finset Nat), ¬ (flyLib (hungBody B)).Propped libCfg hungVel b → b = 0 := by
    intro b hb hn
    simp only [Finset.mem_insert, Finset.mem_singleton] at hb
    rcases hb with rfl | rfl
    · rfl
    · exact absurd prop1 hn
  have mem : ∀ b ∈ ({0, 1} : Finset Nat), b = 0 ∨ b = 1 := by simp
  obtain ⟨body, hbody, hb0⟩ := C30_gravity (bodies := hungBody B) (i := 0) (tree := tree) (ps := ps 0)
    ⟨⟨(hw 0 (Or.inl rfl)).inv.colliders, (hw 0 (Or.inl rfl)).inv.centroid, (hw 0 (Or.inl rfl)).inv.orient, (hw 0 (Or.inl rfl)).inv.attached⟩, (hw 0 (Or.inl rfl)).pieces, (hw 0 (Or.inl rfl)).some⟩
    ⟨-10, 0⟩ libCfg.dt (hB 0).2.2.2.1 (by show (if (0 : Nat) = 0 then (1 : ℝ) else 0) ≠ 0; norm_num)
  refine ⟨B, tree, fun b => ⟨(hB b).1, (hB b).2.2.2.2.2⟩, ⟨fun _ _ => ⟨rfl, rfl⟩, fun b hb => C26_rotation_wf (hreach b (mem b hb)), ?_⟩,
    ⟨sqrt_lawful, by norm_num [libCfg], by decide, ⟨fun b _ l h => ?_, fun b _ l h => ?_, fun b _ l h => ?_, fun b _ l h => Or.inl (free l)⟩, ?_, by decide, ?_, ?_, ?_⟩,
    ⟨body, hbody⟩, ?_⟩
  · intro b hb hn l hl _
    obtain rfl := only b hb hn
    obtain ⟨-, rfl⟩ := fly_links _ 0 l hl
    have w : ∀ b, b = 0 ∨ b = 1 → (hungBody B b).position.toWorldSpace.app ((hungBody B b).position.toLocalSpace.app ⟨1, 0⟩) = ⟨1, 0⟩ := fun b hb => (C27_inverse (hreach b hb) _).2.1
    refine ⟨by rw [hmass]; exact hnn, Nat.zero_ne_one, trivial, ?_⟩
    have h := C106_hinge libCfg ⟨1 / 4, 3 / 8, 0, 0⟩ (hungBody B 0).position (hungBody B 1).position (hungVel 0) (hungVel 1) ((hungBody B 0).position.toLocalSpace.app ⟨1, 0⟩)
      ((hungBody B 1).position.toLocalSpace.app ⟨1, 0⟩) ⟨{ SolverBase.init with lambda := (⟨-2 / 3, 0⟩ : Vec2 ℝ).toMVec }, ⟨false, fun _ => .throw⟩⟩ (fun r => Mat.at_zero r)
      ((w 0 (Or.inl rfl)).trans (w 1 (Or.inr rfl)).symm) ⟨-2 / 3, 0⟩ rfl
    dsimp only at h
    rw [w 0 (Or.inl rfl), hcent, hcent] at h
    have e : (![-(-2 / 3), -0, -Vec2.cross ((⟨1, 0⟩ : Vec2 ℝ) - ⟨2 * (0 : Nat), 0⟩) ⟨-2 / 3, 0⟩, -2 / 3, 0, Vec2.cross ((⟨1, 0⟩ : Vec2 ℝ) - ⟨2 * (1 : Nat), 0⟩) ⟨-2 / 3, 0⟩] : Six ℝ) =
        hungImpulse (.joint 0) := by
      unfold hungImpulse
      funext k
      fin_cases k <;> simp [Vec2.cross] <;> norm_num
    rw [e] at h
    show (Kind.equality 2 (hingeFunOf (hungBody B) (Bodies.make (hungBody B) 0 1 none) ⟨1, 0⟩)).Carrying libCfg ((flyLib (hungBody B)).bodies (.joint 0)).masses
      (Pose.of (hungBody B 0).position).1 (Pose.of (hungBody B 1).position).1 _ _ _ _
    rw [hmass, hpose 0 (Or.inl rfl), hpose 1 (Or.inr rfl)]
    exact h
  · obtain ⟨hb, rfl⟩ := fly_links _ b l h
    exact hb
  · obtain ⟨-, rfl⟩ := fly_links _ b l h
    simp [Library.net, flyLib, Bodies.make]
  · obtain ⟨-, rfl⟩ := fly_links _ b l h
    simp [Library.net, flyLib, Bodies.make, linksOf]
  · exact fun l => ⟨none, rfl, by show (B _).mass ≠ 0; rw [(hB _).1]; norm_num, by show (B _).mass ≠ 0; rw [(hB _).1]; norm_num, by simp⟩
  · intro b hb hn l hl _
    obtain ⟨-, rfl⟩ := fly_links _ b l hl
    simp [flyLib, Bodies.make]
  · intro body' hbody' b hb
    have : body' = body := by
      have := hbody'.symm.trans hbody
      exact Outcome.ok.inj this
    subst this
    rcases mem b hb with rfl | rfl
    · rw [hb0]
      simp [hungBody, hungVel, libCfg]
      ext <;> simp
      norm_num
    · have := applyForces_untouched (i := 1) (bodies := hungBody B) (Or.inr (Or.inl (by simp [hungBody]))) hbody
      rw [this]
      simp [hungBody, hungVel]
  · intro b hb hn
    obtain rfl := only b hb hn
    have hl : (linksOf ((flyLib (hungBody B)).net libCfg) 0).toFinset.filter (fun _ => true = true) = {.joint 0} := by
      simp [linksOf, Library.net, flyLib]
    rw [hl, Finset.sum_singleton]
    unfold Library.share kick
    rw [hmass]
    simp only [flyLib, Bodies.make, hungVel, hungImpulse]
    simp
    norm_num
    show (⟨⟨-(1 / 6) + 1 / 6, 0 + 0⟩, 0 + 0⟩ : Velocity ℝ) = ⟨⟨0, 0⟩, 0⟩
    norm_num
  · intro b _ l _
    rw [hmass]
    exact ⟨hnn, (C73_effective sqrt_lawful hnn).2.1 _ _ (Or.inl (by norm_num)), fun r => le_of_eq (Mat.at_zero r).symm⟩

/-- C106: under gravity, the square hangs where it is, at the other one: after a step it is where it was and does not move, although it is awake and can. -/
example : ∃ (B : Nat → Body ℝ) (m' : Motion (flyLib (hungBody B))), Borne libCfg (fun _ => true) {0, 1} hungVel hungImpulse 1 (hung B) m' ∧
    Standing libCfg (fun _ => true) {0, 1} hungVel hungImpulse m' ∧
    ∀ b ∈ ({0, 1} : Finset Nat), (m'.body b).position = (B b).position ∧ (m'.body b).velocity = 0 ∧ (m'.body b).angular = 0 := by
  obtain ⟨B, tree, -, hr, hl, ⟨body, hforce⟩, hf⟩ := hung_stands
  obtain ⟨st, log, h1, -, -, h4⟩ := C73_answers hl.made hl.sqrt hl.wellFormed (st := ({ hung B with body := body } : Motion (flyLib (hungBody B))).start) ⟨fun _ => rfl, fun _ => rfl⟩ rfl hf
    (A := fun _ => true) (fun _ _ _ _ => rfl) ⟨8, 2, true⟩ (.of (body 0).position) ⟨0, 0⟩ (fuel := 5) (by decide)
  obtain ⟨m', hstep, -⟩ := Motion.step_of (sl := ⟨true, 1, 1, 1⟩) hforce h1
  have hb : Borne libCfg (fun _ => true) {0, 1} hungVel hungImpulse 1 (hung B) m' :=
    .step (.start _) (cfg := ⟨8, 2, true⟩) rfl (fun _ _ => rfl) (fun _ _ _ _ => rfl) hl hstep h4.stable
  obtain ⟨a, b⟩ := C106_stands hb hr
  exact ⟨B, m', hb, b, a⟩

/-- C106: a contact at two points that bears a box, which stands on another and is pushed to the side; a third of the weight is held by friction. -/
example : (Kind.contact : Kind ℝ).Carrying libCfg ⟨1 / 2, 1 / 3, 0, 0⟩ (.make ⟨0, 1⟩ 0 ⟨0, 0⟩) (.make ⟨0, 0⟩ 0 ⟨0, 0⟩) ⟨⟨-1 / 6, -1 / 2⟩, 0⟩ ⟨0, 0⟩
    ![1 / 3, 1, 0, -1 / 3, -1, 1 / 3]
    ({ contactSample 2 (1 / 2) (1 / 2) with normalLambda := (⟨7 / 12, 5 / 12⟩ : Vec2 ℝ).toMVec, tangentLambda := (⟨-1 / 6, -1 / 6⟩ : Vec2 ℝ).toMVec } : Contact ℝ) := by
  have app0 : ∀ (x v : Vec2 ℝ), (Position.make x 0 ⟨0, 0⟩).toWorldSpace.app v = x + v := fun x v => by
    rw [C27_placement]; ext <;> simp [rotateAbout, Trig.cos, Trig.sin, add_comm]
  have rot0 : ∀ (x v : Vec2 ℝ), (Position.make x 0 ⟨0, 0⟩).toWorldSpace.r.app v = v := fun x v => by
    ext <;> simp [Position.make, Position.toWorldSpace, Transform.mulTranslation, Translation.mulRotation, Rotation.app, Rotation.ofAngle, Trig.cos, Trig.sin]
  have t0 : ∀ v : Vec2 ℝ, (Vec2.toMVec v).at_ 0 = v.x := fun v => Mat.at_ofFn _ _
  have t1 : ∀ v : Vec2 ℝ, (Vec2.toMVec v).at_ 1 = v.y := fun v => Mat.at_ofFn _ _
  refine ⟨Or.inr rfl, ⟨by norm_num, by norm_num, by norm_num, by norm_num, by norm_num, ?_, fun _ => Or.inl ⟨by norm_num, ?_⟩⟩, ?_, by norm_num [contactSample], fun i => ?_, fun i _ => ?_,
    by norm_num [contactSample], fun i _ => ?_, fun i _ => Or.inr ?_, ?_⟩
  · simp [Manifold.frame, contactSample, rot0]
    intro h
    have := congrArg Vec2.y h
    simp at this
  · simp [Manifold.frame, contactSample, rot0, app0, Vec2.cross]
    norm_num
  · simp [Manifold.frame, contactSample, rot0, Vec2.perp]
    intro h
    have := congrArg Vec2.x h
    simp at this
  · fin_cases i
    · exact (t0 _).symm ▸ (by norm_num)
    · exact (t1 _).symm ▸ (by norm_num)
  · fin_cases i
    · show |(Vec2.toMVec _).at_ 0| ≤ _ * (Vec2.toMVec _).at_ 0
      rw [t0, t0]; norm_num [contactSample, abs_of_neg]
    · show |(Vec2.toMVec _).at_ 1| ≤ _ * (Vec2.toMVec _).at_ 1
      rw [t1, t1]; norm_num [contactSample, abs_of_neg]
  · fin_cases i <;> norm_num [Manifold.frame, contactSample, rot0, app0, Vec2.dot]
  · fin_cases i <;> norm_num [Manifold.frame, contactSample, rot0, app0, Vec2.dot, relativeSpeed, pointVelocity]
  · funext k
    have u0 : ∀ v : Vec2 ℝ, (Vec2.toMVec v).toV 0 = v.x := t0
    have u1 : ∀ v : Vec2 ℝ, (Vec2.toMVec v).toV 1 = v.y := t1
    have hc : ∀ x, (Position.make x 0 ⟨0, 0⟩ : Position ℝ).centroid = x := fun x => (app0 x ⟨0, 0⟩).trans (by ext <;> simp)
    unfold Frame.impulse pairImpulse
    rw [Fin.sum_univ_two]
    fin_cases k <;> simp [Manifold.frame, contactSample, rot0, app0, Vec2.cross, Vec2.perp, u0, u1, hc] <;> norm_num

end
end Simu
