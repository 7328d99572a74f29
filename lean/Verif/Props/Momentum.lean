import Verif.Props.Constraint
import Verif.Props.Transform
/-
C32: constraint impulses conserve linear momentum and never move structural bodies.
C46: constraint impulses conserve angular momentum.
-/
namespace Simu
open Mat
variable {K : Type*} [Field K] [LinearOrder K] [IsStrictOrderedRing K] [Trig K] {d : Nat}

/-! ### Entries of the Jacobians -/

theorem hinge_get (l0 l1 : Vec2 K) (p : Proxies K) (s : SolveState K) (r : Fin 2) (c : Fin 6) :
    ((hingeFun l0 l1).jacobian p s).get r c =
      let r0 := (s.pos p.i0).toWorldSpace.app l0 - (s.pos p.i0).centroid
      let r1 := (s.pos p.i1).toWorldSpace.app l1 - (s.pos p.i1).centroid
      (![![-1, 0, r0.y, 1, 0, -r1.y], ![0, -1, -r0.x, 0, 1, r1.x]] : Fin 2 → Fin 6 → K) r c := by
  fin_cases r <;> fin_cases c <;> simp [hingeFun, Mat.get, Mat.idx, Vec2.perp]

theorem rotation_get (a : K) (p : Proxies K) (s : SolveState K) (r : Fin 1) (c : Fin 6) :
    ((rotationFun a).jacobian p s).get r c = (![0, 0, -1, 0, 0, 1] : Fin 6 → K) c := by
  fin_cases r; fin_cases c <;> rfl

theorem distance_get (l0 l1 : Vec2 K) (p : Proxies K) (s : SolveState K) (r : Fin 1) (c : Fin 6) :
    ((distanceFun l0 l1).jacobian p s).get r c =
      let w0 := (s.pos p.i0).toWorldSpace.app l0
      let w1 := (s.pos p.i1).toWorldSpace.app l1
      2 * (![(w0 - w1).x, (w0 - w1).y, Vec2.cross (w0 - (s.pos p.i0).centroid) (w0 - w1), -(w0 - w1).x, -(w0 - w1).y,
        -Vec2.cross (w1 - (s.pos p.i1).centroid) (w0 - w1)] : Fin 6 → K) c := by
  simp only [distanceFun, get_smul]
  rw [mul_comm]
  congr 1
  fin_cases r; fin_cases c <;> rfl

omit [IsStrictOrderedRing K] [Trig K] in
theorem assignRows_get {D m c : Nat} (start : Nat) (h : start + m ≤ D) (sub : Mat K m c) (rows : Mat K D c) (r : Fin D)
    (j : Fin c) : (assignRows start h sub rows).get r j =
      if h' : start ≤ r.val ∧ r.val < start + m then sub.get ⟨r.val - start, by omega⟩ j else rows.get r j := by
  unfold assignRows
  rw [forFin_get _ (fun i r _ => r.val = start + i.val)
    (fun r j x => if h' : start ≤ r.val ∧ r.val < start + m then sub.get ⟨r.val - start, by omega⟩ j else x)]
  · by_cases hr : start ≤ r.val ∧ r.val < start + m
    · rw [if_pos ⟨⟨r.val - start, by omega⟩, by simp; omega⟩]
    · rw [if_neg, dif_neg hr]
      rintro ⟨i, hi⟩; exact hr ⟨by omega, by omega⟩
  · intro i M r j
    rw [forFin_get _ (fun k r' c' => r'.val = start + i.val ∧ c' = k)
      (fun r j x => if h' : start ≤ r.val ∧ r.val < start + m then sub.get ⟨r.val - start, by omega⟩ j else x)]
    · by_cases hr : r.val = start + i.val <;> simp [hr]
    · intro k M r c
      rw [get_set]
      by_cases hrc : r.val = start + i.val ∧ c = k
      · have : r = ⟨start + i.val, by omega⟩ := Fin.ext hrc.1
        rw [if_pos ⟨this, hrc.2⟩, if_pos hrc, dif_pos (by omega)]
        congr 1; (ext; simp; omega); exact hrc.2.symm
      · rw [if_neg, if_neg hrc]
        rintro ⟨rfl, rfl⟩; exact hrc ⟨rfl, rfl⟩
    · rintro i j r c ⟨_, rfl⟩ ⟨_, rfl⟩; rfl
  · intro i j r c h1 h2; ext; omega

omit [IsStrictOrderedRing K] [Trig K] in
theorem extractRows_get {D c : Nat} (m start : Nat) (h : start + m ≤ D) (rows : Mat K D c) (r : Fin m) (j : Fin c) :
    (extractRows m start h rows).get r j = rows.get ⟨start + r.val, by omega⟩ j := by
  unfold extractRows
  rw [forFin_get _ (fun i r _ => r = i) (fun r j _ => rows.get ⟨start + r.val, by omega⟩ j)]
  · simp
  · intro i M r j
    rw [forFin_get _ (fun k r' c' => r' = i ∧ c' = k) (fun r j _ => rows.get ⟨start + r.val, by omega⟩ j)]
    · by_cases hr : r = i <;> simp [hr]
    · intro k M r c
      rw [get_set]
      by_cases hrc : r = i ∧ c = k
      · obtain ⟨rfl, rfl⟩ := hrc; simp
      · rw [if_neg hrc, if_neg hrc]
    · rintro i j r c ⟨_, rfl⟩ ⟨_, rfl⟩; rfl
  · rintro i j r c rfl rfl; rfl

omit [IsStrictOrderedRing K] [Trig K] in
/-- Rows of a stacked pair of functions. -/
theorem stack_rows {a b c : Nat} (A : Mat K a c) (B : Mat K b c) (Z : Mat K (a + b) c) (r : Fin (a + b)) (j : Fin c) :
    (assignRows a (le_refl _) B (assignRows 0 (by omega) A Z)).get r j =
      Fin.addCases (fun i => A.get i j) (fun i => B.get i j) r := by
  rw [assignRows_get]
  refine Fin.addCases (fun i => ?_) (fun i => ?_) r
  · rw [dif_neg (by simp), assignRows_get, dif_pos (by simp)]
    simp
  · rw [dif_pos (by simp)]
    simp only [Fin.addCases_right]
    congr 1; ext; simp

/-! ### C32 -/

/-- C32: the linear parts of every two-body constraint function are opposite. -/
theorem C32_opposite (p : Proxies K) (s : SolveState K) :
    (∀ l0 l1, OppositeLinear ((hingeFun l0 l1).jacobian p s)) ∧ (∀ a, OppositeLinear ((rotationFun a).jacobian p s)) ∧
    (∀ l0 l1, OppositeLinear ((distanceFun l0 l1).jacobian p s)) ∧
    (∀ bodies b, OppositeLinear ((weldFunOf bodies b).jacobian p s)) ∧
    (∀ {n : Nat} (g : CFun K n), OppositeLinear (g.jacobian p s) → OppositeLinear ((inequalityFun g).jacobian p s)) := by
  have hh : ∀ l0 l1, OppositeLinear ((hingeFun l0 l1).jacobian p s) := by
    intro l0 l1 r
    simp only [hinge_get]
    fin_cases r <;> simp
  have hr : ∀ a, OppositeLinear ((rotationFun a).jacobian p s) := by
    intro a r
    simp only [rotation_get]
    simp
  refine ⟨hh, hr, ?_, ?_, fun g h => h⟩
  · intro l0 l1 r
    simp only [distance_get]
    simp
    constructor <;> ring
  · intro bodies b r
    simp only [weldFunOf, stackFun, stack_rows]
    refine Fin.addCases (m := 2) (n := 1) (fun i => ?_) (fun i => ?_) r
    · simp only [Fin.addCases_left]; exact hh _ _ i
    · simp only [Fin.addCases_right]; exact hr _ i

omit [IsStrictOrderedRing K] [Trig K] in
theorem pull_opposite {J : Mat K d 6} (h : OppositeLinear J) (l : Fin d → K) :
    pull J l 3 = -pull J l 0 ∧ pull J l 4 = -pull J l 1 := by
  simp [pull, fun r => (h r).1, fun r => (h r).2]

/-- Bodies with dominance 1, by default or because the constraint says so. -/
def FullDominance (bodies : Nat → Body K) (i0 i1 : Nat) (dominances : Option (Vec2 K)) : Prop :=
  dominances = some ⟨1, 1⟩ ∨ (dominances = none ∧ (bodies i0).dominance = 1 ∧ (bodies i1).dominance = 1)

omit [IsStrictOrderedRing K] in
theorem FullDominance.masses {bodies : Nat → Body K} {i0 i1 : Nat} {dom : Option (Vec2 K)}
    (h : FullDominance bodies i0 i1 dom) : (Bodies.make bodies i0 i1 dom).masses =
      ⟨1 / (bodies i0).mass, 1 / (bodies i0).inertia, 1 / (bodies i1).mass, 1 / (bodies i1).inertia⟩ := by
  rcases h with rfl | ⟨rfl, h0, h1⟩ <;> simp [Bodies.make, Body.invMass, Body.invInertia, *]

/-- C32: an impulse along a Jacobian with opposite linear parts keeps the linear momentum of two bodies of dominance 1,
and the position correction keeps their centre of mass. -/
theorem C32_linear_momentum (bodies : Nat → Body K) (i0 i1 : Nat) (hi : i0 ≠ i1) (dom : Option (Vec2 K))
    (hd : FullDominance bodies i0 i1 dom) (h0 : (bodies i0).mass ≠ 0) (h1 : (bodies i1).mass ≠ 0) (J : Mat K d 6)
    (hJ : OppositeLinear J) (l : MVec K d) (s : SolveState K) :
    momentum (bodies i0).mass (bodies i1).mass i0 i1
        ((Bodies.make bodies i0 i1 dom).proxies.applyImpulse (SolverBase.impulse J l) s) =
      momentum (bodies i0).mass (bodies i1).mass i0 i1 s ∧
    (let s' := (Bodies.make bodies i0 i1 dom).proxies.applyPositionCorrection (J.transpose.mul l) s;
      (bodies i0).mass * (s'.pos i0).pos.offset.x + (bodies i1).mass * (s'.pos i1).pos.offset.x =
        (bodies i0).mass * (s.pos i0).pos.offset.x + (bodies i1).mass * (s.pos i1).pos.offset.x ∧
      (bodies i0).mass * (s'.pos i0).pos.offset.y + (bodies i1).mass * (s'.pos i1).pos.offset.y =
        (bodies i0).mass * (s.pos i0).pos.offset.y + (bodies i1).mass * (s.pos i1).pos.offset.y) := by
  have hm := hd.masses
  obtain ⟨e3, e4⟩ := pull_opposite hJ l.toV
  have hv := toV_impulse J l
  have hp : (Bodies.make bodies i0 i1 dom).proxies.i0 = i0 ∧ (Bodies.make bodies i0 i1 dom).proxies.i1 = i1 := ⟨rfl, rfl⟩
  have hpm : (Bodies.make bodies i0 i1 dom).proxies.masses = (Bodies.make bodies i0 i1 dom).masses := rfl
  constructor
  · simp only [momentum, Proxies.applyImpulse_vel, hv, kick, hp.1, hp.2, hpm, hm, hi, hi.symm, if_true, if_false]
    ext
    · simp [e3]; field_simp; ring
    · simp [e4]; field_simp; ring
  · have hat : ∀ c, (J.transpose.mul l).at_ c = pull J l.toV c := fun c => congrFun hv c
    simp only [Proxies.applyPositionCorrection, SolveState.advancePos, hp.1, hp.2, hpm, hm, Function.update_apply, hi,
      hi.symm, if_true, if_false, Position.advance, Translation.mul, hat]
    constructor
    · simp [e3]; field_simp; ring
    · simp [e4]; field_simp; ring

omit [IsStrictOrderedRing K] [Trig K] in
theorem kick_masses (p : Proxies K) (P : Six K) (hi : p.i0 ≠ p.i1) :
    kick p P p.i0 = ⟨⟨p.masses.m0 * P 0, p.masses.m0 * P 1⟩, p.masses.I0 * P 2⟩ ∧
    kick p P p.i1 = ⟨⟨p.masses.m1 * P 3, p.masses.m1 * P 4⟩, p.masses.I1 * P 5⟩ := by
  simp only [kick, hi, hi.symm, if_true, if_false, add_zero, zero_add, and_self]

/-- Momentum of a change of velocities. -/
def momentumChange (m0 m1 : K) (i0 i1 : Nat) (c : Nat → Velocity K) : Vec2 K :=
  ⟨m0 * (c i0).linear.x + m1 * (c i1).linear.x, m0 * (c i0).linear.y + m1 * (c i1).linear.y⟩

/-- C32: solving a hinge, rotation, distance or weld constraint any number of times (warm start included) between two
bodies of dominance 1 changes their momentum only by what others did meanwhile. -/
theorem C32_solved (sqrt : K → K) (bodies : Nat → Body K) (i0 i1 : Nat) (hi : i0 ≠ i1) (dom : Option (Vec2 K))
    (hd : FullDominance bodies i0 i1 dom) (h0 : (bodies i0).mass ≠ 0) (h1 : (bodies i1).mass ≠ 0) (f : CFun K d)
    (hf : ∀ p s, OppositeLinear (f.jacobian p s)) (e e' e'' : EqualitySolver K d) (dt : K) (s s' : SolveState K)
    (l : List (SolveEvent K)) (h : e.initSolve sqrt (Bodies.make bodies i0 i1 dom).proxies f s = .ok e')
    (hr : EqualitySolver.runEvents (Bodies.make bodies i0 i1 dom).proxies f dt l (e', s) = .ok (e'', s')) :
    momentum (bodies i0).mass (bodies i1).mass i0 i1 s' =
      momentum (bodies i0).mass (bodies i1).mass i0 i1 s +
        momentumChange (bodies i0).mass (bodies i1).mass i0 i1 (others l) := by
  have hv := fun i => (C33_velocity_change_equality sqrt e e' e'' _ f dt s s' l h hr i).1
  have hm := hd.masses
  obtain ⟨e3, e4⟩ := pull_opposite (hf (Bodies.make bodies i0 i1 dom).proxies s) e''.base.lambda.toV
  have hk := kick_masses (Bodies.make bodies i0 i1 dom).proxies
    (pull (f.jacobian (Bodies.make bodies i0 i1 dom).proxies s) e''.base.lambda.toV) hi
  have hk0 : kick (Bodies.make bodies i0 i1 dom).proxies
    (pull (f.jacobian (Bodies.make bodies i0 i1 dom).proxies s) e''.base.lambda.toV) i0 = _ := hk.1
  have hk1 : kick (Bodies.make bodies i0 i1 dom).proxies
    (pull (f.jacobian (Bodies.make bodies i0 i1 dom).proxies s) e''.base.lambda.toV) i1 = _ := hk.2
  have hpm : (Bodies.make bodies i0 i1 dom).proxies.masses = (Bodies.make bodies i0 i1 dom).masses := rfl
  simp only [momentum, momentumChange, hv, hk0, hk1, hpm, hm, e3, e4]
  ext
  · simp; field_simp; ring
  · simp; field_simp; ring

/-- C32: a body whose dominance in the constraint is zero keeps its velocity and its position whatever impulse or
correction is applied, and so does every body that is not part of the constraint. -/
theorem C32_structural (bodies : Nat → Body K) (i0 i1 : Nat) (hi : i0 ≠ i1) (dom : Option (Vec2 K)) (P : MVec K 6)
    (s : SolveState K) :
    let p := (Bodies.make bodies i0 i1 dom).proxies
    ((dom.getD ⟨(bodies i0).dominance, (bodies i1).dominance⟩).x = 0 → (p.applyImpulse P s).vel i0 = s.vel i0 ∧
      ((s.pos i0).orient.WF → (p.applyPositionCorrection P s).pos i0 = s.pos i0)) ∧
    ((dom.getD ⟨(bodies i0).dominance, (bodies i1).dominance⟩).y = 0 → (p.applyImpulse P s).vel i1 = s.vel i1 ∧
      ((s.pos i1).orient.WF → (p.applyPositionCorrection P s).pos i1 = s.pos i1)) ∧
    (∀ j, j ≠ i0 → j ≠ i1 → (p.applyImpulse P s).vel j = s.vel j ∧ (p.applyPositionCorrection P s).pos j = s.pos j) := by
  intro p
  have hp : p.i0 = i0 ∧ p.i1 = i1 := ⟨rfl, rfl⟩
  have wf_eq : ∀ {r : Rotation K}, r.WF → r = .ofAngle r.theta := by
    intro r h; obtain ⟨t, c, sn⟩ := r; obtain ⟨h1, h2⟩ := h; simp only at h1 h2; subst h1 h2; rfl
  have adv0 : ∀ q : Position K, q.orient.WF → q.advance ⟨0, 0⟩ 0 = q := by
    intro q hq
    obtain ⟨⟨t⟩, o, c⟩ := q
    have ho : o.mul (.ofAngle 0) = o := by
      rw [Rotation.mul]; simp only [Rotation.ofAngle, add_zero]; exact (wf_eq hq).symm
    simp only [Position.advance, Translation.mul, ho]
    congr 2
    ext <;> simp
  refine ⟨fun h => ⟨?_, fun hw => ?_⟩, fun h => ⟨?_, fun hw => ?_⟩, fun j hj0 hj1 => ⟨?_, ?_⟩⟩
  · have hm : p.masses.m0 = 0 ∧ p.masses.I0 = 0 := by simp [p, Bodies.proxies, Bodies.make, h]
    rw [Proxies.applyImpulse_vel, kick, hp.1, hp.2, if_pos rfl, if_neg hi, hm.1, hm.2]
    ext <;> simp
  · have hm : p.masses.m0 = 0 ∧ p.masses.I0 = 0 := by simp [p, Bodies.proxies, Bodies.make, h]
    simp only [Proxies.applyPositionCorrection, SolveState.advancePos, Function.update_apply, hp.1, hp.2, if_neg hi,
      hm.1, hm.2, if_true, zero_mul]
    convert adv0 _ hw using 2
    ext <;> simp
  · have hm : p.masses.m1 = 0 ∧ p.masses.I1 = 0 := by simp [p, Bodies.proxies, Bodies.make, h]
    rw [Proxies.applyImpulse_vel, kick, hp.1, hp.2, if_pos rfl, if_neg hi.symm, hm.1, hm.2]
    ext <;> simp
  · have hm : p.masses.m1 = 0 ∧ p.masses.I1 = 0 := by simp [p, Bodies.proxies, Bodies.make, h]
    simp only [Proxies.applyPositionCorrection, SolveState.advancePos, Function.update_apply, hp.1, hp.2, if_neg hi.symm,
      hm.1, hm.2, if_true, zero_mul]
    convert adv0 _ hw using 2
    ext <;> simp
  · rw [Proxies.applyImpulse_vel, kick, hp.1, hp.2, if_neg hj0, if_neg hj1]
    ext <;> simp
  · simp only [Proxies.applyPositionCorrection, SolveState.advancePos, Function.update_apply, hp.1, hp.2, if_neg hj0,
      if_neg hj1]

/-- C32: which constraints can be created: at least one of the bodies is movable. (For bodies with masses.) -/
theorem C32_constructible (bodies : Nat → Body K) (i0 i1 : Nat) (dom : Option (Vec2 K)) (h0 : (bodies i0).mass ≠ 0)
    (h1 : (bodies i1).mass ≠ 0) :
    let D := dom.getD ⟨(bodies i0).dominance, (bodies i1).dominance⟩
    (Bodies.make bodies i0 i1 dom).checkConstraint =
      if i0 = i1 then (if D.x = 0 then .throw else .ok ()) else (if D.x = 0 ∧ D.y = 0 then .throw else .ok ()) := by
  have e0 : ((dom.getD ⟨(bodies i0).dominance, (bodies i1).dominance⟩).x * (bodies i0).invMass = 0) ↔
      (dom.getD ⟨(bodies i0).dominance, (bodies i1).dominance⟩).x = 0 := by
    simp [Body.invMass, h0]
  have e1 : ((dom.getD ⟨(bodies i0).dominance, (bodies i1).dominance⟩).y * (bodies i1).invMass = 0) ↔
      (dom.getD ⟨(bodies i0).dominance, (bodies i1).dominance⟩).y = 0 := by
    simp [Body.invMass, h1]
  simp only [Bodies.checkConstraint, Bodies.isBodyStructural, Bodies.make, e0, e1]
  by_cases hi : i0 = i1
  · subst hi
    by_cases hx : (dom.getD ⟨(bodies i0).dominance, (bodies i0).dominance⟩).x = 0 <;> simp [hx]
  · have hi' : ¬ i1 = i0 := fun h => hi h.symm
    by_cases hx : (dom.getD ⟨(bodies i0).dominance, (bodies i1).dominance⟩).x = 0 <;>
      by_cases hy : (dom.getD ⟨(bodies i0).dominance, (bodies i1).dominance⟩).y = 0 <;>
      simp [hx, hy, hi, hi', Outcome.check]

/-- Case for `C32_linear_momentum`: a push along a rod between two points of the sample bodies. -/
example (l0 l1 : Vec2 ℝ) (l : MVec ℝ 1) : momentum 2 2 0 1 (sampleBodies.proxies.applyImpulse
    (SolverBase.impulse ((distanceFun l0 l1).jacobian sampleBodies.proxies sampleState) l) sampleState) = ⟨2, 4⟩ := by
  have := (C32_linear_momentum sampleBody 0 1 (by decide) none (Or.inr ⟨rfl, rfl, rfl⟩) (by norm_num [Body.mass, sampleBody])
    (by norm_num [Body.mass, sampleBody]) _ ((C32_opposite sampleBodies.proxies sampleState).2.2.1 l0 l1) l sampleState).1
  have hm : ∀ i, (sampleBody i).mass = 2 := fun i => rfl
  rw [hm, hm] at this
  refine this.trans ?_
  ext <;> simp [momentum, sampleState] <;> norm_num

/-- Case for `C32_structural`: body 0 is made immovable by the constraint, body 1 is not. -/
example (P : MVec ℝ 6) : (((Bodies.make sampleBody 0 1 (some ⟨0, 1⟩)).proxies.applyImpulse P sampleState).vel 0) = ⟨⟨1, 2⟩, 3⟩ ∧
    ((Bodies.make sampleBody 0 1 (some ⟨0, 1⟩)).proxies.applyPositionCorrection P sampleState).pos 0 = (sampleBody 0).position := by
  have := (C32_structural sampleBody 0 1 (by decide) (some ⟨0, 1⟩) P sampleState).1 rfl
  exact ⟨this.1.trans (by simp [sampleState]), this.2 ⟨rfl, rfl⟩⟩

/-- Case for `C32_constructible`: refused with both dominances 0, accepted with one. -/
example : (Bodies.make sampleBody 0 1 (some ⟨0, 0⟩)).checkConstraint = .throw ∧
    (Bodies.make sampleBody 0 1 (some ⟨0, 1⟩)).checkConstraint = .ok () := by
  constructor
  · rw [C32_constructible _ _ _ _ (by norm_num [Body.mass, sampleBody]) (by norm_num [Body.mass, sampleBody])]; simp
  · rw [C32_constructible _ _ _ _ (by norm_num [Body.mass, sampleBody]) (by norm_num [Body.mass, sampleBody])]; simp

/-! ### C46 -/

/-- C46: angular momentum (about the origin, of two bodies of dominance 1) when an impulse acts along a Jacobian whose
rows are a force `n` acting on body 0 at `a`, and the opposite force acting on body 1 at `b`, plus opposite couples:
it changes by the moment of the force over the offset `a - b`. -/
theorem angular_change (bodies : Nat → Body K) (i0 i1 : Nat) (hi : i0 ≠ i1) (dom : Option (Vec2 K))
    (hd : FullDominance bodies i0 i1 dom) (h0 : (bodies i0).mass ≠ 0) (h1 : (bodies i1).mass ≠ 0)
    (hI0 : (bodies i0).inertia ≠ 0) (hI1 : (bodies i1).inertia ≠ 0) (P : MVec K 6) (s : SolveState K) (c0 c1 : Vec2 K) :
    let s' := (Bodies.make bodies i0 i1 dom).proxies.applyImpulse P s
    angularMomentum (bodies i0).mass (bodies i1).mass (bodies i0).inertia (bodies i1).inertia c0 c1 (s'.vel i0) (s'.vel i1) =
      angularMomentum (bodies i0).mass (bodies i1).mass (bodies i0).inertia (bodies i1).inertia c0 c1 (s.vel i0) (s.vel i1) +
      (Vec2.cross c0 ⟨P.at_ 0, P.at_ 1⟩ + P.at_ 2 + (Vec2.cross c1 ⟨P.at_ 3, P.at_ 4⟩ + P.at_ 5)) := by
  intro s'
  have hm := hd.masses
  have hk := kick_masses (Bodies.make bodies i0 i1 dom).proxies P.toV hi
  have hk0 : kick (Bodies.make bodies i0 i1 dom).proxies P.toV i0 = _ := hk.1
  have hk1 : kick (Bodies.make bodies i0 i1 dom).proxies P.toV i1 = _ := hk.2
  have hpm : (Bodies.make bodies i0 i1 dom).proxies.masses = (Bodies.make bodies i0 i1 dom).masses := rfl
  simp only [s', angularMomentum, Proxies.applyImpulse_vel, hk0, hk1, hpm, hm, toV, Vec2.cross, Velocity.add_linear,
    Velocity.add_angular, Vec2.add_x, Vec2.add_y]
  field_simp
  ring

/-- C46: a distance constraint and a rotation constraint conserve angular momentum exactly, whatever the
multiplier; a hinge, and the hinge of a weld, as far as the two anchors coincide: the change is the moment of the impulse over
their offset. -/
theorem C46_angular_momentum (bodies : Nat → Body K) (i0 i1 : Nat) (hi : i0 ≠ i1) (dom : Option (Vec2 K))
    (hd : FullDominance bodies i0 i1 dom) (h0 : (bodies i0).mass ≠ 0) (h1 : (bodies i1).mass ≠ 0)
    (hI0 : (bodies i0).inertia ≠ 0) (hI1 : (bodies i1).inertia ≠ 0) (s : SolveState K) :
    let p := (Bodies.make bodies i0 i1 dom).proxies
    let L := fun s' : SolveState K => angularMomentum (bodies i0).mass (bodies i1).mass (bodies i0).inertia (bodies i1).inertia
      (s.pos i0).centroid (s.pos i1).centroid (s'.vel i0) (s'.vel i1)
    (∀ l0 l1 l, L (p.applyImpulse (SolverBase.impulse ((distanceFun l0 l1).jacobian p s) l) s) = L s) ∧
    (∀ a l, L (p.applyImpulse (SolverBase.impulse ((rotationFun a).jacobian p s) l) s) = L s) ∧
    (∀ l0 l1 l, L (p.applyImpulse (SolverBase.impulse ((hingeFun l0 l1).jacobian p s) l) s) =
      L s + Vec2.cross ⟨((hingeFun l0 l1).eval p s).at_ 0, ((hingeFun l0 l1).eval p s).at_ 1⟩ ⟨l.at_ 0, l.at_ 1⟩) ∧
    (∀ l, L (p.applyImpulse (SolverBase.impulse ((weldFunOf bodies (Bodies.make bodies i0 i1 dom)).jacobian p s) l) s) =
      L s + Vec2.cross ⟨((weldFunOf bodies (Bodies.make bodies i0 i1 dom)).eval p s).at_ 0,
        ((weldFunOf bodies (Bodies.make bodies i0 i1 dom)).eval p s).at_ 1⟩ ⟨l.at_ 0, l.at_ 1⟩) := by
  intro p L
  have hat : ∀ {d : Nat} (J : Mat K d 6) (l : MVec K d) (c : Fin 6),
      (SolverBase.impulse J l).at_ c = ∑ r, J.get r c * l.at_ r := fun J l c => congrFun (toV_impulse J l) c
  have hp : p.i0 = i0 ∧ p.i1 = i1 := ⟨rfl, rfl⟩
  refine ⟨fun l0 l1 l => ?_, fun a l => ?_, fun l0 l1 l => ?_, fun l => ?_⟩
  · refine (angular_change bodies i0 i1 hi dom hd h0 h1 hI0 hI1 _ s _ _).trans ?_
    simp only [L]
    refine add_eq_left.2 ?_
    simp only [hat, distance_get, Finset.univ_unique, Fin.default_eq_zero, Finset.sum_singleton]
    simp [Vec2.cross, hp.1, hp.2]
    ring
  · refine (angular_change bodies i0 i1 hi dom hd h0 h1 hI0 hI1 _ s _ _).trans ?_
    simp only [L]
    refine add_eq_left.2 ?_
    simp only [hat, rotation_get, Finset.univ_unique, Fin.default_eq_zero, Finset.sum_singleton]
    simp [Vec2.cross]
  · refine (angular_change bodies i0 i1 hi dom hd h0 h1 hI0 hI1 _ s _ _).trans ?_
    simp only [L]
    congr 1
    simp only [hat, hinge_get, Fin.sum_univ_two]
    simp only [hingeFun, Vec2.toMVec, at_ofFn]
    simp [Vec2.cross, hp.1, hp.2]
    ring
  · refine (angular_change bodies i0 i1 hi dom hd h0 h1 hI0 hI1 _ s _ _).trans ?_
    simp only [L]
    congr 1
    have e0 : ∀ k : Fin 2, ((weldFunOf bodies (Bodies.make bodies i0 i1 dom)).eval p s).at_ (Fin.castAdd 1 k) =
        ((hingeFunOf bodies (Bodies.make bodies i0 i1 dom) (((bodies i0).centroid + (bodies i1).centroid).sdiv 2)).eval p s).at_ k := by
      intro k
      rw [at_eq_get, weldFunOf, stackFun, stack_rows, Fin.addCases_left, at_eq_get]; rfl
    have e0' := e0 0
    have e1' := e0 1
    have c0 : (Fin.castAdd 1 (0 : Fin 2) : Fin 3) = 0 := rfl
    have c1 : (Fin.castAdd 1 (1 : Fin 2) : Fin 3) = 1 := rfl
    rw [c0] at e0'; rw [c1] at e1'
    rw [e0', e1']
    have hj : ∀ (r : Fin 3) (c : Fin 6), ((weldFunOf bodies (Bodies.make bodies i0 i1 dom)).jacobian p s).get r c =
        Fin.addCases (m := 2) (n := 1) (fun i => ((hingeFunOf bodies (Bodies.make bodies i0 i1 dom)
          (((bodies i0).centroid + (bodies i1).centroid).sdiv 2)).jacobian p s).get i c)
          (fun i => ((rotationFunOf bodies (Bodies.make bodies i0 i1 dom)).jacobian p s).get i c) r := by
      intro r c
      rw [weldFunOf, stackFun]
      exact stack_rows (a := 2) (b := 1) _ _ _ r c
    have f0 : ∀ (g : Fin 2 → K) (h : Fin 1 → K), (Fin.addCases (m := 2) (n := 1) (motive := fun _ => K) g h (0 : Fin 3)) = g 0 :=
      fun _ _ => rfl
    have f1 : ∀ (g : Fin 2 → K) (h : Fin 1 → K), (Fin.addCases (m := 2) (n := 1) (motive := fun _ => K) g h (1 : Fin 3)) = g 1 :=
      fun _ _ => rfl
    have f2 : ∀ (g : Fin 2 → K) (h : Fin 1 → K), (Fin.addCases (m := 2) (n := 1) (motive := fun _ => K) g h (2 : Fin 3)) = h 0 :=
      fun _ _ => rfl
    simp only [hat, hj, Fin.sum_univ_three, f0, f1, f2, hingeFunOf, rotationFunOf, hinge_get, rotation_get]
    simp only [hingeFun, Vec2.toMVec, at_ofFn]
    simp [Vec2.cross, hp.1, hp.2]
    ring

/-- Case for `C46_angular_momentum`: the angular momentum of the sample bodies is not zero and stays the same. -/
example (l0 l1 : Vec2 ℝ) (l : MVec ℝ 1) :
    let s' := sampleBodies.proxies.applyImpulse (SolverBase.impulse ((distanceFun l0 l1).jacobian sampleBodies.proxies sampleState) l) sampleState
    let c := fun i => (sampleState.pos i).centroid
    angularMomentum 2 2 3 3 (c 0) (c 1) (s'.vel 0) (s'.vel 1) = angularMomentum 2 2 3 3 (c 0) (c 1) ⟨⟨1, 2⟩, 3⟩ 0 := by
  have := (C46_angular_momentum sampleBody 0 1 (by decide) none (Or.inr ⟨rfl, rfl, rfl⟩) (by norm_num [Body.mass, sampleBody])
    (by norm_num [Body.mass, sampleBody]) (by norm_num [Body.inertia, sampleBody]) (by norm_num [Body.inertia, sampleBody]) sampleState).1 l0 l1 l
  have hm : ∀ i, (sampleBody i).mass = 2 := fun i => rfl
  have hI : ∀ i, (sampleBody i).inertia = 3 := fun i => rfl
  simp only [hm, hI] at this
  refine this.trans ?_
  simp [sampleState]

end Simu
