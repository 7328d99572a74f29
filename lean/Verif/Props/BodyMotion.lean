import Verif.Lemmas.BodyMotion
/-
C29 (changing the colliders of a body), C30 (force fields), C45 (destruction of a body).
-/
namespace Simu

/-! ### C29 -/

section
variable {K : Type*} [Field K] [LinearOrder K] [IsStrictOrderedRing K] [Trig K]

/-- World position of the material point whose local coordinates are `p`. -/
def Body.worldPoint (b : Body K) (p : Vec2 K) : Vec2 K := b.position.toWorldSpace.app p

/-- Velocity of the material point whose local coordinates are `p`. -/
def Body.pointVelocity (b : Body K) (p : Vec2 K) : Vec2 K := velocityAt b.velocity b.angular b.centroid (b.worldPoint p)

theorem Body.worldPoint_setLocalCentroid [LawfulTrig K] (P : Position K) (c' p : Vec2 K) :
    (P.setLocalCentroid c').toWorldSpace.app p = P.toWorldSpace.app p +
      ((c' - P.localCentroid.offset) - P.orient.app (c' - P.localCentroid.offset)) := by
  ext <;> simp only [Position.setLocalCentroid, Position.toWorldSpace, Transform.app, Transform.mulTranslation,
    Translation.mulRotation, Translation.mul, Translation.inverse, Rotation.app, Vec2.add_x, Vec2.add_y, Vec2.sub_x, Vec2.sub_y,
    Vec2.neg_x, Vec2.neg_y] <;> ring

theorem Body.worldPoint_centroid [LawfulTrig K] (P : Position K) (p : Vec2 K) :
    P.toWorldSpace.app p = P.centroid + P.orient.app (p - P.localCentroid.offset) := by
  rw [C27_centroid]
  ext <;> simp only [Position.toWorldSpace, Transform.app, Transform.mulTranslation,
    Translation.mulRotation, Translation.mul, Translation.inverse, Rotation.app, Vec2.add_x, Vec2.add_y, Vec2.sub_x, Vec2.sub_y,
    Vec2.neg_x, Vec2.neg_y] <;> ring

/-- The change of a body by an operation on its colliders which moves its local centroid by `d` and keeps its
velocities: how its material points are displaced, and how their velocities change. -/
structure Recentered (b b' : Body K) (d : Vec2 K) : Prop where
  position : ∀ p, b'.worldPoint p = b.worldPoint p + (d - b.position.orient.app d)
  velocity : ∀ p, b'.pointVelocity p = b.pointVelocity p - b.angular • Vec2.perp (b.position.orient.app d)

theorem recentered_of [LawfulTrig K] {b b' : Body K} (hv : b'.velocity = b.velocity) (hw : b'.angular = b.angular) (c' : Vec2 K)
    (hp : b'.position = b.position.setLocalCentroid c') : Recentered b b' (c' - b.position.localCentroid.offset) := by
  refine ⟨fun p => ?_, fun p => ?_⟩
  · unfold Body.worldPoint; rw [hp]; exact Body.worldPoint_setLocalCentroid _ _ _
  · unfold Body.pointVelocity Body.worldPoint Body.centroid
    rw [hp, hv, hw, Body.worldPoint_centroid (b.position.setLocalCentroid c'), Body.worldPoint_centroid b.position]
    ext <;> simp only [velocityAt, Position.setLocalCentroid, Rotation.app, Vec2.perp, Bool.false_eq_true, if_false,
      Vec2.add_x, Vec2.add_y, Vec2.sub_x, Vec2.sub_y, Vec2.smul_x, Vec2.smul_y] <;> ring

theorem rotation_fixes [LawfulTrig K] {r : Rotation K} (hr : r.Reachable) (d : Vec2 K) :
    d - r.app d = 0 ↔ d = 0 ∨ Trig.cos r.theta = 1 := by
  have w := C26_rotation_wf hr
  have k := w.sq
  constructor
  · intro h
    have hx := congrArg Vec2.x h
    have hy := congrArg Vec2.y h
    simp only [Rotation.app, Vec2.sub_x, Vec2.sub_y, Vec2.zero_x, Vec2.zero_y] at hx hy
    by_cases hc : Trig.cos r.theta = 1
    · exact Or.inr hc
    · left
      rw [← w.1] at hc
      have hne : 1 - r.cosine ≠ 0 := fun h => hc (by linarith)
      have e1 : 2 * (1 - r.cosine) * d.x = 0 := by
        linear_combination (1 - r.cosine) * hx + (-r.sine) * hy - d.x * k
      have e2 : 2 * (1 - r.cosine) * d.y = 0 := by
        linear_combination r.sine * hx + (1 - r.cosine) * hy - d.y * k
      have h2 : (2 : K) * (1 - r.cosine) ≠ 0 := mul_ne_zero two_ne_zero hne
      exact Vec2.ext ((mul_eq_zero.1 e1).resolve_left h2) ((mul_eq_zero.1 e2).resolve_left h2)
  · rintro (rfl | h)
    · ext <;> simp [Rotation.app]
    · rw [← w.1] at h
      have hs : r.sine = 0 := by
        have : r.sine * r.sine = 0 := by rw [h] at k; linarith
        exact mul_self_eq_zero.1 this
      ext <;> simp [Rotation.app, h, hs]

theorem rotation_eq_zero [LawfulTrig K] {r : Rotation K} (hr : r.Reachable) (d : Vec2 K) : r.app d = 0 ↔ d = 0 := by
  constructor
  · intro h
    have := (C26_inverse (A := ⟨r, ⟨0⟩⟩) hr hr ⟨0⟩ d).2.2.1
    rw [← this, h]; ext <;> simp [Rotation.app]
  · rintro rfl; ext <;> simp [Rotation.app]

/-- A change that moves the local centroid by `d` leaves material points in place exactly if `d` is null or the body is
not turned, and leaves their velocities exactly if `d` is null or the body does not spin. -/
theorem Recentered.iff [LawfulTrig K] {b b' : Body K} {d : Vec2 K} (h : Recentered b b' d) (hr : b.position.orient.Reachable) :
    ((∀ p, b'.worldPoint p = b.worldPoint p) ↔ d = 0 ∨ Trig.cos b.position.orient.theta = 1) ∧
    ((∀ p, b'.pointVelocity p = b.pointVelocity p) ↔ d = 0 ∨ b.angular = 0) := by
  constructor
  · rw [← rotation_fixes hr]
    constructor
    · intro H
      have := H 0
      rw [h.position] at this
      exact add_left_cancel (a := b.worldPoint 0) (by rw [this, add_zero])
    · intro H p; rw [h.position, H, add_zero]
  · constructor
    · intro H
      have := H 0
      rw [h.velocity] at this
      have h0 : b.angular • Vec2.perp (b.position.orient.app d) = 0 := sub_eq_self.1 this
      by_cases hw : b.angular = 0
      · exact Or.inr hw
      · left
        rw [← rotation_eq_zero hr]
        have hx := congrArg Vec2.x h0
        have hy := congrArg Vec2.y h0
        simp only [Vec2.perp, Bool.false_eq_true, if_false, Vec2.smul_x, Vec2.smul_y, Vec2.zero_x, Vec2.zero_y, mul_eq_zero, neg_eq_zero, hw, or_false] at hx hy
        exact Vec2.ext hy hx
    · rintro (hd | hw) p
      · rw [h.velocity, hd, (rotation_eq_zero hr _).2 rfl]
        ext <;> simp [Vec2.perp]
      · rw [h.velocity, hw]
        ext <;> simp

/-- Adding a valid collider to a body succeeds, keeps its linear and angular velocity, its position and orientation, and
brings the vertices of all colliders to the new placement. The full statement would also say that no material point
moves or changes velocity; this is so exactly in the cases given by `undisturbed`, where `d` is the displacement of
the local centroid. -/
theorem C29_add_partial [LawfulTrig K] {b : Body K} {ps : List (MassProperties K)} (h : b.Inv ps) (id : Nat) {polygon : List (Vec2 K)}
    {material : Material K} (hv : ValidDescriptor polygon material) :
    let r := b.addCollider id polygon material
    let d := r.1.position.localCentroid.offset - b.position.localCentroid.offset
    r.2 = .ok () ∧ (∃ p, r.1.Inv (ps ++ [p]) ∧ (⟨id, .make polygon, material⟩ : Collider K).properties = .ok p ∧ 0 < p.m) ∧
    r.1.Synced ∧
    r.1.velocity = b.velocity ∧ r.1.angular = b.angular ∧ r.1.position.pos = b.position.pos ∧ r.1.position.orient = b.position.orient ∧
    Recentered b r.1 d ∧
    ((∀ p, r.1.worldPoint p = b.worldPoint p) ↔ d = 0 ∨ Trig.cos b.position.orient.theta = 1) ∧
    ((∀ p, r.1.pointVelocity p = b.pointVelocity p) ↔ d = 0 ∨ b.angular = 0) := by
  obtain ⟨p, h1, h2, h3, h4, h5, h6, h7, h8⟩ := Body.addCollider_ok h id hv
  have hd : (b.addCollider id polygon material).1.position.localCentroid.offset =
      (b.addCollider id polygon material).1.colliders.properties.centroid := by
    conv_lhs => rw [h8]
    rfl
  have hR := recentered_of h5 h6 _ h8
  rw [← hd] at hR
  exact ⟨h1, ⟨p, h2, h3.1, h3.2.1⟩, h4, h5, h6, by rw [h8]; rfl, by rw [h8]; rfl, hR, (hR.iff h.orient).1, (hR.iff h.orient).2⟩

/-- Removing a collider, others remaining: as for `C29_add_partial`. Removing the last one changes nothing but the
collection. -/
theorem C29_remove_partial [LawfulTrig K] {b : Body K} {ps : List (MassProperties K)} (h : b.Inv ps) (id : Nat) :
    let r := b.removeCollider id
    let d := r.1.position.localCentroid.offset - b.position.localCentroid.offset
    r.2 = .ok () ∧ (∃ ps', r.1.Inv ps' ∧ ps'.Sublist ps) ∧
    r.1.velocity = b.velocity ∧ r.1.angular = b.angular ∧ r.1.position.pos = b.position.pos ∧ r.1.position.orient = b.position.orient ∧
    (r.1.colliders.list ≠ [] → r.1.Synced) ∧ (r.1.colliders.list = [] → d = 0) ∧
    Recentered b r.1 d ∧
    ((∀ p, r.1.worldPoint p = b.worldPoint p) ↔ d = 0 ∨ Trig.cos b.position.orient.theta = 1) ∧
    ((∀ p, r.1.pointVelocity p = b.pointVelocity p) ↔ d = 0 ∨ b.angular = 0) := by
  obtain ⟨ps', h1, h2, h3, h4, h5, h6, h7, h8, h9⟩ := Body.removeCollider_ok h id
  have hnil : ps' = [] ↔ (b.removeCollider id).1.colliders.list = [] := by
    have := h2.colliders.1
    constructor
    · rintro rfl; exact List.forall₂_nil_right_iff.1 this
    · intro e; rw [e] at this; exact List.forall₂_nil_left_iff.1 this
  by_cases he : ps' = []
  · have hp := h8 he
    have hR : Recentered b (b.removeCollider id).1 ((b.removeCollider id).1.position.localCentroid.offset - b.position.localCentroid.offset) := by
      apply recentered_of h4 h5
      rw [hp]; rfl
    refine ⟨h1, ⟨ps', h2, h3⟩, h4, h5, by rw [hp], by rw [hp], fun hne => absurd (hnil.1 he) hne, fun _ => ?_, hR, (hR.iff h.orient).1, (hR.iff h.orient).2⟩
    rw [hp]; exact sub_self _
  · obtain ⟨hs, hp⟩ := h9 he
    have hd : (b.removeCollider id).1.position.localCentroid.offset =
        (b.removeCollider id).1.colliders.properties.centroid := by
      conv_lhs => rw [hp]
      rfl
    have hR := recentered_of h4 h5 _ hp
    rw [← hd] at hR
    exact ⟨h1, ⟨ps', h2, h3⟩, h4, h5, by rw [hp]; rfl, by rw [hp]; rfl, fun _ => hs, fun hn => absurd (hnil.2 hn) he, hR, (hR.iff h.orient).1, (hR.iff h.orient).2⟩

/-- Where the centroid goes when a piece is added: towards the new piece. -/
theorem centroid_shift {ps : List (MassProperties K)} {q p q' : MassProperties K} (hq : IsCombination q ps)
    (hq' : IsCombination q' (ps ++ [p])) :
    q'.m * (q'.centroid.x - q.centroid.x) = p.m * (p.centroid.x - q.centroid.x) ∧
    q'.m * (q'.centroid.y - q.centroid.y) = p.m * (p.centroid.y - q.centroid.y) := by
  have m1 := hq.mass; have m2 := hq'.mass
  have x1 := hq.momentX; have x2 := hq'.momentX
  have y1 := hq.momentY; have y2 := hq'.momentY
  simp only [totalMass, firstMomentX, firstMomentY, List.map_append, List.map_cons, List.map_nil, List.sum_append, List.sum_cons,
    List.sum_nil, add_zero] at m1 m2 x1 x2 y1 y2
  rw [← m1] at m2; rw [← x1] at x2; rw [← y1] at y2
  constructor
  · linear_combination x2 - q.centroid.x * m2
  · linear_combination y2 - q.centroid.y * m2

/-- C29 is false. Whenever a collider is added to a body that already has some and the centroid of the new one is not the
centroid of the body, then every material point of a spinning body changes velocity, and every material point of a turned
body is displaced. -/
theorem C29_add_disturbs [LawfulTrig K] {b : Body K} {ps : List (MassProperties K)} (h : b.Inv ps) (hne : ps ≠ []) (id : Nat)
    {polygon : List (Vec2 K)} {material : Material K} (hv : ValidDescriptor polygon material) (p : MassProperties K)
    (hp : (⟨id, .make polygon, material⟩ : Collider K).properties = .ok p) (hc : p.centroid ≠ b.position.localCentroid.offset) :
    (b.angular ≠ 0 → ∀ x, (b.addCollider id polygon material).1.pointVelocity x ≠ b.pointVelocity x) ∧
    (Trig.cos b.position.orient.theta ≠ 1 → ∀ x, (b.addCollider id polygon material).1.worldPoint x ≠ b.worldPoint x) := by
  obtain ⟨h1, ⟨p', h2, h3, h4⟩, -, -, -, -, -, hR, -, -⟩ := C29_add_partial h id hv
  obtain rfl : p' = p := by rw [h3] at hp; exact Outcome.ok.inj hp
  have hcs := centroid_shift h.colliders.isCombination h2.colliders.isCombination
  rw [← h.centroid hne, ← h2.centroid (by simp)] at hcs
  set d := (b.addCollider id polygon material).1.position.localCentroid.offset - b.position.localCentroid.offset with hd
  have hd0 : d ≠ 0 := by
    intro e
    have ex : (b.addCollider id polygon material).1.position.localCentroid.offset.x - b.position.localCentroid.offset.x = 0 :=
      congrArg Vec2.x e
    have ey : (b.addCollider id polygon material).1.position.localCentroid.offset.y - b.position.localCentroid.offset.y = 0 :=
      congrArg Vec2.y e
    rw [ex, ey, mul_zero] at hcs
    apply hc
    have e1 := (mul_eq_zero.1 hcs.1.symm).resolve_left h4.ne'
    have e2 := (mul_eq_zero.1 hcs.2.symm).resolve_left h4.ne'
    exact Vec2.ext (sub_eq_zero.1 e1) (sub_eq_zero.1 e2)
  constructor
  · intro hw x hx
    rw [hR.velocity] at hx
    have h0 := sub_eq_self.1 hx
    have hx := congrArg Vec2.x h0
    have hy := congrArg Vec2.y h0
    simp only [Vec2.perp, Bool.false_eq_true, if_false, Vec2.smul_x, Vec2.smul_y, Vec2.zero_x, Vec2.zero_y, mul_eq_zero, neg_eq_zero, hw, or_false] at hx hy
    exact hd0 ((rotation_eq_zero h.orient d).1 (Vec2.ext hy hx))
  · intro hw x hx
    rw [hR.position] at hx
    have h0 : d - b.position.orient.app d = 0 := add_left_cancel (a := b.worldPoint x) (by rw [hx, add_zero])
    rcases (rotation_fixes h.orient d).1 h0 with e | e
    · exact hd0 e
    · exact hw e

end

/-! Witness: a body made of a 2 by 2 square, spinning and turned by a right angle, is given a second square beside it. -/
section witness

/-- A material of density one. -/
noncomputable def exMatR : Material ℝ := ⟨1, ⟨.average, 0⟩, ⟨.average, 0⟩, ⟨.average, 0⟩⟩

/-- The 2 by 2 square centred at (x, 0) is a valid collider of mass 4. -/
theorem exSquare (x : ℝ) : ∃ poly : List (Vec2 ℝ), ValidDescriptor poly exMatR ∧
    ∀ id, ∃ I, (⟨id, .make poly, exMatR⟩ : Collider ℝ).properties = .ok ⟨4, I, ⟨x, 0⟩⟩ ∧ I = 8 / 3 := by
  obtain ⟨P, h1, h2, h3, h4, h5, h6, -⟩ := C15_box (⟨2, 2⟩ : Vec2 ℝ) ⟨x, 0⟩ (by norm_num)
  have hb : ∃ vs, Polygon.mk' vs = .ok P ∧ 3 ≤ vs.length := ⟨_, h1, by simp⟩
  obtain ⟨vs, hvs, hlen⟩ := hb
  have hof : GeometricProperties.of P.vertices = .ok P.properties := by
    obtain ⟨P', a, -, b, -⟩ := C15_polygon vs hlen
    rw [hvs] at a; obtain rfl := Outcome.ok.inj a; exact b
  refine ⟨P.vertices, ⟨by norm_num [exMatR], vs, P, hvs, h5, rfl⟩, fun id => ⟨P.properties.momentOfArea * 1, ?_, by rw [h4]; norm_num⟩⟩
  simp only [Collider.properties, MassProperties.ofGeometry, ColliderGeom.make, hof, Outcome.check, exMatR]
  norm_num
  rw [h5, h2, h3]
  norm_num

/-- The body of the witness, before it gets its colliders. -/
noncomputable def exBody : Body ℝ :=
  { (Body.make ⟨0, 0⟩ (Real.pi / 2) 1 : Body ℝ) with attached := true, angular := 1 }

theorem exBody_inv : exBody.Inv [] :=
  ⟨⟨.nil, rfl⟩, fun h => absurd rfl h, .ofAngle _, rfl⟩

/-- The witness of the disagreement: a reachable body on which `addCollider` changes velocities and positions. -/
theorem C29_add_witness : ∃ b : Body ℝ, ∃ ps, b.Inv ps ∧ ∃ id polygon material, ValidDescriptor polygon material ∧
    (b.addCollider id polygon material).2 = .ok () ∧
    (∀ x, (b.addCollider id polygon material).1.pointVelocity x ≠ b.pointVelocity x) ∧
    (∀ x, (b.addCollider id polygon material).1.worldPoint x ≠ b.worldPoint x) := by
  obtain ⟨s0, hs0, hm0⟩ := exSquare 0
  obtain ⟨s2, hs2, hm2⟩ := exSquare 2
  obtain ⟨-, ⟨p, hinv, hp, -⟩, -, -, hw, -, ho, -⟩ := C29_add_partial exBody_inv 1 hs0
  obtain ⟨I0, hm0, -⟩ := hm0 1
  obtain ⟨I2, hm2, -⟩ := hm2 2
  obtain rfl : p = ⟨4, I0, ⟨0, 0⟩⟩ := by rw [hm0] at hp; exact (Outcome.ok.inj hp).symm
  have hcent : (exBody.addCollider 1 s0 exMatR).1.position.localCentroid.offset = ⟨0, 0⟩ := by
    rw [hinv.centroid (by simp)]
    have := hinv.colliders.isCombination
    have hmass : (exBody.addCollider 1 s0 exMatR).1.colliders.properties.m = 4 := by rw [this.mass]; simp [totalMass]
    have hx := this.momentX
    have hy := this.momentY
    rw [hmass] at hx hy
    simp [firstMomentX, firstMomentY] at hx hy
    exact Vec2.ext hx hy
  have hd := C29_add_disturbs hinv (by simp) 2 hs2 _ hm2 (by rw [hcent]; intro e; have := congrArg Vec2.x e; norm_num at this)
  refine ⟨_, _, hinv, 2, s2, exMatR, hs2, (C29_add_partial hinv 2 hs2).1, hd.1 ?_, hd.2 ?_⟩
  · rw [hw]; norm_num [exBody]
  · rw [ho]
    show Real.cos (Real.pi / 2) ≠ 1
    rw [Real.cos_pi_div_two]; norm_num

/-- The hypotheses of `C29_add_partial` and `C29_remove_partial` are met by bodies with colliders. -/
example : ∃ b : Body ℝ, ∃ ps, b.Inv ps ∧ ps ≠ [] := by
  obtain ⟨s0, hs0, -⟩ := exSquare 0
  obtain ⟨p, -, h, -⟩ := Body.addCollider_ok exBody_inv 1 hs0
  exact ⟨_, _, h, by simp⟩

end witness
/-! ### C30 -/
section forces
variable {K : Type*} [Field K] [LinearOrder K] [IsStrictOrderedRing K] [Trig K]

/-- Change of velocities alone. -/
def Body.kick (b : Body K) (dv : Vec2 K) (dw : K) : Body K :=
  { b with velocity := b.velocity + dv, angular := b.angular + dw, asleep := false }

/-- Velocity change given by a field through a piece `p`. -/
def ForceField.dv (f : ForceField K) (b : Body K) (dt : K) (p : MassProperties K) : Vec2 K :=
  match f with
  | .linear force _ => b.invMass • (dt • (b.invMass • (p.m • force)))
  | .gravity a => b.invMass • (dt • (p.m • a))

/-- Angular velocity change given by a field through a piece `p`. -/
def ForceField.dw (f : ForceField K) (b : Body K) (dt : K) (p : MassProperties K) : K :=
  match f with
  | .linear force _ =>
    Vec2.cross (b.position.orient.app (p.centroid - b.position.localCentroid.offset)) (dt • (b.invMass • (p.m • force))) * b.invInertia
  | .gravity a =>
    Vec2.cross (b.position.orient.app (p.centroid - b.position.localCentroid.offset)) (dt • (p.m • a)) * b.invInertia

theorem ForceField.apply_eq (f : ForceField K) (b : Body K) (p : MassProperties K) (dt : K) :
    f.apply b p dt = b.kick (f.dv b dt p) (f.dw b dt p) := by
  cases f <;> rfl

theorem Body.kick_fold (f : ForceField K) (dt : K) (ps : List (MassProperties K)) (b : Body K) (hb : b.asleep = false) :
    ps.foldl (fun b p => f.apply b p dt) b = b.kick (ps.map (f.dv b dt)).sum (ps.map (f.dw b dt)).sum := by
  induction ps generalizing b with
  | nil => simp [Body.kick, ← hb]
  | cons p ps ih =>
    rw [List.foldl_cons, ForceField.apply_eq, ih _ rfl]
    have e1 : f.dv (b.kick (f.dv b dt p) (f.dw b dt p)) dt = f.dv b dt := by cases f <;> rfl
    have e2 : f.dw (b.kick (f.dv b dt p) (f.dw b dt p)) dt = f.dw b dt := by cases f <;> rfl
    rw [e1, e2]
    simp [Body.kick, add_assoc]

theorem sum_x (l : List (Vec2 K)) : l.sum.x = (l.map Vec2.x).sum := by
  induction l with
  | nil => rfl
  | cons a l ih => simp [ih]

theorem sum_y (l : List (Vec2 K)) : l.sum.y = (l.map Vec2.y).sum := by
  induction l with
  | nil => rfl
  | cons a l ih => simp [ih]

theorem dv_gravity_sum (a : Vec2 K) (b : Body K) (dt : K) (ps : List (MassProperties K)) :
    (ps.map ((ForceField.gravity a).dv b dt)).sum = (totalMass ps * b.invMass * dt) • a := by
  induction ps with
  | nil => ext <;> simp [totalMass]
  | cons p ps ih =>
    rw [List.map_cons, List.sum_cons, ih]
    ext <;> simp [totalMass, ForceField.dv] <;> ring

theorem dv_linear_sum (F : Vec2 K) (r : Option (BoundingBox K)) (b : Body K) (dt : K) (ps : List (MassProperties K)) :
    (ps.map ((ForceField.linear F r).dv b dt)).sum = (totalMass ps * b.invMass * b.invMass * dt) • F := by
  induction ps with
  | nil => ext <;> simp [totalMass]
  | cons p ps ih =>
    rw [List.map_cons, List.sum_cons, ih]
    ext <;> simp [totalMass, ForceField.dv] <;> ring

theorem dw_gravity_sum (a : Vec2 K) (b : Body K) (dt : K) (ps : List (MassProperties K)) :
    (ps.map ((ForceField.gravity a).dw b dt)).sum =
      Vec2.cross (b.position.orient.app ⟨firstMomentX ps - totalMass ps * b.position.localCentroid.offset.x,
        firstMomentY ps - totalMass ps * b.position.localCentroid.offset.y⟩) a * dt * b.invInertia := by
  induction ps with
  | nil => simp [totalMass, firstMomentX, firstMomentY, Vec2.cross, Rotation.app]
  | cons p ps ih =>
    rw [List.map_cons, List.sum_cons, ih]
    simp only [totalMass, firstMomentX, firstMomentY, List.map_cons, List.sum_cons, ForceField.dw, Vec2.cross, Rotation.app,
      Vec2.sub_x, Vec2.sub_y, Vec2.smul_x, Vec2.smul_y]
    ring

theorem dw_linear_sum (F : Vec2 K) (r : Option (BoundingBox K)) (b : Body K) (dt : K) (ps : List (MassProperties K)) :
    (ps.map ((ForceField.linear F r).dw b dt)).sum =
      Vec2.cross (b.position.orient.app ⟨firstMomentX ps - totalMass ps * b.position.localCentroid.offset.x,
        firstMomentY ps - totalMass ps * b.position.localCentroid.offset.y⟩) F * dt * b.invMass * b.invInertia := by
  induction ps with
  | nil => simp [totalMass, firstMomentX, firstMomentY, Vec2.cross, Rotation.app]
  | cons p ps ih =>
    rw [List.map_cons, List.sum_cons, ih]
    simp only [totalMass, firstMomentX, firstMomentY, List.map_cons, List.sum_cons, ForceField.dw, Vec2.cross, Rotation.app,
      Vec2.sub_x, Vec2.sub_y, Vec2.smul_x, Vec2.smul_y]
    ring

/-- Colliders of body `i`, in the order of iteration, with their mass properties. -/
inductive PiecesOf (i : Nat) : List (Nat × Collider K) → List (MassProperties K) → Prop
  | nil : PiecesOf i [] []
  | skip {j c l ps} : j ≠ i → (∃ q, Collider.Good c q) → PiecesOf i l ps → PiecesOf i ((j, c) :: l) ps
  | take {c p l ps} : Collider.Good c p → PiecesOf i l ps → PiecesOf i ((i, c) :: l) (p :: ps)

theorem foldl_apply (f : ForceField K) (dt : K) (i : Nat) (l : List (Nat × Collider K)) (ps : List (MassProperties K))
    (h : PiecesOf i l ps) (bodies : Nat → Body K) :
    ∃ bodies', foldlO (applyToCollider f dt) bodies l = .ok bodies' ∧
      (((bodies i).asleep = true ∨ (bodies i).dominance = 0) → bodies' i = bodies i) ∧
      (((bodies i).asleep = false ∧ (bodies i).dominance ≠ 0) → bodies' i = ps.foldl (fun b p => f.apply b p dt) (bodies i)) := by
  induction h generalizing bodies with
  | nil => exact ⟨bodies, rfl, fun _ => rfl, fun _ => rfl⟩
  | @skip j c l ps hj hg _ ih =>
    obtain ⟨q, hq⟩ := hg
    by_cases hact : (!(bodies j).asleep && !(bodies j).isStructural) = true
    · have e : applyToCollider f dt bodies (j, c) = .ok (Function.update bodies j (f.apply (bodies j) q dt)) := by
        simp only [applyToCollider, hact, if_true, hq.1, Outcome.bind_ok]
      obtain ⟨bodies', h1, h2, h3⟩ := ih (Function.update bodies j (f.apply (bodies j) q dt))
      rw [Function.update_of_ne (Ne.symm hj)] at h2 h3
      exact ⟨bodies', by simp only [foldlO, e, Outcome.bind_ok, h1], h2, h3⟩
    · have e : applyToCollider f dt bodies (j, c) = .ok bodies := by
        simp only [applyToCollider, hact]; rfl
      obtain ⟨bodies', h1, h2, h3⟩ := ih bodies
      exact ⟨bodies', by simp only [foldlO, e, Outcome.bind_ok, h1], h2, h3⟩
  | @take c p l ps hp _ ih =>
    by_cases hact : (!(bodies i).asleep && !(bodies i).isStructural) = true
    · have e : applyToCollider f dt bodies (i, c) = .ok (Function.update bodies i (f.apply (bodies i) p dt)) := by
        simp only [applyToCollider, hact, if_true, hp.1, Outcome.bind_ok]
      obtain ⟨bodies', h1, h2, h3⟩ := ih (Function.update bodies i (f.apply (bodies i) p dt))
      rw [Function.update_self] at h2 h3
      simp only [Bool.and_eq_true, Bool.not_eq_true', Body.isStructural, decide_eq_false_iff_not] at hact
      refine ⟨bodies', by simp only [foldlO, e, Outcome.bind_ok, h1], fun h => ?_, fun h => ?_⟩
      · rcases h with h | h
        · rw [h] at hact; exact absurd hact.1 (by simp)
        · exact absurd h hact.2
      · rw [List.foldl_cons]
        exact h3 ⟨by rw [ForceField.apply_eq]; rfl, by rw [ForceField.apply_eq]; exact h.2⟩
    · have e : applyToCollider f dt bodies (i, c) = .ok bodies := by
        simp only [applyToCollider, hact]; rfl
      obtain ⟨bodies', h1, h2, h3⟩ := ih bodies
      refine ⟨bodies', by simp only [foldlO, e, Outcome.bind_ok, h1], h2, fun h => ?_⟩
      exact absurd (by simp [h.1, Body.isStructural, h.2]) hact

theorem PiecesOf.filter {i : Nat} {l : List (Nat × Collider K)} {ps : List (MassProperties K)} (h : PiecesOf i l ps)
    (P : Nat × Collider K → Bool) : ∃ ps', PiecesOf i (l.filter P) ps' ∧ ((∀ c ∈ l, c.1 = i → P c = true) → ps' = ps) := by
  induction h with
  | nil => exact ⟨[], .nil, fun _ => rfl⟩
  | @skip j c l ps hj hg _ ih =>
    obtain ⟨ps', h1, h2⟩ := ih
    refine ⟨ps', ?_, fun H => h2 (fun c hc => H c (by simp [hc]))⟩
    by_cases hP : P (j, c) = true
    · rw [List.filter_cons_of_pos hP]; exact .skip hj hg h1
    · rw [List.filter_cons_of_neg hP]; exact h1
  | @take c p l ps hp _ ih =>
    obtain ⟨ps', h1, h2⟩ := ih
    by_cases hP : P (i, c) = true
    · exact ⟨p :: ps', by rw [List.filter_cons_of_pos hP]; exact .take hp h1, fun H => by rw [h2 (fun c hc => H c (by simp [hc]))]⟩
    · exact ⟨ps', by rw [List.filter_cons_of_neg hP]; exact h1, fun H => absurd (H (i, c) (by simp) rfl) hP⟩

theorem moment_zero {b : Body K} {ps qs : List (MassProperties K)} (h : b.Inv ps) (hne : ps ≠ []) (hq : qs.Perm ps) :
    totalMass qs = b.mass ∧ b.mass ≠ 0 ∧
    firstMomentX qs - totalMass qs * b.position.localCentroid.offset.x = 0 ∧
    firstMomentY qs - totalMass qs * b.position.localCentroid.offset.y = 0 := by
  have hc := h.colliders.isCombination
  have e1 : totalMass qs = totalMass ps := (hq.map _).sum_eq
  have e2 : firstMomentX qs = firstMomentX ps := (hq.map _).sum_eq
  have e3 : firstMomentY qs = firstMomentY ps := (hq.map _).sum_eq
  rw [e1, e2, e3, h.centroid hne, ← hc.mass, ← hc.momentX, ← hc.momentY]
  refine ⟨rfl, ?_, sub_self _, sub_self _⟩
  have hpos : 0 < totalMass ps := by
    refine List.sum_pos _ ?_ (by simpa using hne)
    intro x hx
    obtain ⟨p, hp, rfl⟩ := List.mem_map.1 hx
    exact (h.colliders.proper p hp).1
  rw [Body.mass, hc.mass]; exact hpos.ne'

/-- A non-structural awake body `i` made of the pieces `ps`, whose colliders are exactly those of index `i` in the tree
(in any order, among any others). -/
structure InWorld (i : Nat) (tree : List (Nat × Collider K)) (bodies : Nat → Body K) (ps : List (MassProperties K)) : Prop where
  inv : (bodies i).Inv ps
  pieces : ∃ qs, PiecesOf i tree qs ∧ qs.Perm ps
  some : ps ≠ []

/-- Gravity changes the velocity of a non-structural awake body by `acceleration * dt` and leaves everything else of it,
whatever colliders it is made of and whatever else is in the world. -/
theorem C30_gravity {i : Nat} {tree : List (Nat × Collider K)} {bodies : Nat → Body K} {ps : List (MassProperties K)}
    (h : InWorld i tree bodies ps) (a : Vec2 K) (dt : K) (ha : (bodies i).asleep = false) (hs : (bodies i).dominance ≠ 0) :
    ∃ bodies', applyForces [.gravity a] dt tree bodies = .ok bodies' ∧
      bodies' i = { bodies i with velocity := (bodies i).velocity + dt • a } := by
  obtain ⟨qs, hq, hperm⟩ := h.pieces
  have hfil : tree.filter (inRegion (ForceField.region (.gravity a : ForceField K))) = tree := by
    simp [ForceField.region, inRegion]
  obtain ⟨bodies', h1, -, h3⟩ := foldl_apply (.gravity a) dt i tree qs hq bodies
  refine ⟨bodies', by simp only [applyForces, foldlO, hfil, h1, Outcome.bind_ok], ?_⟩
  rw [h3 ⟨ha, hs⟩, Body.kick_fold _ _ _ _ ha, dv_gravity_sum, dw_gravity_sum]
  obtain ⟨m1, m2, m3, m4⟩ := moment_zero h.inv h.some hperm
  rw [m3, m4, m1]
  simp only [Body.kick, Body.invMass, Rotation.app, Vec2.cross]
  have : (bodies i).mass * (1 / (bodies i).mass) * dt = dt := by field_simp
  rw [this]
  simp [← ha]

/-- A linear field covering a non-structural awake body gives it the impulse `force * dt` (its mass times its velocity
change) and no angular velocity. -/
theorem C30_linear {i : Nat} {tree : List (Nat × Collider K)} {bodies : Nat → Body K} {ps : List (MassProperties K)}
    (h : InWorld i tree bodies ps) (F : Vec2 K) (region : Option (BoundingBox K)) (dt : K)
    (hcov : ∀ c ∈ tree, c.1 = i → inRegion region c = true)
    (ha : (bodies i).asleep = false) (hs : (bodies i).dominance ≠ 0) :
    ∃ bodies', applyForces [.linear F region] dt tree bodies = .ok bodies' ∧
      (bodies i).mass • ((bodies' i).velocity - (bodies i).velocity) = dt • F ∧
      bodies' i = { bodies i with velocity := (bodies' i).velocity } := by
  obtain ⟨qs, hq, hperm⟩ := h.pieces
  obtain ⟨qs', hq', he⟩ := hq.filter (inRegion region)
  obtain rfl := he hcov
  obtain ⟨bodies', h1, -, h3⟩ := foldl_apply (.linear F region) dt i _ qs' hq' bodies
  obtain ⟨m1, m2, m3, m4⟩ := moment_zero h.inv h.some hperm
  have e := h3 ⟨ha, hs⟩
  rw [Body.kick_fold _ _ _ _ ha, dv_linear_sum, dw_linear_sum, m3, m4, m1] at e
  have z : Vec2.cross ((bodies i).position.orient.app ⟨0, 0⟩) F = 0 := by simp [Rotation.app, Vec2.cross]
  rw [z] at e
  refine ⟨bodies', by simp only [applyForces, foldlO, ForceField.region, h1, Outcome.bind_ok], ?_, ?_⟩
  · rw [e]
    ext <;> simp only [Body.kick, Body.invMass, Vec2.smul_x, Vec2.smul_y, Vec2.sub_x, Vec2.sub_y, Vec2.add_x, Vec2.add_y, add_sub_cancel_left] <;> field_simp
  · rw [e]; simp [Body.kick, ← ha]

/-- Structural and sleeping bodies are untouched by any list of fields. -/
theorem C30_untouched {i : Nat} {tree : List (Nat × Collider K)} (hg : ∀ c ∈ tree, ∃ p, c.2.Good p)
    (bodies : Nat → Body K) (fields : List (ForceField K)) (dt : K)
    (h : (bodies i).asleep = true ∨ (bodies i).dominance = 0) :
    ∃ bodies', applyForces fields dt tree bodies = .ok bodies' ∧ bodies' i = bodies i := by
  have hp : ∃ ps, PiecesOf i tree ps := by
    clear h
    induction tree with
    | nil => exact ⟨[], .nil⟩
    | cons c l ih =>
      obtain ⟨ps, hps⟩ := ih (fun c hc => hg c (by simp [hc]))
      obtain ⟨p, hp⟩ := hg c (by simp)
      obtain ⟨j, c⟩ := c
      by_cases hj : j = i
      · subst hj; exact ⟨p :: ps, .take hp hps⟩
      · exact ⟨ps, .skip hj ⟨p, hp⟩ hps⟩
  obtain ⟨ps, hps⟩ := hp
  unfold applyForces
  induction fields generalizing bodies with
  | nil => exact ⟨bodies, rfl, rfl⟩
  | cons f fields ih =>
    obtain ⟨ps', hps', -⟩ := hps.filter (inRegion f.region)
    obtain ⟨b1, h1, h2, -⟩ := foldl_apply f dt i _ ps' hps' bodies
    have e := h2 h
    obtain ⟨b2, h3, h4⟩ := ih b1 (by rw [e]; exact h)
    exact ⟨b2, by simp only [foldlO, h1, Outcome.bind_ok]; exact h3, by rw [h4, e]⟩

/-- Velocity change promised for a body of mass `m`. -/
def ForceField.promised (m dt : K) : ForceField K → Vec2 K
  | .linear F _ => (dt / m) • F
  | .gravity a => dt • a

/-- Any list of fields whose regions cover the body: the velocity changes add up and the angular velocity does not
change. -/
theorem C30_superposition {i : Nat} {tree : List (Nat × Collider K)} {bodies : Nat → Body K} {ps : List (MassProperties K)}
    (h : InWorld i tree bodies ps) (fields : List (ForceField K)) (dt : K)
    (hcov : ∀ f ∈ fields, ∀ c ∈ tree, c.1 = i → inRegion f.region c = true)
    (ha : (bodies i).asleep = false) (hs : (bodies i).dominance ≠ 0) :
    ∃ bodies', applyForces fields dt tree bodies = .ok bodies' ∧
      bodies' i = { bodies i with
        velocity := (bodies i).velocity + (fields.map (ForceField.promised (bodies i).mass dt)).sum } := by
  obtain ⟨qs, hq, hperm⟩ := h.pieces
  unfold applyForces
  induction fields generalizing bodies with
  | nil => exact ⟨bodies, rfl, by simp⟩
  | cons f fields ih =>
    obtain ⟨qs', hq', he⟩ := hq.filter (inRegion f.region)
    obtain rfl := he (hcov f (by simp))
    obtain ⟨b1, h1, -, h3⟩ := foldl_apply f dt i _ qs' hq' bodies
    have e := h3 ⟨ha, hs⟩
    obtain ⟨m1, m2, m3, m4⟩ := moment_zero h.inv h.some hperm
    have e1 : b1 i = { bodies i with velocity := (bodies i).velocity + f.promised (bodies i).mass dt } := by
      rw [e, Body.kick_fold _ _ _ _ ha]
      have z : ∀ F : Vec2 K, Vec2.cross ((bodies i).position.orient.app ⟨0, 0⟩) F = 0 := by
        intro F; simp [Rotation.app, Vec2.cross]
      cases f with
      | linear F r =>
        rw [dv_linear_sum, dw_linear_sum, m3, m4, m1, z]
        have : (bodies i).mass * (bodies i).invMass * (bodies i).invMass * dt = dt / (bodies i).mass := by
          unfold Body.invMass; field_simp
        rw [this]; simp [Body.kick, ← ha, ForceField.promised]
      | gravity a =>
        rw [dv_gravity_sum, dw_gravity_sum, m3, m4, m1, z]
        have : (bodies i).mass * (bodies i).invMass * dt = dt := by
          unfold Body.invMass; field_simp
        rw [this]; simp [Body.kick, ← ha, ForceField.promised]
    have hb1 : InWorld i tree b1 ps := by
      refine ⟨?_, ⟨qs', hq, hperm⟩, h.some⟩
      rw [e1]; exact ⟨h.inv.1, h.inv.2, h.inv.3, h.inv.4⟩
    obtain ⟨b2, h4, h5⟩ := ih hb1 (fun f hf => hcov f (by simp [hf])) (by rw [e1]; exact ha) (by rw [e1]; exact hs)
    refine ⟨b2, by simp only [foldlO, h1, Outcome.bind_ok]; exact h4, ?_⟩
    rw [h5, e1]
    simp [Body.mass, add_assoc]

/-! ### C45 -/

theorem not_mem_eraseId (l : List (Collider K)) (id : Nat) (h : (l.map fun c => c.id).Nodup) :
    id ∉ (Colliders.eraseId id l).map fun c => c.id := by
  induction l with
  | nil => simp [Colliders.eraseId]
  | cons c l ih =>
    simp only [List.map_cons, List.nodup_cons] at h
    unfold Colliders.eraseId
    by_cases hc : c.id = id
    · subst hc; simpa using h.1
    · rw [if_neg hc, List.map_cons, List.mem_cons, not_or]
      exact ⟨fun e => hc e.symm, ih h.2⟩

/-- C45 is false: destroying a body has undefined behaviour exactly when it owns a collider, since the destructor's loop
erases the list node its iterator designates and then advances it. What is left of the claim is the body without colliders. -/
theorem C45_destroy_partial {b : Body K} {ps : List (MassProperties K)} (h : b.Inv ps) (hid : (b.colliders.list.map fun c => c.id).Nodup) :
    (b.destroy = .ub ↔ b.colliders.list ≠ []) ∧ (b.destroy = .ok () ↔ b.colliders.list = []) := by
  unfold Body.destroy
  cases hl : b.colliders.list with
  | nil => simp [Body.destroyLoop]
  | cons c rest =>
    obtain ⟨ps', h1, -, -, -, -, -, h7, -⟩ := Body.removeCollider_ok h c.id
    have hnot : (b.removeCollider c.id).1.colliders.list.any (fun c' => decide (c'.id = c.id)) = false := by
      rw [List.any_eq_false]
      intro d hd
      have := not_mem_eraseId b.colliders.list c.id hid
      rw [← h7] at this
      have hne : d.id ≠ c.id := fun e => this (List.mem_map.2 ⟨d, hd, e⟩)
      simpa using hne
    have : b.destroyLoop (c :: rest) = .ub := by
      simp only [Body.destroyLoop, h1, Outcome.bind_ok, hnot]; rfl
    rw [this]; simp

end forces

/-- A body with one collider, in a world containing also a collider of another body; it can neither be destroyed nor
avoid gravity. -/
theorem exWorld : ∃ (tree : List (Nat × Collider ℝ)) (bodies : Nat → Body ℝ) (ps : List (MassProperties ℝ)),
    InWorld 0 tree bodies ps ∧ (bodies 0).asleep = false ∧ (bodies 0).dominance ≠ 0 ∧
    ((bodies 0).colliders.list.map fun c => c.id).Nodup ∧ (bodies 0).colliders.list ≠ [] ∧ tree.length = 2 := by
  obtain ⟨s0, hs0, -⟩ := exSquare 0
  obtain ⟨s2, hs2, -⟩ := exSquare 2
  obtain ⟨p, h1, h2, h3, -⟩ := Body.addCollider_ok exBody_inv 1 hs0
  obtain ⟨q, hq⟩ := good_of_valid (id := 2) hs2 (g := .make s2) rfl
  have hlist : (exBody.addCollider 1 s0 exMatR).1.colliders.list.map (fun c => c.id) = [1] := by
    unfold Body.addCollider
    have : (exBody.colliders.add 1 s0 exMatR).2 = .ok () := by simp [Colliders.add, h3.1]
    simp only [this]
    simp [exBody, Body.recenter, Body.update, Colliders.update, Body.setVelocity, Colliders.add, h3.1, Body.make, Colliders.empty]
  refine ⟨[(1, ⟨2, .make s2, exMatR⟩), (0, ⟨1, .make s0, exMatR⟩)], fun _ => (exBody.addCollider 1 s0 exMatR).1, [p],
    ⟨h2, ⟨[p], .skip (by norm_num) ⟨q, hq⟩ (.take h3 .nil), .refl _⟩, by simp⟩, ?_, ?_, by rw [hlist]; simp, ?_, rfl⟩
  · unfold Body.addCollider
    have : (exBody.colliders.add 1 s0 exMatR).2 = .ok () := by simp [Colliders.add, h3.1]
    simp only [this]
    simp [exBody, Body.recenter, Body.update, Body.setVelocity]
  · unfold Body.addCollider
    have : (exBody.colliders.add 1 s0 exMatR).2 = .ok () := by simp [Colliders.add, h3.1]
    simp only [this]
    simp [exBody, Body.recenter, Body.update, Body.setVelocity, Body.make]
  · intro e; rw [e] at hlist; simp at hlist

example : ∃ (tree : List (Nat × Collider ℝ)) (bodies bodies' : Nat → Body ℝ),
    applyForces [.gravity ⟨0, -10⟩, .gravity ⟨3, 0⟩] 2 tree bodies = .ok bodies' ∧
    (bodies' 0).velocity = (bodies 0).velocity + ⟨6, -20⟩ := by
  obtain ⟨tree, bodies, ps, h, ha, hs, -⟩ := exWorld
  obtain ⟨b', h1, h2⟩ := C30_superposition h [.gravity ⟨0, -10⟩, .gravity ⟨3, 0⟩] 2
    (by intro f hf; simp at hf; rcases hf with rfl | rfl <;> simp [ForceField.region, inRegion]) ha hs
  refine ⟨tree, bodies, b', h1, ?_⟩
  rw [h2]; ext <;> norm_num [ForceField.promised]

example : ∃ (tree : List (Nat × Collider ℝ)) (bodies bodies' : Nat → Body ℝ),
    applyForces [.gravity ⟨0, -10⟩] 2 tree bodies = .ok bodies' ∧ (bodies' 0).angular = (bodies 0).angular ∧
    (bodies' 0).velocity = (bodies 0).velocity + (2 : ℝ) • ⟨0, -10⟩ := by
  obtain ⟨tree, bodies, ps, h, ha, hs, -⟩ := exWorld
  obtain ⟨b', h1, h2⟩ := C30_gravity h ⟨0, -10⟩ 2 ha hs
  exact ⟨tree, bodies, b', h1, by rw [h2], by rw [h2]⟩

example : ∃ (tree : List (Nat × Collider ℝ)) (bodies bodies' : Nat → Body ℝ),
    applyForces [.linear ⟨5, 0⟩ none] 2 tree bodies = .ok bodies' ∧
    (bodies 0).mass • ((bodies' 0).velocity - (bodies 0).velocity) = (2 : ℝ) • ⟨5, 0⟩ := by
  obtain ⟨tree, bodies, ps, h, ha, hs, -⟩ := exWorld
  obtain ⟨b', h1, h2, -⟩ := C30_linear h ⟨5, 0⟩ none 2 (by simp [inRegion]) ha hs
  exact ⟨tree, bodies, b', h1, h2⟩

/-- A structural body with one collider. -/
example : ∃ (c : Collider ℝ) (bodies' : Nat → Body ℝ),
    applyForces [.gravity ⟨0, -10⟩] 2 [(0, c)] (fun _ => Body.make ⟨1, 2⟩ 3 0) = .ok bodies' ∧
    bodies' 0 = Body.make ⟨1, 2⟩ 3 0 := by
  obtain ⟨s0, hs0, -⟩ := exSquare 0
  obtain ⟨q, hq⟩ := good_of_valid (id := 2) hs0 (g := .make s0) rfl
  obtain ⟨b', h1, h2⟩ := C30_untouched (i := 0) (tree := [(0, ⟨2, .make s0, exMatR⟩)])
    (by intro c hc; simp at hc; subst hc; exact ⟨q, hq⟩) (fun _ => Body.make ⟨1, 2⟩ 3 0) [.gravity ⟨0, -10⟩] 2 (Or.inr rfl)
  exact ⟨_, b', h1, h2⟩

example : ∃ b : Body ℝ, b.destroy = .ub := by
  obtain ⟨tree, bodies, ps, h, -, -, hn, hne, -⟩ := exWorld
  exact ⟨_, (C45_destroy_partial h.inv hn).1.2 hne⟩

end Simu
