import Verif.Spec.Transform
import Verif.Lemmas.Vec2
import Verif.Lemmas.Mat9
import Mathlib.Algebra.BigOperators.Fin
import Mathlib.Tactic.LinearCombination
/-
C26 (rigid transforms) and C27 (placement of a body).
-/
namespace Simu
variable {K : Type*} [Field K] [Trig K] [LawfulTrig K]
open LawfulTrig

private theorem vx (a b : Vec2 K) : (a + b).x = a.x + b.x := rfl
private theorem vy (a b : Vec2 K) : (a + b).y = a.y + b.y := rfl
private theorem sx (a b : Vec2 K) : (a - b).x = a.x - b.x := rfl
private theorem sy (a b : Vec2 K) : (a - b).y = a.y - b.y := rfl
private theorem nx (a : Vec2 K) : (-a).x = -a.x := rfl
private theorem ny (a : Vec2 K) : (-a).y = -a.y := rfl
private theorem zx : (0 : Vec2 K).x = 0 := rfl
private theorem zy : (0 : Vec2 K).y = 0 := rfl

/-- Whatever a user does, a rotation's cosine and sine are those of its angle. -/
theorem C26_rotation_wf {r : Rotation K} (h : r.Reachable) : r.WF := by
  induction h with
  | ofAngle a => exact ⟨rfl, rfl⟩
  | inverse _ ih => exact ⟨by simp [Rotation.inverse, cos_neg, ih.1], by simp [Rotation.inverse, sin_neg, ih.2]⟩
  | mul _ _ _ _ => exact ⟨rfl, rfl⟩

example : ((Rotation.ofAngle (1 : ℝ)).inverse.mul (.ofAngle 3)).WF := C26_rotation_wf (.mul (.inverse (.ofAngle _)) (.ofAngle _))

theorem Rotation.WF.eq {r : Rotation K} (h : r.WF) : r = .ofAngle r.theta := by
  obtain ⟨t, c, s⟩ := r; obtain ⟨h1, h2⟩ := h
  simp only at h1 h2; subst h1; subst h2; rfl

theorem Rotation.WF.sq {r : Rotation K} (h : r.WF) : r.cosine * r.cosine + r.sine * r.sine = 1 := by
  rw [h.1, h.2]; exact sq_add_sq _

/-- A reachable rotation acts as the counter-clockwise rotation by its angle about the origin. -/
theorem C26_rotation_action {r : Rotation K} (h : r.Reachable) (p : Vec2 K) :
    r.app p = rotateAbout (Trig.cos r.theta) (Trig.sin r.theta) 0 p := by
  have := C26_rotation_wf h
  ext <;> simp [Rotation.app, rotateAbout, this.1, this.2, zx, zy]

example : (Rotation.ofAngle (Real.pi / 2)).app ⟨1, 0⟩ = ⟨0, 1⟩ := by
  rw [C26_rotation_action (.ofAngle _)]
  ext <;> simp [rotateAbout, Rotation.ofAngle, Trig.cos, Trig.sin, zx, zy]

/-- Angles add under composition and are negated by inversion. -/
theorem C26_angles (r s : Rotation K) : (r.mul s).theta = r.theta + s.theta ∧ r.inverse.theta = -r.theta :=
  ⟨rfl, rfl⟩

example : ((Rotation.ofAngle (2 : ℝ)).mul (.ofAngle 5)).theta = 7 := by
  rw [(C26_angles _ _).1]; norm_num [Rotation.ofAngle]

private theorem mul_wf {r s : Rotation K} (hr : r.WF) (hs : s.WF) (p : Vec2 K) : (r.mul s).app p = r.app (s.app p) := by
  ext <;> simp only [Rotation.app, Rotation.mul, Rotation.ofAngle, cos_add, sin_add, hr.1, hr.2, hs.1, hs.2] <;> ring

/-- For all nine products of rotations, translations and transforms, the product applied to a point is the left
factor applied to the right factor applied to the point. -/
theorem C26_compose {r s : Rotation K} (hr : r.Reachable) (hs : s.Reachable) (t u : Translation K)
    {A B : Transform K} (hA : A.r.Reachable) (hB : B.r.Reachable) (p : Vec2 K) :
    (r.mul s).app p = r.app (s.app p) ∧
    (t.mul u).app p = t.app (u.app p) ∧
    (r.mulTranslation t).app p = r.app (t.app p) ∧
    (t.mulRotation r).app p = t.app (r.app p) ∧
    (A.mulTranslation t).app p = A.app (t.app p) ∧
    (A.mulRotation r).app p = A.app (r.app p) ∧
    (t.mulTransform A).app p = t.app (A.app p) ∧
    (r.mulTransform A).app p = r.app (A.app p) ∧
    (A.mul B).app p = A.app (B.app p) := by
  have wr := C26_rotation_wf hr
  have ws := C26_rotation_wf hs
  have wA := C26_rotation_wf hA
  have wB := C26_rotation_wf hB
  refine ⟨mul_wf wr ws p, ?_, ?_, ?_, ?_, ?_, ?_, ?_, ?_⟩
  · ext <;> simp only [Translation.app, Translation.mul, vx, vy] <;> ring
  · ext <;> simp only [Transform.app, Rotation.mulTranslation, Translation.app, Rotation.app, vx, vy] <;> ring
  · ext <;> simp only [Transform.app, Translation.mulRotation, Translation.app, Rotation.app, vx, vy]
  · ext <;> simp only [Transform.app, Transform.mulTranslation, Translation.app, Rotation.app, vx, vy] <;> ring
  · simp only [Transform.app, Transform.mulRotation, mul_wf wA wr]
  · ext <;> simp only [Transform.app, Translation.mulTransform, Translation.mul, Translation.app, Rotation.app, vx, vy] <;> ring
  · simp only [Transform.app, Rotation.mulTransform, mul_wf wA wr]
    ext <;> simp only [Rotation.app, vx, vy] <;> ring
  · simp only [Transform.app, Transform.mul, Rotation.mulTransform, Translation.mul, mul_wf wB wA]
    ext <;> simp only [Rotation.app, vx, vy] <;> ring

/-- Turning by 1 then moving by (1, 2), against moving by (1, 2) and then turning by 1. -/
example (p : Vec2 ℝ) :
    (Translation.mulRotation ⟨⟨1, 2⟩⟩ (.ofAngle 1)).app p = Translation.app ⟨⟨1, 2⟩⟩ ((Rotation.ofAngle 1).app p) ∧
    ((Rotation.ofAngle 1).mulTranslation ⟨⟨1, 2⟩⟩).app p = (Rotation.ofAngle (1 : ℝ)).app (Translation.app ⟨⟨1, 2⟩⟩ p) := by
  have := C26_compose (K := ℝ) (.ofAngle 1) (.ofAngle 1) ⟨⟨1, 2⟩⟩ ⟨0⟩ (A := .identity) (B := .identity) (.ofAngle _) (.ofAngle _) p
  exact ⟨this.2.2.2.1, this.2.2.1⟩

/-- The rotation part of every product is again reachable: the products can be nested. -/
theorem C26_closed {r s : Rotation K} (hr : r.Reachable) (hs : s.Reachable) (t : Translation K)
    {A B : Transform K} (hA : A.r.Reachable) (hB : B.r.Reachable) :
    (r.mul s).Reachable ∧ (r.mulTranslation t).r.Reachable ∧ (t.mulRotation r).r.Reachable ∧
    (A.mulTranslation t).r.Reachable ∧ (A.mulRotation r).r.Reachable ∧ (t.mulTransform A).r.Reachable ∧
    (r.mulTransform A).r.Reachable ∧ (A.mul B).r.Reachable ∧ A.inverse.r.Reachable ∧
    (Transform.identity : Transform K).r.Reachable :=
  ⟨.mul hr hs, hr, hr, hA, .mul hA hr, hA, .mul hA hr, .mul hB hA, .inverse hA, .ofAngle _⟩

example : (((Transform.identity : Transform ℝ).mul ⟨.ofAngle 1, ⟨⟨1, 2⟩⟩⟩).inverse).r.Reachable :=
  .inverse (C26_closed (.ofAngle 0) (.ofAngle 0) ⟨0⟩ (.ofAngle _) (B := ⟨.ofAngle 1, ⟨⟨1, 2⟩⟩⟩) (.ofAngle _)).2.2.2.2.2.2.2.1

/-- Transforms form a group as objects, not only through their action: angles and offsets of the two
parenthesisations are the same. -/
theorem C26_group {A B C : Transform K} (hA : A.r.Reachable) (hB : B.r.Reachable) (hC : C.r.Reachable) :
    (A.mul B).mul C = A.mul (B.mul C) ∧
    Transform.identity.mul A = A ∧ A.mul .identity = A ∧
    A.mul A.inverse = .identity ∧ A.inverse.mul A = .identity ∧ A.inverse.inverse = A := by
  have wA := C26_rotation_wf hA
  have wB := C26_rotation_wf hB
  have wC := C26_rotation_wf hC
  have key := wA.sq
  refine ⟨?_, ?_, ?_, ?_, ?_, ?_⟩
  · simp only [Transform.mul, Rotation.mulTransform, Translation.mul]
    refine Transform.ext ?_ ?_
    · simp only [Rotation.mul, Rotation.ofAngle]; rw [add_assoc]
    · refine Translation.ext ?_
      ext <;> simp only [Rotation.app, Rotation.mul, Rotation.ofAngle, vx, vy, wA.1, wA.2, wB.1, wB.2, cos_add, sin_add] <;> ring
  · refine Transform.ext ?_ (Translation.ext ?_)
    · simp only [Transform.mul, Rotation.mulTransform, Transform.identity, Rotation.mul, Rotation.ofAngle, add_zero]
      exact wA.eq.symm
    · ext <;> simp [Transform.mul, Rotation.mulTransform, Transform.identity, Translation.mul, Rotation.app, Rotation.ofAngle, cos_zero, sin_zero, vx, vy, zx, zy]
  · refine Transform.ext ?_ (Translation.ext ?_)
    · simp only [Transform.mul, Rotation.mulTransform, Transform.identity, Rotation.mul, Rotation.ofAngle, zero_add]
      exact wA.eq.symm
    · ext <;> simp [Transform.mul, Rotation.mulTransform, Transform.identity, Translation.mul, Rotation.app, vx, vy, zx, zy]
  · refine Transform.ext ?_ (Translation.ext ?_)
    · simp [Transform.mul, Rotation.mulTransform, Transform.identity, Rotation.mul, Rotation.ofAngle, Transform.inverse, Rotation.inverse, Rotation.mulTranslation]
    · ext <;> simp only [Transform.mul, Rotation.mulTransform, Transform.identity, Translation.mul, Rotation.app, Transform.inverse, Rotation.inverse, Rotation.mulTranslation, Translation.inverse, vx, vy, zx, zy, nx, ny]
      · linear_combination (-A.t.offset.x) * key
      · linear_combination (-A.t.offset.y) * key
  · refine Transform.ext ?_ (Translation.ext ?_)
    · simp [Transform.mul, Rotation.mulTransform, Transform.identity, Rotation.mul, Rotation.ofAngle, Transform.inverse, Rotation.inverse, Rotation.mulTranslation]
    · ext <;> simp only [Transform.mul, Rotation.mulTransform, Transform.identity, Translation.mul, Rotation.app, Transform.inverse, Rotation.inverse, Rotation.mulTranslation, Translation.inverse, vx, vy, zx, zy, nx, ny] <;> ring
  · refine Transform.ext ?_ (Translation.ext ?_)
    · simp [Transform.inverse, Rotation.inverse, Rotation.mulTranslation]
    · ext <;> simp only [Rotation.app, Transform.inverse, Rotation.inverse, Rotation.mulTranslation, Translation.inverse, vx, vy, zx, zy, nx, ny]
      · linear_combination (A.t.offset.x) * key
      · linear_combination (A.t.offset.y) * key

example : let A : Transform ℝ := ⟨.ofAngle 1, ⟨⟨1, 2⟩⟩⟩; A.mul A.inverse = .identity :=
  (C26_group (.ofAngle _) (.ofAngle 0) (.ofAngle 0) (B := .identity) (C := .identity)).2.2.2.1

/-- The inverse transform undoes the transform on every point, on both sides; likewise for rotations and
translations. -/
theorem C26_inverse {A : Transform K} (hA : A.r.Reachable) {r : Rotation K} (hr : r.Reachable) (t : Translation K) (p : Vec2 K) :
    A.inverse.app (A.app p) = p ∧ A.app (A.inverse.app p) = p ∧
    r.inverse.app (r.app p) = p ∧ r.app (r.inverse.app p) = p ∧
    t.inverse.app (t.app p) = p ∧ t.app (t.inverse.app p) = p := by
  have kA := (C26_rotation_wf hA).sq
  have kr := (C26_rotation_wf hr).sq
  refine ⟨?_, ?_, ?_, ?_, ?_, ?_⟩
  · ext <;> simp only [Transform.app, Rotation.app, Transform.inverse, Rotation.inverse, Rotation.mulTranslation, Translation.inverse, vx, vy, nx, ny]
    · linear_combination p.x * kA
    · linear_combination p.y * kA
  · ext <;> simp only [Transform.app, Rotation.app, Transform.inverse, Rotation.inverse, Rotation.mulTranslation, Translation.inverse, vx, vy, nx, ny]
    · linear_combination (p.x - A.t.offset.x) * kA
    · linear_combination (p.y - A.t.offset.y) * kA
  · ext <;> simp only [Rotation.app, Rotation.inverse]
    · linear_combination p.x * kr
    · linear_combination p.y * kr
  · ext <;> simp only [Rotation.app, Rotation.inverse]
    · linear_combination p.x * kr
    · linear_combination p.y * kr
  · ext <;> simp only [Translation.app, Translation.inverse, vx, vy, nx, ny] <;> ring
  · ext <;> simp only [Translation.app, Translation.inverse, vx, vy, nx, ny] <;> ring

example (p : Vec2 ℝ) : let A : Transform ℝ := ⟨.ofAngle 1, ⟨⟨1, 2⟩⟩⟩; A.inverse.app (A.app p) = p :=
  (C26_inverse (.ofAngle _) (.ofAngle 0) ⟨0⟩ p).1

/-- Transforms, rotations and translations preserve distances and orientation. -/
theorem C26_rigid {A : Transform K} (hA : A.r.Reachable) {r : Rotation K} (hr : r.Reachable) (t : Translation K) :
    IsRigid A.app ∧ IsRigid r.app ∧ IsRigid t.app := by
  have kA := (C26_rotation_wf hA).sq
  have kr := (C26_rotation_wf hr).sq
  refine ⟨⟨fun p q => ?_, fun p q w => ?_⟩, ⟨fun p q => ?_, fun p q w => ?_⟩, ⟨fun p q => ?_, fun p q w => ?_⟩⟩ <;>
    simp only [Vec2.normSquared, Vec2.dot, Vec2.cross, Transform.app, Translation.app, Rotation.app, vx, vy, sx, sy]
  · linear_combination ((p.x - q.x) * (p.x - q.x) + (p.y - q.y) * (p.y - q.y)) * kA
  · linear_combination ((q.x - p.x) * (w.y - p.y) - (q.y - p.y) * (w.x - p.x)) * kA
  · linear_combination ((p.x - q.x) * (p.x - q.x) + (p.y - q.y) * (p.y - q.y)) * kr
  · linear_combination ((q.x - p.x) * (w.y - p.y) - (q.y - p.y) * (w.x - p.x)) * kr
  · ring
  · ring

example : IsRigid (Transform.app (⟨.ofAngle 1, ⟨⟨1, 2⟩⟩⟩ : Transform ℝ)) := (C26_rigid (.ofAngle _) (.ofAngle 0) ⟨0⟩).1

omit [Trig K] [LawfulTrig K] in
private theorem tf_mat (A : Transform K) : A.toMat3 =
    .ok (m9 A.r.cosine (-A.r.sine) A.t.offset.x A.r.sine A.r.cosine A.t.offset.y 0 0 1) := by
  rw [Transform.toMat3, Rotation.toMat3, ofList9]
  show Outcome.ok _ = _
  congr 1
  apply Mat.ext_get
  intro r c
  rw [Mat.get_set, Mat.get_set]
  fin_cases r <;> fin_cases c <;> rfl

/-- The matrix of a transform, rotation or translation exists (the conversions do not throw) and acts on points
as the object itself does. -/
theorem C26_mat3 (A : Transform K) (r : Rotation K) (t : Translation K) :
    (∃ M, A.toMat3 = .ok M ∧ ∀ p, mat3App M p = A.app p) ∧
    (∃ M, r.toMat3 = .ok M ∧ ∀ p, mat3App M p = r.app p) ∧
    (∃ M, t.toMat3 = .ok M ∧ ∀ p, mat3App M p = t.app p) := by
  refine ⟨⟨_, tf_mat A, fun p => ?_⟩, ⟨_, ofList9 .., fun p => ?_⟩, ⟨_, ofList9 .., fun p => ?_⟩⟩ <;>
    rw [m9_app] <;> ext <;> simp only [Transform.app, Rotation.app, Translation.app, vx, vy] <;> ring

example : ∃ M, (Rotation.ofAngle (1 : ℝ)).toMat3 = .ok M ∧ ∀ p, mat3App M p = (Rotation.ofAngle 1).app p :=
  (C26_mat3 .identity (.ofAngle 1) ⟨0⟩).2.1

/-- Conversion to matrices is a homomorphism: the matrix of a product is the product of the matrices, and the
matrix of the inverse is an inverse of the matrix. -/
theorem C26_mat3_mul {A B : Transform K} (hA : A.r.Reachable) (hB : B.r.Reachable) :
    ∃ MA MB MI, A.toMat3 = .ok MA ∧ B.toMat3 = .ok MB ∧ A.inverse.toMat3 = .ok MI ∧
      (A.mul B).toMat3 = .ok (MA.mul MB) ∧ MA.mul MI = Mat.identity ∧ MI.mul MA = Mat.identity := by
  have wA := C26_rotation_wf hA
  have wB := C26_rotation_wf hB
  have kA := wA.sq
  have hid : (Mat.identity : Mat K 3 3) = m9 1 0 0 0 1 0 0 0 1 := by
    apply Mat.ext_get; intro r c; rw [Mat.get_identity]; fin_cases r <;> fin_cases c <;> rfl
  refine ⟨_, _, _, tf_mat A, tf_mat B, tf_mat _, ?_, ?_, ?_⟩
  · rw [tf_mat, m9_mul]
    congr 1
    simp only [Transform.mul, Rotation.mulTransform, Translation.mul, Rotation.mul, Rotation.ofAngle, Rotation.app,
      cos_add, sin_add, wA.1, wA.2, wB.1, wB.2, vx, vy]
    congr 1 <;> ring
  · rw [hid, m9_mul]
    simp only [Transform.inverse, Rotation.mulTranslation, Rotation.inverse, Translation.inverse, Rotation.app, nx, ny]
    congr 1
    · linear_combination kA
    · ring
    · linear_combination (-A.t.offset.x) * kA
    · ring
    · linear_combination kA
    · linear_combination (-A.t.offset.y) * kA
    all_goals ring
  · rw [hid, m9_mul]
    simp only [Transform.inverse, Rotation.mulTranslation, Rotation.inverse, Translation.inverse, Rotation.app, nx, ny]
    congr 1
    · linear_combination kA
    · ring
    · ring
    · ring
    · linear_combination kA
    all_goals ring

example : let A : Transform ℝ := ⟨.ofAngle 1, ⟨⟨1, 2⟩⟩⟩
    ∃ MA MB MI, A.toMat3 = .ok MA ∧ A.toMat3 = .ok MB ∧ A.inverse.toMat3 = .ok MI ∧
      (A.mul A).toMat3 = .ok (MA.mul MB) ∧ MA.mul MI = Mat.identity ∧ MI.mul MA = Mat.identity :=
  C26_mat3_mul (.ofAngle _) (.ofAngle _)

/-- `transformAround` rotates about the given origin and then translates. -/
theorem C26_transformAround (theta : K) (offset origin p : Vec2 K) :
    (Transform.transformAround theta offset origin).app p =
      rotateAbout (Trig.cos theta) (Trig.sin theta) origin p + offset := by
  ext <;> simp only [Transform.transformAround, Transform.app, Transform.mulTranslation, Translation.mulRotation,
    Rotation.app, Rotation.ofAngle, rotateAbout, vx, vy, nx, ny] <;> ring

example : (Transform.transformAround (2 : ℝ) ⟨0, 0⟩ ⟨3, 4⟩).app ⟨3, 4⟩ = ⟨3, 4⟩ := by
  rw [C26_transformAround]; ext <;> simp [rotateAbout, vx, vy]

/-! ## C27 -/

/-- A body's material points are placed by turning the local geometry about its centroid and then translating it
by the position. -/
theorem C27_placement (pos c p : Vec2 K) (theta : K) :
    (Position.make pos theta c).toWorldSpace.app p =
      rotateAbout (Trig.cos theta) (Trig.sin theta) c p + pos := by
  ext <;> simp only [Position.toWorldSpace, Position.make, Transform.app, Transform.mulTranslation,
    Translation.mulRotation, Translation.mul, Translation.inverse, Rotation.app, Rotation.ofAngle, rotateAbout, vx, vy, nx, ny] <;> ring

/-- A body at (10, 0), turned by a quarter about its centroid (1, 1): its local origin sits at (12, 0). -/
example : (Position.make ⟨10, 0⟩ (Real.pi / 2) ⟨1, 1⟩).toWorldSpace.app ⟨0, 0⟩ = ⟨12, 0⟩ := by
  rw [C27_placement]; ext <;> norm_num [rotateAbout, vx, vy, Trig.cos, Trig.sin]

/-- A position whose orientation was obtained through the interface. -/
theorem Position.reach {P : Position K} (h : P.orient.Reachable) : P.toWorldSpace.r.Reachable := h

/-- `toLocalSpace` and `toWorldSpace` are mutually inverse, and both are rigid. -/
theorem C27_inverse {P : Position K} (h : P.orient.Reachable) (p : Vec2 K) :
    P.toLocalSpace.app (P.toWorldSpace.app p) = p ∧ P.toWorldSpace.app (P.toLocalSpace.app p) = p ∧
    IsRigid P.toWorldSpace.app ∧ IsRigid P.toLocalSpace.app :=
  ⟨(C26_inverse h h ⟨0⟩ p).1, (C26_inverse h h ⟨0⟩ p).2.1, (C26_rigid h h ⟨0⟩).1, (C26_rigid (.inverse h) h ⟨0⟩).1⟩

example (p : Vec2 ℝ) : let P := Position.make ⟨10, 0⟩ 2 ⟨1, 1⟩
    P.toLocalSpace.app (P.toWorldSpace.app p) = p := (C27_inverse (.ofAngle _) p).1

/-- The world centroid is position plus local centroid whatever the orientation. -/
theorem C27_centroid (P : Position K) : P.centroid = P.pos.offset + P.localCentroid.offset := by
  ext <;> simp only [Position.centroid, Position.toWorldSpace, Transform.app, Transform.mulTranslation,
    Translation.mulRotation, Translation.mul, Translation.inverse, Rotation.app, vx, vy, nx, ny] <;> ring

example : (Position.make ⟨10, 0⟩ 2 ⟨1, 1⟩ : Position ℝ).centroid = ⟨11, 1⟩ := by
  rw [C27_centroid]; ext <;> norm_num [Position.make, vx, vy]

/-- `advance(d, a)` moves the world centroid by `d`, adds `a` to the orientation, keeps the local centroid and
moves every material point by the rotation by `a` about the old world centroid followed by the translation by
`d`. -/
theorem C27_advance {P : Position K} (h : P.orient.Reachable) (d : Vec2 K) (a : K) (p : Vec2 K) :
    (P.advance d a).centroid = P.centroid + d ∧
    (P.advance d a).orient.theta = P.orient.theta + a ∧
    (P.advance d a).localCentroid = P.localCentroid ∧
    (P.advance d a).orient.Reachable ∧
    (P.advance d a).toWorldSpace.app p =
      rotateAbout (Trig.cos a) (Trig.sin a) P.centroid (P.toWorldSpace.app p) + d := by
  have w := C26_rotation_wf h
  refine ⟨?_, rfl, rfl, .mul h (.ofAngle _), ?_⟩
  · rw [C27_centroid, C27_centroid]
    ext <;> simp only [Position.advance, Translation.mul, vx, vy] <;> ring
  · rw [C27_centroid]
    ext <;> simp only [Position.advance, Position.toWorldSpace, Transform.app, Transform.mulTranslation,
      Translation.mulRotation, Translation.mul, Translation.inverse, Rotation.app, Rotation.mul, Rotation.ofAngle,
      rotateAbout, cos_add, sin_add, w.1, w.2, vx, vy, nx, ny] <;> ring

example : ((Position.make ⟨10, 0⟩ 2 ⟨1, 1⟩ : Position ℝ).advance ⟨3, 4⟩ 1).orient.theta = 3 := by
  rw [(C27_advance (.ofAngle _) _ _ 0).2.1]; norm_num [Position.make, Rotation.ofAngle]

/-- Advancing by parts is advancing by the sum: the drift of a body depends only on the total motion. -/
theorem C27_advance_add (P : Position K) (d d' : Vec2 K) (a a' : K) :
    (P.advance d a).advance d' a' = P.advance (d + d') (a + a') := by
  simp only [Position.advance, Translation.mul, Rotation.mul, Rotation.ofAngle, add_assoc]

example : ((Position.make ⟨10, 0⟩ 2 ⟨1, 1⟩ : Position ℝ).advance ⟨3, 4⟩ 1).advance ⟨-3, -4⟩ 7 =
    (Position.make ⟨10, 0⟩ 2 ⟨1, 1⟩).advance (⟨3, 4⟩ + ⟨-3, -4⟩) (1 + 7) := C27_advance_add _ _ _ _ _

end Simu
