import Verif.Spec.Tumbler
import Verif.Lemmas.Demos
import Verif.Lemmas.Picture
import Verif.Props.Mass
/-
Lemmas on the demonstration `Tumbler`.
-/
namespace Simu
namespace Tumbler
open Demos

/-- The points of a box. -/
theorem hull_boxAt {dims center : Vec2 ℝ} (hx : 0 < dims.x) (hy : 0 < dims.y) {P : Polygon ℝ} (h : Polygon.box dims center = .ok P) (p : Vec2 ℝ) :
    Hull P.vertices p ↔ |p.x - center.x| ≤ dims.x / 2 ∧ |p.y - center.y| ≤ dims.y / 2 := by
  have h1' := h
  unfold Polygon.box at h1'
  dsimp only at h1'
  obtain ⟨Q, k1, k2, -⟩ := C15_polygon [center + ⟨-(dims.x / 2), -(dims.y / 2)⟩, center + ⟨dims.x / 2, -(dims.y / 2)⟩, center + ⟨dims.x / 2, dims.y / 2⟩, center + ⟨-(dims.x / 2), dims.y / 2⟩] (by simp)
  rw [h1'] at k1
  obtain rfl : P = Q := Outcome.ok.inj k1
  have hb := hull_box (b := ⟨center + ⟨-(dims.x / 2), -(dims.y / 2)⟩, center + ⟨dims.x / 2, dims.y / 2⟩⟩) (by simp; linarith) (by simp; linarith) p
  have hm : ∀ v, v ∈ P.vertices ↔ v ∈ (Visible.boxPolygon (⟨center + ⟨-(dims.x / 2), -(dims.y / 2)⟩, center + ⟨dims.x / 2, dims.y / 2⟩⟩ : BoundingBox ℝ)).vertices := fun v => by
    have : v ∈ P.vertices ↔ v ∈ [center + ⟨-(dims.x / 2), -(dims.y / 2)⟩, center + ⟨dims.x / 2, -(dims.y / 2)⟩, center + ⟨dims.x / 2, dims.y / 2⟩, center + ⟨-(dims.x / 2), dims.y / 2⟩] := by
      rcases k2 with k | k
      · rw [k]
      · rw [k, List.mem_reverse]
    rw [this]
    rfl
  have : Hull P.vertices p ↔ Hull (Visible.boxPolygon (⟨center + ⟨-(dims.x / 2), -(dims.y / 2)⟩, center + ⟨dims.x / 2, dims.y / 2⟩⟩ : BoundingBox ℝ)).vertices p :=
    ⟨hull_mono fun v hv => (hm v).1 hv, hull_mono fun v hv => (hm v).2 hv⟩
  rw [this, hb, abs_le, abs_le]
  simp only [Spec.inBox, Vec2.add_x, Vec2.add_y]
  constructor
  · rintro ⟨⟨a, b⟩, c, d⟩
    exact ⟨⟨by linarith, by linarith⟩, by linarith, by linarith⟩
  · rintro ⟨⟨a, b⟩, c, d⟩
    exact ⟨⟨by linarith, by linarith⟩, by linarith, by linarith⟩

/-- The mass properties of a box. -/
theorem box_properties {dims center : Vec2 ℝ} (hx : 0 < dims.x) (hy : 0 < dims.y) {P : Polygon ℝ} (h : Polygon.box dims center = .ok P) {m : Material ℝ} (hd : 0 < m.density) (id : Nat) :
    ValidDescriptor P.vertices m ∧ (⟨id, .make P.vertices, m⟩ : Collider ℝ).properties =
      .ok ⟨dims.x * dims.y * m.density, dims.x * dims.y * (dims.x * dims.x + dims.y * dims.y) / 12 * m.density, center⟩ := by
  obtain ⟨P', vs, h1, h2, h3, -⟩ := box_around center hx hy
  rw [h] at h1
  obtain rfl : P = P' := Outcome.ok.inj h1
  obtain ⟨P', h1, a1, a2, a3, -⟩ := C15_box dims center (mul_pos hx hy).ne'
  rw [h] at h1
  obtain rfl : P = P' := Outcome.ok.inj h1
  rw [abs_of_pos (mul_pos hx hy)] at a1 a3
  obtain ⟨Q, k1, -, k3, -⟩ := C15_polygon vs (by
    by_contra hc
    rw [C15_too_few vs (by omega)] at h2
    cases h2)
  rw [h2] at k1
  obtain rfl : P = Q := Outcome.ok.inj k1
  refine ⟨⟨hd, vs, P, h2, h3, rfl⟩, ?_⟩
  simp only [Collider.properties, MassProperties.ofGeometry, ColliderGeom.make, k3, h3, Outcome.check, hd, decide_true, Outcome.bind, Bool.not_false, if_true, a1, a2, a3]

/-- The colliders after one was added. -/
theorem addCollider_verts {b : Body ℝ} {ps : List (MassProperties ℝ)} (h : b.Inv ps) (id : Nat) {polygon : List (Vec2 ℝ)} {m : Material ℝ} (hv : ValidDescriptor polygon m) :
    (b.addCollider id polygon m).1.colliders.list.map (fun c => c.geom.localVerts) = b.colliders.list.map (fun c => c.geom.localVerts) ++ [polygon] := by
  obtain ⟨p, h1, -⟩ := h.colliders.add id hv
  unfold Body.addCollider
  simp only [h.attached, Bool.not_true, Bool.false_eq_true, if_false, h1]
  obtain ⟨f, hf⟩ := Body.recenter_list ({ b with colliders := (b.colliders.add id polygon m).1, attached := true } : Body ℝ) b.centroid
  rw [hf, List.map_map]
  show List.map _ (b.colliders.add id polygon m).1.list = _
  rw [Body.add_list, List.map_append]
  rfl

theorem addWalls_ok (ws : List (Vec2 ℝ × Vec2 ℝ)) (hw : ∀ w ∈ ws, 0 < w.1.x ∧ 0 < w.1.y) {b : Body ℝ} {ps : List (MassProperties ℝ)} (h : b.Inv ps) (hs : b.Synced) (id : Nat) :
    ∃ b', addWalls id b ws = .ok b' ∧
      b'.Inv (ps ++ ws.map fun w => ⟨w.1.x * w.1.y * 5, w.1.x * w.1.y * (w.1.x * w.1.x + w.1.y * w.1.y) / 12 * 5, w.2⟩) ∧ b'.Synced ∧
      b'.velocity = b.velocity ∧ b'.angular = b.angular ∧ b'.dominance = b.dominance ∧ (∃ o, b'.position = b.position.setLocalCentroid o) ∧
      ∃ vs, b'.colliders.list.map (fun c => c.geom.localVerts) = b.colliders.list.map (fun c => c.geom.localVerts) ++ vs ∧
        List.Forall₂ (fun (w : Vec2 ℝ × Vec2 ℝ) v => ∃ P, Polygon.box w.1 w.2 = .ok P ∧ v = P.vertices) ws vs := by
  induction ws generalizing b ps id with
  | nil => exact ⟨b, rfl, by simpa using h, hs, rfl, rfl, rfl, ⟨b.position.localCentroid.offset, rfl⟩, [], by simp, .nil⟩
  | cons w ws ih =>
    obtain ⟨hx, hy⟩ := hw w List.mem_cons_self
    obtain ⟨P, -, hP, -⟩ := box_around w.2 hx hy
    obtain ⟨hv, hpr⟩ := box_properties hx hy hP (m := material 5 (8 / 10) 0) (by norm_num [material]) id
    obtain ⟨p, a1, a2, a3, a4, a5, a6, a7, a8⟩ := Body.addCollider_ok h id hv
    have hp := Outcome.ok.inj (a3.1.symm.trans hpr)
    obtain ⟨b', i1, i2, i3, i4, i5, i6, ⟨o, i7⟩, vs, i8, i9⟩ := ih (fun w hw' => hw w (List.mem_cons_of_mem _ hw')) a2 a4 (id + 1)
    refine ⟨b', ?_, ?_, i3, i4.trans a5, i5.trans a6, i6.trans a7, ⟨o, ?_⟩, P.vertices :: vs, ?_, .cons ⟨P, hP, rfl⟩ i9⟩
    · simp only [addWalls, hP, Outcome.bind, a1, i1]
    · rw [hp] at i2
      simpa [material] using i2
    · rw [i7, a8]; rfl
    · rw [i8, addCollider_verts h id hv]; simp

end Tumbler
end Simu
