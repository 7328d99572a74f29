import Verif.Lemmas.Body
/-
Lemmas on bodies: what changing the set of colliders does.
-/
namespace Simu
variable {K : Type*} [Field K] [LinearOrder K] [IsStrictOrderedRing K] [Trig K]

namespace Body

/-- Invariant of a body: mass properties of the pieces, centroid and orientation are in step. -/
structure Inv (b : Body K) (ps : List (MassProperties K)) : Prop where
  colliders : b.colliders.Inv ps
  centroid : ps ≠ [] → b.position.localCentroid.offset = b.colliders.properties.centroid
  orient : b.position.orient.Reachable
  attached : b.attached = true

/-- The world-space vertices of all colliders are those of the current placement. -/
def Synced (b : Body K) : Prop :=
  ∀ c ∈ b.colliders.list, c.geom.transformed = c.geom.localVerts.map b.position.toWorldSpace.app ∧
    c.geom.box = BoundingBox.ofVertices c.geom.transformed

theorem update_synced (b : Body K) : b.update.Synced := by
  intro c hc
  simp only [Body.update, Colliders.update, List.mem_map] at hc
  obtain ⟨d, -, rfl⟩ := hc
  exact ⟨rfl, rfl⟩

/-- What the adjustment amounts to when the placement did not change before it: only the local centroid moves. -/
theorem recenter_eq (b : Body K) : b.recenter b.centroid =
    ({ b with position := b.position.setLocalCentroid b.colliders.properties.centroid, asleep := false } : Body K).update := by
  have h : b.velocity + b.angular • Vec2.perp (b.centroid - b.centroid) = b.velocity := by
    ext <;> simp [Vec2.perp]
  unfold recenter
  simp only [h]
  rfl

theorem addCollider_ok {b : Body K} {ps : List (MassProperties K)} (h : b.Inv ps) (id : Nat) {polygon : List (Vec2 K)}
    {material : Material K} (hv : ValidDescriptor polygon material) :
    ∃ p, (b.addCollider id polygon material).2 = .ok () ∧ (b.addCollider id polygon material).1.Inv (ps ++ [p]) ∧
      (⟨id, .make polygon, material⟩ : Collider K).Good p ∧
      (b.addCollider id polygon material).1.Synced ∧
      (b.addCollider id polygon material).1.velocity = b.velocity ∧
      (b.addCollider id polygon material).1.angular = b.angular ∧
      (b.addCollider id polygon material).1.dominance = b.dominance ∧
      (b.addCollider id polygon material).1.position =
        b.position.setLocalCentroid (b.addCollider id polygon material).1.colliders.properties.centroid := by
  obtain ⟨p, h1, h2, h3, h4⟩ := h.colliders.add id hv
  have e : b.addCollider id polygon material =
      (({ b with colliders := (b.colliders.add id polygon material).1 } : Body K).recenter
        ({ b with colliders := (b.colliders.add id polygon material).1 } : Body K).centroid, .ok ()) := by
    unfold addCollider
    simp only [h.attached, Bool.not_true, Bool.false_eq_true, if_false, h1]
    rfl
  rw [e]
  simp only [recenter_eq]
  exact ⟨p, trivial, ⟨h2.update _, fun _ => rfl, h.orient, h.attached⟩, h3, update_synced _, rfl, rfl, rfl, rfl⟩

theorem removeCollider_ok {b : Body K} {ps : List (MassProperties K)} (h : b.Inv ps) (id : Nat) :
    ∃ ps', (b.removeCollider id).2 = .ok () ∧ (b.removeCollider id).1.Inv ps' ∧ ps'.Sublist ps ∧
      (b.removeCollider id).1.velocity = b.velocity ∧
      (b.removeCollider id).1.angular = b.angular ∧
      (b.removeCollider id).1.dominance = b.dominance ∧
      (b.removeCollider id).1.colliders.list.map (fun c => c.id) = (Colliders.eraseId id b.colliders.list).map (fun c => c.id) ∧
      (ps' = [] → (b.removeCollider id).1.position = b.position) ∧
      (ps' ≠ [] → (b.removeCollider id).1.Synced ∧ (b.removeCollider id).1.position =
        b.position.setLocalCentroid (b.removeCollider id).1.colliders.properties.centroid) := by
  obtain ⟨ps', h1, h2, h3⟩ := h.colliders.remove id
  have hl : (b.colliders.remove id).1.list = Colliders.eraseId id b.colliders.list := rfl
  by_cases he : ps' = []
  · subst he
    have hnil : (b.colliders.remove id).1.list = [] := by
      have := h2.1; cases hx : (b.colliders.remove id).1.list with
      | nil => rfl
      | cons c l => rw [hx] at this; cases this
    have e : b.removeCollider id = (({ b with colliders := (b.colliders.remove id).1 } : Body K), .ok ()) := by
      unfold removeCollider
      simp only [h.attached, Bool.not_true, Bool.false_eq_true, if_false, h1, hnil, List.isEmpty_nil, if_true]
    rw [e]
    exact ⟨[], rfl, ⟨h2, fun h => absurd rfl h, h.orient, h.attached⟩, h3, rfl, rfl, rfl, rfl, fun _ => rfl, fun h => absurd rfl h⟩
  · have hne : (b.colliders.remove id).1.list.isEmpty = false := by
      have := h2.1; cases hx : (b.colliders.remove id).1.list with
      | nil => rw [hx] at this; cases this; exact absurd rfl he
      | cons c l => rfl
    have e : b.removeCollider id =
        (({ b with colliders := (b.colliders.remove id).1 } : Body K).recenter
          ({ b with colliders := (b.colliders.remove id).1 } : Body K).centroid, .ok ()) := by
      unfold removeCollider
      simp only [h.attached, Bool.not_true, Bool.false_eq_true, if_false, h1, hne]
      rfl
    rw [e]
    simp only [recenter_eq]
    refine ⟨ps', trivial, ⟨h2.update _, fun _ => rfl, h.orient, h.attached⟩, h3, rfl, rfl, rfl, ?_, fun h => absurd h he, fun _ => ⟨update_synced _, rfl⟩⟩
    simp only [Body.update, Colliders.update, List.map_map, ← hl]
    rfl

end Body
end Simu
