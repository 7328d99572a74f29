import Verif.Model.BodyHistory
import Verif.Lemmas.BodyMotion
import Verif.Props.Transform
import Verif.Spec.Overlap
/-
Lemmas on the life of a body and on shapes moved rigidly.
-/
namespace Simu
variable {K : Type*} [Field K] [LinearOrder K] [IsStrictOrderedRing K]

theorem rigid_area {f : Vec2 K → Vec2 K} (h : IsRigid f) (a b c : Vec2 K) : twiceArea (f a) (f b) (f c) = twiceArea a b c := by
  have := h.2 a b c
  simpa only [Vec2.cross, Vec2.sub_x, Vec2.sub_y, twiceArea] using this

theorem rigid_dot {f : Vec2 K → Vec2 K} (h : IsRigid f) (a b c : Vec2 K) : Vec2.dot (f b - f a) (f c - f b) = Vec2.dot (b - a) (c - b) := by
  have h1 := h.1 a b
  have h2 := h.1 b c
  have h3 := h.1 a c
  simp only [Vec2.normSquared, Vec2.dot_def, Vec2.sub_x, Vec2.sub_y] at h1 h2 h3 ⊢
  linear_combination (h3 - h1 - h2) / 2

theorem rigid_convex {f : Vec2 K → Vec2 K} (h : IsRigid f) {l : List (Vec2 K)} (hl : StrictlyConvex l) : StrictlyConvex (l.map f) := by
  refine ⟨by rw [List.length_map]; exact hl.1, fun i k a b c ha hb hc k1 k2 => ?_⟩
  rw [List.length_map] at hb k2
  rw [List.getElem?_map, Option.map_eq_some_iff] at ha hb hc
  obtain ⟨a', ha, rfl⟩ := ha
  obtain ⟨b', hb, rfl⟩ := hb
  obtain ⟨c', hc, rfl⟩ := hc
  rw [rigid_area h]
  exact hl.2 i k a' b' c' ha hb hc k1 k2

theorem rigid_noObtuse {f : Vec2 K → Vec2 K} (h : IsRigid f) {l : List (Vec2 K)} (hl : NoObtuse l) : NoObtuse (l.map f) := by
  intro i a b c ha hb hc
  rw [List.length_map] at hb hc
  rw [List.getElem?_map, Option.map_eq_some_iff] at ha hb hc
  obtain ⟨a', ha, rfl⟩ := ha
  obtain ⟨b', hb, rfl⟩ := hb
  obtain ⟨c', hc, rfl⟩ := hc
  rw [rigid_dot h]
  exact hl i a' b' c' ha hb hc

namespace Body
variable [Trig K]

theorem advance_reach {p : Position K} (ds : List (Vec2 K × K)) (h : p.orient.Reachable) :
    (ds.foldl (fun (p : Position K) (d : Vec2 K × K) => p.advance d.1 d.2) p).orient.Reachable := by
  induction ds generalizing p with
  | nil => exact h
  | cons d ds ih => exact ih (.mul h (.ofAngle _))

theorem recenter_orient (b : Body K) (o : Vec2 K) : (b.recenter o).position.orient = b.position.orient := rfl

/-- Whatever happens, the orientation stays that of a rotation. -/
theorem happen_reach {b : Body K} (h : b.position.orient.Reachable) (e : Event K) : (b.happen e).1.position.orient.Reachable := by
  cases e with
  | addCollider id polygon material =>
    simp only [happen, Body.addCollider]
    by_cases ha : b.attached = true
    · rw [if_neg (by simp [ha])]
      cases (b.colliders.add id polygon material).2 <;> exact h
    · rw [if_pos (by simp [ha])]
      exact h
  | removeCollider id =>
    simp only [happen, Body.removeCollider]
    by_cases ha : b.attached = true
    · rw [if_neg (by simp [ha])]
      cases (b.colliders.remove id).2 with
      | ok _ =>
        dsimp only
        by_cases hn : (b.colliders.remove id).1.list.isEmpty = true
        · rw [if_pos hn]; exact h
        · rw [if_neg hn]; exact h
      | throw => exact h
      | ub => exact h
    · rw [if_pos (by simp [ha])]
      exact h
  | setVelocity v => exact h
  | setAngularVelocity w => exact h
  | applyImpulse p r => exact h
  | step ds v w => exact advance_reach ds h

theorem mem_eraseId {id : Nat} {l : List (Collider K)} {c : Collider K} (h : c ∈ Colliders.eraseId id l) : c ∈ l := by
  induction l with
  | nil => exact h
  | cons d l ih =>
    rw [Colliders.eraseId] at h
    by_cases hd : d.id = id
    · rw [if_pos hd] at h; exact List.mem_cons_of_mem _ h
    · rw [if_neg hd] at h
      rcases List.mem_cons.1 h with rfl | h
      · exact List.mem_cons_self
      · exact List.mem_cons_of_mem _ (ih h)

/-- The collider is the one asked for. -/
def Asked (events : List (Event K)) (c : Collider K) : Prop := Event.addCollider c.id c.geom.localVerts c.material ∈ events

theorem asked_update {events : List (Event K)} {b : Body K} (h : ∀ c ∈ b.colliders.list, Asked events c) : ∀ c ∈ b.update.colliders.list, Asked events c := by
  intro c hc
  simp only [Body.update, Colliders.update, List.mem_map] at hc
  obtain ⟨d, hd, rfl⟩ := hc
  exact h d hd

theorem asked_recenter {events : List (Event K)} {b : Body K} (o : Vec2 K) (h : ∀ c ∈ b.colliders.list, Asked events c) :
    ∀ c ∈ (b.recenter o).colliders.list, Asked events c := by
  unfold recenter
  exact asked_update h

theorem recenter_synced (b : Body K) (o : Vec2 K) : (b.recenter o).Synced := update_synced _

theorem add_list (cs : Colliders K) (id : Nat) (polygon : List (Vec2 K)) (material : Material K) :
    (cs.add id polygon material).1.list = cs.list ++ [⟨id, .make polygon, material⟩] := by
  simp only [Colliders.add]
  cases (⟨id, .make polygon, material⟩ : Collider K).properties <;> rfl

theorem recenter_list (b : Body K) (o : Vec2 K) :
    ∃ f, (b.recenter o).colliders.list = b.colliders.list.map fun c => { c with geom := c.geom.update f } := ⟨(b.recenter o).position.toWorldSpace.app, rfl⟩

/-- Whatever happens, the colliders are among those asked for. -/
theorem happen_asked {b : Body K} {events : List (Event K)} (h : ∀ c ∈ b.colliders.list, Asked events c) {e : Event K} (he : e ∈ events) :
    ∀ c ∈ (b.happen e).1.colliders.list, Asked events c := by
  cases e with
  | addCollider id polygon material =>
    have hl : ∀ c ∈ (b.colliders.add id polygon material).1.list, Asked events c := by
      rw [add_list]
      intro c hc
      rcases List.mem_append.1 hc with hc | hc
      · exact h c hc
      · obtain rfl := List.mem_singleton.1 hc
        exact he
    simp only [happen, Body.addCollider]
    by_cases ha : b.attached = true
    · rw [if_neg (by simp [ha])]
      cases (b.colliders.add id polygon material).2 with
      | ok _ => exact asked_recenter _ hl
      | throw => exact hl
      | ub => exact hl
    · rw [if_pos (by simp [ha])]
      exact h
  | removeCollider id =>
    have hl : ∀ c ∈ (b.colliders.remove id).1.list, Asked events c := fun c hc => h c (mem_eraseId hc)
    simp only [happen, Body.removeCollider]
    by_cases ha : b.attached = true
    · rw [if_neg (by simp [ha])]
      cases (b.colliders.remove id).2 with
      | ok _ =>
        dsimp only
        by_cases hn : (b.colliders.remove id).1.list.isEmpty = true
        · rw [if_pos hn]; exact hl
        · rw [if_neg hn]; exact asked_recenter _ hl
      | throw => exact hl
      | ub => exact hl
    · rw [if_pos (by simp [ha])]
      exact h
  | setVelocity v => exact h
  | setAngularVelocity w => exact h
  | applyImpulse p r => exact h
  | step ds v w => exact asked_update h

/-- What does not throw leaves the colliders where the body is. -/
theorem happen_synced {b : Body K} (h : b.Synced) {e : Event K} (hok : (b.happen e).2 = .ok ()) : (b.happen e).1.Synced := by
  cases e with
  | addCollider id polygon material =>
    simp only [happen, Body.addCollider] at hok ⊢
    by_cases ha : b.attached = true
    · rw [if_neg (by simp [ha])] at hok ⊢
      cases hr : (b.colliders.add id polygon material).2 with
      | ok _ => exact recenter_synced _ _
      | throw => rw [hr] at hok; cases hok
      | ub => rw [hr] at hok; cases hok
    · rw [if_pos (by simp [ha])] at hok
      cases hok
  | removeCollider id =>
    simp only [happen, Body.removeCollider] at hok ⊢
    by_cases ha : b.attached = true
    · rw [if_neg (by simp [ha])] at hok ⊢
      cases hr : (b.colliders.remove id).2 with
      | ok _ =>
        dsimp only
        by_cases hn : (b.colliders.remove id).1.list.isEmpty = true
        · rw [if_pos hn]
          intro c hc
          exact h c (mem_eraseId hc)
        · rw [if_neg hn]; exact recenter_synced _ _
      | throw => rw [hr] at hok; cases hok
      | ub => rw [hr] at hok; cases hok
    · rw [if_pos (by simp [ha])] at hok
      cases hok
  | setVelocity v => exact h
  | setAngularVelocity w => exact h
  | applyImpulse p r => exact h
  | step ds v w => exact update_synced _

end Body
end Simu
