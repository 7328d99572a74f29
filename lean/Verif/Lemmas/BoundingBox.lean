import Verif.Spec.BoundingBox
import Verif.Lemmas.Vec2
import Mathlib.Tactic.Linarith
import Mathlib.Tactic.Order
import Mathlib.Tactic.SplitIfs
/-
Helper lemmas on intervals and boxes.
-/
namespace Simu
variable {K : Type*}

section
variable [LinearOrder K]
theorem Vec2.min_eq (a b : Vec2 K) : Vec2.min a b = ⟨a.x ⊓ b.x, a.y ⊓ b.y⟩ := by
  unfold Vec2.min
  ext <;> dsimp only <;> split_ifs with h <;> simp <;> order
theorem Vec2.max_eq (a b : Vec2 K) : Vec2.max a b = ⟨a.x ⊔ b.x, a.y ⊔ b.y⟩ := by
  unfold Vec2.max
  ext <;> dsimp only <;> split_ifs with h <;> simp <;> order
end

variable [LinearOrder K]
open Spec

namespace BoundingBox

theorem isValid_iff (b : BoundingBox K) : b.isValid = true ↔ b.min.x ≤ b.max.x ∧ b.min.y ≤ b.max.y := by
  simp [isValid]

theorem isValid_false_iff (b : BoundingBox K) :
    b.isValid = false ↔ b.max.x < b.min.x ∨ b.max.y < b.min.y := by
  rw [← Bool.not_eq_true, isValid_iff]; push Not; constructor
  · intro h
    by_cases h' : b.min.x ≤ b.max.x
    · exact Or.inr (h h')
    · exact Or.inl (not_le.1 h')
  · rintro (h | h) h'
    · order
    · exact h

theorem valid_iff_nonempty (b : BoundingBox K) : b.isValid = true ↔ ∃ p, inBox b p := by
  rw [isValid_iff]
  constructor
  · rintro ⟨h1, h2⟩; exact ⟨b.min, by simp [inBox, h1, h2]⟩
  · rintro ⟨p, ⟨h1, h2⟩, h3, h4⟩; exact ⟨h1.trans h2, h3.trans h4⟩

theorem subBox_iff {a b : BoundingBox K} (ha : a.isValid = true) : subBox a b ↔
    (b.min.x ≤ a.min.x ∧ a.max.x ≤ b.max.x) ∧ (b.min.y ≤ a.min.y ∧ a.max.y ≤ b.max.y) := by
  rw [isValid_iff] at ha
  obtain ⟨h1, h2⟩ := ha
  constructor
  · intro h
    obtain ⟨⟨p1, _⟩, p3, _⟩ := h a.min (by simp [inBox, h1, h2])
    obtain ⟨⟨_, q2⟩, _, q4⟩ := h a.max (by simp [inBox, h1, h2])
    exact ⟨⟨p1, q2⟩, p3, q4⟩
  · rintro ⟨⟨p1, q2⟩, p3, q4⟩ p ⟨⟨a1, a2⟩, a3, a4⟩
    exact ⟨⟨p1.trans a1, a2.trans q2⟩, p3.trans a3, a4.trans q4⟩

theorem sameBox_of_invalid {a b : BoundingBox K} (ha : a.isValid = false) (hb : b.isValid = false) :
    sameBox a b := by
  intro p
  constructor
  · intro h; have := (valid_iff_nonempty a).2 ⟨p, h⟩; simp [ha] at this
  · intro h; have := (valid_iff_nonempty b).2 ⟨p, h⟩; simp [hb] at this

/-- `operator==` decides equality as point sets. -/
theorem beq_iff_sameBox (a b : BoundingBox K) : a.beq b = true ↔ sameBox a b := by
  unfold beq
  cases ha : a.isValid <;> cases hb : b.isValid
  · simpa using sameBox_of_invalid ha hb
  · simp only [Bool.not_false, Bool.not_true, Bool.and_false, Bool.false_eq_true, if_false]
    constructor
    · intro h
      exfalso
      simp only [Bool.and_eq_true, decide_eq_true_eq] at h
      rw [isValid_iff] at hb
      rw [isValid_false_iff, h.1.1, h.1.2, h.2.1, h.2.2] at ha
      rcases ha with ha | ha <;> order
    · intro h
      obtain ⟨p, hp⟩ := (valid_iff_nonempty b).1 hb
      have := (valid_iff_nonempty a).2 ⟨p, (h p).2 hp⟩
      simp [ha] at this
  · simp only [Bool.not_false, Bool.not_true, Bool.false_and, Bool.false_eq_true, if_false]
    constructor
    · intro h
      exfalso
      simp only [Bool.and_eq_true, decide_eq_true_eq] at h
      rw [isValid_iff] at ha
      rw [isValid_false_iff, ← h.1.1, ← h.1.2, ← h.2.1, ← h.2.2] at hb
      rcases hb with hb | hb <;> order
    · intro h
      obtain ⟨p, hp⟩ := (valid_iff_nonempty a).1 ha
      have := (valid_iff_nonempty b).2 ⟨p, (h p).1 hp⟩
      simp [hb] at this
  · simp only [Bool.not_true, Bool.and_false, Bool.false_eq_true, if_false, Bool.and_eq_true,
      decide_eq_true_eq]
    constructor
    · intro h p
      simp [inBox, h.1.1, h.1.2, h.2.1, h.2.2]
    · intro h
      obtain ⟨⟨h1, h2⟩, h3, h4⟩ := (subBox_iff ha).1 (fun p => (h p).1)
      obtain ⟨⟨g1, g2⟩, g3, g4⟩ := (subBox_iff hb).1 (fun p => (h p).2)
      exact ⟨⟨le_antisymm g1 h1, le_antisymm g3 h3⟩, le_antisymm h2 g2, le_antisymm h4 g4⟩

theorem combined_valid {a b : BoundingBox K} (ha : a.isValid = true) (hb : b.isValid = true) :
    combined a b = ⟨⟨a.min.x ⊓ b.min.x, a.min.y ⊓ b.min.y⟩, ⟨a.max.x ⊔ b.max.x, a.max.y ⊔ b.max.y⟩⟩ := by
  simp [combined, ha, hb, Vec2.min_eq, Vec2.max_eq]

theorem combined_invalid_left {a b : BoundingBox K} (ha : a.isValid = false) : combined a b = b := by
  simp [combined, ha]

theorem combined_invalid_right {a b : BoundingBox K} (ha : a.isValid = true) (hb : b.isValid = false) :
    combined a b = a := by
  simp [combined, ha, hb]

theorem isValid_combined (a b : BoundingBox K) :
    (combined a b).isValid = (a.isValid || b.isValid) := by
  cases ha : a.isValid
  · simp [combined_invalid_left ha]
  · cases hb : b.isValid
    · simp [combined_invalid_right ha hb, ha]
    · rw [combined_valid ha hb]
      simp only [Bool.or_self]
      rw [isValid_iff] at *
      exact ⟨inf_le_left.trans (ha.1.trans le_sup_left), inf_le_left.trans (ha.2.trans le_sup_left)⟩

theorem subBox_of_invalid {a b : BoundingBox K} (ha : a.isValid = false) : subBox a b := by
  intro p hp
  have := (valid_iff_nonempty a).2 ⟨p, hp⟩
  simp [ha] at this

theorem subBox_refl (a : BoundingBox K) : subBox a a := fun _ h => h

theorem subBox_trans {a b c : BoundingBox K} (h : subBox a b) (h' : subBox b c) : subBox a c :=
  fun p hp => h' p (h p hp)

theorem subBox_combined_left (a b : BoundingBox K) : subBox a (combined a b) := by
  cases ha : a.isValid
  · exact subBox_of_invalid ha
  · cases hb : b.isValid
    · rw [combined_invalid_right ha hb]; exact subBox_refl a
    · rw [combined_valid ha hb, subBox_iff ha]; simp

theorem subBox_combined_right (a b : BoundingBox K) : subBox b (combined a b) := by
  cases hb : b.isValid
  · exact subBox_of_invalid hb
  · cases ha : a.isValid
    · rw [combined_invalid_left ha]; exact subBox_refl b
    · rw [combined_valid ha hb, subBox_iff hb]; simp

theorem combined_subBox {a b c : BoundingBox K} (h : subBox a c) (h' : subBox b c) :
    subBox (combined a b) c := by
  cases ha : a.isValid
  · rwa [combined_invalid_left ha]
  · cases hb : b.isValid
    · rwa [combined_invalid_right ha hb]
    · have hv : (combined a b).isValid = true := by simp [isValid_combined, ha]
      rw [subBox_iff hv, combined_valid ha hb]
      rw [subBox_iff ha] at h
      rw [subBox_iff hb] at h'
      simp only [le_inf_iff, sup_le_iff]
      tauto

theorem subBox_antisymm {a b : BoundingBox K} (h : subBox a b) (h' : subBox b a) : sameBox a b :=
  fun p => ⟨h p, h' p⟩

end BoundingBox

section overlap
variable [Field K] [IsStrictOrderedRing K]

theorem Interval.overlaps_iff (i o : Interval K) :
    i.overlaps o = true ↔ i.lo ≤ o.hi ∧ o.lo ≤ i.hi := by
  simp only [Interval.overlaps, decide_eq_true_eq, abs_le]
  constructor
  · rintro ⟨h1, h2⟩; constructor <;> linarith
  · rintro ⟨h1, h2⟩; constructor <;> linarith

theorem BoundingBox.overlaps_iff {a b : BoundingBox K} : a.overlaps b = true ↔
    a.isValid = true ∧ b.isValid = true ∧ (a.min.x ≤ b.max.x ∧ b.min.x ≤ a.max.x) ∧
    (a.min.y ≤ b.max.y ∧ b.min.y ≤ a.max.y) := by
  unfold BoundingBox.overlaps
  cases ha : a.isValid <;> cases hb : b.isValid <;> simp
  rw [Interval.overlaps_iff, Interval.overlaps_iff]

end overlap

end Simu
