import Verif.Lemmas.BoundingBox
/-
Boxes up to `==`, with an exactly associative and commutative join.
-/
namespace Simu
variable {K : Type*} [LinearOrder K]
open Spec

namespace BoundingBox

/-- Canonical representative of a box up to `==`. -/
def norm (b : BoundingBox K) : Option (BoundingBox K) := if b.isValid then some b else none

/-- The join on canonical boxes. -/
def join : Option (BoundingBox K) → Option (BoundingBox K) → Option (BoundingBox K)
  | none, b => b
  | some a, none => some a
  | some a, some b =>
    some ⟨⟨a.min.x ⊓ b.min.x, a.min.y ⊓ b.min.y⟩, ⟨a.max.x ⊔ b.max.x, a.max.y ⊔ b.max.y⟩⟩

instance : Std.Commutative (join (K := K)) := ⟨fun a b => by
  cases a <;> cases b <;> simp [join, inf_comm, sup_comm]⟩
instance : Std.Associative (join (K := K)) := ⟨fun a b c => by
  cases a <;> cases b <;> cases c <;> simp [join, inf_assoc, sup_assoc]⟩

@[simp] theorem join_none_left (b : Option (BoundingBox K)) : join none b = b := rfl
@[simp] theorem join_none_right (b : Option (BoundingBox K)) : join b none = b := by
  cases b <;> rfl

theorem join_comm (a b : Option (BoundingBox K)) : join a b = join b a := Std.Commutative.comm a b
theorem join_assoc (a b c : Option (BoundingBox K)) : join (join a b) c = join a (join b c) :=
  Std.Associative.assoc a b c

theorem norm_valid {b : BoundingBox K} (h : b.isValid = true) : b.norm = some b := by simp [norm, h]
theorem norm_invalid {b : BoundingBox K} (h : b.isValid = false) : b.norm = none := by simp [norm, h]

theorem norm_combined (a b : BoundingBox K) : (combined a b).norm = join a.norm b.norm := by
  cases ha : a.isValid
  · rw [combined_invalid_left ha, norm_invalid ha]; simp
  · cases hb : b.isValid
    · rw [combined_invalid_right ha hb, norm_invalid hb]; simp
    · have : (combined a b).isValid = true := by simp [isValid_combined, ha]
      rw [norm_valid this, norm_valid ha, norm_valid hb, combined_valid ha hb]; rfl

theorem norm_eq_iff (a b : BoundingBox K) : a.norm = b.norm ↔ sameBox a b := by
  constructor
  · intro h
    cases ha : a.isValid <;> cases hb : b.isValid
    · exact sameBox_of_invalid ha hb
    · simp [norm_valid hb, norm_invalid ha] at h
    · simp [norm_valid ha, norm_invalid hb] at h
    · rw [norm_valid ha, norm_valid hb] at h
      simp only [Option.some.injEq] at h
      subst h; intro p; rfl
  · intro h
    have hv : a.isValid = b.isValid := by
      rw [Bool.eq_iff_iff, valid_iff_nonempty, valid_iff_nonempty]
      exact exists_congr h
    cases ha : a.isValid
    · rw [norm_invalid ha, norm_invalid (hv ▸ ha)]
    · have hb : b.isValid = true := hv ▸ ha
      have := (beq_iff_sameBox a b).2 h
      simp only [beq, ha, hb, Bool.not_true, Bool.and_false, Bool.false_eq_true, if_false, Bool.and_eq_true,
        decide_eq_true_eq] at this
      have e : a = b := by
        obtain ⟨⟨a1, a2⟩, a3, a4⟩ := a
        obtain ⟨⟨b1, b2⟩, b3, b4⟩ := b
        simp_all
      rw [e]

theorem beq_iff_norm (a b : BoundingBox K) : a.beq b = true ↔ a.norm = b.norm := by
  rw [beq_iff_sameBox, norm_eq_iff]

theorem subBox_congr {a a' b b' : BoundingBox K} (ha : a.norm = a'.norm) (hb : b.norm = b'.norm) :
    subBox a b ↔ subBox a' b' := by
  rw [norm_eq_iff] at ha hb
  exact forall_congr' fun p => by rw [ha p, hb p]

end BoundingBox
end Simu
