import Verif.Spec.ExtBox
import Verif.Props.BoundingBox
import Verif.Props.RTree
import Mathlib.Algebra.Order.Ring.Rat
import Mathlib.Algebra.Field.Rat
/-
C98: boxes and comparisons with infinite and undefined coordinates.
-/
namespace Simu
variable {K : Type*} [Field K] [LinearOrder K]
open Spec

omit [Field K] in
theorem Ext.lt_iff (a b : Ext K) : a.lt b = true ↔ ∃ x y, a.val = some x ∧ b.val = some y ∧ x < y := by
  cases a <;> cases b <;> simp [Ext.lt, Ext.val]
  exact WithBot.coe_lt_coe.2 (WithTop.coe_lt_top _)

omit [Field K] in
theorem Ext.eq_iff (a b : Ext K) : a.eq b = true ↔ ∃ x, a.val = some x ∧ b.val = some x := by
  cases a <;> cases b <;> simp [Ext.eq, Ext.val, _root_.eq_comm]

omit [Field K] in
theorem Ext.le_iff (a b : Ext K) : b.lt a = false ↔ a.Le b ∨ a.val = none ∨ b.val = none := by
  cases a <;> cases b <;> simp [Ext.lt, Ext.val, Ext.Le]

theorem Comparison.allLoop_iff (l : List Bool) : allLoop l = true ↔ ∀ b ∈ l, b = true := by
  induction l with
  | nil => simp [allLoop]
  | cons b bs ih => cases b <;> simp [allLoop, ih]

theorem Comparison.anyLoop_iff (l : List Bool) : anyLoop l = true ↔ ∃ b ∈ l, b = true := by
  induction l with
  | nil => simp [anyLoop]
  | cons b bs ih => cases b <;> simp [anyLoop, ih]

theorem Comparison.all_iff {s : Nat} (c : Comparison s) : c.all = true ↔ ∀ i, c i = true := by
  rw [all, allLoop_iff]; simp [List.mem_ofFn]

theorem Comparison.any_iff {s : Nat} (c : Comparison s) : c.any = true ↔ ∃ i, c i = true := by
  rw [any, anyLoop_iff]; simp [List.mem_ofFn]

omit [Field K] in
/-- **C98** (comparisons). Two matrices of any size are compared element by element: `==`, `!=`, `<` and `>` give for each element what comparing the numbers gives, and `<=` and `>=` do if no
element is NaN. `all` and `any` say whether all elements, or one of them, are true. -/
theorem C98_comparisons {s : Nat} (a b : Fin s → Ext K) (c d : Comparison s) :
    (∀ i, (Comparison.eq a b i = true ↔ ∃ x, (a i).val = some x ∧ (b i).val = some x) ∧ (Comparison.ne a b i = true ↔ ¬∃ x, (a i).val = some x ∧ (b i).val = some x) ∧
      (Comparison.lt a b i = true ↔ ∃ x y, (a i).val = some x ∧ (b i).val = some y ∧ x < y) ∧ (Comparison.gt a b i = true ↔ ∃ x y, (a i).val = some x ∧ (b i).val = some y ∧ y < x) ∧
      (Comparison.le a b i = true ↔ (a i).Le (b i) ∨ (a i).val = none ∨ (b i).val = none) ∧ (Comparison.ge a b i = true ↔ (b i).Le (a i) ∨ (a i).val = none ∨ (b i).val = none) ∧
      (c.and d i = true ↔ c i = true ∧ d i = true) ∧ (c.or d i = true ↔ c i = true ∨ d i = true) ∧ (c.not i = true ↔ ¬c i = true)) ∧
    (c.all = true ↔ ∀ i, c i = true) ∧ (c.any = true ↔ ∃ i, c i = true) := by
  refine ⟨fun i => ⟨Ext.eq_iff _ _, ?_, Ext.lt_iff _ _, ?_, ?_, ?_, ?_, ?_, ?_⟩, c.all_iff, c.any_iff⟩
  · rw [← Ext.eq_iff]; simp [Comparison.ne, Comparison.not, Comparison.eq]
  · rw [Comparison.gt, Ext.lt_iff]
    exact ⟨fun ⟨x, y, h1, h2, h3⟩ => ⟨y, x, h2, h1, h3⟩, fun ⟨x, y, h1, h2, h3⟩ => ⟨y, x, h2, h1, h3⟩⟩
  · rw [← Ext.le_iff]; simp [Comparison.le, Comparison.not, Comparison.gt]
  · rw [show ((a i).val = none ∨ (b i).val = none) ↔ ((b i).val = none ∨ (a i).val = none) from or_comm, ← Ext.le_iff]; simp [Comparison.ge, Comparison.not, Comparison.lt]
  · simp [Comparison.and]
  · simp [Comparison.or]
  · simp [Comparison.not]

/-- Elementwise test of `Interval::overlaps`. -/
def Ext.meets (lo hi lo' hi' : Ext K) : Bool :=
  !Ext.lt (Ext.add (Ext.sub hi lo) (Ext.sub hi' lo')) (Ext.abs (Ext.sub (Ext.add hi lo) (Ext.add hi' lo')))

variable [IsStrictOrderedRing K]

omit [Field K] [IsStrictOrderedRing K] in
theorem Ext.finite_iff (a : Ext K) : a.Finite ↔ ∃ x, a = .fin x := by
  cases a <;> simp [Ext.Finite, Ext.val]

omit [Field K] [IsStrictOrderedRing K] in
theorem Ext.between_fin (x y p : K) : Ext.Between (.fin x) (.fin y) p ↔ x ≤ p ∧ p ≤ y := by
  simp [Ext.Between, Ext.Le, Ext.val]

theorem Ext.meets_iff {lo hi lo' hi' : Ext K} (h : hi.lt lo = false) (h' : hi'.lt lo' = false) :
    Ext.meets lo hi lo' hi' = true ↔ ¬(lo.Finite ∧ hi.Finite ∧ lo'.Finite ∧ hi'.Finite) ∨ ∃ p, Ext.Between lo hi p ∧ Ext.Between lo' hi' p := by
  by_cases hf : lo.Finite ∧ hi.Finite ∧ lo'.Finite ∧ hi'.Finite
  · have : (¬(lo.Finite ∧ hi.Finite ∧ lo'.Finite ∧ hi'.Finite)) = False := by simp [hf]
    rw [this, false_or]
    simp only [Ext.finite_iff] at hf
    obtain ⟨⟨x, rfl⟩, ⟨y, rfl⟩, ⟨x', rfl⟩, ⟨y', rfl⟩⟩ := hf
    simp only [Ext.between_fin]
    simp only [Ext.lt, decide_eq_false_iff_not, not_lt] at h h'
    simp only [Ext.meets, Ext.lt, Ext.add, Ext.sub, Ext.neg, Ext.abs, Bool.not_eq_true', decide_eq_false_iff_not, not_lt, abs_le]
    constructor
    · rintro ⟨h1, h2⟩
      exact ⟨Max.max x x', ⟨le_max_left _ _, max_le h (by linarith)⟩, le_max_right _ _, max_le (by linarith) h'⟩
    · rintro ⟨p, ⟨h1, h2⟩, h3, h4⟩
      exact ⟨by linarith, by linarith⟩
  · refine ⟨fun _ => Or.inl hf, fun _ => ?_⟩
    clear * - h h' hf
    simp only [Ext.finite_iff] at hf
    cases lo <;> cases hi <;> cases lo' <;> cases hi' <;> first | rfl | (cases h; done) | (cases h'; done) | exact absurd ⟨⟨_, rfl⟩, ⟨_, rfl⟩, ⟨_, rfl⟩, ⟨_, rfl⟩⟩ hf

namespace ExtBox

omit [Field K] [IsStrictOrderedRing K] in
theorem isValid_iff_lt (b : ExtBox K) : isValid b = true ↔ b.max.x.lt b.min.x = false ∧ b.max.y.lt b.min.y = false := by
  rw [isValid, Comparison.all_iff, Fin.forall_fin_two]
  simp [Comparison.ge, Comparison.not, Comparison.lt, Vec2.elems]

omit [IsStrictOrderedRing K] in
theorem overlaps_eq (a b : ExtBox K) : overlaps a b = true ↔
    isValid a = true ∧ isValid b = true ∧ Ext.meets a.min.x a.max.x b.min.x b.max.x = true ∧ Ext.meets a.min.y a.max.y b.min.y b.max.y = true := by
  unfold overlaps
  cases ha : isValid a <;> cases hb : isValid b <;> simp only [Bool.not_true, Bool.not_false, Bool.or_true, Bool.or_false, if_true, Bool.false_eq_true, false_and, and_false, true_and, if_false]
  rw [Comparison.all_iff, Fin.forall_fin_two]
  rfl

end ExtBox

omit [Field K] [IsStrictOrderedRing K] in
/-- **C98** (valid boxes). A box is valid exactly if in each direction its bounds are in order, infinite ones included, or one of them is NaN. -/
theorem C98_valid (b : ExtBox K) : ExtBox.isValid b = true ↔
    (b.min.x.Le b.max.x ∨ b.min.x.val = none ∨ b.max.x.val = none) ∧ (b.min.y.Le b.max.y ∨ b.min.y.val = none ∨ b.max.y.val = none) := by
  rw [ExtBox.isValid_iff_lt, Ext.le_iff, Ext.le_iff]

/-- **C98** (overlap). Two boxes overlap exactly if they are valid and in each direction they share a coordinate, or one of the four bounds is not finite. -/
theorem C98_overlaps (a b : ExtBox K) : ExtBox.overlaps a b = true ↔ ExtBox.isValid a = true ∧ ExtBox.isValid b = true ∧
    (¬(a.min.x.Finite ∧ a.max.x.Finite ∧ b.min.x.Finite ∧ b.max.x.Finite) ∨ ∃ p, Ext.Between a.min.x a.max.x p ∧ Ext.Between b.min.x b.max.x p) ∧
    (¬(a.min.y.Finite ∧ a.max.y.Finite ∧ b.min.y.Finite ∧ b.max.y.Finite) ∨ ∃ p, Ext.Between a.min.y a.max.y p ∧ Ext.Between b.min.y b.max.y p) := by
  rw [ExtBox.overlaps_eq]
  constructor
  · rintro ⟨ha, hb, h1, h2⟩
    have a' := (ExtBox.isValid_iff_lt a).1 ha
    have b' := (ExtBox.isValid_iff_lt b).1 hb
    exact ⟨ha, hb, (Ext.meets_iff a'.1 b'.1).1 h1, (Ext.meets_iff a'.2 b'.2).1 h2⟩
  · rintro ⟨ha, hb, h1, h2⟩
    have a' := (ExtBox.isValid_iff_lt a).1 ha
    have b' := (ExtBox.isValid_iff_lt b).1 hb
    exact ⟨ha, hb, (Ext.meets_iff a'.1 b'.1).2 h1, (Ext.meets_iff a'.2 b'.2).2 h2⟩

omit [Field K] [IsStrictOrderedRing K] in
theorem Ext.le_trans {a b c : Ext K} (h : a.Le b) (h' : b.Le c) : a.Le c := by
  obtain ⟨x, y, h1, h2, h3⟩ := h
  obtain ⟨y', z, h4, h5, h6⟩ := h'
  rw [h2] at h4
  cases h4
  exact ⟨x, z, h1, h5, h3.trans h6⟩

omit [Field K] [IsStrictOrderedRing K] in
theorem ExtBox.Has.valid {b : ExtBox K} {p : Vec2 K} (h : b.Has p) : ExtBox.isValid b = true :=
  (C98_valid b).2 ⟨Or.inl (Ext.le_trans h.1.1 h.1.2), Or.inl (Ext.le_trans h.2.1 h.2.2)⟩

/-- **C98** (no missed overlap). Two boxes with a common point overlap, whatever their bounds. -/
theorem C98_never_misses (a b : ExtBox K) {p : Vec2 K} (ha : a.Has p) (hb : b.Has p) : ExtBox.overlaps a b = true :=
  (C98_overlaps a b).2 ⟨ha.valid, hb.valid, Or.inr ⟨p.x, ha.1, hb.1⟩, Or.inr ⟨p.y, ha.2, hb.2⟩⟩

omit [Field K] [IsStrictOrderedRing K] in
theorem Ext.le_fin (x y : K) : (Ext.fin x).Le (.fin y) ↔ x ≤ y := by simp [Ext.Le, Ext.val]

omit [Field K] [IsStrictOrderedRing K] in
theorem Ext.ninf_le (y : K) : (Ext.ninf).Le (.fin y) := by simp [Ext.Le, Ext.val]

omit [Field K] [IsStrictOrderedRing K] in
theorem Ext.le_pinf (y : K) : (Ext.fin y).Le .pinf := by simp [Ext.Le, Ext.val]

/-- **C98** (overlap), for boxes each of whose sides is bounded on both ends or on none: these overlap exactly if they have a common point.
Missing: sides that are bounded on one end, for which it is false (`C98_half_plane_disagreement`), and NaN. -/
theorem C98_overlaps_partial (a b : ExtBox K) (ha : a.Whole) (hb : b.Whole) : ExtBox.overlaps a b = true ↔ ∃ p, a.Has p ∧ b.Has p := by
  constructor
  · intro h
    obtain ⟨va, vb, hx, hy⟩ := (C98_overlaps a b).1 h
    obtain ⟨va1, va2⟩ := (ExtBox.isValid_iff_lt a).1 va
    obtain ⟨vb1, vb2⟩ := (ExtBox.isValid_iff_lt b).1 vb
    have key : ∀ {lo hi lo' hi' : Ext K}, hi.lt lo = false → hi'.lt lo' = false → ((lo.Finite ∧ hi.Finite) ∨ lo = .ninf ∧ hi = .pinf) → ((lo'.Finite ∧ hi'.Finite) ∨ lo' = .ninf ∧ hi' = .pinf) →
        (¬(lo.Finite ∧ hi.Finite ∧ lo'.Finite ∧ hi'.Finite) ∨ ∃ p, Ext.Between lo hi p ∧ Ext.Between lo' hi' p) → ∃ p, Ext.Between lo hi p ∧ Ext.Between lo' hi' p := by
      intro lo hi lo' hi' v v' h1 h2 h3
      rcases h3 with h3 | h3
      · have self : ∀ {lo hi : Ext K}, hi.lt lo = false → lo.Finite ∧ hi.Finite → ∃ p, Ext.Between lo hi p := by
          intro lo hi v h
          obtain ⟨⟨x, rfl⟩, y, rfl⟩ := h.imp (Ext.finite_iff _).1 (Ext.finite_iff _).1
          simp only [Ext.lt, decide_eq_false_iff_not, not_lt] at v
          exact ⟨x, (Ext.le_fin _ _).2 le_rfl, (Ext.le_fin _ _).2 v⟩
        rcases h1 with h1 | ⟨rfl, rfl⟩
        · rcases h2 with h2 | ⟨rfl, rfl⟩
          · exact absurd ⟨h1.1, h1.2, h2.1, h2.2⟩ h3
          · obtain ⟨p, hp⟩ := self v h1
            exact ⟨p, hp, Ext.ninf_le p, Ext.le_pinf p⟩
        · rcases h2 with h2 | ⟨rfl, rfl⟩
          · obtain ⟨p, hp⟩ := self v' h2
            exact ⟨p, ⟨Ext.ninf_le p, Ext.le_pinf p⟩, hp⟩
          · exact ⟨0, ⟨Ext.ninf_le 0, Ext.le_pinf 0⟩, Ext.ninf_le 0, Ext.le_pinf 0⟩
      · exact h3
    obtain ⟨x, x1, x2⟩ := key va1 vb1 ha.1 hb.1 hx
    obtain ⟨y, y1, y2⟩ := key va2 vb2 ha.2 hb.2 hy
    exact ⟨⟨x, y⟩, ⟨x1, y1⟩, x2, y2⟩
  · rintro ⟨p, h1, h2⟩
    exact C98_never_misses a b h1 h2

/-- The box of all points with `0 ≤ x`. -/
def halfPlane : ExtBox ℚ := ⟨⟨.fin 0, .ninf⟩, ⟨.pinf, .pinf⟩⟩

/-- **C98, disagreement** (bounded on one end). A valid box with an infinite bound in both directions overlaps every valid box, also those it has no point in common with: the half plane `0 ≤ x`
overlaps the box from (-2, 0) to (-1, 1). -/
theorem C98_half_plane_disagreement :
    (∀ a b : ExtBox K, ExtBox.isValid a = true → ExtBox.isValid b = true → ¬(a.min.x.Finite ∧ a.max.x.Finite) → ¬(a.min.y.Finite ∧ a.max.y.Finite) → ExtBox.overlaps a b = true) ∧
    ExtBox.overlaps halfPlane (ExtBox.ofBox ⟨⟨-2, 0⟩, ⟨-1, 1⟩⟩) = true ∧ ¬∃ p, halfPlane.Has p ∧ (ExtBox.ofBox ⟨⟨-2, 0⟩, ⟨-1, 1⟩⟩ : ExtBox ℚ).Has p := by
  refine ⟨fun a b va vb h1 h2 => (C98_overlaps a b).2 ⟨va, vb, Or.inl fun h => h1 ⟨h.1, h.2.1⟩, Or.inl fun h => h2 ⟨h.1, h.2.1⟩⟩, by decide +kernel, ?_⟩
  rintro ⟨p, h1, h2⟩
  have a := (Ext.le_fin (0 : ℚ) p.x).1 h1.1.1
  have b := (Ext.le_fin p.x (-1 : ℚ)).1 h2.1.2
  linarith

/-- **C98, disagreement** (NaN). A box with a NaN bound in each direction is valid although it contains no point, and overlaps every valid box, though the documentation says that a box that covers no
area is invalid and overlaps nothing. -/
theorem C98_nan_disagreement (a : ExtBox K) (hx : a.min.x = .nan ∨ a.max.x = .nan) (hy : a.min.y = .nan ∨ a.max.y = .nan) :
    ExtBox.isValid a = true ∧ (∀ p, ¬a.Has p) ∧ ∀ b : ExtBox K, ExtBox.isValid b = true → ExtBox.overlaps a b = true ∧ ExtBox.overlaps b a = true := by
  have vx : a.min.x.val = none ∨ a.max.x.val = none := hx.imp (fun h => by rw [h]; rfl) fun h => by rw [h]; rfl
  have vy : a.min.y.val = none ∨ a.max.y.val = none := hy.imp (fun h => by rw [h]; rfl) fun h => by rw [h]; rfl
  have v : ExtBox.isValid a = true := (C98_valid a).2 ⟨Or.inr vx, Or.inr vy⟩
  have fx : ¬(a.min.x.Finite ∧ a.max.x.Finite) := by
    rintro ⟨⟨x, h1⟩, y, h2⟩
    rcases vx with h | h
    · rw [h] at h1; cases h1
    · rw [h] at h2; cases h2
  have fy : ¬(a.min.y.Finite ∧ a.max.y.Finite) := by
    rintro ⟨⟨x, h1⟩, y, h2⟩
    rcases vy with h | h
    · rw [h] at h1; cases h1
    · rw [h] at h2; cases h2
  refine ⟨v, fun p hp => ?_, fun b vb => ⟨(C98_overlaps a b).2 ⟨v, vb, Or.inl fun h => fx ⟨h.1, h.2.1⟩, Or.inl fun h => fy ⟨h.1, h.2.1⟩⟩,
    (C98_overlaps b a).2 ⟨vb, v, Or.inl fun h => fx h.2.2, Or.inl fun h => fy h.2.2⟩⟩⟩
  obtain ⟨⟨⟨x, y, h1, -⟩, z, w, -, h2, -⟩, -⟩ := hp
  rcases vx with h | h
  · rw [h] at h1; cases h1
  · rw [h] at h2; cases h2

omit [Field K] [IsStrictOrderedRing K] in
theorem ExtBox.Inside.has {a b : ExtBox K} (h : a.Inside b) {p : Vec2 K} (hp : a.Has p) : b.Has p :=
  ⟨⟨Ext.le_trans h.1 hp.1.1, Ext.le_trans hp.1.2 h.2.1⟩, Ext.le_trans h.2.2.1 hp.2.1, Ext.le_trans hp.2.2 h.2.2.2⟩

omit [Field K] [IsStrictOrderedRing K] in
theorem Ext.Le.isNum {a b : Ext K} (h : a.Le b) : a.val ≠ none ∧ b.val ≠ none := by
  obtain ⟨x, y, h1, h2, -⟩ := h
  rw [h1, h2]; exact ⟨nofun, nofun⟩

omit [Field K] [IsStrictOrderedRing K] in
theorem Ext.le_total {a b : Ext K} (ha : a.val ≠ none) (hb : b.val ≠ none) : a.Le b ∨ b.Le a := by
  obtain ⟨x, hx⟩ := Option.ne_none_iff_exists'.1 ha
  obtain ⟨y, hy⟩ := Option.ne_none_iff_exists'.1 hb
  exact (_root_.le_total x y).imp (fun h => ⟨x, y, hx, hy, h⟩) fun h => ⟨y, x, hy, hx, h⟩

omit [Field K] [IsStrictOrderedRing K] in
theorem Ext.le_refl {a : Ext K} (ha : a.val ≠ none) : a.Le a := (Ext.le_total ha ha).elim id id

omit [Field K] [IsStrictOrderedRing K] in
theorem Ext.lt_eq_false {a b : Ext K} (ha : a.val ≠ none) (hb : b.val ≠ none) : b.lt a = false ↔ a.Le b := by
  rw [Ext.le_iff]; exact ⟨fun h => h.resolve_right (not_or.2 ⟨ha, hb⟩), Or.inl⟩

omit [Field K] [IsStrictOrderedRing K] in
theorem Ext.min_spec {a b : Ext K} (ha : a.val ≠ none) (hb : b.val ≠ none) : (Ext.min a b).Le a ∧ (Ext.min a b).Le b ∧ ∀ c : Ext K, c.Le a → c.Le b → c.Le (Ext.min a b) := by
  unfold Ext.min
  by_cases h : b.lt a = true
  · rw [if_pos h]
    refine ⟨?_, Ext.le_refl hb, fun c _ h => h⟩
    exact (Ext.le_total ha hb).resolve_left fun h' => by rw [(Ext.lt_eq_false ha hb).2 h'] at h; cases h
  · rw [if_neg h]
    exact ⟨Ext.le_refl ha, (Ext.lt_eq_false ha hb).1 (Bool.not_eq_true _ ▸ h), fun c h _ => h⟩

omit [Field K] [IsStrictOrderedRing K] in
theorem Ext.max_spec {a b : Ext K} (ha : a.val ≠ none) (hb : b.val ≠ none) : a.Le (Ext.max a b) ∧ b.Le (Ext.max a b) ∧ ∀ c : Ext K, a.Le c → b.Le c → (Ext.max a b).Le c := by
  unfold Ext.max
  by_cases h : a.lt b = true
  · rw [if_pos h]
    refine ⟨?_, Ext.le_refl hb, fun c _ h => h⟩
    exact (Ext.le_total ha hb).resolve_right fun h' => by rw [(Ext.lt_eq_false hb ha).2 h'] at h; cases h
  · rw [if_neg h]
    exact ⟨Ext.le_refl ha, (Ext.lt_eq_false hb ha).1 (Bool.not_eq_true _ ▸ h), fun c h _ => h⟩

omit [Field K] [IsStrictOrderedRing K] in
theorem ExtBox.Proper.valid {b : ExtBox K} (h : b.Proper) : ExtBox.isValid b = true := (C98_valid b).2 ⟨Or.inl h.1, Or.inl h.2⟩

omit [Field K] [IsStrictOrderedRing K] in
/-- **C98** (union), for boxes without NaN. The box that covers two boxes is the least box around them, also if bounds are infinite. Missing: NaN, where the result depends on the order of the boxes
(`C98_union_disagreement`). -/
theorem C98_union_partial (a b : ExtBox K) (ha : a.Proper) (hb : b.Proper) :
    a.Inside (ExtBox.combined a b) ∧ b.Inside (ExtBox.combined a b) ∧ ∀ c : ExtBox K, a.Inside c → b.Inside c → (ExtBox.combined a b).Inside c := by
  have e : ExtBox.combined a b = ⟨⟨Ext.min a.min.x b.min.x, Ext.min a.min.y b.min.y⟩, ⟨Ext.max a.max.x b.max.x, Ext.max a.max.y b.max.y⟩⟩ := by
    rw [ExtBox.combined, ha.valid, hb.valid]; rfl
  obtain ⟨a1, a2⟩ := ha.1.isNum
  obtain ⟨a3, a4⟩ := ha.2.isNum
  obtain ⟨b1, b2⟩ := hb.1.isNum
  obtain ⟨b3, b4⟩ := hb.2.isNum
  have m1 := Ext.min_spec a1 b1
  have m2 := Ext.max_spec a2 b2
  have m3 := Ext.min_spec a3 b3
  have m4 := Ext.max_spec a4 b4
  rw [e]
  exact ⟨⟨m1.1, m2.1, m3.1, m4.1⟩, ⟨m1.2.1, m2.2.1, m3.2.1, m4.2.1⟩,
    fun c h h' => ⟨m1.2.2 _ h.1 h'.1, m2.2.2 _ h.2.1 h'.2.1, m3.2.2 _ h.2.2.1 h'.2.2.1, m4.2.2 _ h.2.2.2 h'.2.2.2⟩⟩

omit [Field K] [IsStrictOrderedRing K] in
theorem Ext.min_eq_iff {a b : Ext K} (ha : a.val ≠ none) (hb : b.val ≠ none) : (Ext.min a b).eq a = true ↔ a.Le b := by
  have hr : a.eq a = true := (Ext.eq_iff a a).2 (by obtain ⟨x, hx⟩ := Option.ne_none_iff_exists'.1 ha; exact ⟨x, hx, hx⟩)
  unfold Ext.min
  by_cases h : b.lt a = true
  · rw [if_pos h]
    obtain ⟨x, y, h1, h2, h3⟩ := (Ext.lt_iff b a).1 h
    constructor
    · intro e
      obtain ⟨z, h4, h5⟩ := (Ext.eq_iff b a).1 e
      rw [h1] at h4; rw [h2] at h5; cases h4; cases h5
      exact absurd h3 (lt_irrefl _)
    · rintro ⟨u, v, h4, h5, h6⟩
      rw [h2] at h4; rw [h1] at h5; cases h4; cases h5
      exact absurd h3 (not_lt.2 h6)
  · rw [if_neg h, hr]
    exact ⟨fun _ => (Ext.lt_eq_false ha hb).1 (Bool.not_eq_true _ ▸ h), fun _ => rfl⟩

omit [Field K] [IsStrictOrderedRing K] in
theorem Ext.max_eq_iff {a b : Ext K} (ha : a.val ≠ none) (hb : b.val ≠ none) : (Ext.max a b).eq a = true ↔ b.Le a := by
  have hr : a.eq a = true := (Ext.eq_iff a a).2 (by obtain ⟨x, hx⟩ := Option.ne_none_iff_exists'.1 ha; exact ⟨x, hx, hx⟩)
  unfold Ext.max
  by_cases h : a.lt b = true
  · rw [if_pos h]
    obtain ⟨x, y, h1, h2, h3⟩ := (Ext.lt_iff a b).1 h
    constructor
    · intro e
      obtain ⟨z, h4, h5⟩ := (Ext.eq_iff b a).1 e
      rw [h2] at h4; rw [h1] at h5; cases h4; cases h5
      exact absurd h3 (lt_irrefl _)
    · rintro ⟨u, v, h4, h5, h6⟩
      rw [h2] at h4; rw [h1] at h5; cases h4; cases h5
      exact absurd h3 (not_lt.2 h6)
  · rw [if_neg h, hr]
    exact ⟨fun _ => (Ext.lt_eq_false hb ha).1 (Bool.not_eq_true _ ▸ h), fun _ => rfl⟩

omit [Field K] [IsStrictOrderedRing K] in
/-- **C98** (containment), for boxes without NaN. A box contains another one exactly if its bounds are around those of the other one, infinite ones included; then it has all its points. Missing: NaN, which is
contained everywhere (`C98_union_disagreement`). -/
theorem C98_contains_partial (a b : ExtBox K) (ha : a.Proper) (hb : b.Proper) :
    (ExtBox.contains a b = true ↔ b.Inside a) ∧ (ExtBox.contains a b = true → ∀ p, b.Has p → a.Has p) := by
  have key : ExtBox.contains a b = true ↔ b.Inside a := by
    have e : ExtBox.combined a b = ⟨⟨Ext.min a.min.x b.min.x, Ext.min a.min.y b.min.y⟩, ⟨Ext.max a.max.x b.max.x, Ext.max a.max.y b.max.y⟩⟩ := by
      rw [ExtBox.combined, ha.valid, hb.valid]; rfl
    obtain ⟨a1, a2⟩ := ha.1.isNum
    obtain ⟨a3, a4⟩ := ha.2.isNum
    obtain ⟨b1, b2⟩ := hb.1.isNum
    obtain ⟨b3, b4⟩ := hb.2.isNum
    unfold ExtBox.contains
    rw [ha.valid, hb.valid]
    simp only [Bool.not_true, Bool.or_self, Bool.false_eq_true, if_false]
    unfold ExtBox.beq
    rw [ha.valid]
    simp only [Bool.not_true, Bool.and_false, Bool.false_eq_true, if_false]
    rw [Comparison.all_iff, Fin.forall_fin_two, e]
    show ((Ext.min a.min.x b.min.x).eq a.min.x && (Ext.max a.max.x b.max.x).eq a.max.x) = true ∧ ((Ext.min a.min.y b.min.y).eq a.min.y && (Ext.max a.max.y b.max.y).eq a.max.y) = true ↔ _
    simp only [Bool.and_eq_true]
    rw [Ext.min_eq_iff a1 b1, Ext.max_eq_iff a2 b2, Ext.min_eq_iff a3 b3, Ext.max_eq_iff a4 b4]
    exact ⟨fun ⟨⟨h1, h2⟩, h3, h4⟩ => ⟨h1, h2, h3, h4⟩, fun ⟨h1, h2, h3, h4⟩ => ⟨⟨h1, h2⟩, h3, h4⟩⟩
  exact ⟨key, fun h p hp => (key.1 h).has hp⟩

/-- **C98, disagreement** (NaN in unions). The union of a box with one whose bounds are all NaN is the box or the NaN box, depending on their order; the box contains the NaN box, and the NaN box does not contain itself. -/
theorem C98_union_disagreement (b : BoundingBox K) (hb : b.isValid = true) : let n : ExtBox K := ⟨⟨.nan, .nan⟩, ⟨.nan, .nan⟩⟩;
    ExtBox.combined (ExtBox.ofBox b) n = ExtBox.ofBox b ∧ ExtBox.combined n (ExtBox.ofBox b) = n ∧ ExtBox.contains (ExtBox.ofBox b) n = true ∧ ExtBox.contains n n = false := by
  have v : ExtBox.isValid (ExtBox.ofBox b) = true := by
    rw [ExtBox.isValid_iff_lt]
    simpa [BoundingBox.isValid, ExtBox.ofBox, Ext.lt] using hb
  have vn : ExtBox.isValid (⟨⟨.nan, .nan⟩, ⟨.nan, .nan⟩⟩ : ExtBox K) = true := rfl
  intro n
  have e : ExtBox.combined (ExtBox.ofBox b) n = ExtBox.ofBox b := by rw [ExtBox.combined, v, vn]; rfl
  refine ⟨e, by rw [ExtBox.combined, v, vn]; rfl, ?_, rfl⟩
  rw [ExtBox.contains, e, v, vn]
  simp only [Bool.not_true, Bool.or_self, Bool.false_eq_true, if_false]
  rw [ExtBox.beq, v]
  simp only [Bool.not_true, Bool.and_false, Bool.false_eq_true, if_false]
  rw [Comparison.all_iff, Fin.forall_fin_two]
  show (decide (b.min.x = b.min.x) && decide (b.max.x = b.max.x)) = true ∧ (decide (b.min.y = b.min.y) && decide (b.max.y = b.max.y)) = true
  simp

omit [Field K] [IsStrictOrderedRing K] in
theorem ofBox_between (x y p : K) : Ext.Between (.fin x) (.fin y) p ↔ x ≤ p ∧ p ≤ y := Ext.between_fin x y p

omit [Field K] [IsStrictOrderedRing K] in
theorem ofBox_has (b : BoundingBox K) (p : Vec2 K) : (ExtBox.ofBox b).Has p ↔ inBox b p := by
  unfold ExtBox.Has ExtBox.ofBox inBox
  rw [Ext.between_fin, Ext.between_fin]

omit [Field K] [IsStrictOrderedRing K] in
theorem ofBox_valid (b : BoundingBox K) : ExtBox.isValid (ExtBox.ofBox b) = b.isValid := by
  rw [Bool.eq_iff_iff, ExtBox.isValid_iff_lt]
  simp [BoundingBox.isValid, ExtBox.ofBox, Ext.lt]

/-- **C98** (finite boxes). For boxes with finite bounds, these are the functions of C06 and C07. -/
theorem C98_finite (a b : BoundingBox K) : ExtBox.isValid (ExtBox.ofBox a) = a.isValid ∧ ExtBox.overlaps (ExtBox.ofBox a) (ExtBox.ofBox b) = a.overlaps b ∧
    ExtBox.combined (ExtBox.ofBox a) (ExtBox.ofBox b) = ExtBox.ofBox (a.combined b) := by
  refine ⟨ofBox_valid a, ?_, ?_⟩
  · have fin : ∀ x : K, (Ext.fin x).Finite := fun x => (Ext.finite_iff _).2 ⟨x, rfl⟩
    have w : ∀ b : BoundingBox K, (ExtBox.ofBox b).Whole := fun b => ⟨Or.inl ⟨fin _, fin _⟩, Or.inl ⟨fin _, fin _⟩⟩
    rw [Bool.eq_iff_iff, C98_overlaps_partial _ _ (w a) (w b), BoundingBox.C07_overlaps]
    simp only [ofBox_has]
  · unfold ExtBox.combined BoundingBox.combined
    rw [ofBox_valid, ofBox_valid]
    split
    · rfl
    split
    · rfl
    have mn : ∀ x y : K, Ext.min (.fin x) (.fin y) = .fin (if y < x then y else x) := fun x y => by
      unfold Ext.min Ext.lt
      by_cases h : y < x <;> simp [h]
    have mx : ∀ x y : K, Ext.max (.fin x) (.fin y) = .fin (if x < y then y else x) := fun x y => by
      unfold Ext.max Ext.lt
      by_cases h : x < y <;> simp [h]
    simp only [ExtBox.ofBox, mn, mx, Vec2.min, Vec2.max]

namespace RTree
variable {C α : Type*}
open Spec

theorem extOverlaps_monotone (cfg : Cfg K C) (box : ExtBox K) : Cfg.Monotone { cfg with ovl := fun _ b => ExtBox.overlaps box (ExtBox.ofBox b) } := by
  intro _ b c hs hb
  obtain ⟨v, vb, hx, hy⟩ := (C98_overlaps _ _).1 hb
  have fin : ∀ x : K, (Ext.fin x).Finite := fun x => (Ext.finite_iff _).2 ⟨x, rfl⟩
  rw [ofBox_valid] at vb
  have vb' : b.min.x ≤ b.max.x ∧ b.min.y ≤ b.max.y := by simpa [BoundingBox.isValid] using vb
  have hmin := hs b.min ⟨⟨le_rfl, vb'.1⟩, le_rfl, vb'.2⟩
  have hmax := hs b.max ⟨⟨vb'.1, le_rfl⟩, vb'.2, le_rfl⟩
  refine (C98_overlaps _ _).2 ⟨v, ?_, ?_, ?_⟩
  · rw [ofBox_valid]
    simp only [BoundingBox.isValid, Bool.and_eq_true, Bool.not_eq_true', decide_eq_false_iff_not, not_lt]
    exact ⟨hmin.1.1.trans hmin.1.2, hmin.2.1.trans hmin.2.2⟩
  · refine hx.imp (fun h h' => h ⟨h'.1, h'.2.1, fin _, fin _⟩) ?_
    rintro ⟨p, h1, h2⟩
    have h2 := (Ext.between_fin _ _ _).1 h2
    exact ⟨p, h1, (Ext.between_fin _ _ _).2 ⟨hmin.1.1.trans h2.1, h2.2.trans hmax.1.2⟩⟩
  · refine hy.imp (fun h h' => h ⟨h'.1, h'.2.1, fin _, fin _⟩) ?_
    rintro ⟨p, h1, h2⟩
    have h2 := (Ext.between_fin _ _ _).1 h2
    exact ⟨p, h1, (Ext.between_fin _ _ _).2 ⟨hmin.2.1.trans h2.1, h2.2.trans hmax.2.2⟩⟩

/-- **C98** (queries), for regions each of whose sides is bounded on both ends or on none. In a tree of finite boxes, after any legal history, the query visits exactly the elements that have a point in the region, each once.
Missing: sides that are bounded on one end, and NaN, for which it is false (`C98_region_disagreement`). -/
theorem C98_region_partial (cfg : Cfg K C) (hfin : cfg.FiniteAreas) (pq : PQ (Cand K C α)) [DecidableEq α] (ops : List (Op K α)) (hops : legalHistory (fun _ => none) ops) (t : Node K α)
    (h : runOps cfg pq empty ops = .ok t) (box : ExtBox K) (hw : box.Whole) :
    ((forEachInExt cfg box t).map (·.id)).Nodup ∧ ∀ e, e ∈ forEachInExt cfg box t ↔ run (fun _ => none) ops e.id = some e.bounds ∧ ∃ p, box.Has p ∧ inBox e.bounds p := by
  obtain ⟨hg, hl⟩ := runOps_good cfg hfin pq hops h
  unfold forEachInExt
  rw [forEachIn_root _ (extOverlaps_monotone cfg box) _ hg]
  have := lists_filter hl fun e => ExtBox.overlaps box (ExtBox.ofBox e.bounds)
  refine ⟨this.1, fun e => ?_⟩
  rw [this.2 e]
  have fin : ∀ x : K, (Ext.fin x).Finite := fun x => (Ext.finite_iff _).2 ⟨x, rfl⟩
  rw [C98_overlaps_partial box _ hw ⟨Or.inl ⟨fin _, fin _⟩, Or.inl ⟨fin _, fin _⟩⟩]
  simp only [ofBox_has]

/-- **C98, disagreement** (queries). A valid region with an infinite or NaN bound in both directions visits every element of the tree that has a point at all, wherever it is: a force field on a half plane acts everywhere. -/
theorem C98_region_disagreement (cfg : Cfg K C) (hfin : cfg.FiniteAreas) (pq : PQ (Cand K C α)) [DecidableEq α] (ops : List (Op K α)) (hops : legalHistory (fun _ => none) ops) (t : Node K α)
    (h : runOps cfg pq empty ops = .ok t) (box : ExtBox K) (hv : ExtBox.isValid box = true) (hx : ¬(box.min.x.Finite ∧ box.max.x.Finite)) (hy : ¬(box.min.y.Finite ∧ box.max.y.Finite)) :
    ∀ e, e ∈ forEachInExt cfg box t ↔ run (fun _ => none) ops e.id = some e.bounds ∧ e.bounds.isValid = true := by
  obtain ⟨hg, hl⟩ := runOps_good cfg hfin pq hops h
  unfold forEachInExt
  rw [forEachIn_root _ (extOverlaps_monotone cfg box) _ hg]
  have := lists_filter hl fun e => ExtBox.overlaps box (ExtBox.ofBox e.bounds)
  intro e
  rw [this.2 e, C98_overlaps, ofBox_valid]
  exact ⟨fun h => ⟨h.1, h.2.2.1⟩, fun h => ⟨h.1, hv, h.2, Or.inl fun h => hx ⟨h.1, h.2.1⟩, Or.inl fun h => hy ⟨h.1, h.2.1⟩⟩⟩

end RTree

section Examples

/-- A band: bounded in one direction only. -/
def band : ExtBox ℚ := ⟨⟨.ninf, .fin 0⟩, ⟨.pinf, .fin 2⟩⟩

theorem band_whole : band.Whole := ⟨Or.inr ⟨rfl, rfl⟩, Or.inl ⟨⟨0, rfl⟩, 2, rfl⟩⟩

/-- The band overlaps what is beside it and not what is above it. -/
example : ExtBox.overlaps band (ExtBox.ofBox ⟨⟨100, 1⟩, ⟨101, 5⟩⟩) = true ∧ ExtBox.overlaps band (ExtBox.ofBox ⟨⟨100, 3⟩, ⟨101, 5⟩⟩) = false ∧ ExtBox.contains band (ExtBox.ofBox ⟨⟨100, 1⟩, ⟨101, 2⟩⟩) = true ∧
    ExtBox.contains halfPlane band = false ∧ ExtBox.combined band halfPlane = ⟨⟨.ninf, .ninf⟩, ⟨.pinf, .pinf⟩⟩ := by decide +kernel

example : band.Proper ∧ halfPlane.Proper := ⟨⟨by simp [band, Ext.Le, Ext.val], by simp [band, Ext.Le, Ext.val]⟩, by simp [halfPlane, Ext.Le, Ext.val], by simp [halfPlane, Ext.Le, Ext.val]⟩

example : band.Has ⟨7, 1⟩ ∧ (ExtBox.ofBox ⟨⟨0, 0⟩, ⟨9, 9⟩⟩ : ExtBox ℚ).Has ⟨7, 1⟩ := by
  refine ⟨⟨⟨Ext.ninf_le _, Ext.le_pinf _⟩, (Ext.le_fin _ _).2 (by norm_num), (Ext.le_fin _ _).2 (by norm_num)⟩, (ofBox_has _ _).2 ?_⟩
  norm_num [inBox]

/-- With NaN, `<=` and `>=` are true. -/
example : Comparison.le (s := 1) (fun _ => (.nan : Ext ℚ)) (fun _ => .fin 0) 0 = true ∧ Comparison.ge (s := 1) (fun _ => (.nan : Ext ℚ)) (fun _ => .fin 0) 0 = true ∧
    Comparison.lt (s := 1) (fun _ => (.nan : Ext ℚ)) (fun _ => .fin 0) 0 = false := by decide +kernel

/-- The query of a half plane in a tree of one element on the other side. -/
example : RTree.forEachInExt (RTree.exactCfg (K := ℚ)) halfPlane (.leaf ⟨⟨-2, 0⟩, ⟨-1, 1⟩⟩ 0) = [⟨0, ⟨⟨-2, 0⟩, ⟨-1, 1⟩⟩⟩] := by decide +kernel

end Examples

end Simu
