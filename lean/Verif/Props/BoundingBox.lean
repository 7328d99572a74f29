import Verif.Lemmas.BoundingBox
import Verif.Model.Collider
import Mathlib.Analysis.Convex.Hull
import Mathlib.Algebra.Order.Ring.Rat
import Mathlib.Data.Rat.Defs
import Mathlib.Tactic.NormNum
import Mathlib.Tactic.FinCases
/-
C05 (Interval), C06-C08 (BoundingBox, Collider).
-/
namespace Simu
open Spec

section interval
variable {K : Type*} [Field K] [LinearOrder K] [IsStrictOrderedRing K]

/-- **C05.** `contains` is membership of the closed interval (nothing when inverted). -/
theorem C05_contains {K : Type*} [LinearOrder K] (i : Interval K) (v : K) :
    (i.contains v = true ↔ inInterval i v) ∧ (i.hi < i.lo → i.contains v = false) := by
  constructor
  · simp [Interval.contains, inInterval]
  · intro h
    simp only [Interval.contains, Bool.and_eq_false_iff, decide_eq_false_iff_not, not_le]
    by_contra hc
    push Not at hc
    order

/-- **C05.** For intervals with `min <= max`, the midpoint/span test is true exactly when the two
intervals share a value. -/
theorem C05_overlaps_partial (i o : Interval K) (hi : i.lo ≤ i.hi) (ho : o.lo ≤ o.hi) :
    i.overlaps o = true ↔ ∃ v, inInterval i v ∧ inInterval o v := by
  rw [Interval.overlaps_iff]
  constructor
  · rintro ⟨h1, h2⟩
    refine ⟨max i.lo o.lo, ⟨le_max_left _ _, max_le hi h2⟩, le_max_right _ _, max_le h1 ho⟩
  · rintro ⟨v, ⟨h1, h2⟩, h3, h4⟩
    exact ⟨h1.trans h4, h3.trans h2⟩

example : (⟨0, 1⟩ : Interval ℚ).overlaps ⟨1, 3⟩ = true ∧ (⟨0, 1⟩ : Interval ℚ).overlaps ⟨2, 3⟩ = false := by
  decide +kernel

/-- **C05, disagreement.** The documentation says that an interval with `min > max` contains nothing, yet
`overlaps` is true for every inverted interval lying strictly inside the other one, although they share
no value. What is missing from C05: `overlaps` never checks for degenerate intervals. -/
theorem C05_inverted_overlaps_disagreement (i o : Interval K) (hi : i.hi < i.lo) (h1 : o.lo ≤ i.hi)
    (h2 : i.lo ≤ o.hi) :
    i.overlaps o = true ∧ ¬ ∃ v, inInterval i v ∧ inInterval o v := by
  refine ⟨(Interval.overlaps_iff i o).2 ⟨h2, h1⟩, ?_⟩
  rintro ⟨v, ⟨a, b⟩, _⟩
  order

example : (⟨5, 3⟩ : Interval ℚ).overlaps ⟨0, 10⟩ = true := by decide +kernel

/-- **C05.** `approx(value, e)` is the set of numbers at distance at most `|e|`. -/
theorem C05_approx (value e y : K) :
    (Interval.approx value e).contains y = true ↔ |y - value| ≤ |e| := by
  rw [(C05_contains _ _).1, abs_le]
  simp only [Interval.approx, inInterval]
  constructor
  · rintro ⟨h1, h2⟩; constructor <;> linarith
  · rintro ⟨h1, h2⟩; constructor <;> linarith

example : (Interval.approx (2 : ℚ) (-1/2)).contains (5/2) = true ∧
    (Interval.approx (2 : ℚ) (-1/2)).contains (13/5) = false := by decide +kernel

end interval

namespace BoundingBox

section lattice
variable {K : Type*} [LinearOrder K]

/-- `operator==` is equality of the point sets. -/
theorem C06_eq_is_set_equality (a b : BoundingBox K) : a.beq b = true ↔ sameBox a b :=
  beq_iff_sameBox a b

/-- **C06.** `combined(a, b)` encloses both and is enclosed by every box which encloses both. This only
uses comparisons, so it holds for any linearly ordered set of coordinates (floats without NaN too). -/
theorem C06_combined_is_least_upper_bound (a b : BoundingBox K) :
    subBox a (combined a b) ∧ subBox b (combined a b) ∧
    ∀ c, subBox a c → subBox b c → subBox (combined a b) c :=
  ⟨subBox_combined_left a b, subBox_combined_right a b, fun _ => combined_subBox⟩

/-- **C06.** Commutative, associative and idempotent up to `==`; an invalid box is neutral. -/
theorem C06_combined_laws (a b c : BoundingBox K) :
    (combined a b).beq (combined b a) = true ∧
    (combined (combined a b) c).beq (combined a (combined b c)) = true ∧
    (combined a a).beq a = true ∧
    (b.isValid = false → (combined a b).beq a = true ∧ (combined b a).beq a = true) := by
  simp only [beq_iff_sameBox]
  have hl := @subBox_combined_left K _
  have hr := @subBox_combined_right K _
  refine ⟨?_, ?_, ?_, ?_⟩
  · exact subBox_antisymm (combined_subBox (hr _ _) (hl _ _)) (combined_subBox (hr _ _) (hl _ _))
  · refine subBox_antisymm (combined_subBox (combined_subBox (hl _ _) ?_) ?_)
      (combined_subBox ?_ (combined_subBox ?_ (hr _ _)))
    · exact subBox_trans (hl _ _) (hr _ _)
    · exact subBox_trans (hr _ _) (hr _ _)
    · exact subBox_trans (hl _ _) (hl _ _)
    · exact subBox_trans (hr _ _) (hl _ _)
  · exact subBox_antisymm (combined_subBox (subBox_refl _) (subBox_refl _)) (hl _ _)
  · intro hb
    exact ⟨subBox_antisymm (combined_subBox (subBox_refl _) (subBox_of_invalid hb)) (hl _ _),
      subBox_antisymm (combined_subBox (subBox_of_invalid hb) (subBox_refl _)) (hr _ _)⟩

example : combined (⟨⟨0, 0⟩, ⟨1, 1⟩⟩ : BoundingBox ℚ) ⟨⟨-1, 2⟩, ⟨0, 3⟩⟩ = ⟨⟨-1, 0⟩, ⟨1, 3⟩⟩ ∧
    combined (⟨⟨0, 0⟩, ⟨1, 1⟩⟩ : BoundingBox ℚ) invalid = ⟨⟨0, 0⟩, ⟨1, 1⟩⟩ ∧
    (invalid : BoundingBox ℚ).isValid = false := by decide +kernel

/-- **C07.** `contains` is inclusion of point sets, between valid boxes; false if one is invalid. -/
theorem C07_contains (a b : BoundingBox K) :
    a.contains b = true ↔ (a.isValid = true ∧ b.isValid = true ∧ subBox b a) := by
  unfold contains
  cases ha : a.isValid <;> cases hb : b.isValid <;> simp
  rw [beq_iff_sameBox]
  constructor
  · intro h
    exact subBox_trans (subBox_combined_right a b) fun p => (h p).1
  · intro h
    exact subBox_antisymm (combined_subBox (subBox_refl _) h) (subBox_combined_left _ _)

example : (⟨⟨0, 0⟩, ⟨4, 4⟩⟩ : BoundingBox ℚ).contains ⟨⟨1, 0⟩, ⟨2, 4⟩⟩ = true ∧
    (⟨⟨0, 0⟩, ⟨4, 4⟩⟩ : BoundingBox ℚ).contains ⟨⟨1, 0⟩, ⟨2, 5⟩⟩ = false := by decide +kernel

end lattice

section overlap
variable {K : Type*} [Field K] [LinearOrder K] [IsStrictOrderedRing K]

/-- **C07.** Two boxes overlap exactly when some point of the plane is in both (an invalid box has no
point, so it overlaps nothing; touching borders count). -/
theorem C07_overlaps (a b : BoundingBox K) :
    a.overlaps b = true ↔ ∃ p, inBox a p ∧ inBox b p := by
  rw [overlaps_iff, isValid_iff, isValid_iff]
  constructor
  · rintro ⟨⟨a1, a2⟩, ⟨b1, b2⟩, ⟨h1, h2⟩, h3, h4⟩
    refine ⟨⟨a.min.x ⊔ b.min.x, a.min.y ⊔ b.min.y⟩, ⟨⟨le_max_left _ _, max_le a1 h2⟩,
      le_max_left _ _, max_le a2 h4⟩, ⟨le_max_right _ _, max_le h1 b1⟩, le_max_right _ _, max_le h3 b2⟩
  · rintro ⟨p, ⟨⟨a1, a2⟩, a3, a4⟩, ⟨b1, b2⟩, b3, b4⟩
    exact ⟨⟨a1.trans a2, a3.trans a4⟩, ⟨b1.trans b2, b3.trans b4⟩, ⟨a1.trans b2, b1.trans a2⟩,
      a3.trans b4, b3.trans a4⟩

/-- **C07.** Consequences: symmetry, reflexivity on valid boxes, an invalid box overlaps nothing, and
monotonicity with respect to containment. -/
theorem C07_overlaps_laws (a b c : BoundingBox K) :
    a.overlaps b = b.overlaps a ∧ (a.isValid = true → a.overlaps a = true) ∧
    (a.isValid = false → a.overlaps b = false) ∧
    (c.contains b = true → a.overlaps b = true → a.overlaps c = true) := by
  refine ⟨?_, ?_, ?_, ?_⟩
  · rw [Bool.eq_iff_iff, C07_overlaps, C07_overlaps]
    exact ⟨fun ⟨p, h, h'⟩ => ⟨p, h', h⟩, fun ⟨p, h, h'⟩ => ⟨p, h', h⟩⟩
  · intro h
    obtain ⟨p, hp⟩ := (valid_iff_nonempty a).1 h
    exact (C07_overlaps a a).2 ⟨p, hp, hp⟩
  · intro h; simp [overlaps, h]
  · intro h
    rw [C07_overlaps, C07_overlaps]
    rintro ⟨p, h1, h2⟩
    exact ⟨p, h1, ((C07_contains c b).1 h).2.2 p h2⟩

example : (⟨⟨0, 0⟩, ⟨1, 1⟩⟩ : BoundingBox ℚ).overlaps ⟨⟨1, 1⟩, ⟨2, 2⟩⟩ = true ∧
    (⟨⟨0, 0⟩, ⟨1, 1⟩⟩ : BoundingBox ℚ).overlaps ⟨⟨0, 2⟩, ⟨1, 3⟩⟩ = false ∧
    (⟨⟨0, 0⟩, ⟨1, 1⟩⟩ : BoundingBox ℚ).overlaps ⟨⟨1, 1⟩, ⟨0, 0⟩⟩ = false := by decide +kernel

/-- **C07.** Scaling a valid box by a ratio of at least one yields a box containing it, with the same
center, and each point of the scaled box comes from a point of the original moved away from the
center. -/
theorem C07_scaled (b : BoundingBox K) (r : K) (hr : 0 < r) :
    (scaled b r).center = b.center ∧ (scaled b r).isValid = b.isValid ∧
    (∀ p, inBox b p ↔ inBox (scaled b r) (b.center + r • (p - b.center))) ∧
    (1 ≤ r → subBox b (scaled b r)) := by
  have h2 : (2 : K) ≠ 0 := two_ne_zero
  have hmono : ∀ u v c : K, u ≤ v ↔ c + (u - c) * r ≤ c + (v - c) * r := by
    intro u v c
    rw [add_le_add_iff_left, mul_le_mul_iff_left₀ hr, sub_le_sub_iff_right]
  refine ⟨?_, ?_, ?_, ?_⟩
  · ext <;> simp [scaled, center] <;> field_simp <;> ring
  · rw [Bool.eq_iff_iff, isValid_iff, isValid_iff]
    simp only [scaled, Vec2.add_x, Vec2.add_y, Vec2.smul_x, Vec2.smul_y, Vec2.sub_x, Vec2.sub_y]
    rw [← hmono, ← hmono]
  · intro p
    simp only [inBox, scaled, Vec2.add_x, Vec2.add_y, Vec2.smul_x, Vec2.smul_y, Vec2.sub_x, Vec2.sub_y]
    rw [← hmono, ← hmono, ← hmono, ← hmono]
  · intro hr1 p ⟨⟨a1, a2⟩, a3, a4⟩
    simp only [inBox, scaled, Vec2.add_x, Vec2.add_y, Vec2.smul_x, Vec2.smul_y, Vec2.sub_x, Vec2.sub_y,
      center, Vec2.sdiv_x, Vec2.sdiv_y]
    have e1 : (b.max.x + b.min.x) / 2 * 2 = b.max.x + b.min.x := div_mul_cancel₀ _ h2
    have e2 : (b.max.y + b.min.y) / 2 * 2 = b.max.y + b.min.y := div_mul_cancel₀ _ h2
    generalize (b.max.x + b.min.x) / 2 = cx at *
    generalize (b.max.y + b.min.y) / 2 = cy at *
    refine ⟨⟨?_, ?_⟩, ?_, ?_⟩
    · nlinarith [mul_nonneg (sub_nonneg.2 hr1) (by linarith : (0:K) ≤ cx - b.min.x)]
    · nlinarith [mul_nonneg (sub_nonneg.2 hr1) (by linarith : (0:K) ≤ b.max.x - cx)]
    · nlinarith [mul_nonneg (sub_nonneg.2 hr1) (by linarith : (0:K) ≤ cy - b.min.y)]
    · nlinarith [mul_nonneg (sub_nonneg.2 hr1) (by linarith : (0:K) ≤ b.max.y - cy)]

example : scaled (⟨⟨0, 0⟩, ⟨2, 4⟩⟩ : BoundingBox ℚ) 2 = ⟨⟨-1, -2⟩, ⟨3, 6⟩⟩ := by decide +kernel

end overlap

section vertices
variable {K : Type*} [LinearOrder K]

/-- **C08.** The box of a non-empty range of vertices is built, contains every vertex and is contained
in every box that contains every vertex. An empty range leaves the corners uninitialised. -/
theorem C08_box_of_vertices_is_tightest (vs : List (Vec2 K)) :
    (vs ≠ [] → ∃ b, ofVertices vs = .ok b ∧ b.isValid = true ∧ (∀ v ∈ vs, inBox b v) ∧
      ∀ c : BoundingBox K, (∀ v ∈ vs, inBox c v) → subBox b c) ∧
    (vs = [] → ofVertices vs = .ub) := by
  refine ⟨?_, by rintro rfl; rfl⟩
  intro hne
  obtain ⟨p, ps, rfl⟩ := List.exists_cons_of_ne_nil hne
  suffices h : ∀ (ps : List (Vec2 K)) (b0 : BoundingBox K), b0.isValid = true →
      let b := ps.foldl (fun b v => ⟨Vec2.min b.min v, Vec2.max b.max v⟩) b0
      b.isValid = true ∧ subBox b0 b ∧ (∀ v ∈ ps, inBox b v) ∧
      ∀ c : BoundingBox K, subBox b0 c → (∀ v ∈ ps, inBox c v) → subBox b c by
    have hv : (⟨p, p⟩ : BoundingBox K).isValid = true := by simp [isValid_iff]
    obtain ⟨h1, h2, h3, h4⟩ := h ps ⟨p, p⟩ hv
    refine ⟨_, rfl, h1, ?_, ?_⟩
    · intro v hvm
      rcases List.mem_cons.1 hvm with rfl | hvm
      · exact h2 v (by simp [inBox])
      · exact h3 v hvm
    · intro c hc
      refine h4 c ?_ fun v hvm => hc v (List.mem_cons_of_mem _ hvm)
      have := hc p List.mem_cons_self
      rw [subBox_iff hv]
      exact this
  intro ps
  induction ps with
  | nil => intro b0 hb; exact ⟨hb, subBox_refl _, by simp, fun c h _ => h⟩
  | cons q qs ih =>
    intro b0 hb
    have hstep : (⟨Vec2.min b0.min q, Vec2.max b0.max q⟩ : BoundingBox K) = combined b0 ⟨q, q⟩ := by
      rw [combined_valid hb (by simp [isValid_iff]), Vec2.min_eq, Vec2.max_eq]
    have hq : (⟨q, q⟩ : BoundingBox K).isValid = true := by simp [isValid_iff]
    simp only [List.foldl_cons, hstep]
    obtain ⟨h1, h2, h3, h4⟩ := ih (combined b0 ⟨q, q⟩) (by simp [isValid_combined, hb])
    refine ⟨h1, subBox_trans (subBox_combined_left _ _) h2, ?_, ?_⟩
    · intro v hvm
      rcases List.mem_cons.1 hvm with rfl | hvm
      · exact h2 v (subBox_combined_right b0 ⟨v, v⟩ v (by simp [inBox]))
      · exact h3 v hvm
    · intro c hc hall
      refine h4 c (combined_subBox hc ?_) fun v hvm => hall v (List.mem_cons_of_mem _ hvm)
      rw [subBox_iff hq]
      exact hall q List.mem_cons_self

example : ofVertices [⟨0, 1⟩, ⟨3, -2⟩, ⟨1, 5⟩] = Outcome.ok (⟨⟨0, -2⟩, ⟨3, 5⟩⟩ : BoundingBox ℚ) := by
  decide +kernel

end vertices

/-- **C08 (colliders).** After `update`, whatever the transform and the previous state, the stored
bounding box contains every point of the convex hull of the transformed (world space) vertices. -/
theorem C08_collider_box_encloses_polygon {K : Type*} [Field K] [LinearOrder K] [IsStrictOrderedRing K]
    (c : ColliderGeom K) (T : Vec2 K → Vec2 K) (h : c.localVerts ≠ []) :
    ∃ b, (c.update T).box = .ok b ∧ b.isValid = true ∧
      ∀ p ∈ convexHull K {v | v ∈ c.localVerts.map T}, inBox b p := by
  obtain ⟨b, h1, h2, h3, _⟩ := (C08_box_of_vertices_is_tightest (c.localVerts.map T)).1 (by simpa using h)
  refine ⟨b, h1, h2, ?_⟩
  have hconv : Convex K {p | inBox b p} := by
    intro p ⟨⟨p1, p2⟩, p3, p4⟩ q ⟨⟨q1, q2⟩, q3, q4⟩ s t hs ht hst
    have key : ∀ l u v : K, l ≤ u → l ≤ v → l ≤ u * s + v * t := by
      intro l u v hu hv
      calc l = l * s + l * t := by rw [← mul_add, hst, mul_one]
        _ ≤ _ := add_le_add (mul_le_mul_of_nonneg_right hu hs) (mul_le_mul_of_nonneg_right hv ht)
    have key' : ∀ l u v : K, u ≤ l → v ≤ l → u * s + v * t ≤ l := by
      intro l u v hu hv
      calc u * s + v * t ≤ l * s + l * t :=
            add_le_add (mul_le_mul_of_nonneg_right hu hs) (mul_le_mul_of_nonneg_right hv ht)
        _ = l := by rw [← mul_add, hst, mul_one]
    exact ⟨⟨key _ _ _ p1 q1, key' _ _ _ p2 q2⟩, key _ _ _ p3 q3, key' _ _ _ p4 q4⟩
  intro p hp
  exact convexHull_min (fun v hv => h3 v hv) hconv hp

example : ((ColliderGeom.make [⟨0, 0⟩, ⟨1, 0⟩, ⟨0, 1⟩]).update (fun p : Vec2 ℚ => p + ⟨5, 7⟩)).box =
    .ok ⟨⟨5, 7⟩, ⟨6, 8⟩⟩ := by decide +kernel

end BoundingBox
end Simu
