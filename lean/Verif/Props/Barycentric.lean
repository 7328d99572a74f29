import Verif.Spec.Geometry
import Verif.Model.Geometry
import Verif.Lemmas.Algo
import Mathlib.Tactic.NormNum
import Mathlib.Tactic.FieldSimp
import Mathlib.Tactic.Linarith
import Mathlib.Tactic.LinearCombination
import Mathlib.Algebra.Order.Field.Rat
import Mathlib.Data.Rat.Cast.Order
/-
Properties C18 and C19: closest points of segments and triangles.
-/
set_option linter.unusedSectionVars false
namespace Simu
variable {K : Type*} [Field K] [LinearOrder K] [IsStrictOrderedRing K]

theorem normSquared_eq_zero {a : Vec2 K} : Vec2.normSquared a = 0 ↔ a = 0 := by
  constructor
  · intro h
    simp only [Vec2.normSquared, Vec2.dot, zero_add] at h
    have := (add_eq_zero_iff_of_nonneg (mul_self_nonneg a.x) (mul_self_nonneg a.y)).1 h
    ext
    · simpa using this.1
    · simpa using this.2
  · rintro rfl; simp [Vec2.normSquared, Vec2.dot]

theorem normSquared_nonneg (a : Vec2 K) : 0 ≤ Vec2.normSquared a := by
  simp only [Vec2.normSquared, Vec2.dot, zero_add]
  exact add_nonneg (mul_self_nonneg _) (mul_self_nonneg _)

theorem normSquared_pos {A B : Vec2 K} (h : A ≠ B) : 0 < Vec2.normSquared (B - A) :=
  lt_of_le_of_ne (normSquared_nonneg _) fun h0 => h (by
    have := normSquared_eq_zero.1 h0.symm
    have hx := congrArg Vec2.x this
    have hy := congrArg Vec2.y this
    simp [sub_eq_zero] at hx hy
    ext <;> simp [hx, hy])

/-- Obtuse angle criterion: if the angle `Q P X` is obtuse then `P` is nearer to `Q` than `X`. -/
theorem distSq_le_of_dot {P X Q : Vec2 K} (h : Vec2.dot (Q - P) (X - P) ≤ 0) : distSq P Q ≤ distSq X Q := by
  have e : distSq X Q = distSq P Q - 2 * Vec2.dot (Q - P) (X - P) + Vec2.normSquared (X - P) := by
    simp [distSq, Vec2.dot, Vec2.normSquared]; ring
  have := normSquared_nonneg (X - P)
  rw [e]; linarith

theorem clamp01 (t : K) : 0 ≤ Algo.clamp t 0 1 ∧ Algo.clamp t 0 1 ≤ 1 ∧
    (t < 0 → Algo.clamp t 0 1 = 0) ∧ (1 < t → Algo.clamp t 0 1 = 1) ∧ (0 ≤ t → t ≤ 1 → Algo.clamp t 0 1 = t) := by
  have h01 : (0 : K) < 1 := one_pos
  have e1 : t < 0 → Algo.clamp t 0 1 = 0 := fun h => by simp [Algo.clamp, h, not_lt.2 h01.le]
  have e2 : 1 < t → Algo.clamp t 0 1 = 1 := fun h => by
    simp only [Algo.clamp]
    rw [if_neg (not_lt.2 (h01.trans h).le), if_pos h]
  have e3 : 0 ≤ t → t ≤ 1 → Algo.clamp t 0 1 = t := fun h h' => by
    simp only [Algo.clamp]
    rw [if_neg (not_lt.2 h), if_neg (not_lt.2 h')]
  rcases lt_or_ge t 0 with h | h
  · rw [e1 h]; exact ⟨le_rfl, h01.le, fun _ => rfl, fun h' => absurd h' (not_lt.2 (h.trans h01).le), fun h' => absurd h' (not_le.2 h)⟩
  · rcases lt_or_ge 1 t with h' | h'
    · rw [e2 h']; exact ⟨h01.le, le_rfl, fun h'' => absurd h'' (not_lt.2 h), fun _ => rfl, fun _ h'' => absurd h'' (not_le.2 h')⟩
    · rw [e3 h h']; exact ⟨h, h', fun h'' => absurd h'' (not_lt.2 h), fun h'' => absurd h'' (not_lt.2 h'), fun _ _ => rfl⟩

/-! ### C18 -/

/-- C18: the closest point is on the segment and no point of the segment is nearer to `Q`; the weights sum to one. -/
theorem C18_closest (A B Q : Vec2 K) :
    OnSegment A B (LineBarycentric.mk' A B Q).closestPoint ∧
    (∀ P, OnSegment A B P → distSq (LineBarycentric.mk' A B Q).closestPoint Q ≤ distSq P Q) ∧
    (LineBarycentric.mk' A B Q).u + (LineBarycentric.mk' A B Q).v = 1 := by
  unfold LineBarycentric.mk'
  set n := Vec2.normSquared (B - A) with hn
  set t := if n = 0 then 0 else Vec2.dot (Q - A) (B - A) / n with ht
  obtain ⟨c0, c1, c2, c3, c4⟩ := clamp01 t
  refine ⟨⟨Algo.clamp t 0 1, c0, c1, ?_⟩, ?_, by simp⟩
  · ext <;> simp <;> ring
  · rintro P ⟨s, s0, s1, rfl⟩
    apply distSq_le_of_dot
    set c := Algo.clamp t 0 1
    have e : Vec2.dot (Q - (A + c • (B - A))) ((1 - s) • A + s • B - (A + c • (B - A))) =
        (s - c) * (Vec2.dot (Q - A) (B - A) - c * n) := by
      simp [hn, Vec2.dot, Vec2.normSquared]; ring
    simp only
    rw [e]
    have hn0 : 0 ≤ n := normSquared_nonneg _
    by_cases h0 : n = 0
    · have hBA := normSquared_eq_zero.1 (hn ▸ h0)
      rw [h0, hBA]; simp [Vec2.dot]
    · have hnp : 0 < n := lt_of_le_of_ne hn0 (Ne.symm h0)
      have htd : Vec2.dot (Q - A) (B - A) = t * n := by simp only [ht, h0, if_false]; field_simp
      rw [htd, ← sub_mul, ← mul_assoc]
      apply mul_nonpos_of_nonpos_of_nonneg _ hn0
      rcases lt_or_ge t 0 with h | h
      · rw [c2 h]; exact mul_nonpos_of_nonneg_of_nonpos (by linarith) (by linarith)
      · rcases lt_or_ge 1 t with h' | h'
        · rw [c3 h']; exact mul_nonpos_of_nonpos_of_nonneg (by linarith) (by linarith)
        · rw [c4 h h']; simp

/-- C18: a degenerate segment yields `A`. -/
theorem C18_degenerate (A Q : Vec2 K) : (LineBarycentric.mk' A A Q).closestPoint = A := by
  ext <;> simp [LineBarycentric.mk']

/-- C18: on a proper segment, `(u, v)` are the barycentric weights of the orthogonal projection of `Q` on the line. -/
theorem C18_weights (A B Q : Vec2 K) (h : A ≠ B) :
    Vec2.dot (Q - ((LineBarycentric.mk' A B Q).u • A + (LineBarycentric.mk' A B Q).v • B)) (B - A) = 0 := by
  have hn := (normSquared_pos h).ne'
  have e : ∀ t : K, Vec2.dot (Q - ((1 - t) • A + t • B)) (B - A) = Vec2.dot (Q - A) (B - A) - t * Vec2.normSquared (B - A) := by
    intro t; simp [Vec2.dot, Vec2.normSquared]; ring
  simp only [LineBarycentric.mk', hn, if_false]
  rw [e]
  rw [div_mul_cancel₀ _ hn, sub_self]

example : (LineBarycentric.mk' (⟨0, 0⟩ : Vec2 ℚ) ⟨4, 0⟩ ⟨3, 5⟩).closestPoint = ⟨3, 0⟩ := by decide +kernel
example : (LineBarycentric.mk' (⟨0, 0⟩ : Vec2 ℚ) ⟨4, 2⟩ ⟨9, 9⟩).closestPoint = ⟨4, 2⟩ := by decide +kernel
example : (⟨0, 0⟩ : Vec2 ℚ) ≠ ⟨4, 2⟩ := by decide

/-! ### C19 -/

/-- Signs of the line coordinates as signs of scalar products. -/
theorem line_v {A B : Vec2 K} (Q : Vec2 K) (h : A ≠ B) :
    (LineBarycentric.mk' A B Q).v = Vec2.dot (Q - A) (B - A) / Vec2.normSquared (B - A) := by
  simp [LineBarycentric.mk', (normSquared_pos h).ne']

theorem line_u {A B : Vec2 K} (Q : Vec2 K) (h : A ≠ B) :
    (LineBarycentric.mk' A B Q).u = Vec2.dot (Q - B) (A - B) / Vec2.normSquared (B - A) := by
  have hn := (normSquared_pos h).ne'
  have : (LineBarycentric.mk' A B Q).u = 1 - Vec2.dot (Q - A) (B - A) / Vec2.normSquared (B - A) := by
    simp [LineBarycentric.mk', (normSquared_pos h).ne']
  rw [this, eq_div_iff hn, sub_mul, div_mul_cancel₀ _ hn]
  simp [Vec2.dot, Vec2.normSquared]; ring

theorem div_nonpos_iff_pos {a n : K} (hn : 0 < n) : a / n ≤ 0 ↔ a ≤ 0 := by rw [div_le_iff₀ hn, zero_mul]
theorem div_nonneg_iff_pos {a n : K} (hn : 0 < n) : 0 ≤ a / n ↔ 0 ≤ a := by rw [le_div_iff₀ hn, zero_mul]

theorem v_nonpos {A B : Vec2 K} (Q : Vec2 K) (h : A ≠ B) :
    (LineBarycentric.mk' A B Q).v ≤ 0 ↔ Vec2.dot (Q - A) (B - A) ≤ 0 := by
  rw [line_v Q h, div_nonpos_iff_pos (normSquared_pos h)]
theorem v_nonneg {A B : Vec2 K} (Q : Vec2 K) (h : A ≠ B) :
    0 ≤ (LineBarycentric.mk' A B Q).v ↔ 0 ≤ Vec2.dot (Q - A) (B - A) := by
  rw [line_v Q h, div_nonneg_iff_pos (normSquared_pos h)]
theorem u_nonpos {A B : Vec2 K} (Q : Vec2 K) (h : A ≠ B) :
    (LineBarycentric.mk' A B Q).u ≤ 0 ↔ Vec2.dot (Q - B) (A - B) ≤ 0 := by
  rw [line_u Q h, div_nonpos_iff_pos (normSquared_pos h)]
theorem u_nonneg {A B : Vec2 K} (Q : Vec2 K) (h : A ≠ B) :
    0 ≤ (LineBarycentric.mk' A B Q).u ↔ 0 ≤ Vec2.dot (Q - B) (A - B) := by
  rw [line_u Q h, div_nonneg_iff_pos (normSquared_pos h)]

/-- Three obtuse angles make `P` the closest point. -/
theorem closest_of_dots {A B C P Q : Vec2 K} (ha : Vec2.dot (Q - P) (A - P) ≤ 0)
    (hb : Vec2.dot (Q - P) (B - P) ≤ 0) (hc : Vec2.dot (Q - P) (C - P) ≤ 0) (X : Vec2 K) (hX : InTriangle A B C X) :
    distSq P Q ≤ distSq X Q := by
  obtain ⟨a, b, c, h0, h1, h2, hs, rfl⟩ := hX
  apply distSq_le_of_dot
  have e : Vec2.dot (Q - P) (a • A + b • B + c • C - P) =
      a * Vec2.dot (Q - P) (A - P) + b * Vec2.dot (Q - P) (B - P) + c * Vec2.dot (Q - P) (C - P) := by
    simp only [Vec2.dot, Vec2.sub_x, Vec2.sub_y, Vec2.add_x, Vec2.add_y, Vec2.smul_x, Vec2.smul_y]
    linear_combination (((Q.x - P.x) * P.x + (Q.y - P.y) * P.y)) * hs
  rw [e]
  linarith [mul_nonpos_of_nonneg_of_nonpos h0 ha, mul_nonpos_of_nonneg_of_nonpos h1 hb,
    mul_nonpos_of_nonneg_of_nonpos h2 hc]

/-- Edge region: the closest point of segment `BC` is the closest point of the triangle when `Q` and `A` are on
opposite sides of the line. -/
theorem edge_region {A B C Q : Vec2 K} (h : B ≠ C) (hu : 0 ≤ Vec2.dot (Q - C) (B - C)) (hv : 0 ≤ Vec2.dot (Q - B) (C - B))
    (hside : twiceArea B C Q * twiceArea B C A ≤ 0) :
    let P := (LineBarycentric.mk' B C Q).closestPoint
    Vec2.dot (Q - P) (A - P) ≤ 0 ∧ Vec2.dot (Q - P) (B - P) ≤ 0 ∧ Vec2.dot (Q - P) (C - P) ≤ 0 := by
  have hn := normSquared_pos h
  set n := Vec2.normSquared (C - B) with hndef
  set t := Vec2.dot (Q - B) (C - B) / n with ht
  have htn : t * n = Vec2.dot (Q - B) (C - B) := div_mul_cancel₀ _ hn.ne'
  have ht0 : 0 ≤ t := div_nonneg hv hn.le
  have ht1 : t ≤ 1 := by
    rw [ht, div_le_one hn]
    have : Vec2.dot (Q - C) (B - C) = n - Vec2.dot (Q - B) (C - B) := by
      simp [hndef, Vec2.dot, Vec2.normSquared]; ring
    linarith
  have hP : (LineBarycentric.mk' B C Q).closestPoint = B + t • (C - B) := by
    have : (LineBarycentric.mk' B C Q).closestPoint = B + Algo.clamp t 0 1 • (C - B) := by
      simp [LineBarycentric.mk', ← hndef, hn.ne', ← ht]
    rw [this, (clamp01 t).2.2.2.2 ht0 ht1]
  intro P
  have hPe : P = B + t • (C - B) := hP
  clear_value P
  subst hPe
  have hperp : Vec2.dot (Q - (B + t • (C - B))) (C - B) = 0 := by
    have : Vec2.dot (Q - (B + t • (C - B))) (C - B) = Vec2.dot (Q - B) (C - B) - t * n := by
      simp [hndef, Vec2.dot, Vec2.normSquared]; ring
    rw [this, htn, sub_self]
  refine ⟨?_, ?_, ?_⟩
  · have lag : n * Vec2.dot (Q - (B + t • (C - B))) (A - (B + t • (C - B))) =
        Vec2.dot (Q - (B + t • (C - B))) (C - B) * Vec2.dot (A - (B + t • (C - B))) (C - B) +
        twiceArea B C Q * twiceArea B C A := by
      simp [hndef, Vec2.dot, Vec2.normSquared, twiceArea]; ring
    rw [hperp, zero_mul, zero_add] at lag
    by_contra hc
    have := mul_pos hn (not_le.1 hc)
    linarith
  · have : Vec2.dot (Q - (B + t • (C - B))) (B - (B + t • (C - B))) = -t * Vec2.dot (Q - (B + t • (C - B))) (C - B) := by
      simp [Vec2.dot]; ring
    rw [this, hperp, mul_zero]
  · have : Vec2.dot (Q - (B + t • (C - B))) (C - (B + t • (C - B))) = (1 - t) * Vec2.dot (Q - (B + t • (C - B))) (C - B) := by
      simp [Vec2.dot]; ring
    rw [this, hperp, mul_zero]

theorem InTriangle.of_segment {A B C P : Vec2 K} (h : OnSegment B C P) : InTriangle A B C P := by
  obtain ⟨t, h0, h1, rfl⟩ := h
  exact ⟨0, 1 - t, t, le_refl _, by linarith, h0, by ring, by ext <;> simp⟩
theorem InTriangle.rot {A B C P : Vec2 K} (h : InTriangle B C A P) : InTriangle A B C P := by
  obtain ⟨a, b, c, ha, hb, hc, hs, rfl⟩ := h
  exact ⟨c, a, b, hc, ha, hb, by linarith, by ext <;> simp <;> ring⟩

/-- Region logic at a corner: with `s = ±1` the orientation, if `Q` is outside edge `e`, before the corner along `e`
and not in the corner region, then `Q` is outside the other edge `f` too. -/
theorem corner (s : K) (e f q : Vec2 K) (hd : 0 < s * Vec2.cross e f) (h1 : s * Vec2.cross e q < 0)
    (h2 : Vec2.dot e q < 0) (h3 : 0 < Vec2.dot f q) : s * Vec2.cross q f < 0 := by
  have id : s * Vec2.cross e f * Vec2.normSquared q =
      s * Vec2.cross e q * Vec2.dot f q + Vec2.dot e q * (s * Vec2.cross q f) := by
    simp [Vec2.cross, Vec2.dot, Vec2.normSquared]; ring
  have a : 0 ≤ s * Vec2.cross e f * Vec2.normSquared q := mul_nonneg hd.le (normSquared_nonneg _)
  have b : s * Vec2.cross e q * Vec2.dot f q < 0 := mul_neg_of_neg_of_pos h1 h3
  by_contra hc
  have := mul_nonpos_of_nonpos_of_nonneg h2.le (not_lt.1 hc)
  linarith

/-- One turn of the region argument: see `corner`. The three corners with edges in cyclic order. -/
theorem no_gap (s : K) (A B C Q : Vec2 K) (hd : 0 < s * twiceArea A B C)
    (nA : ¬(Vec2.dot (Q - A) (B - A) ≤ 0 ∧ Vec2.dot (Q - A) (C - A) ≤ 0))
    (nB : ¬(Vec2.dot (Q - B) (A - B) ≤ 0 ∧ Vec2.dot (Q - B) (C - B) ≤ 0))
    (nC : ¬(Vec2.dot (Q - C) (B - C) ≤ 0 ∧ Vec2.dot (Q - C) (A - C) ≤ 0))
    (nBC : ¬(s * twiceArea B C Q ≤ 0 ∧ 0 ≤ Vec2.dot (Q - C) (B - C) ∧ 0 ≤ Vec2.dot (Q - B) (C - B)))
    (nCA : ¬(s * twiceArea C A Q ≤ 0 ∧ 0 ≤ Vec2.dot (Q - A) (C - A) ∧ 0 ≤ Vec2.dot (Q - C) (A - C)))
    (nAB : ¬(s * twiceArea A B Q ≤ 0 ∧ 0 ≤ Vec2.dot (Q - B) (A - B) ∧ 0 ≤ Vec2.dot (Q - A) (B - A))) :
    0 ≤ s * twiceArea B C Q := by
  by_contra hu
  have hu := not_le.1 hu
  have hsum : s * twiceArea B C Q + s * twiceArea C A Q + s * twiceArea A B Q = s * twiceArea A B C := by
    simp [twiceArea]; ring
  have cr : ∀ X Y : Vec2 K, ∀ Z, twiceArea X Y Z = Vec2.cross (Y - X) (Z - X) := fun X Y Z => by simp [twiceArea, Vec2.cross]
  have dc : ∀ x y : Vec2 K, Vec2.dot x y = Vec2.dot y x := fun x y => by simp [Vec2.dot]; ring
  have hdB : 0 < s * twiceArea B C A := by have : twiceArea B C A = twiceArea A B C := by simp [twiceArea]; ring
                                           rwa [this]
  have hdC : 0 < s * twiceArea C A B := by have : twiceArea C A B = twiceArea A B C := by simp [twiceArea]; ring
                                           rwa [this]
  have fl : ∀ X Y : Vec2 K, s * Vec2.cross (Q - X) (Y - X) = s * twiceArea Y X Q := fun X Y => by
    simp only [twiceArea, Vec2.cross, Vec2.sub_x, Vec2.sub_y]; ring
  have fl' : ∀ X Y : Vec2 K, -s * Vec2.cross (Q - X) (Y - X) = s * twiceArea X Y Q := fun X Y => by
    simp only [twiceArea, Vec2.cross, Vec2.sub_x, Vec2.sub_y]; ring
  by_cases hv : 0 ≤ Vec2.dot (Q - B) (C - B)
  · -- beyond `C`
    have h1 : Vec2.dot (Q - C) (B - C) < 0 := by
      by_contra h; exact nBC ⟨hu.le, not_lt.1 h, hv⟩
    have h2 : 0 < Vec2.dot (Q - C) (A - C) := by by_contra h; exact nC ⟨h1.le, not_lt.1 h⟩
    have h3 : s * twiceArea C A Q < 0 := by
      rw [← fl']
      refine corner (-s) (B - C) (A - C) (Q - C) ?_ ?_ (by rwa [dc]) (by rwa [dc])
      · have : -s * Vec2.cross (B - C) (A - C) = s * twiceArea C A B := by simp [twiceArea, Vec2.cross]; ring
        rw [this]; exact hdC
      · have : -s * Vec2.cross (B - C) (Q - C) = s * twiceArea B C Q := by simp [twiceArea, Vec2.cross]; ring
        rw [this]; exact hu
    have h4 : Vec2.dot (Q - A) (C - A) < 0 := by by_contra h; exact nCA ⟨h3.le, not_lt.1 h, h2.le⟩
    have h5 : 0 < Vec2.dot (Q - A) (B - A) := by by_contra h; exact nA ⟨not_lt.1 h, h4.le⟩
    have h6 : s * twiceArea A B Q < 0 := by
      rw [← fl']
      refine corner (-s) (C - A) (B - A) (Q - A) ?_ ?_ (by rwa [dc]) (by rwa [dc])
      · have : -s * Vec2.cross (C - A) (B - A) = s * twiceArea A B C := by simp [twiceArea, Vec2.cross]; ring
        rw [this]; exact hd
      · have : -s * Vec2.cross (C - A) (Q - A) = s * twiceArea C A Q := by simp [twiceArea, Vec2.cross]; ring
        rw [this]; exact h3
    linarith
  · -- before `B`
    have h1 := not_le.1 hv
    have h2 : 0 < Vec2.dot (Q - B) (A - B) := by by_contra h; exact nB ⟨not_lt.1 h, h1.le⟩
    have h3 : s * twiceArea A B Q < 0 := by
      rw [← fl]
      refine corner s (C - B) (A - B) (Q - B) ?_ ?_ (by rwa [dc]) (by rwa [dc])
      · rw [← cr]; exact hdB
      · rw [← cr]; exact hu
    have h4 : Vec2.dot (Q - A) (B - A) < 0 := by by_contra h; exact nAB ⟨h3.le, h2.le, not_lt.1 h⟩
    have h5 : 0 < Vec2.dot (Q - A) (C - A) := by by_contra h; exact nA ⟨h4.le, not_lt.1 h⟩
    have h6 : s * twiceArea C A Q < 0 := by
      rw [← fl]
      refine corner s (B - A) (C - A) (Q - A) ?_ ?_ (by rwa [dc]) (by rwa [dc])
      · rw [← cr]; exact hd
      · rw [← cr]; exact h3
    linarith

/-- The region logic on a line: vertices at `0`, `1`, `σ`, the point at `τ` along the line and `h` beside it. -/
theorem collinear_scalar (σ τ h : K) (h0 : σ ≠ 0) (h1 : σ ≠ 1)
    (nA : ¬(τ ≤ 0 ∧ σ * τ ≤ 0)) (nB : ¬(1 - τ ≤ 0 ∧ (τ - 1) * (σ - 1) ≤ 0))
    (nC : ¬((τ - σ) * (1 - σ) ≤ 0 ∧ (τ - σ) * -σ ≤ 0))
    (nBC : ¬((σ - 1) * h ≤ 0 ∧ 0 ≤ (τ - σ) * (1 - σ) ∧ 0 ≤ (τ - 1) * (σ - 1)))
    (nCA : ¬(-σ * h ≤ 0 ∧ 0 ≤ σ * τ ∧ 0 ≤ (τ - σ) * -σ)) (nAB : ¬(h ≤ 0 ∧ 0 ≤ 1 - τ ∧ 0 ≤ τ)) : False := by
  rcases lt_or_gt_of_ne h0 with hs | hs
  · rcases lt_or_ge τ σ with ht | ht
    · exact nC ⟨by nlinarith, by nlinarith⟩
    rcases lt_or_ge 1 τ with ht1 | ht1
    · exact nB ⟨by linarith, by nlinarith⟩
    rcases le_or_gt 0 h with hh | hh
    · exact nBC ⟨by nlinarith, by nlinarith, by nlinarith⟩
    rcases le_or_gt 0 τ with h2 | h2
    · exact nAB ⟨hh.le, by linarith, h2⟩
    · exact nCA ⟨by nlinarith, by nlinarith, by nlinarith⟩
  rcases lt_or_gt_of_ne h1 with hs1 | hs1
  · rcases lt_or_ge τ 0 with ht | ht
    · exact nA ⟨ht.le, by nlinarith⟩
    rcases lt_or_ge 1 τ with ht1 | ht1
    · exact nB ⟨by linarith, by nlinarith⟩
    rcases le_or_gt h 0 with hh | hh
    · exact nAB ⟨hh, by linarith, ht⟩
    rcases le_or_gt σ τ with h2 | h2
    · exact nBC ⟨by nlinarith, by nlinarith, by nlinarith⟩
    · exact nCA ⟨by nlinarith, by nlinarith, by nlinarith⟩
  · rcases lt_or_ge τ 0 with ht | ht
    · exact nA ⟨ht.le, by nlinarith⟩
    rcases lt_or_ge σ τ with ht1 | ht1
    · exact nC ⟨by nlinarith, by nlinarith⟩
    rcases le_or_gt 0 h with hh | hh
    · exact nCA ⟨by nlinarith, by nlinarith, by nlinarith⟩
    rcases le_or_gt τ 1 with h2 | h2
    · exact nAB ⟨hh.le, by linarith, ht⟩
    · exact nBC ⟨by nlinarith, by nlinarith, by nlinarith⟩

/-- Distinct collinear vertices: one of the vertex or edge regions always applies. -/
theorem no_gap_collinear (A B C Q : Vec2 K) (s : K) (hAB : A ≠ B) (hBC : B ≠ C) (hCA : C ≠ A) (hd : twiceArea A B C = 0)
    (nA : ¬(Vec2.dot (Q - A) (B - A) ≤ 0 ∧ Vec2.dot (Q - A) (C - A) ≤ 0))
    (nB : ¬(Vec2.dot (Q - B) (A - B) ≤ 0 ∧ Vec2.dot (Q - B) (C - B) ≤ 0))
    (nC : ¬(Vec2.dot (Q - C) (B - C) ≤ 0 ∧ Vec2.dot (Q - C) (A - C) ≤ 0))
    (nBC : ¬(s * twiceArea B C Q ≤ 0 ∧ 0 ≤ Vec2.dot (Q - C) (B - C) ∧ 0 ≤ Vec2.dot (Q - B) (C - B)))
    (nCA : ¬(s * twiceArea C A Q ≤ 0 ∧ 0 ≤ Vec2.dot (Q - A) (C - A) ∧ 0 ≤ Vec2.dot (Q - C) (A - C)))
    (nAB : ¬(s * twiceArea A B Q ≤ 0 ∧ 0 ≤ Vec2.dot (Q - B) (A - B) ∧ 0 ≤ Vec2.dot (Q - A) (B - A))) : False := by
  have hn := normSquared_pos hAB
  set e := B - A with he
  set n := Vec2.normSquared e with hndef
  have hn0 := hn.ne'
  obtain ⟨σ, hσ⟩ : ∃ σ : K, C = A + σ • e := by
    refine ⟨Vec2.dot (C - A) e / n, ?_⟩
    simp only [twiceArea] at hd
    ext
    · simp only [Vec2.add_x, Vec2.smul_x]
      rw [← sub_eq_iff_eq_add', mul_div_assoc', eq_div_iff hn0]
      simp [hndef, he, Vec2.normSquared, Vec2.dot]
      linear_combination (-(B.y - A.y)) * hd
    · simp only [Vec2.add_y, Vec2.smul_y]
      rw [← sub_eq_iff_eq_add', mul_div_assoc', eq_div_iff hn0]
      simp [hndef, he, Vec2.normSquared, Vec2.dot]
      linear_combination ((B.x - A.x)) * hd
  obtain ⟨τ, η, hQ⟩ : ∃ τ η : K, Q = A + τ • e + η • (⟨-e.y, e.x⟩ : Vec2 K) := by
    refine ⟨Vec2.dot (Q - A) e / n, Vec2.cross e (Q - A) / n, ?_⟩
    ext
    · simp only [Vec2.add_x, Vec2.smul_x, mul_div_assoc', add_assoc]
      rw [← sub_eq_iff_eq_add', ← add_div, eq_div_iff hn0]
      simp [hndef, Vec2.normSquared, Vec2.dot, Vec2.cross]; ring
    · simp only [Vec2.add_y, Vec2.smul_y, mul_div_assoc', add_assoc]
      rw [← sub_eq_iff_eq_add', ← add_div, eq_div_iff hn0]
      simp [hndef, Vec2.normSquared, Vec2.dot, Vec2.cross]; ring
  have hB : B = A + e := by ext <;> simp [he]
  clear_value e
  subst hB hσ hQ
  have σ0 : σ ≠ 0 := by rintro rfl; exact hCA (by ext <;> simp)
  have σ1 : σ ≠ 1 := by rintro rfl; exact hBC (by ext <;> simp)
  have sg : ∀ x y : K, x = y * n → (x ≤ 0 ↔ y ≤ 0) ∧ (0 ≤ x ↔ 0 ≤ y) := by
    rintro x y rfl
    exact ⟨⟨fun h => le_of_mul_le_mul_right (by simpa using h) hn, fun h => mul_nonpos_of_nonpos_of_nonneg h hn.le⟩,
      ⟨fun h => nonneg_of_mul_nonneg_left h hn, fun h => mul_nonneg h hn.le⟩⟩
  have d1 := sg (Vec2.dot (A + τ • e + η • (⟨-e.y, e.x⟩ : Vec2 K) - A) e) τ (by simp [hndef, Vec2.normSquared, Vec2.dot]; ring)
  have d2 := sg (Vec2.dot (A + τ • e + η • (⟨-e.y, e.x⟩ : Vec2 K) - A) (A + σ • e - A)) (σ * τ) (by simp [hndef, Vec2.normSquared, Vec2.dot]; ring)
  have d3 := sg (Vec2.dot (A + τ • e + η • (⟨-e.y, e.x⟩ : Vec2 K) - (A + e)) (A - (A + e))) (1 - τ) (by simp [hndef, Vec2.normSquared, Vec2.dot]; ring)
  have d4 := sg (Vec2.dot (A + τ • e + η • (⟨-e.y, e.x⟩ : Vec2 K) - (A + e)) (A + σ • e - (A + e))) ((τ - 1) * (σ - 1)) (by simp [hndef, Vec2.normSquared, Vec2.dot]; ring)
  have d5 := sg (Vec2.dot (A + τ • e + η • (⟨-e.y, e.x⟩ : Vec2 K) - (A + σ • e)) (A + e - (A + σ • e))) ((τ - σ) * (1 - σ)) (by simp [hndef, Vec2.normSquared, Vec2.dot]; ring)
  have d6 := sg (Vec2.dot (A + τ • e + η • (⟨-e.y, e.x⟩ : Vec2 K) - (A + σ • e)) (A - (A + σ • e))) ((τ - σ) * -σ) (by simp [hndef, Vec2.normSquared, Vec2.dot]; ring)
  have d7 := sg (s * twiceArea A (A + e) (A + τ • e + η • (⟨-e.y, e.x⟩ : Vec2 K))) (s * η) (by simp [hndef, Vec2.normSquared, Vec2.dot, twiceArea]; ring)
  have d8 := sg (s * twiceArea (A + e) (A + σ • e) (A + τ • e + η • (⟨-e.y, e.x⟩ : Vec2 K))) ((σ - 1) * (s * η)) (by simp [hndef, Vec2.normSquared, Vec2.dot, twiceArea]; ring)
  have d9 := sg (s * twiceArea (A + σ • e) A (A + τ • e + η • (⟨-e.y, e.x⟩ : Vec2 K))) (-σ * (s * η)) (by simp only [hndef, Vec2.normSquared, Vec2.dot, twiceArea, Vec2.add_x, Vec2.add_y, Vec2.smul_x, Vec2.smul_y]; ring)
  rw [d1.1, d2.1] at nA
  rw [d3.1, d4.1] at nB
  rw [d5.1, d6.1] at nC
  rw [d8.1, d5.2, d4.2] at nBC
  rw [d9.1, d2.2, d6.2] at nCA
  rw [d7.1, d3.2, d1.2] at nAB
  exact collinear_scalar σ τ (s * η) σ0 σ1 nA nB nC nBC nCA nAB

/-- The orientation test of the code, as a sign. -/
theorem orientation_sign (A B C : Vec2 K) (ε : K) (hε : 0 ≤ ε) (h : 0 ≤ twiceArea A B C ∨ twiceArea A B C < -ε) :
    (orientation A B C ε = .negative → twiceArea A B C < 0) ∧ (orientation A B C ε ≠ .negative → 0 ≤ twiceArea A B C) := by
  have e : Vec2.cross (B - A) (C - B) = twiceArea A B C := by simp [Vec2.cross, twiceArea]; ring
  have hc : (Interval.approx 0 ε).contains (twiceArea A B C) = true ↔ -ε ≤ twiceArea A B C ∧ twiceArea A B C ≤ ε := by
    simp [Interval.approx, Interval.contains, abs_of_nonneg hε]
  have ho : orientation A B C ε = if (Interval.approx 0 ε).contains (twiceArea A B C) = true then .collinear else
      if 0 < twiceArea A B C then .positive else .negative := by unfold orientation; rw [e]
  rw [ho]
  by_cases h1 : (Interval.approx 0 ε).contains (twiceArea A B C) = true
  · rw [if_pos h1]
    refine ⟨fun h => by simp at h, fun _ => ?_⟩
    rcases h with h | h
    · exact h
    · have := (hc.1 h1).1; linarith
  · rw [if_neg h1]
    by_cases h2 : 0 < twiceArea A B C
    · rw [if_pos h2]; exact ⟨fun h => by simp at h, fun _ => h2.le⟩
    · rw [if_neg h2]
      refine ⟨fun _ => ?_, fun h => absurd rfl h⟩
      rcases (not_lt.1 h2).lt_or_eq with h3 | h3
      · exact h3
      · exact absurd (hc.2 ⟨by rw [h3]; linarith, by rw [h3]; exact hε⟩) h1

/-- C19 (partial): for pairwise distinct vertices (collinear ones included) and either a non-negative orientation or
one that is negative beyond the tolerance `ε` of the orientation test, `TriangleBarycentric` does not throw, its
closest point is a point of the triangle, no point of the triangle is nearer to `Q`, and `u + v + w` is the area.
Missing from the full claim: triangles with `-ε ≤ 2·area < 0` and repeated vertices, for which it is false
(`C19_small_negative_throws`, `C19_repeated_vertex_wrong`). -/
theorem C19_triangle_partial (ε : K) (hε : 0 ≤ ε) (A B C Q : Vec2 K) (hAB : A ≠ B) (hBC : B ≠ C) (hCA : C ≠ A)
    (h : 0 ≤ twiceArea A B C ∨ twiceArea A B C < -ε) :
    ∃ r, TriangleBarycentric.mk' ε A B C Q = .ok r ∧ InTriangle A B C r.closestPoint ∧
      (∀ X, InTriangle A B C X → distSq r.closestPoint Q ≤ distSq X Q) ∧ r.u + r.v + r.w = |triArea A B C| := by
  obtain ⟨hneg, hpos⟩ := orientation_sign A B C ε hε h
  unfold TriangleBarycentric.mk'
  simp only
  -- the sign applied to the areas
  obtain ⟨s, hs, hsd, hu, hv, hw⟩ : ∃ s : K, (s = 1 ∨ s = -1) ∧ 0 ≤ s * twiceArea A B C ∧
      (if orientation A B C ε = .negative then -(1 / 2 * Vec2.cross (B - Q) (C - Q)) else 1 / 2 * Vec2.cross (B - Q) (C - Q)) = s * twiceArea B C Q / 2 ∧
      (if orientation A B C ε = .negative then -(1 / 2 * Vec2.cross (C - Q) (A - Q)) else 1 / 2 * Vec2.cross (C - Q) (A - Q)) = s * twiceArea C A Q / 2 ∧
      (if orientation A B C ε = .negative then -(1 / 2 * Vec2.cross (A - Q) (B - Q)) else 1 / 2 * Vec2.cross (A - Q) (B - Q)) = s * twiceArea A B Q / 2 := by
    have e : ∀ X Y : Vec2 K, Vec2.cross (X - Q) (Y - Q) = twiceArea X Y Q := fun X Y => by
      simp [Vec2.cross, twiceArea]; ring
    simp only [e]
    by_cases ho : orientation A B C ε = .negative
    · refine ⟨-1, Or.inr rfl, by have := hneg ho; linarith, ?_, ?_, ?_⟩ <;> simp only [ho, if_true] <;> ring
    · refine ⟨1, Or.inl rfl, by have := hpos ho; linarith, ?_, ?_, ?_⟩ <;> simp only [ho, if_false] <;> ring
  rw [hu, hv, hw]
  have hsum : s * twiceArea B C Q / 2 + s * twiceArea C A Q / 2 + s * twiceArea A B Q / 2 = |triArea A B C| := by
    have : s * twiceArea B C Q / 2 + s * twiceArea C A Q / 2 + s * twiceArea A B Q / 2 = s * triArea A B C := by
      simp [triArea, twiceArea]; ring
    rw [this]
    have hsd' : 0 ≤ s * triArea A B C := by
      have : s * triArea A B C = s * twiceArea A B C / 2 := by simp [triArea]; ring
      rw [this]; linarith
    rw [← abs_of_nonneg hsd', abs_mul]
    rcases hs with rfl | rfl <;> simp
  have hss : s * s = 1 := by rcases hs with rfl | rfl <;> ring
  have half : ∀ x : K, (x / 2 ≤ 0 ↔ x ≤ 0) ∧ (0 ≤ x / 2 ↔ 0 ≤ x) := fun x =>
    ⟨div_nonpos_iff_pos two_pos, div_nonneg_iff_pos two_pos⟩
  simp only [(half _).1, (half _).2, v_nonpos Q hAB, u_nonpos Q hCA, u_nonpos Q hAB, v_nonpos Q hBC, u_nonpos Q hBC,
    v_nonpos Q hCA, u_nonneg Q hBC, v_nonneg Q hBC, u_nonneg Q hCA, v_nonneg Q hCA, u_nonneg Q hAB, v_nonneg Q hAB]
  have zero : ∀ X : Vec2 K, Vec2.dot (Q - X) (X - X) ≤ 0 := fun X => by simp [Vec2.dot]
  have tA : InTriangle A B C A := ⟨1, 0, 0, by simp, le_rfl, le_rfl, by simp, by ext <;> simp⟩
  have tB : InTriangle A B C B := ⟨0, 1, 0, le_rfl, by simp, le_rfl, by simp, by ext <;> simp⟩
  have tC : InTriangle A B C C := ⟨0, 0, 1, le_rfl, le_rfl, by simp, by simp, by ext <;> simp⟩
  have side : ∀ X Y Z : Vec2 K, twiceArea X Y Z = twiceArea A B C → s * twiceArea X Y Q ≤ 0 →
      twiceArea X Y Q * twiceArea X Y Z ≤ 0 := by
    intro X Y Z hZ hX
    rw [hZ]
    have : twiceArea X Y Q * twiceArea A B C = (s * twiceArea X Y Q) * (s * twiceArea A B C) := by
      linear_combination (-(twiceArea X Y Q * twiceArea A B C)) * hss
    rw [this]; exact mul_nonpos_of_nonpos_of_nonneg hX hsd
  by_cases hA : Vec2.dot (Q - A) (B - A) ≤ 0 ∧ Vec2.dot (Q - A) (C - A) ≤ 0
  · rw [if_pos hA]
    exact ⟨_, rfl, tA, fun X hX => closest_of_dots (zero A) hA.1 hA.2 X hX, hsum⟩
  rw [if_neg hA]
  by_cases hB : Vec2.dot (Q - B) (A - B) ≤ 0 ∧ Vec2.dot (Q - B) (C - B) ≤ 0
  · rw [if_pos hB]
    exact ⟨_, rfl, tB, fun X hX => closest_of_dots hB.1 (zero B) hB.2 X hX, hsum⟩
  rw [if_neg hB]
  by_cases hC : Vec2.dot (Q - C) (B - C) ≤ 0 ∧ Vec2.dot (Q - C) (A - C) ≤ 0
  · rw [if_pos hC]
    exact ⟨_, rfl, tC, fun X hX => closest_of_dots hC.2 hC.1 (zero C) X hX, hsum⟩
  rw [if_neg hC]
  by_cases hBC' : s * twiceArea B C Q ≤ 0 ∧ 0 ≤ Vec2.dot (Q - C) (B - C) ∧ 0 ≤ Vec2.dot (Q - B) (C - B)
  · rw [if_pos hBC']
    obtain ⟨r1, r2, r3⟩ := edge_region (A := A) hBC hBC'.2.1 hBC'.2.2
      (side B C A (by simp [twiceArea]; ring) hBC'.1)
    exact ⟨_, rfl, .of_segment (C18_closest B C Q).1, fun X hX => closest_of_dots r1 r2 r3 X hX, hsum⟩
  rw [if_neg hBC']
  by_cases hCA' : s * twiceArea C A Q ≤ 0 ∧ 0 ≤ Vec2.dot (Q - A) (C - A) ∧ 0 ≤ Vec2.dot (Q - C) (A - C)
  · rw [if_pos hCA']
    obtain ⟨r1, r2, r3⟩ := edge_region (A := B) hCA hCA'.2.1 hCA'.2.2
      (side C A B (by simp [twiceArea]; ring) hCA'.1)
    exact ⟨_, rfl, .rot (.of_segment (C18_closest C A Q).1), fun X hX => closest_of_dots r3 r1 r2 X hX, hsum⟩
  rw [if_neg hCA']
  by_cases hAB' : s * twiceArea A B Q ≤ 0 ∧ 0 ≤ Vec2.dot (Q - B) (A - B) ∧ 0 ≤ Vec2.dot (Q - A) (B - A)
  · rw [if_pos hAB']
    obtain ⟨r1, r2, r3⟩ := edge_region (A := C) hAB hAB'.2.1 hAB'.2.2
      (side A B C rfl hAB'.1)
    exact ⟨_, rfl, .rot (.rot (.of_segment (C18_closest A B Q).1)), fun X hX => closest_of_dots r2 r3 r1 X hX, hsum⟩
  rw [if_neg hAB']
  rcases hsd.lt_or_eq with hd | hd
  · have eB : twiceArea B C A = twiceArea A B C := by simp [twiceArea]; ring
    have eC : twiceArea C A B = twiceArea A B C := by simp [twiceArea]; ring
    have n1 := no_gap s A B C Q hd hA hB hC hBC' hCA' hAB'
    have n2 := no_gap s B C A Q (by rw [eB]; exact hd) (fun h => hB h.symm) (fun h => hC h) (fun h => hA h.symm) hCA' hAB' hBC'
    have n3 := no_gap s C A B Q (by rw [eC]; exact hd) (fun h => hC h.symm) (fun h => hA h.symm) (fun h => hB h) hAB' hBC' hCA'
    rw [if_pos ⟨n1, n2, n3⟩]
    refine ⟨_, rfl, ?_, ?_, hsum⟩
    · have hd0 := hd.ne'
      refine ⟨s * twiceArea B C Q / (s * twiceArea A B C), s * twiceArea C A Q / (s * twiceArea A B C),
        s * twiceArea A B Q / (s * twiceArea A B C), div_nonneg n1 hd.le, div_nonneg n2 hd.le, div_nonneg n3 hd.le, ?_, ?_⟩
      · rw [← add_div, ← add_div, div_eq_one_iff_eq hd0]
        simp [twiceArea]; ring
      · ext
        · simp only [Vec2.add_x, Vec2.smul_x, mul_div_assoc', ← add_div]
          rw [eq_div_iff hd0]; simp [twiceArea]; ring
        · simp only [Vec2.add_y, Vec2.smul_y, mul_div_assoc', ← add_div]
          rw [eq_div_iff hd0]; simp [twiceArea]; ring
    · intro X _
      have : distSq Q Q = 0 := by simp [distSq]
      rw [this]; exact add_nonneg (mul_self_nonneg _) (mul_self_nonneg _)
  · exfalso
    have hd' : twiceArea A B C = 0 := by
      have := congrArg (s * ·) hd
      simp only [mul_zero, ← mul_assoc, hss, one_mul] at this
      exact this.symm
    exact no_gap_collinear A B C Q s hAB hBC hCA hd' hA hB hC hBC' hCA' hAB'

/-- C19: under the orientation condition alone (repeated vertices allowed) the error branch is never reached. -/
theorem C19_no_throw_partial (ε : K) (hε : 0 ≤ ε) (A B C Q : Vec2 K)
    (h : 0 ≤ twiceArea A B C ∨ twiceArea A B C < -ε) : TriangleBarycentric.mk' ε A B C Q ≠ .throw := by
  have hl : ∀ X : Vec2 K, (LineBarycentric.mk' X X Q).u = 1 ∧ (LineBarycentric.mk' X X Q).v = 0 := fun X => by
    simp [LineBarycentric.mk', Vec2.normSquared, Vec2.dot]
  have hx : ∀ (X : Vec2 K) (p : Prop) [Decidable p],
      (if p then -(1 / 2 * Vec2.cross (X - Q) (X - Q)) else 1 / 2 * Vec2.cross (X - Q) (X - Q)) = 0 := fun X p _ => by
    have : Vec2.cross (X - Q) (X - Q) = 0 := by simp [Vec2.cross]; ring
    rw [this]; simp
  have key : ∀ (r : TriangleBarycentric K) (p : Prop) [Decidable p] (o : Outcome (TriangleBarycentric K)),
      o ≠ .throw → (if p then .ok r else o) ≠ .throw := fun r p _ o ho => by
    by_cases hp : p
    · rw [if_pos hp]; simp
    · rw [if_neg hp]; exact ho
  have key' : ∀ (r : TriangleBarycentric K) (p : Prop) [Decidable p] (o : Outcome (TriangleBarycentric K)),
      p → (if p then .ok r else o) ≠ .throw := fun r p _ o hp => by
    rw [if_pos hp]; simp
  by_cases hAB : A = B
  · subst hAB
    unfold TriangleBarycentric.mk'
    simp only [(hl A).1, (hl A).2, hx A]
    iterate 5 apply key
    exact key' _ _ _ ⟨le_rfl, zero_le_one, le_rfl⟩
  by_cases hBC : B = C
  · subst hBC
    unfold TriangleBarycentric.mk'
    simp only [(hl B).1, (hl B).2, hx B]
    iterate 3 apply key
    exact key' _ _ _ ⟨le_rfl, zero_le_one, le_rfl⟩
  by_cases hCA : C = A
  · subst hCA
    unfold TriangleBarycentric.mk'
    simp only [(hl C).1, (hl C).2, hx C]
    iterate 4 apply key
    exact key' _ _ _ ⟨le_rfl, zero_le_one, le_rfl⟩
  obtain ⟨r, hr, _⟩ := C19_triangle_partial ε hε A B C Q hAB hBC hCA h
  rw [hr]; simp

/-- C19 is false for small negatively oriented triangles: with `EPSILON = 1e-6` this triangle, whose sides are about
`2e-4`, reaches the error branch. -/
theorem C19_small_negative_throws :
    TriangleBarycentric.mk' (1 / 1000000 : ℚ) ⟨0, 0⟩ ⟨-2 / 10000, -2 / 10000⟩ ⟨-2 / 10000, -1 / 10000⟩ ⟨-2 / 10000, 3 / 10000⟩ =
      .throw := by decide +kernel

/-- C19 is false for small negatively oriented triangles: the answer may also be a wrong point (the true closest point is
strictly nearer). -/
theorem C19_small_negative_wrong :
    ∃ r, TriangleBarycentric.mk' (1 / 1000000 : ℚ) ⟨0, 0⟩ ⟨-2 / 10000, -2 / 10000⟩ ⟨-2 / 10000, -1 / 10000⟩ ⟨-3 / 10000, 2 / 10000⟩ = .ok r ∧
      ∃ X, InTriangle (⟨0, 0⟩ : Vec2 ℚ) ⟨-2 / 10000, -2 / 10000⟩ ⟨-2 / 10000, -1 / 10000⟩ X ∧
        distSq X ⟨-3 / 10000, 2 / 10000⟩ < distSq r.closestPoint ⟨-3 / 10000, 2 / 10000⟩ := by
  refine ⟨⟨⟨-1 / 20000, -1 / 20000⟩, 1 / 200000000, 7 / 200000000, -1 / 20000000⟩, ?_, ⟨-2 / 10000, -1 / 10000⟩, ?_, ?_⟩
  · decide +kernel
  · exact ⟨0, 0, 1, by norm_num, by norm_num, by norm_num, by norm_num, by ext <;> simp⟩
  · norm_num [distSq]

/-- C19 is false with a repeated vertex: the closest point of the segment is not found. -/
theorem C19_repeated_vertex_wrong :
    ∃ r, TriangleBarycentric.mk' (1 / 1000000 : ℚ) ⟨0, 0⟩ ⟨-2, -2⟩ ⟨-2, -2⟩ ⟨-3, 0⟩ = .ok r ∧
      ∃ X, InTriangle (⟨0, 0⟩ : Vec2 ℚ) ⟨-2, -2⟩ ⟨-2, -2⟩ X ∧ distSq X ⟨-3, 0⟩ < distSq r.closestPoint ⟨-3, 0⟩ := by
  refine ⟨⟨⟨-2, -2⟩, 0, 3, -3⟩, by decide +kernel, ⟨-3 / 2, -3 / 2⟩, ?_, ?_⟩
  · exact ⟨1 / 4, 3 / 4, 0, by norm_num, by norm_num, by norm_num, by norm_num, by ext <;> norm_num⟩
  · norm_num [distSq]

example : ∃ r, TriangleBarycentric.mk' (1 / 1000000 : ℚ) ⟨0, 0⟩ ⟨0, 4⟩ ⟨4, 0⟩ ⟨3, 3⟩ = .ok r ∧ r.closestPoint = ⟨2, 2⟩ := by
  refine ⟨⟨⟨2, 2⟩, -4, 6, 6⟩, by decide +kernel, rfl⟩
example : twiceArea (⟨0, 0⟩ : Vec2 ℚ) ⟨0, 4⟩ ⟨4, 0⟩ < -(1 / 1000000) := by norm_num [twiceArea]
example : ∃ r, TriangleBarycentric.mk' (1 / 1000000 : ℚ) ⟨0, 0⟩ ⟨1, 1⟩ ⟨3, 3⟩ ⟨5, 0⟩ = .ok r ∧ r.closestPoint = ⟨5 / 2, 5 / 2⟩ := by
  exact ⟨⟨⟨5 / 2, 5 / 2⟩, -5, 15 / 2, -5 / 2⟩, by decide +kernel, rfl⟩

end Simu
