import Verif.Spec.Overlap
import Verif.Props.Manifold
import Verif.Props.Gjk
/-
Lemmas about convex polygons that overlap: their shortest separating translation, the edges that face it.
-/
namespace Simu
open Gjk
variable {K : Type*} [Field K] [LinearOrder K] [IsStrictOrderedRing K]

/-! ### Vectors -/

omit [LinearOrder K] [IsStrictOrderedRing K] in
theorem twiceArea_cross (a b c : Vec2 K) : twiceArea a b c = Vec2.cross (b - a) (c - b) := by
  simp only [twiceArea, Vec2.cross, Vec2.sub_x, Vec2.sub_y]
  ring

theorem vec_self_pos {v : Vec2 K} (h : v ≠ 0) : 0 < Vec2.dot v v := by
  simp only [Vec2.dot]
  by_contra hc
  have h1 := mul_self_nonneg v.x
  have h2 := mul_self_nonneg v.y
  have e1 : v.x = 0 := mul_self_eq_zero.1 (by linarith)
  have e2 : v.y = 0 := mul_self_eq_zero.1 (by linarith)
  exact h (Vec2.ext e1 e2)

theorem normSq_dot (d : Vec2 K) : d.normSquared = Vec2.dot d d := by
  rw [Gjk.normSquared_eq, Vec2.dot_def]

/-- Squares in order. -/
theorem le_of_squares {a b : K} (hb : 0 ≤ b) (h : a * a ≤ b * b) : a ≤ b := by
  by_contra hc
  push Not at hc
  nlinarith

theorem normSq_nonneg' (d : Vec2 K) : 0 ≤ d.normSquared := by
  rw [Gjk.normSquared_eq]
  exact add_nonneg (mul_self_nonneg _) (mul_self_nonneg _)

/-- The bound of Cauchy. -/
theorem dot_sq_le (a b : Vec2 K) : Vec2.dot a b * Vec2.dot a b + Vec2.cross a b * Vec2.cross a b = Vec2.dot a a * Vec2.dot b b := by
  simp only [Vec2.dot, Vec2.cross]
  ring

/-! ### Edges of a convex polygon -/

/-- What is known of an edge of a convex polygon. -/
structure EdgeOf (l : List (Vec2 K)) (E : Vec2 K × Vec2 K) : Prop where
  mem1 : E.1 ∈ l
  mem2 : E.2 ∈ l
  ne : E.1 ≠ E.2
  left : ∀ r ∈ l, r = E.1 ∨ r = E.2 ∨ 0 < twiceArea E.1 E.2 r
  third : ∃ r ∈ l, 0 < twiceArea E.1 E.2 r

omit [LinearOrder K] [IsStrictOrderedRing K] in
theorem loopEdge_index {l : List (Vec2 K)} {E : Vec2 K × Vec2 K} (h : LoopEdge l E) : ∃ i, l[i]? = some E.1 ∧ l[(i + 1) % l.length]? = some E.2 := by
  obtain ⟨es, hes, hE⟩ := h
  have hl : l ≠ [] := by
    rintro rfl
    rw [C16_empty] at hes
    cases hes
  obtain ⟨es', hes', hlen, hget⟩ := C16_edges l hl
  obtain rfl : es = es' := Outcome.ok.inj (hes.symm.trans hes')
  obtain ⟨j, hj, rfl⟩ := List.getElem_of_mem hE
  have hj' : j < l.length := hlen ▸ hj
  have hpos : 0 < l.length := List.length_pos_iff.2 hl
  have hs : (j + l.length - 1) % l.length < l.length := Nat.mod_lt _ hpos
  have := hget j
  rw [List.getElem?_eq_getElem hj, List.getElem?_eq_getElem hj', List.getElem?_eq_getElem hs, Option.bind_some, Option.map_some] at this
  have e := Option.some.inj this
  refine ⟨(j + l.length - 1) % l.length, ?_, ?_⟩
  · rw [e, List.getElem?_eq_getElem hs]
  · have e2 : ((j + l.length - 1) % l.length + 1) % l.length = j := by
      rw [Nat.mod_add_mod, show j + l.length - 1 + 1 = j + l.length by omega, Nat.add_mod_right, Nat.mod_eq_of_lt hj']
    rw [e2, e, List.getElem?_eq_getElem hj']

theorem StrictlyConvex.edge {l : List (Vec2 K)} (h : StrictlyConvex l) {E : Vec2 K × Vec2 K} (hE : LoopEdge l E) : EdgeOf l E := by
  obtain ⟨i, h1, h2⟩ := loopEdge_index hE
  obtain ⟨h3, hc⟩ := h
  have hi : i < l.length := (List.getElem?_eq_some_iff.1 h1).1
  have third : ∃ r ∈ l, 0 < twiceArea E.1 E.2 r := by
    obtain ⟨k, hk, k1, k2⟩ : ∃ k, k < l.length ∧ k ≠ i ∧ k ≠ (i + 1) % l.length := by
      by_cases a : i = 0
      · refine ⟨2, by omega, by omega, ?_⟩
        rw [a, Nat.mod_eq_of_lt (by omega)]
        omega
      by_cases b : i = 1
      · refine ⟨0, by omega, by omega, ?_⟩
        rw [b, Nat.mod_eq_of_lt (by omega)]
        omega
      by_cases c : i + 1 = l.length
      · refine ⟨1, by omega, by omega, ?_⟩
        rw [c, Nat.mod_self]
        omega
      · refine ⟨0, by omega, by omega, ?_⟩
        rw [Nat.mod_eq_of_lt (by omega)]
        omega
    exact ⟨l[k], List.getElem_mem hk, hc i k _ _ _ h1 h2 (List.getElem?_eq_getElem hk) k1 k2⟩
  refine ⟨List.mem_of_getElem? h1, List.mem_of_getElem? h2, ?_, ?_, third⟩
  · intro e
    obtain ⟨r, _, hr⟩ := third
    rw [e] at hr
    simp [twiceArea] at hr
  · intro r hr
    obtain ⟨k, hk, rfl⟩ := List.getElem_of_mem hr
    by_cases k1 : k = i
    · left
      subst k1
      exact (Option.some.inj (h1.symm.trans (List.getElem?_eq_getElem hk))).symm
    by_cases k2 : k = (i + 1) % l.length
    · right; left
      subst k2
      exact (Option.some.inj (h2.symm.trans (List.getElem?_eq_getElem hk))).symm
    · exact Or.inr (Or.inr (hc i k _ _ _ h1 h2 (List.getElem?_eq_getElem hk) k1 k2))

/-- The polygon turns to the left between two edges that follow each other. -/
theorem EdgeOf.turn {l : List (Vec2 K)} {P N : Vec2 K × Vec2 K} (hP : EdgeOf l P) (hN : EdgeOf l N) (h : P.2 = N.1) : 0 < twiceArea P.1 P.2 N.2 := by
  rcases hP.left _ hN.mem2 with e | e | e
  · obtain ⟨r, hr, hpos⟩ := hP.third
    rcases hN.left r hr with e' | e' | e'
    · rw [e', ← h] at hpos; simp only [twiceArea] at hpos; ring_nf at hpos; exact absurd hpos (lt_irrefl _)
    · rw [e', e] at hpos; simp only [twiceArea] at hpos; ring_nf at hpos; exact absurd hpos (lt_irrefl _)
    · rw [← h, e] at e'
      simp only [twiceArea] at hpos e'
      linarith
  · exact absurd (h ▸ e).symm hN.ne
  · exact e

/-! ### Edges that face a direction -/

omit [LinearOrder K] [IsStrictOrderedRing K] in
theorem edgeNormal_dot (E : Vec2 K × Vec2 K) (d : Vec2 K) : Vec2.dot (edgeNormal E) d = Vec2.cross d (E.2 - E.1) := by
  simp only [edgeNormal, edgeDirection, Vec2.dot, Vec2.cross, Vec2.perp, if_true, Vec2.neg_x, Vec2.neg_y, Vec2.sub_x, Vec2.sub_y]
  ring

/-- A square root. -/
def LawfulSqrt (sqrt : K → K) : Prop := ∀ x, 0 ≤ x → sqrt x * sqrt x = x ∧ 0 ≤ sqrt x

theorem edgeNormal_pos {E : Vec2 K × Vec2 K} (h : E.1 ≠ E.2) : 0 < (edgeNormal E).normSquared := by
  have hne : E.2 - E.1 ≠ 0 := by
    intro e
    apply h
    have hx := congrArg Vec2.x e; have hy := congrArg Vec2.y e
    simp only [Vec2.sub_x, Vec2.sub_y, Vec2.zero_x, Vec2.zero_y] at hx hy
    ext <;> linarith
  have := vec_self_pos hne
  simp only [edgeNormal, edgeDirection, Vec2.normSquared, Vec2.dot, Vec2.perp, if_true, Vec2.neg_x, Vec2.neg_y] at this ⊢
  linarith

theorem sqrt_pos' {sqrt : K → K} (hs : LawfulSqrt sqrt) {x : K} (h : 0 < x) : 0 < sqrt x := by
  obtain ⟨h1, h2⟩ := hs x h.le
  rcases h2.lt_or_eq with h2 | h2
  · exact h2
  · rw [← h2] at h1; simp at h1; linarith

/-- The unit normal is the normal divided by a positive number, and it has length one. -/
theorem edgeUnitNormal_props {sqrt : K → K} (hs : LawfulSqrt sqrt) {E : Vec2 K × Vec2 K} (h : E.1 ≠ E.2) :
    ∃ k : K, 0 < k ∧ edgeNormal E = k • edgeUnitNormal sqrt E ∧ Vec2.dot (edgeUnitNormal sqrt E) (edgeUnitNormal sqrt E) = 1 := by
  have hp := edgeNormal_pos h
  have hk := sqrt_pos' hs hp
  have hk2 := (hs _ hp.le).1
  set k := sqrt (edgeNormal E).normSquared with hkdef
  refine ⟨k, hk, ?_, ?_⟩
  · unfold edgeUnitNormal
    rw [← hkdef]
    ext <;> simp only [Vec2.sdiv, Vec2.smul_x, Vec2.smul_y] <;> field_simp
  · unfold edgeUnitNormal
    rw [← hkdef]
    simp only [Vec2.sdiv, Vec2.dot]
    have : (edgeNormal E).x * (edgeNormal E).x + (edgeNormal E).y * (edgeNormal E).y = k * k := by rw [hk2, Gjk.normSquared_eq]
    field_simp
    linear_combination this

/-- No unit vector is better aligned with `d` than `d` itself. -/
theorem unit_dot_le {sqrt : K → K} (hs : LawfulSqrt sqrt) {u : Vec2 K} (hu : Vec2.dot u u = 1) (d : Vec2 K) : Vec2.dot u d ≤ sqrt d.normSquared := by
  have hn : 0 ≤ d.normSquared := normSq_nonneg' d
  obtain ⟨h1, h2⟩ := hs _ hn
  have h3 := dot_sq_le u d
  rw [hu, one_mul] at h3
  have h4 : Vec2.dot u d * Vec2.dot u d ≤ sqrt d.normSquared * sqrt d.normSquared := by
    rw [h1, normSq_dot]
    have := mul_self_nonneg (Vec2.cross u d)
    linarith
  exact le_of_squares h2 h4 

/-- A unit vector that is as well aligned with `d` as can be has its direction. -/
theorem unit_eq {sqrt : K → K} (hs : LawfulSqrt sqrt) {u : Vec2 K} (hu : Vec2.dot u u = 1) (d : Vec2 K) (h : Vec2.dot u d = sqrt d.normSquared) :
    sqrt d.normSquared • u = d := by
  have hn : 0 ≤ d.normSquared := normSq_nonneg' d
  obtain ⟨h1, h2⟩ := hs _ hn
  have h3 := dot_sq_le u d
  rw [hu, one_mul, h, h1] at h3
  have h4 : Vec2.cross u d = 0 := by
    apply mul_self_eq_zero.1
    have : d.normSquared = Vec2.dot d d := normSq_dot d
    linarith
  rw [← h]
  simp only [Vec2.dot, Vec2.cross] at hu h4 ⊢
  ext
  · simp only [Vec2.smul_x]
    linear_combination d.x * hu + u.y * h4
  · simp only [Vec2.smul_y]
    linear_combination d.y * hu - u.x * h4

/-- The end of a facing edge that is furthest in the direction. -/
theorem FacingEdge.cases {sqrt : K → K} {l : List (Vec2 K)} {d : Vec2 K} {E : Vec2 K × Vec2 K} (h : FacingEdge sqrt l d E) : LoopEdge l E := by
  obtain ⟨p, P, N, _, hP, hN, _, _, rfl | rfl, _⟩ := h
  · exact hP
  · exact hN

/-- A facing edge goes across the direction the same way as the boundary of the polygon. -/
theorem FacingEdge.forward {sqrt : K → K} (hs : LawfulSqrt sqrt) {l : List (Vec2 K)} (hl : StrictlyConvex l) {d : Vec2 K} (hd : d ≠ 0) {E : Vec2 K × Vec2 K}
    (h : FacingEdge sqrt l d E) : 0 < Vec2.dot (edgeUnitNormal sqrt E) d := by
  obtain ⟨p, P, N, hmax, hP, hN, hp1, hp2, hE, hle1, hle2⟩ := h
  have eP := hl.edge hP
  have eN := hl.edge hN
  have turn := eP.turn eN (hp1.trans hp2.symm)
  by_contra hc
  push Not at hc
  obtain ⟨k1, k1p, n1, _⟩ := edgeUnitNormal_props hs eP.ne
  obtain ⟨k2, k2p, n2, _⟩ := edgeUnitNormal_props hs eN.ne
  have c1 : Vec2.cross d (P.2 - P.1) ≤ 0 := by
    rw [← edgeNormal_dot, n1]
    have := mul_nonpos_of_nonneg_of_nonpos k1p.le (hle1.trans hc)
    simp only [Vec2.dot, Vec2.smul_x, Vec2.smul_y] at this ⊢
    linarith
  have c2 : Vec2.cross d (N.2 - N.1) ≤ 0 := by
    rw [← edgeNormal_dot, n2]
    have := mul_nonpos_of_nonneg_of_nonpos k2p.le (hle2.trans hc)
    simp only [Vec2.dot, Vec2.smul_x, Vec2.smul_y] at this ⊢
    linarith
  have d1 : 0 ≤ Vec2.dot d (P.2 - P.1) := by
    have := hmax _ eP.mem1
    rw [← hp1] at this
    simp only [Vec2.dot, Vec2.sub_x, Vec2.sub_y] at this ⊢
    linarith
  have d2 : Vec2.dot d (N.2 - N.1) ≤ 0 := by
    have := hmax _ eN.mem2
    rw [← hp2] at this
    simp only [Vec2.dot, Vec2.sub_x, Vec2.sub_y] at this ⊢
    linarith
  rw [twiceArea_cross] at turn
  have e : Vec2.dot d d * Vec2.cross (P.2 - P.1) (N.2 - P.2) =
      Vec2.dot d (P.2 - P.1) * Vec2.cross d (N.2 - N.1) - Vec2.cross d (P.2 - P.1) * Vec2.dot d (N.2 - N.1) := by
    rw [hp1, hp2]
    simp only [Vec2.dot, Vec2.cross, Vec2.sub_x, Vec2.sub_y]
    ring
  have t1 := mul_nonpos_of_nonneg_of_nonpos d1 c2
  have t2 := mul_nonneg_of_nonpos_of_nonpos c1 d2
  have := mul_pos (vec_self_pos hd) turn
  linarith

/-- If two vertices are furthest in a direction, the facing edge is across the direction exactly. -/
theorem FacingEdge.flat {sqrt : K → K} (hs : LawfulSqrt sqrt) {l : List (Vec2 K)} (hl : StrictlyConvex l) {d : Vec2 K} (hd : d ≠ 0) {E : Vec2 K × Vec2 K}
    (h : FacingEdge sqrt l d E) {a b : Vec2 K} (ha : Furthest l d a) (hb : Furthest l d b) (hab : a ≠ b) : Vec2.dot (edgeUnitNormal sqrt E) d = sqrt d.normSquared := by
  obtain ⟨p, P, N, hmax, hP, hN, hp1, hp2, hE, hle1, hle2⟩ := h
  have eP := hl.edge hP
  have eN := hl.edge hN
  have eE : EdgeOf l E := by rcases hE with rfl | rfl; exacts [eP, eN]
  have hpm : p ∈ l := hp1 ▸ eP.mem2
  -- another vertex that is furthest
  obtain ⟨a', ha', hne⟩ : ∃ a', Furthest l d a' ∧ a' ≠ p := by
    by_cases e : a = p
    · exact ⟨b, hb, fun e' => hab (e.trans e'.symm)⟩
    · exact ⟨a, ha, e⟩
  have heq : Vec2.dot a' d = Vec2.dot p d := le_antisymm (hmax _ ha'.1) (ha'.2 _ hpm)
  -- an edge whose ends are both furthest
  have key : ∀ F : Vec2 K × Vec2 K, EdgeOf l F → (∀ q ∈ l, Vec2.dot q d ≤ Vec2.dot F.1 d) → Vec2.dot F.1 d = Vec2.dot F.2 d → Vec2.dot (edgeUnitNormal sqrt F) d = sqrt d.normSquared := by
    intro F eF hm hF
    obtain ⟨k, kp, hn, hu⟩ := edgeUnitNormal_props hs eF.ne
    refine le_antisymm (unit_dot_le hs hu d) ?_
    have hz : Vec2.dot (F.2 - F.1) d = 0 := by
      simp only [Vec2.dot, Vec2.sub_x, Vec2.sub_y] at hF ⊢
      linarith
    have hc : 0 ≤ Vec2.dot (edgeUnitNormal sqrt F) d := by
      by_contra hc
      push Not at hc
      obtain ⟨r, hr, hpos⟩ := eF.third
      have h1 := hm r hr
      have hcr : Vec2.cross d (F.2 - F.1) < 0 := by
        rw [← edgeNormal_dot, hn]
        have := mul_neg_of_pos_of_neg kp hc
        simp only [Vec2.dot, Vec2.smul_x, Vec2.smul_y] at this ⊢
        linarith
      have e : Vec2.dot d d * twiceArea F.1 F.2 r = Vec2.dot (F.2 - F.1) d * Vec2.cross d (r - F.1) - Vec2.cross d (F.2 - F.1) * Vec2.dot (r - F.1) d := by
        simp only [Vec2.dot, Vec2.cross, twiceArea, Vec2.sub_x, Vec2.sub_y]
        ring
      rw [hz, zero_mul, zero_sub] at e
      have h2 : Vec2.dot (r - F.1) d ≤ 0 := by
        simp only [Vec2.dot, Vec2.sub_x, Vec2.sub_y] at h1 ⊢
        linarith
      have := mul_nonneg_of_nonpos_of_nonpos hcr.le h2
      have := mul_pos (vec_self_pos hd) hpos
      linarith
    have hz' : Vec2.cross (edgeUnitNormal sqrt F) d = 0 := by
      have e : k * Vec2.cross (edgeUnitNormal sqrt F) d = Vec2.dot (F.2 - F.1) d := by
        have : Vec2.cross (edgeNormal F) d = Vec2.dot (F.2 - F.1) d := by
          simp only [edgeNormal, edgeDirection, Vec2.dot, Vec2.cross, Vec2.perp, if_true, Vec2.neg_x, Vec2.neg_y, Vec2.sub_x, Vec2.sub_y]
          ring
        rw [← this, hn]
        simp only [Vec2.cross, Vec2.smul_x, Vec2.smul_y]
        ring
      rw [hz] at e
      exact (mul_eq_zero.1 e).resolve_left kp.ne'
    have h3 := dot_sq_le (edgeUnitNormal sqrt F) d
    rw [hu, hz', one_mul, mul_zero, add_zero] at h3
    have hn0 : 0 ≤ d.normSquared := normSq_nonneg' d
    obtain ⟨s1, s2⟩ := hs _ hn0
    refine le_of_squares hc (le_of_eq ?_)
    rw [s1, h3, normSq_dot]
  have bound := unit_dot_le hs (edgeUnitNormal_props hs eE.ne).choose_spec.2.2 d
  -- the other vertex is along one of the two edges
  have hdd := vec_self_pos hd
  have hside : 0 ≤ Vec2.cross d (a' - p) ∨ Vec2.cross d (a' - p) ≤ 0 := le_total _ _
  rcases hside with hs1 | hs1
  · -- along the edge that leaves `p`
    have hN2 : Vec2.dot N.1 d = Vec2.dot N.2 d := by
      refine le_antisymm ?_ (hp2 ▸ hmax _ eN.mem2)
      have tri : 0 ≤ twiceArea N.1 N.2 a' := by
        rcases eN.left a' ha'.1 with e | e | e
        · exact absurd (e.trans hp2) hne
        · rw [e]; simp only [twiceArea]; ring_nf; exact le_refl _
        · exact e.le
      have e : Vec2.dot d d * twiceArea N.1 N.2 a' = Vec2.dot (N.2 - N.1) d * Vec2.cross d (a' - N.1) - Vec2.cross d (N.2 - N.1) * Vec2.dot (a' - N.1) d := by
        simp only [Vec2.dot, Vec2.cross, twiceArea, Vec2.sub_x, Vec2.sub_y]
        ring
      have z : Vec2.dot (a' - N.1) d = 0 := by
        rw [hp2]
        simp only [Vec2.dot, Vec2.sub_x, Vec2.sub_y] at heq ⊢
        linarith
      rw [z, mul_zero, sub_zero, hp2] at e
      have cpos : 0 < Vec2.cross d (a' - p) := by
        refine lt_of_le_of_ne hs1 fun e0 => hne ?_
        have z' := z
        rw [hp2] at z'
        have q := dot_sq_le d (a' - p)
        rw [← e0, show Vec2.dot d (a' - p) = Vec2.dot (a' - p) d by simp only [Vec2.dot]; ring, z'] at q
        by_contra hx
        have hx' : a' - p ≠ 0 := by
          intro e'
          apply hx
          have h1 := congrArg Vec2.x e'; have h2 := congrArg Vec2.y e'
          simp only [Vec2.sub_x, Vec2.sub_y, Vec2.zero_x, Vec2.zero_y] at h1 h2
          ext <;> linarith
        have := mul_pos hdd (vec_self_pos hx')
        linarith
      have : 0 ≤ Vec2.dot (N.2 - p) d := by
        by_contra hx
        push Not at hx
        have := mul_neg_of_neg_of_pos hx cpos
        have := mul_nonneg hdd.le tri
        rw [hp2] at this
        linarith
      rw [hp2]
      simp only [Vec2.dot, Vec2.sub_x, Vec2.sub_y] at this ⊢
      linarith
    have := key N eN (by rw [hp2]; exact hmax) hN2
    exact le_antisymm bound (this ▸ hle2)
  · have hP2 : Vec2.dot P.1 d = Vec2.dot P.2 d := by
      refine le_antisymm (hp1 ▸ hmax _ eP.mem1) ?_
      have tri : 0 ≤ twiceArea P.1 P.2 a' := by
        rcases eP.left a' ha'.1 with e | e | e
        · rw [e]; simp only [twiceArea]; ring_nf; exact le_refl _
        · exact absurd (e.trans hp1) hne
        · exact e.le
      have e : Vec2.dot d d * twiceArea P.1 P.2 a' = Vec2.dot (P.2 - P.1) d * Vec2.cross d (a' - P.2) - Vec2.cross d (P.2 - P.1) * Vec2.dot (a' - P.2) d := by
        simp only [Vec2.dot, Vec2.cross, twiceArea, Vec2.sub_x, Vec2.sub_y]
        ring
      have z : Vec2.dot (a' - P.2) d = 0 := by
        rw [hp1]
        simp only [Vec2.dot, Vec2.sub_x, Vec2.sub_y] at heq ⊢
        linarith
      rw [z, mul_zero, sub_zero, hp1] at e
      have cneg : Vec2.cross d (a' - p) < 0 := by
        refine lt_of_le_of_ne hs1 fun e0 => hne ?_
        have z' := z
        rw [hp1] at z'
        have q := dot_sq_le d (a' - p)
        rw [e0, show Vec2.dot d (a' - p) = Vec2.dot (a' - p) d by simp only [Vec2.dot]; ring, z'] at q
        by_contra hx
        have hx' : a' - p ≠ 0 := by
          intro e'
          apply hx
          have h1 := congrArg Vec2.x e'; have h2 := congrArg Vec2.y e'
          simp only [Vec2.sub_x, Vec2.sub_y, Vec2.zero_x, Vec2.zero_y] at h1 h2
          ext <;> linarith
        have := mul_pos hdd (vec_self_pos hx')
        linarith
      have : Vec2.dot (p - P.1) d ≤ 0 := by
        by_contra hx
        push Not at hx
        have := mul_neg_of_pos_of_neg hx cneg
        have := mul_nonneg hdd.le tri
        rw [hp1] at this
        linarith
      rw [hp1]
      simp only [Vec2.dot, Vec2.sub_x, Vec2.sub_y] at this ⊢
      linarith
    have := key P eP (by rw [hP2, hp1]; exact hmax) hP2
    exact le_antisymm bound (this ▸ hle1)

end Simu
