import Verif.Spec.Picture
import Verif.Props.Renderer
import Verif.Lemmas.Contacting
import Verif.Lemmas.Incident
import Verif.Lemmas.Gjk
import Verif.Lemmas.BodyHistory
import Verif.Props.Mass
import Verif.Props.BoundingBox
import Verif.Model.Visible
/-
The triangles between a point of a convex polygon and its edges.
-/
namespace Simu
open GlRenderer Spec
variable {K : Type*} [Field K] [LinearOrder K] [IsStrictOrderedRing K]

section
variable {V : Type*}

/-- The triangles, by their index. -/
theorem fan_getElem? (c : V) (l : List V) (i : Nat) : (fan c l)[i]? = (l[i]?).bind fun b => (l[(i + l.length - 1) % l.length]?).map fun a => (c, a, b) := by
  unfold fan
  cases hl : l.getLast? with
  | none =>
    rw [List.getLast?_eq_none_iff] at hl
    subst hl
    simp
  | some z =>
    rw [List.getLast?_eq_getElem?] at hl
    have hn : 0 < l.length := by
      by_contra hc
      have : l = [] := List.length_eq_zero_iff.1 (by omega)
      subst this
      simp at hl
    simp only [List.getElem?_map, List.getElem?_zip_eq_some, List.zip, List.getElem?_zipWith]
    by_cases hi : i < l.length
    · obtain ⟨b, hb⟩ : ∃ b, l[i]? = some b := ⟨_, List.getElem?_eq_getElem hi⟩
      rw [hb]
      cases i with
      | zero =>
        have e : (0 + l.length - 1) % l.length = l.length - 1 := by rw [Nat.zero_add]; exact Nat.mod_eq_of_lt (by omega)
        rw [e, hl]
        simp
      | succ j =>
        have e : (j + 1 + l.length - 1) % l.length = j := by
          rw [show j + 1 + l.length - 1 = j + l.length by omega, Nat.add_mod_right, Nat.mod_eq_of_lt (by omega)]
        rw [e]
        obtain ⟨a, ha⟩ : ∃ a, l[j]? = some a := ⟨_, List.getElem?_eq_getElem (by omega)⟩
        simp [ha]
    · have hb : l[i]? = none := List.getElem?_eq_none (by omega)
      rw [hb]
      simp

/-- They are those of the edges of the loop. -/
theorem mem_fan_iff (c : Vec2 K) (l : List (Vec2 K)) (t : Vec2 K × Vec2 K × Vec2 K) : t ∈ fan c l ↔ t.1 = c ∧ LoopEdge l t.2 := by
  by_cases hl : l = []
  · subst hl
    constructor
    · intro h; simp [fan] at h
    · rintro ⟨_, es, h, _⟩
      rw [C16_empty] at h
      cases h
  · obtain ⟨es, hes, hlen, hget⟩ := C16_edges l hl
    have key : ∀ i : Nat, (fan c l)[i]? = (es[i]?).map fun e => (c, e) := by
      intro i
      rw [fan_getElem?, hget]
      cases l[i]? <;> simp
      cases l[(i + l.length - 1) % l.length]? <;> simp
    constructor
    · intro h
      obtain ⟨i, hi⟩ := List.getElem?_of_mem h
      rw [key, Option.map_eq_some_iff] at hi
      obtain ⟨e, he, rfl⟩ := hi
      exact ⟨rfl, es, hes, List.mem_of_getElem? he⟩
    · rintro ⟨rfl, es', h, he⟩
      obtain rfl : es = es' := Outcome.ok.inj (hes.symm.trans h)
      obtain ⟨i, hi⟩ := List.getElem?_of_mem he
      refine List.mem_of_getElem? (i := i) ?_
      rw [key, hi]
      rfl
end

theorem loopEdge_of_index {l : List (Vec2 K)} {i : Nat} {a b : Vec2 K} (ha : l[i]? = some a) (hb : l[(i + 1) % l.length]? = some b) : LoopEdge l (a, b) := by
  have hi : i < l.length := (List.getElem?_eq_some_iff.1 ha).1
  have hl : l ≠ [] := by rintro rfl; simp at hi
  obtain ⟨es, hes, hlen, hget⟩ := C16_edges l hl
  refine ⟨es, hes, List.mem_of_getElem? (i := (i + 1) % l.length) ?_⟩
  have e : ((i + 1) % l.length + l.length - 1) % l.length = i := by
    by_cases h : i + 1 < l.length
    · rw [Nat.mod_eq_of_lt h, show i + 1 + l.length - 1 = i + l.length by omega, Nat.add_mod_right, Nat.mod_eq_of_lt hi]
    · have : i + 1 = l.length := by omega
      rw [this, Nat.mod_self, Nat.zero_add, Nat.mod_eq_of_lt (by omega)]
      omega
  rw [hget, hb, e, ha]
  rfl

/-- The edges before and after an edge. -/
theorem StrictlyConvex.around {l : List (Vec2 K)} (h : StrictlyConvex l) {V : Vec2 K × Vec2 K} (hV : LoopEdge l V) :
    ∃ z w : Vec2 K, LoopEdge l (z, V.1) ∧ LoopEdge l (V.2, w) ∧ 0 < twiceArea z V.1 V.2 ∧ 0 < twiceArea V.1 V.2 w := by
  obtain ⟨i, h1, h2⟩ := loopEdge_index hV
  have hn := h.1
  have hi : i < l.length := (List.getElem?_eq_some_iff.1 h1).1
  have hw : ((i + 1) % l.length + 1) % l.length < l.length := Nat.mod_lt _ (by omega)
  have hz : (i + l.length - 1) % l.length < l.length := Nat.mod_lt _ (by omega)
  have ez : ((i + l.length - 1) % l.length + 1) % l.length = i := by
    by_cases h0 : i = 0
    · subst h0
      rw [Nat.zero_add, Nat.mod_eq_of_lt (show l.length - 1 < l.length by omega), show l.length - 1 + 1 = l.length by omega, Nat.mod_self]
    · rw [show i + l.length - 1 = (i - 1) + l.length by omega, Nat.add_mod_right, Nat.mod_eq_of_lt (show i - 1 < l.length by omega), show i - 1 + 1 = i by omega,
        Nat.mod_eq_of_lt hi]
  refine ⟨l[(i + l.length - 1) % l.length], l[((i + 1) % l.length + 1) % l.length], loopEdge_of_index (List.getElem?_eq_getElem hz) (by rw [ez]; exact h1),
    loopEdge_of_index h2 (List.getElem?_eq_getElem hw), ?_, ?_⟩
  · refine h.2 _ ((i + 1) % l.length) _ _ _ (List.getElem?_eq_getElem hz) (by rw [ez]; exact h1) h2 ?_ ?_
    · intro hc
      have : ((i + 1) % l.length + 1) % l.length = i := by rw [hc, ez]
      by_cases hl : i + 1 < l.length
      · rw [Nat.mod_eq_of_lt hl] at this
        by_cases hl2 : i + 1 + 1 < l.length
        · rw [Nat.mod_eq_of_lt hl2] at this; omega
        · have e2 : i + 1 + 1 = l.length := by omega
          rw [e2, Nat.mod_self] at this; omega
      · have e1 : i + 1 = l.length := by omega
        rw [e1, Nat.mod_self, Nat.zero_add, Nat.mod_eq_of_lt (by omega)] at this
        omega
    · rw [ez]
      intro hc
      by_cases hl : i + 1 < l.length
      · rw [Nat.mod_eq_of_lt hl] at hc; omega
      · have e1 : i + 1 = l.length := by omega
        rw [e1, Nat.mod_self] at hc; omega
  · refine h.2 i (((i + 1) % l.length + 1) % l.length) _ _ _ h1 h2 (List.getElem?_eq_getElem hw) ?_ ?_
    · intro this
      by_cases hl : i + 1 < l.length
      · rw [Nat.mod_eq_of_lt hl] at this
        by_cases hl2 : i + 1 + 1 < l.length
        · rw [Nat.mod_eq_of_lt hl2] at this; omega
        · have e2 : i + 1 + 1 = l.length := by omega
          rw [e2, Nat.mod_self] at this; omega
      · have e1 : i + 1 = l.length := by omega
        rw [e1, Nat.mod_self, Nat.zero_add, Nat.mod_eq_of_lt (by omega)] at this
        omega
    · intro this
      by_cases hl : i + 1 < l.length
      · rw [Nat.mod_eq_of_lt hl] at this
        by_cases hl2 : i + 1 + 1 < l.length
        · rw [Nat.mod_eq_of_lt hl2] at this; omega
        · have e2 : i + 1 + 1 = l.length := by omega
          rw [e2, Nat.mod_self] at this; omega
      · have e1 : i + 1 = l.length := by omega
        rw [e1, Nat.mod_self, Nat.zero_add, Nat.mod_eq_of_lt (by omega)] at this
        omega

/-- A point of the line of an edge that is on the left of all edges is on the edge. -/
theorem on_edge {l : List (Vec2 K)} (h : StrictlyConvex l) {V : Vec2 K × Vec2 K} (hV : LoopEdge l V) {q : Vec2 K} (hq : ∀ W, LoopEdge l W → 0 ≤ twiceArea W.1 W.2 q)
    (h0 : twiceArea V.1 V.2 q = 0) : OnSegment V.1 V.2 q := by
  obtain ⟨z, w, hz, hw, pz, pw⟩ := h.around hV
  have qz := hq _ hz
  have qw := hq _ hw
  obtain ⟨a, b⟩ := V
  obtain ⟨ax, ay⟩ := a
  obtain ⟨bx, b_y⟩ := b
  obtain ⟨qx, qy⟩ := q
  obtain ⟨zx, zy⟩ := z
  obtain ⟨wx, wy⟩ := w
  simp only [twiceArea] at *
  have hne : 0 < (bx - ax) * (bx - ax) + (b_y - ay) * (b_y - ay) := by
    rcases lt_or_eq_of_le (add_nonneg (mul_self_nonneg (bx - ax)) (mul_self_nonneg (b_y - ay))) with e | e
    · exact e
    · exfalso
      have e1 : bx - ax = 0 := by nlinarith [mul_self_nonneg (bx - ax), mul_self_nonneg (b_y - ay)]
      have e2 : b_y - ay = 0 := by nlinarith [mul_self_nonneg (bx - ax), mul_self_nonneg (b_y - ay)]
      rw [e1, e2] at pw
      simp at pw
  set N := (bx - ax) * (bx - ax) + (b_y - ay) * (b_y - ay) with hN
  set s := ((qx - ax) * (bx - ax) + (qy - ay) * (b_y - ay)) / N with hs
  have hsN : s * N = (qx - ax) * (bx - ax) + (qy - ay) * (b_y - ay) := div_mul_cancel₀ _ hne.ne'
  have ex : qx = ax + s * (bx - ax) := by
    have : (qx - ax - s * (bx - ax)) * N = 0 := by
      rw [sub_mul, mul_right_comm, hsN, hN]
      linear_combination (-(b_y - ay)) * h0
    rcases mul_eq_zero.1 this with e | e
    · linarith
    · exact absurd e hne.ne'
  have ey : qy = ay + s * (b_y - ay) := by
    have : (qy - ay - s * (b_y - ay)) * N = 0 := by
      rw [sub_mul, mul_right_comm, hsN, hN]
      linear_combination (bx - ax) * h0
    rcases mul_eq_zero.1 this with e | e
    · linarith
    · exact absurd e hne.ne'
  rw [ex, ey] at qz qw
  have s0 : 0 ≤ s := by
    by_contra hc
    push Not at hc
    have := mul_neg_of_neg_of_pos hc pz
    nlinarith
  have s1 : s ≤ 1 := by
    by_contra hc
    push Not at hc
    have := mul_pos (show 0 < s - 1 by linarith) pw
    nlinarith
  refine ⟨s, s0, s1, ?_⟩
  rw [ex, ey]
  ext <;> simp <;> ring

/-- Along a direction, some edge comes nearer. -/
theorem exists_facing {l : List (Vec2 K)} (h : StrictlyConvex l) {d : Vec2 K} (hd : d ≠ 0) : ∃ V, LoopEdge l V ∧ Vec2.cross (V.2 - V.1) d < 0 := by
  have hl : l ≠ [] := by rintro rfl; exact absurd h.1 (by simp)
  obtain ⟨m, hm, hmax⟩ := exists_furthest hl d
  obtain ⟨i, hi⟩ := List.getElem?_of_mem hm
  have hil : i < l.length := (List.getElem?_eq_some_iff.1 hi).1
  have hE : LoopEdge l (m, l[(i + 1) % l.length]'(Nat.mod_lt _ (by omega))) := loopEdge_of_index hi (List.getElem?_eq_getElem _)
  set b := l[(i + 1) % l.length]'(Nat.mod_lt _ (by omega)) with hb
  obtain ⟨z, w, hz, hw, pz, pw⟩ := h.around hE
  by_contra hc
  push Not at hc
  have c1 := hc _ hE
  have c2 := hc _ hz
  have m1 := hmax b (h.edge hE).mem2
  have m2 := hmax z (h.edge hz).mem1
  have hdd : 0 < d.x * d.x + d.y * d.y := by
    rcases lt_or_eq_of_le (add_nonneg (mul_self_nonneg d.x) (mul_self_nonneg d.y)) with e | e
    · exact e
    · exfalso
      refine hd (Vec2.ext ?_ ?_)
      · show d.x = 0; nlinarith [mul_self_nonneg d.x, mul_self_nonneg d.y]
      · show d.y = 0; nlinarith [mul_self_nonneg d.x, mul_self_nonneg d.y]
  simp only [Vec2.cross, Vec2.dot_def, Vec2.sub_x, Vec2.sub_y, twiceArea] at *
  have p1 := mul_pos pz hdd
  have p2 := mul_nonneg (show 0 ≤ (m.x * d.x + m.y * d.y) - (z.x * d.x + z.y * d.y) by linarith) c1
  have p3 := mul_nonneg (show 0 ≤ (m.x * d.x + m.y * d.y) - (b.x * d.x + b.y * d.y) by linarith) c2
  nlinarith

theorem exists_least {α : Type*} (f : α → K) (P : α → Prop) (l : List α) (h : ∃ a ∈ l, P a) : ∃ a ∈ l, P a ∧ ∀ b ∈ l, P b → f a ≤ f b := by
  induction l with
  | nil => obtain ⟨a, ha, _⟩ := h; cases ha
  | cons x l ih =>
    by_cases hl : ∃ a ∈ l, P a
    · obtain ⟨a, ha, pa, hmin⟩ := ih hl
      by_cases hx : P x ∧ f x ≤ f a
      · refine ⟨x, List.mem_cons_self, hx.1, fun b hb pb => ?_⟩
        rcases List.mem_cons.1 hb with rfl | hb
        · exact le_refl _
        · exact hx.2.trans (hmin b hb pb)
      · refine ⟨a, List.mem_cons_of_mem _ ha, pa, fun b hb pb => ?_⟩
        rcases List.mem_cons.1 hb with rfl | hb
        · by_contra hc
          exact hx ⟨pb, (not_le.1 hc).le⟩
        · exact hmin b hb pb
    · obtain ⟨a, ha, pa⟩ := h
      rcases List.mem_cons.1 ha with rfl | ha
      · refine ⟨a, List.mem_cons_self, pa, fun b hb pb => ?_⟩
        rcases List.mem_cons.1 hb with rfl | hb
        · exact le_refl _
        · exact absurd ⟨b, hb, pb⟩ hl
      · exact absurd ⟨a, ha, pa⟩ hl

theorem area_ray (a b c d : Vec2 K) (t : K) : twiceArea a b (c + t • d) = twiceArea a b c + t * Vec2.cross (b - a) d := by
  simp only [twiceArea, Vec2.cross, Vec2.add_x, Vec2.add_y, Vec2.smul_x, Vec2.smul_y, Vec2.sub_x, Vec2.sub_y]
  ring

/-- The triangles between a point of a convex polygon and its edges show the polygon, and nothing else. -/
theorem fan_shows {l : List (Vec2 K)} (h : StrictlyConvex l) {c : Vec2 K} (hc : Hull l c) (p : Vec2 K) : Shows (fan c l) p ↔ Hull l p := by
  constructor
  · rintro ⟨⟨x, a, b⟩, ht, u, v, w, hu, hv, hw, hs, rfl⟩
    obtain ⟨rfl, hE⟩ := (mem_fan_iff _ _ _).1 ht
    have hE' := h.edge hE
    have := Gjk.hull_three hc (.vertex hE'.mem1) (.vertex hE'.mem2) hu hv hw hs
    convert this using 1
    ext <;> simp <;> ring
  · intro hp
    have hl : l ≠ [] := by rintro rfl; exact absurd h.1 (by simp)
    obtain ⟨es, hes, hlen, _⟩ := C16_edges l hl
    have hmem : ∀ V, V ∈ es ↔ LoopEdge l V := fun V => ⟨fun hV => ⟨es, hes, hV⟩, fun ⟨es', h', hV⟩ => by rwa [Outcome.ok.inj (hes.symm.trans h')]⟩
    by_cases hpc : p = c
    · subst hpc
      have hne : es ≠ [] := by
        rintro rfl
        exact hl (List.length_eq_zero_iff.1 hlen.symm)
      obtain ⟨V, hV⟩ := List.exists_mem_of_ne_nil _ hne
      refine ⟨(p, V), (mem_fan_iff _ _ _).2 ⟨rfl, (hmem V).1 hV⟩, 1, 0, 0, by norm_num, le_refl _, le_refl _, by norm_num, ?_⟩
      ext <;> simp
    · have hd : p - c ≠ 0 := by
        intro e
        exact hpc (sub_eq_zero.1 e)
      obtain ⟨V, hV, hneg, hmin⟩ := exists_least (fun V : Vec2 K × Vec2 K => twiceArea V.1 V.2 c / (-(Vec2.cross (V.2 - V.1) (p - c)))) (fun V => Vec2.cross (V.2 - V.1) (p - c) < 0) es
        (by obtain ⟨V, hV, hn⟩ := exists_facing h hd; exact ⟨V, (hmem V).2 hV, hn⟩)
      have hVe := (hmem V).1 hV
      set r := -(Vec2.cross (V.2 - V.1) (p - c)) with hr
      have hr0 : 0 < r := by rw [hr]; linarith
      set t := twiceArea V.1 V.2 c / r with ht
      have htr : t * r = twiceArea V.1 V.2 c := div_mul_cancel₀ _ hr0.ne'
      have hpe : p = c + (1 : K) • (p - c) := by ext <;> simp
      have t1 : 1 ≤ t := by
        have h1 := hull_left (h.edge hVe) hp
        rw [hpe, area_ray] at h1
        rw [ht, le_div_iff₀ hr0]
        linarith
      have hq : ∀ W, LoopEdge l W → 0 ≤ twiceArea W.1 W.2 (c + t • (p - c)) := by
        intro W hW
        rw [area_ray]
        have h1 := hull_left (h.edge hW) hc
        by_cases hWn : Vec2.cross (W.2 - W.1) (p - c) < 0
        · have h2 := hmin W ((hmem W).2 hW) hWn
          have h3 : t ≤ twiceArea W.1 W.2 c / (-(Vec2.cross (W.2 - W.1) (p - c))) := h2
          rw [le_div_iff₀ (by linarith)] at h3
          linarith
        · push Not at hWn
          have := mul_nonneg (show 0 ≤ t by linarith) hWn
          linarith
      have h0 : twiceArea V.1 V.2 (c + t • (p - c)) = 0 := by
        rw [area_ray]
        have : Vec2.cross (V.2 - V.1) (p - c) = -r := by rw [hr]; ring
        rw [this]
        linarith
      obtain ⟨s, s0, s1, e⟩ := on_edge h hVe hq h0
      have ht0 : 0 < t := by linarith
      have hti : t⁻¹ ≤ 1 := inv_le_one_of_one_le₀ t1
      have hti0 : 0 < t⁻¹ := inv_pos.2 ht0
      have htt : t⁻¹ * t = 1 := inv_mul_cancel₀ ht0.ne'
      refine ⟨(c, V), (mem_fan_iff _ _ _).2 ⟨rfl, hVe⟩, 1 - t⁻¹, t⁻¹ * (1 - s), t⁻¹ * s, by linarith, mul_nonneg hti0.le (by linarith), mul_nonneg hti0.le s0, by ring, ?_⟩
      have ex := congrArg Vec2.x e
      have ey := congrArg Vec2.y e
      simp only [Vec2.add_x, Vec2.add_y, Vec2.smul_x, Vec2.smul_y, Vec2.sub_x, Vec2.sub_y] at ex ey
      ext
      · simp only [Vec2.add_x, Vec2.smul_x]
        linear_combination t⁻¹ * ex + (c.x - p.x) * htt
      · simp only [Vec2.add_y, Vec2.smul_y]
        linear_combination t⁻¹ * ey + (c.y - p.y) * htt

/-- Inside the triangle of an edge: how much the point is away from the center. -/
theorem within_fan {l : List (Vec2 K)} (h : StrictlyConvex l) {c : Vec2 K} (hc : Hull l c) {V : Vec2 K × Vec2 K} (hV : LoopEdge l V) {p : Vec2 K} (hp : WithinTriangle (c, V) p) :
    0 < twiceArea V.1 V.2 c ∧ ∃ D : K, ∃ q : Vec2 K, 0 < D ∧ p = c + D • (q - c) ∧ Hull l q ∧ twiceArea V.1 V.2 q = 0 ∧
      ∀ W, LoopEdge l W → twiceArea W.1 W.2 q = 0 → twiceArea W.1 W.2 V.1 = 0 ∧ twiceArea W.1 W.2 V.2 = 0 := by
  obtain ⟨a, b, e, ha, hb, he, hs, hp, harea⟩ := hp
  have hVe := h.edge hV
  have hH : 0 < twiceArea V.1 V.2 c := by
    refine lt_of_le_of_ne (hull_left hVe hc) ?_
    intro hz
    refine harea ?_
    simp only [twiceArea] at hz ⊢
    linarith
  have hD : 0 < b + e := by linarith
  set s := e / (b + e) with hsd
  have hse : s * (b + e) = e := div_mul_cancel₀ _ hD.ne'
  have s0 : 0 < s := div_pos he hD
  have s1 : s < 1 := by rw [hsd, div_lt_one hD]; linarith
  refine ⟨hH, b + e, (1 - s) • V.1 + s • V.2, hD, ?_, .segment s s0.le s1.le (.vertex hVe.mem1) (.vertex hVe.mem2), ?_, ?_⟩
  · rw [hp]
    have ea : a = 1 - b - e := by linarith
    ext
    · simp only [Vec2.add_x, Vec2.smul_x, Vec2.sub_x]
      linear_combination c.x * ea + (V.1.x - V.2.x) * hse
    · simp only [Vec2.add_y, Vec2.smul_y, Vec2.sub_y]
      linear_combination c.y * ea + (V.1.y - V.2.y) * hse
  · simp only [twiceArea, Vec2.add_x, Vec2.smul_x, Vec2.add_y, Vec2.smul_y]
    ring
  · intro W hW hz
    have l1 := hull_left (h.edge hW) (.vertex hVe.mem1)
    have l2 := hull_left (h.edge hW) (.vertex hVe.mem2)
    have e1 : twiceArea W.1 W.2 ((1 - s) • V.1 + s • V.2) = (1 - s) * twiceArea W.1 W.2 V.1 + s * twiceArea W.1 W.2 V.2 := by
      simp only [twiceArea, Vec2.add_x, Vec2.smul_x, Vec2.add_y, Vec2.smul_y]
      ring
    rw [e1] at hz
    have m1 := mul_nonneg (show 0 ≤ 1 - s by linarith) l1
    have m2 := mul_nonneg s0.le l2
    constructor
    · rcases mul_eq_zero.1 (show (1 - s) * twiceArea W.1 W.2 V.1 = 0 by linarith) with e | e
      · linarith
      · exact e
    · rcases mul_eq_zero.1 (show s * twiceArea W.1 W.2 V.2 = 0 by linarith) with e | e
      · linarith
      · exact e

/-- No two of the triangles overlap. -/
theorem fan_once {l : List (Vec2 K)} (h : StrictlyConvex l) {c : Vec2 K} (hc : Hull l c) : PaintedOnce (fan c l) := by
  have key : ∀ (V W : Vec2 K × Vec2 K) (p : Vec2 K), LoopEdge l V → LoopEdge l W → ∀ D E : K, ∀ q r : Vec2 K, 0 < twiceArea V.1 V.2 c → 0 < E → 0 < D → p = c + D • (q - c) →
      p = c + E • (r - c) → twiceArea V.1 V.2 q = 0 → Hull l r → D ≤ E := by
    intro V W p hV hW D E q r hH hE hD e1 e2 hq hr
    have l1 := hull_left (h.edge hV) hr
    have a1 : twiceArea V.1 V.2 p = (1 - D) * twiceArea V.1 V.2 c := by
      rw [e1, area_ray]
      have : Vec2.cross (V.2 - V.1) (q - c) = twiceArea V.1 V.2 q - twiceArea V.1 V.2 c := by simp only [twiceArea, Vec2.cross, Vec2.sub_x, Vec2.sub_y]; ring
      rw [this, hq]
      ring
    have a2 : twiceArea V.1 V.2 p = (1 - E) * twiceArea V.1 V.2 c + E * twiceArea V.1 V.2 r := by
      rw [e2, area_ray]
      have : Vec2.cross (V.2 - V.1) (r - c) = twiceArea V.1 V.2 r - twiceArea V.1 V.2 c := by simp only [twiceArea, Vec2.cross, Vec2.sub_x, Vec2.sub_y]; ring
      rw [this]
      ring
    have m := mul_nonneg hE.le l1
    by_contra hcon
    push Not at hcon
    have := mul_pos (show 0 < D - E by linarith) hH
    linarith
  intro i j t u p hi hj ht hu
  have mt := (mem_fan_iff c l t).1 (List.mem_of_getElem? hi)
  have mu := (mem_fan_iff c l u).1 (List.mem_of_getElem? hj)
  obtain ⟨t1, V⟩ := t
  obtain ⟨u1, W⟩ := u
  obtain ⟨rfl, hV⟩ := mt
  obtain ⟨e, hW⟩ := mu
  dsimp only at e hV hW hc
  subst e
  obtain ⟨HV, D, q, hD, eq1, hq, zq, fq⟩ := within_fan h hc hV ht
  obtain ⟨HW, E, r, hE, eq2, hr, zr, fr⟩ := within_fan h hc hW hu
  have le1 := key V W p hV hW D E q r HV hE hD eq1 eq2 zq hr
  have le2 := key W V p hW hV E D r q HW hD hE eq2 eq1 zr hq
  obtain rfl : D = E := le_antisymm le1 le2
  have hqr : q = r := by
    have e := eq1.symm.trans eq2
    have ex := congrArg Vec2.x e
    have ey := congrArg Vec2.y e
    simp only [Vec2.add_x, Vec2.add_y, Vec2.smul_x, Vec2.smul_y, Vec2.sub_x, Vec2.sub_y] at ex ey
    ext
    · exact mul_left_cancel₀ hD.ne' (by linarith)
    · exact mul_left_cancel₀ hD.ne' (by linarith)
  subst hqr
  obtain ⟨f1, f2⟩ := fq W hW zr
  have hVe := h.edge hV
  have hWe := h.edge hW
  have hVW : V.2 = W.2 := by
    rcases hWe.left _ hVe.mem2 with e2 | e2 | e2
    · exfalso
      rcases hWe.left _ hVe.mem1 with e1 | e1 | e1
      · exact hVe.ne (e1.trans e2.symm)
      · rw [e1, e2] at HV
        simp only [twiceArea] at HV HW
        linarith
      · linarith
    · exact e2
    · linarith
  rw [fan_getElem?] at hi hj
  rw [Option.bind_eq_some_iff] at hi hj
  obtain ⟨b, hb, hi⟩ := hi
  obtain ⟨b', hb', hj⟩ := hj
  rw [Option.map_eq_some_iff] at hi hj
  obtain ⟨a, _, ha⟩ := hi
  obtain ⟨a', _, ha'⟩ := hj
  have e1 : b = V.2 := by cases ha; rfl
  have e2 : b' = W.2 := by cases ha'; rfl
  rw [e1] at hb
  rw [e2, ← hVW] at hb'
  exact h.inj hb' hb

theorem starShaped_of (o : Vec2 K) (l : List (Vec2 K)) (h : ∀ (i : Nat) (a b : Vec2 K), l[i]? = some a → l[i + 1]? = some b → 0 < twiceArea o a b) : StarShaped o l := by
  induction l with
  | nil => trivial
  | cons x l ih =>
    cases l with
    | nil => trivial
    | cons y l => exact ⟨h 0 x y rfl rfl, ih fun i a b ha hb => h (i + 1) a b ha hb⟩

/-- Convex polygons are cut into triangles from their first vertex. -/
theorem StrictlyConvex.triangulated {l : List (Vec2 K)} (h : StrictlyConvex l) : ∃ ts, Triangulated l ts := by
  obtain ⟨h3, hc⟩ := h
  match l, h3, hc with
  | o :: a :: b :: t, h3, hc =>
    refine ⟨_, C71_convex o a b t (starShaped_of o _ fun i x y hx hy => ?_)⟩
    have hi : i + 1 < (a :: b :: t).length := (List.getElem?_eq_some_iff.1 hy).1
    have hm : (i + 1 + 1) % (o :: a :: b :: t).length = i + 1 + 1 := Nat.mod_eq_of_lt (by simp at hi ⊢; omega)
    have := hc (i + 1) 0 x y o (by simpa using hx) (by rw [hm]; simpa using hy) rfl (by omega) (by rw [hm]; omega)
    simp only [twiceArea] at this ⊢
    linarith

/-- The center at which a collider is drawn is one of its points. -/
theorem StrictlyConvex.properties {l : List (Vec2 K)} (h : StrictlyConvex l) {density : K} (hd : 0 < density) :
    ∃ m, MassProperties.ofGeometry l density = .ok m ∧ Hull l m.centroid := by
  obtain ⟨ts, ht⟩ := h.triangulated
  obtain ⟨g, hg, hdeg, _, _, _, hh, _⟩ := C71_geometry l ts ht
  refine ⟨⟨g.area * density, g.momentOfArea * density, g.centroid⟩, ?_, hh⟩
  rw [MassProperties.ofGeometry, hg]
  simp [Outcome.check, hd, hdeg, Outcome.bind_ok]

omit [LinearOrder K] [IsStrictOrderedRing K] in
theorem app_segment (T : Transform K) (p q : Vec2 K) (t : K) : T.app ((1 - t) • p + t • q) = (1 - t) • T.app p + t • T.app q := by
  ext <;> simp [Transform.app, Rotation.app, Translation.app] <;> ring

theorem hull_app (T : Transform K) (l : List (Vec2 K)) (p : Vec2 K) : Hull (l.map T.app) p ↔ ∃ x, Hull l x ∧ T.app x = p := by
  constructor
  · intro h
    induction h with
    | vertex hp =>
      obtain ⟨x, hx, rfl⟩ := List.mem_map.1 hp
      exact ⟨x, .vertex hx, rfl⟩
    | segment t t0 t1 _ _ i1 i2 =>
      obtain ⟨x, hx, rfl⟩ := i1
      obtain ⟨y, hy, rfl⟩ := i2
      exact ⟨_, .segment t t0 t1 hx hy, app_segment T x y t⟩
  · rintro ⟨x, hx, rfl⟩
    induction hx with
    | vertex hp => exact .vertex (List.mem_map.2 ⟨_, hp, rfl⟩)
    | segment t t0 t1 _ _ i1 i2 => rw [app_segment]; exact .segment t t0 t1 i1 i2

/-! ### Boxes -/

/-- The polygon of a box that has an inside. -/
theorem box_convex {b : BoundingBox K} (hx : b.min.x < b.max.x) (hy : b.min.y < b.max.y) : StrictlyConvex (Visible.boxPolygon b).vertices := by
  have hp := mul_pos (sub_pos.2 hx) (sub_pos.2 hy)
  refine ⟨by simp [Visible.boxPolygon], fun i k x y z h1 h2 h3 k1 k2 => ?_⟩
  have hi : i < 4 := (List.getElem?_eq_some_iff.1 h1).1
  have hk : k < 4 := (List.getElem?_eq_some_iff.1 h3).1
  interval_cases i <;> interval_cases k <;>
    simp [Visible.boxPolygon] at h1 h2 h3 k1 k2 <;> subst h1 h2 h3 <;> simp only [twiceArea] <;> nlinarith

theorem hull_box {b : BoundingBox K} (hx : b.min.x < b.max.x) (hy : b.min.y < b.max.y) (p : Vec2 K) : Hull (Visible.boxPolygon b).vertices p ↔ inBox b p := by
  constructor
  · intro h
    induction h with
    | vertex hp =>
      simp only [Visible.boxPolygon, List.mem_cons, List.not_mem_nil, or_false] at hp
      rcases hp with rfl | rfl | rfl | rfl <;> exact ⟨⟨by simp [hx.le], by simp [hx.le]⟩, by simp [hy.le], by simp [hy.le]⟩
    | @segment p q t t0 t1 _ _ i1 i2 =>
      obtain ⟨⟨a1, a2⟩, a3, a4⟩ := i1
      obtain ⟨⟨b1, b2⟩, b3, b4⟩ := i2
      have key : ∀ u v w : K, u ≤ v → u ≤ w → u ≤ v * (1 - t) + w * t := by
        intro u v w h1 h2
        nlinarith [mul_le_mul_of_nonneg_left h1 (show 0 ≤ 1 - t by linarith), mul_le_mul_of_nonneg_left h2 t0]
      have key' : ∀ u v w : K, v ≤ u → w ≤ u → v * (1 - t) + w * t ≤ u := by
        intro u v w h1 h2
        nlinarith [mul_le_mul_of_nonneg_left h1 (show 0 ≤ 1 - t by linarith), mul_le_mul_of_nonneg_left h2 t0]
      simp only [inBox, Vec2.add_x, Vec2.add_y, Vec2.smul_x, Vec2.smul_y]
      exact ⟨⟨key _ _ _ a1 b1, key' _ _ _ a2 b2⟩, key _ _ _ a3 b3, key' _ _ _ a4 b4⟩
  · rintro ⟨⟨a1, a2⟩, a3, a4⟩
    have hX : 0 < b.max.x - b.min.x := by linarith
    have hY : 0 < b.max.y - b.min.y := by linarith
    set s := (p.x - b.min.x) / (b.max.x - b.min.x) with hs
    set t := (p.y - b.min.y) / (b.max.y - b.min.y) with ht
    have es : s * (b.max.x - b.min.x) = p.x - b.min.x := div_mul_cancel₀ _ hX.ne'
    have et : t * (b.max.y - b.min.y) = p.y - b.min.y := div_mul_cancel₀ _ hY.ne'
    have s0 : 0 ≤ s := div_nonneg (by linarith) hX.le
    have t0 : 0 ≤ t := div_nonneg (by linarith) hY.le
    have s1 : s ≤ 1 := by rw [hs, div_le_one hX]; linarith
    have t1 : t ≤ 1 := by rw [ht, div_le_one hY]; linarith
    have v : ∀ q ∈ (Visible.boxPolygon b).vertices, Hull (Visible.boxPolygon b).vertices q := fun q hq => .vertex hq
    have lo := Hull.segment s s0 s1 (v b.min (by simp [Visible.boxPolygon])) (v ⟨b.max.x, b.min.y⟩ (by simp [Visible.boxPolygon]))
    have hi := Hull.segment s s0 s1 (v ⟨b.min.x, b.max.y⟩ (by simp [Visible.boxPolygon])) (v b.max (by simp [Visible.boxPolygon]))
    have := Hull.segment t t0 t1 lo hi
    convert this using 1
    ext
    · simp only [Vec2.add_x, Vec2.smul_x]; linear_combination -es
    · simp only [Vec2.add_y, Vec2.smul_y]; linear_combination -et

/-- The box of a convex polygon has an inside. -/
theorem StrictlyConvex.box {l : List (Vec2 K)} (h : StrictlyConvex l) : ∃ b, BoundingBox.ofVertices l = .ok b ∧ b.min.x < b.max.x ∧ b.min.y < b.max.y ∧
    (∀ p, Hull l p → inBox b p) ∧ ∀ b' : BoundingBox K, (∀ p, Hull l p → inBox b' p) → subBox b b' := by
  have hl : l ≠ [] := by rintro rfl; exact absurd h.1 (by simp)
  obtain ⟨b, hb, _, hin, hmin⟩ := (BoundingBox.C08_box_of_vertices_is_tightest l).1 hl
  have h3 : ∃ a c d, a ∈ l ∧ c ∈ l ∧ d ∈ l ∧ 0 < twiceArea a c d := by
    obtain ⟨h3, hc⟩ := h
    refine ⟨l[0], l[1], l[2], List.getElem_mem _, List.getElem_mem _, List.getElem_mem _, ?_⟩
    exact hc 0 2 _ _ _ (List.getElem?_eq_getElem _) (by rw [Nat.mod_eq_of_lt (by omega)]; exact List.getElem?_eq_getElem _) (List.getElem?_eq_getElem _) (by omega)
      (by rw [Nat.mod_eq_of_lt (by omega)]; omega)
  obtain ⟨a, c, d, ha, hc, hd, hpos⟩ := h3
  obtain ⟨⟨a1, a2⟩, a3, a4⟩ := hin a ha
  obtain ⟨⟨c1, c2⟩, c3, c4⟩ := hin c hc
  obtain ⟨⟨d1, d2⟩, d3, d4⟩ := hin d hd
  have hx : b.min.x < b.max.x := by
    by_contra hn
    push Not at hn
    have e1 : c.x - a.x = 0 := by linarith
    have e2 : d.x - a.x = 0 := by linarith
    rw [twiceArea, e1, e2] at hpos
    simp at hpos
  have hy : b.min.y < b.max.y := by
    by_contra hn
    push Not at hn
    have e1 : c.y - a.y = 0 := by linarith
    have e2 : d.y - a.y = 0 := by linarith
    rw [twiceArea, e1, e2] at hpos
    simp at hpos
  refine ⟨b, hb, hx, hy, fun p hp => ?_, fun b' hb' => hmin b' fun v hv => hb' v (.vertex hv)⟩
  induction hp with
  | vertex hp => exact hin _ hp
  | @segment p q t t0 t1 _ _ i1 i2 =>
    rw [← hull_box hx hy] at i1 i2 ⊢
    exact .segment t t0 t1 i1 i2

/-- The center of a box is one of its points. -/
theorem box_center {b : BoundingBox K} (hx : b.min.x < b.max.x) (hy : b.min.y < b.max.y) : Hull (Visible.boxPolygon b).vertices (Visible.boxPolygon b).center := by
  rw [hull_box hx hy]
  have two : (2 : K) ≠ 0 := two_ne_zero
  simp only [inBox, Visible.boxPolygon, BoundingBox.center, Vec2.sdiv, Vec2.add_x, Vec2.add_y]
  exact ⟨⟨by linarith, by linarith⟩, by linarith, by linarith⟩

/-! ### Lines -/

theorem inTriangle_swap (a b c p : Vec2 K) : InTriangle a b c p ↔ InTriangle a c b p := by
  constructor
  all_goals
    rintro ⟨u, v, w, hu, hv, hw, hs, rfl⟩
    refine ⟨u, w, v, hu, hw, hv, by linarith, ?_⟩
    ext <;> simp <;> ring

theorem shows_reverse4 (c x y z w p : Vec2 K) : Shows (fan c [x, y, z, w]) p ↔ Shows (fan c [w, z, y, x]) p := by
  simp only [Shows, fan, List.getLast?_cons_cons, List.getLast?_singleton, List.zip_cons_cons, List.zip_nil_right, List.map_cons, List.map_nil, List.mem_cons, List.not_mem_nil, or_false,
    exists_eq_or_imp, exists_eq_left]
  rw [inTriangle_swap c w x, inTriangle_swap c x y, inTriangle_swap c y z, inTriangle_swap c z w]
  tauto

/-- The points of the rectangle along `d` of half-width `n`, from `A`. -/
theorem rect_shows {A d n : Vec2 K} (hpos : 0 < Vec2.cross d n) (p : Vec2 K) :
    Shows (fan (Vec2.sdiv (A + (A + d)) 2) [A + n, A + d + n, A + d - n, A - n]) p ↔ ∃ s u : K, 0 ≤ s ∧ s ≤ 1 ∧ -1 ≤ u ∧ u ≤ 1 ∧ p = A + s • d + u • n := by
  rw [shows_reverse4]
  have hconv : StrictlyConvex [A - n, A + d - n, A + d + n, A + n] := by
    simp only [Vec2.cross] at hpos
    refine ⟨by simp, fun i k x y z h1 h2 h3 k1 k2 => ?_⟩
    have hi : i < 4 := (List.getElem?_eq_some_iff.1 h1).1
    have hk : k < 4 := (List.getElem?_eq_some_iff.1 h3).1
    interval_cases i <;> interval_cases k <;>
      simp at h1 h2 h3 k1 k2 <;> subst h1 h2 h3 <;> simp only [twiceArea, Vec2.add_x, Vec2.add_y, Vec2.sub_x, Vec2.sub_y] <;> nlinarith
  have hh : ∀ p, Hull [A - n, A + d - n, A + d + n, A + n] p ↔ ∃ s u : K, 0 ≤ s ∧ s ≤ 1 ∧ -1 ≤ u ∧ u ≤ 1 ∧ p = A + s • d + u • n := by
    intro p
    constructor
    · intro h
      induction h with
      | vertex hp =>
        simp only [List.mem_cons, List.not_mem_nil, or_false] at hp
        rcases hp with rfl | rfl | rfl | rfl
        · exact ⟨0, -1, by norm_num, by norm_num, by norm_num, by norm_num, by ext <;> simp <;> ring⟩
        · exact ⟨1, -1, by norm_num, by norm_num, by norm_num, by norm_num, by ext <;> simp <;> ring⟩
        · exact ⟨1, 1, by norm_num, by norm_num, by norm_num, by norm_num, by ext <;> simp⟩
        · exact ⟨0, 1, by norm_num, by norm_num, by norm_num, by norm_num, by ext <;> simp⟩
      | @segment p q t t0 t1 _ _ i1 i2 =>
        obtain ⟨s, u, a1, a2, a3, a4, rfl⟩ := i1
        obtain ⟨s', u', b1, b2, b3, b4, rfl⟩ := i2
        have c0 : 0 ≤ 1 - t := by linarith
        refine ⟨(1 - t) * s + t * s', (1 - t) * u + t * u', ?_, ?_, ?_, ?_, ?_⟩
        · exact add_nonneg (mul_nonneg c0 a1) (mul_nonneg t0 b1)
        · nlinarith [mul_le_mul_of_nonneg_left a2 c0, mul_le_mul_of_nonneg_left b2 t0]
        · nlinarith [mul_le_mul_of_nonneg_left a3 c0, mul_le_mul_of_nonneg_left b3 t0]
        · nlinarith [mul_le_mul_of_nonneg_left a4 c0, mul_le_mul_of_nonneg_left b4 t0]
        · ext <;> simp <;> ring
    · rintro ⟨s, u, a1, a2, a3, a4, rfl⟩
      have v : ∀ q ∈ [A - n, A + d - n, A + d + n, A + n], Hull [A - n, A + d - n, A + d + n, A + n] q := fun q hq => .vertex hq
      have lo := Hull.segment s a1 a2 (v (A - n) (by simp)) (v (A + d - n) (by simp))
      have hi := Hull.segment s a1 a2 (v (A + n) (by simp)) (v (A + d + n) (by simp))
      have := Hull.segment ((1 + u) / 2) (by linarith) (by linarith) lo hi
      convert this using 1
      ext <;> simp <;> ring
  rw [fan_shows hconv, hh]
  rw [hh]
  refine ⟨1 / 2, 0, by norm_num, by norm_num, by norm_num, by norm_num, ?_⟩
  ext <;> simp [Vec2.sdiv] <;> ring

end Simu
