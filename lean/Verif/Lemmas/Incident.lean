import Verif.Lemmas.Overlap
/-
Lemmas about convex polygons that overlap, continued: the shortest separating translation is across an edge; the contacts on the incident edge.
-/
namespace Simu
open Gjk
variable {K : Type*} [Field K] [LinearOrder K] [IsStrictOrderedRing K]

/-! ### The shortest separating translation -/

theorem Shortest.ne_zero {A B : List (Vec2 K)} {μ : Vec2 K} (h : Shortest A B μ) (ho : ¬Cleared A B 0) : μ ≠ 0 := by
  rintro rfl
  exact ho h.1

/-- After the translation, the polygons are on each side of a line across the translation. -/
theorem Shortest.side {A B : List (Vec2 K)} {μ : Vec2 K} (h : Shortest A B μ) (ho : ¬Cleared A B 0) :
    ∀ a ∈ A, ∀ b ∈ B, Vec2.dot (a - b) μ ≤ Vec2.dot μ μ := by
  obtain ⟨⟨n, hn, hc⟩, hmin⟩ := h
  have hnn := vec_self_pos hn
  have hc' : ∀ a ∈ A, ∀ b ∈ B, Vec2.dot (a - b) n ≤ Vec2.dot μ n := by
    intro a ha b hb
    have := hc a ha b hb
    simp only [Vec2.dot_def, Vec2.sub_x, Vec2.sub_y, Vec2.add_x, Vec2.add_y] at this ⊢
    linarith
  have hpos : 0 < Vec2.dot μ n := by
    by_contra hx
    push Not at hx
    refine ho ⟨n, hn, fun a ha b hb => ?_⟩
    have := (hc' a ha b hb).trans hx
    simp only [Vec2.dot_def, Vec2.sub_x, Vec2.sub_y, Vec2.add_x, Vec2.add_y, Vec2.zero_x, Vec2.zero_y] at this ⊢
    linarith
  -- the projection of the translation on the normal is no longer
  have hproj : Cleared A B ((Vec2.dot μ n / Vec2.dot n n) • n) := by
    refine ⟨n, hn, fun a ha b hb => ?_⟩
    have := hc' a ha b hb
    have e : Vec2.dot ((Vec2.dot μ n / Vec2.dot n n) • n) n = Vec2.dot μ n := by
      have : Vec2.dot ((Vec2.dot μ n / Vec2.dot n n) • n) n = Vec2.dot μ n / Vec2.dot n n * Vec2.dot n n := by
        simp only [Vec2.dot_def, Vec2.smul_x, Vec2.smul_y]
        ring
      rw [this, div_mul_cancel₀ _ hnn.ne']
    have e2 : Vec2.dot (a - (b + (Vec2.dot μ n / Vec2.dot n n) • n)) n = Vec2.dot (a - b) n - Vec2.dot ((Vec2.dot μ n / Vec2.dot n n) • n) n := by
      simp only [Vec2.dot_def, Vec2.sub_x, Vec2.sub_y, Vec2.add_x, Vec2.add_y]
      ring
    rw [e2, e]
    linarith
  have hle := hmin _ hproj
  rw [normSq_dot, normSq_dot] at hle
  have e3 : Vec2.dot ((Vec2.dot μ n / Vec2.dot n n) • n) ((Vec2.dot μ n / Vec2.dot n n) • n) * Vec2.dot n n = Vec2.dot μ n * Vec2.dot μ n := by
    have : Vec2.dot ((Vec2.dot μ n / Vec2.dot n n) • n) ((Vec2.dot μ n / Vec2.dot n n) • n) = Vec2.dot μ n / Vec2.dot n n * (Vec2.dot μ n / Vec2.dot n n) * Vec2.dot n n := by
      simp only [Vec2.dot_def, Vec2.smul_x, Vec2.smul_y]
      ring
    rw [this]
    field_simp
  have e4 := dot_sq_le μ n
  have hcr : Vec2.cross μ n = 0 := by
    apply mul_self_eq_zero.1
    have := mul_le_mul_of_nonneg_right hle hnn.le
    have := mul_self_nonneg (Vec2.cross μ n)
    linarith
  intro a ha b hb
  have key := hc' a ha b hb
  have hμ : Vec2.dot μ μ * Vec2.dot (a - b) n = Vec2.dot μ n * Vec2.dot (a - b) μ := by
    have : Vec2.dot μ μ * Vec2.dot (a - b) n = Vec2.dot μ n * Vec2.dot (a - b) μ + Vec2.cross μ n * Vec2.cross μ (a - b) := by
      simp only [Vec2.dot_def, Vec2.cross]
      ring
    rw [this, hcr, zero_mul, add_zero]
  have : Vec2.dot μ n * Vec2.dot (a - b) μ ≤ Vec2.dot μ n * Vec2.dot μ μ := by
    rw [← hμ, mul_comm (Vec2.dot μ n)]
    exact mul_le_mul_of_nonneg_left key (normSq_dot μ ▸ normSq_nonneg' μ)
  exact le_of_mul_le_mul_left this hpos

/-- Of the points of a hull, those that are furthest in a direction. -/
theorem hull_furthest {l : List (Vec2 K)} {d v : Vec2 K} (hv : ∀ w ∈ l, Vec2.dot w d ≤ Vec2.dot v d) (S : Vec2 K → Prop)
    (hS : ∀ w ∈ l, Vec2.dot w d = Vec2.dot v d → S w) (hseg : ∀ (p q : Vec2 K) (t : K), 0 ≤ t → t ≤ 1 → S p → S q → S ((1 - t) • p + t • q))
    {q : Vec2 K} (hq : Hull l q) : Vec2.dot q d ≤ Vec2.dot v d ∧ (Vec2.dot q d = Vec2.dot v d → S q) := by
  induction hq with
  | vertex hp => exact ⟨hv _ hp, hS _ hp⟩
  | @segment p q t t0 t1 _ _ i1 i2 =>
    have e : Vec2.dot ((1 - t) • p + t • q) d = (1 - t) * Vec2.dot p d + t * Vec2.dot q d := by
      simp only [Vec2.dot_def, Vec2.add_x, Vec2.add_y, Vec2.smul_x, Vec2.smul_y]
      ring
    have l1 := mul_le_mul_of_nonneg_left i1.1 (show 0 ≤ 1 - t by linarith)
    have l2 := mul_le_mul_of_nonneg_left i2.1 t0
    refine ⟨by rw [e]; linarith, fun h => ?_⟩
    rw [e] at h
    rcases t0.lt_or_eq with t0' | t0'
    · rcases t1.lt_or_eq with t1' | t1'
      · have h1 : 0 < 1 - t := by linarith
        have a1 : Vec2.dot p d = Vec2.dot v d := by
          refine le_antisymm i1.1 (le_of_mul_le_mul_left ?_ h1)
          linarith
        have a2 : Vec2.dot q d = Vec2.dot v d := by
          refine le_antisymm i2.1 (le_of_mul_le_mul_left ?_ t0')
          linarith
        exact hseg _ _ _ t0 t1 (i1.2 a1) (i2.2 a2)
      · subst t1'
        have : S q := i2.2 (by linarith)
        have e' : (1 - (1 : K)) • p + (1 : K) • q = q := by ext <;> simp
        rw [e']; exact this
    · subst t0'
      have : S p := i1.2 (by linarith)
      have e' : (1 - (0 : K)) • p + (0 : K) • q = p := by ext <;> simp
      rw [e']; exact this

/-- Small enough a number. -/
theorem exists_small (l : List (Vec2 K)) (f g : Vec2 K → K) (h : ∀ x ∈ l, f x < 0) : ∃ ε, 0 < ε ∧ ∀ x ∈ l, f x + ε * g x ≤ 0 := by
  induction l with
  | nil => exact ⟨1, one_pos, by simp⟩
  | cons a l ih =>
    obtain ⟨ε, e0, he⟩ := ih fun x hx => h x (List.mem_cons_of_mem _ hx)
    have ha := h a List.mem_cons_self
    have hd : 0 < 1 + |g a| := by have := abs_nonneg (g a); linarith
    refine ⟨min ε (-f a / (1 + |g a|)), lt_min e0 (div_pos (by linarith) hd), ?_⟩
    intro x hx
    rcases List.mem_cons.1 hx with rfl | hx
    · by_cases hg : g x ≤ 0
      · have := mul_nonneg_of_nonpos_of_nonpos hg (neg_nonpos.2 (lt_min e0 (div_pos (by linarith) hd) : 0 < min ε (-f x / (1 + |g x|))).le)
        nlinarith
      · push Not at hg
        have h1 : min ε (-f x / (1 + |g x|)) * g x ≤ -f x / (1 + |g x|) * (1 + |g x|) := by
          refine mul_le_mul (min_le_right _ _) ?_ hg.le (div_pos (by linarith) hd).le
          have := le_abs_self (g x)
          linarith
        rw [div_mul_cancel₀ _ hd.ne'] at h1
        linarith
    · have h0 := h x (List.mem_cons_of_mem _ hx)
      have h1 := he x hx
      by_cases hg : g x ≤ 0
      · have := mul_nonneg_of_nonpos_of_nonpos hg (neg_nonpos.2 (lt_min e0 (div_pos (by linarith) hd) : 0 < min ε (-f a / (1 + |g a|))).le)
        nlinarith
      · push Not at hg
        have := mul_le_mul_of_nonneg_right (min_le_left ε (-f a / (1 + |g a|))) hg.le
        linarith

theorem exists_furthest {l : List (Vec2 K)} (h : l ≠ []) (d : Vec2 K) : ∃ v, Furthest l d v := by
  induction l with
  | nil => exact absurd rfl h
  | cons a l ih =>
    by_cases hl : l = []
    · subst hl
      exact ⟨a, by simp, by simp⟩
    · obtain ⟨v, hv, hm⟩ := ih hl
      rcases le_total (Vec2.dot v d) (Vec2.dot a d) with hle | hle
      · exact ⟨a, by simp, fun w hw => by
          rcases List.mem_cons.1 hw with rfl | hw
          · exact le_refl _
          · exact (hm w hw).trans hle⟩
      · exact ⟨v, List.mem_cons_of_mem _ hv, fun w hw => by
          rcases List.mem_cons.1 hw with rfl | hw
          · exact hle
          · exact hm w hw⟩

/-- The polygons touch after the translation at points that are furthest in its direction. -/
theorem Shortest.touch {A B : List (Vec2 K)} {μ : Vec2 K} (h : Shortest A B μ) (ho : ¬Cleared A B 0) (ht : Touching A B μ) {a b : Vec2 K}
    (ha : Furthest A μ a) (hb : Furthest B (-μ) b) :
    Vec2.dot (a - b) μ = Vec2.dot μ μ ∧ ∃ q q', Hull A q ∧ Hull B q' ∧ q = q' + μ ∧ Vec2.dot q μ = Vec2.dot a μ ∧ Vec2.dot q' (-μ) = Vec2.dot b (-μ) := by
  obtain ⟨q, hq, q', hq', e⟩ := ht
  have h1 := (hull_furthest ha.2 (fun _ => True) (fun _ _ _ => trivial) (fun _ _ _ _ _ _ _ => trivial) hq).1
  have h2 := (hull_furthest hb.2 (fun _ => True) (fun _ _ _ => trivial) (fun _ _ _ _ _ _ _ => trivial) hq').1
  have h3 := h.side ho a ha.1 b hb.1
  have ex : q.x = q'.x + μ.x := by rw [e]; rfl
  have ey : q.y = q'.y + μ.y := by rw [e]; rfl
  simp only [Vec2.dot_def, Vec2.sub_x, Vec2.sub_y, Vec2.neg_x, Vec2.neg_y, ex, ey] at h1 h2 h3
  have e1 : (a.x - b.x) * μ.x + (a.y - b.y) * μ.y = μ.x * μ.x + μ.y * μ.y := by linarith
  refine ⟨by simp only [Vec2.dot_def, Vec2.sub_x, Vec2.sub_y]; exact e1, q, q', hq, hq', e, ?_, ?_⟩
  · simp only [Vec2.dot_def, ex, ey]; linarith
  · simp only [Vec2.dot_def, Vec2.neg_x, Vec2.neg_y]; linarith

/-- The shortest separating translation is across an edge of one of the polygons: two vertices of one of them are furthest along it. -/
theorem Shortest.across {A B : List (Vec2 K)} (hA : A ≠ []) (hB : B ≠ []) {μ : Vec2 K} (h : Shortest A B μ) (ho : ¬Cleared A B 0) (ht : Touching A B μ) :
    (∃ a a', Furthest A μ a ∧ Furthest A μ a' ∧ a ≠ a') ∨ ∃ b b', Furthest B (-μ) b ∧ Furthest B (-μ) b' ∧ b ≠ b' := by
  by_contra hx
  push Not at hx
  obtain ⟨uA, uB⟩ := hx
  obtain ⟨a, ha⟩ := exists_furthest hA μ
  obtain ⟨b, hb⟩ := exists_furthest hB (-μ)
  obtain ⟨_, q, q', hq, hq', e, h1, h2⟩ := h.touch ho ht ha hb
  have key : ∀ (c p q : Vec2 K) (t : K), 0 ≤ t → t ≤ 1 → p = c → q = c → (1 - t) • p + t • q = c := by
    rintro c p q t _ _ rfl rfl
    ext <;> simp <;> ring
  have eq : q = a := (hull_furthest ha.2 (· = a) (fun w hw hw' => uA w a ⟨hw, fun x hx => (ha.2 x hx).trans hw'.ge⟩ ha) (key a) hq).2 h1
  have eq' : q' = b := (hull_furthest hb.2 (· = b) (fun w hw hw' => uB w b ⟨hw, fun x hx => (hb.2 x hx).trans hw'.ge⟩ hb) (key b) hq').2 h2
  subst eq eq'
  have hμ := h.ne_zero ho
  have hμμ := vec_self_pos hμ
  -- a direction turned a little
  obtain ⟨ε1, p1, k1⟩ := exists_small (A.filter (· ≠ q)) (fun x => Vec2.dot (x - q) μ) (fun x => Vec2.dot (x - q) ⟨-μ.y, μ.x⟩) (by
    intro x hx
    obtain ⟨hx, hne⟩ := List.mem_filter.1 hx
    have hne : x ≠ q := by simpa using hne
    have hle := ha.2 x hx
    have : Vec2.dot x μ ≠ Vec2.dot q μ := fun e => hne (uA x q ⟨hx, fun y hy => (ha.2 y hy).trans e.ge⟩ ha)
    have := lt_of_le_of_ne hle this
    simp only [Vec2.dot_def, Vec2.sub_x, Vec2.sub_y] at this ⊢
    linarith)
  obtain ⟨ε2, p2, k2⟩ := exists_small (B.filter (· ≠ q')) (fun x => Vec2.dot (x - q') (-μ)) (fun x => Vec2.dot (q' - x) ⟨-μ.y, μ.x⟩) (by
    intro x hx
    obtain ⟨hx, hne⟩ := List.mem_filter.1 hx
    have hne : x ≠ q' := by simpa using hne
    have hle := hb.2 x hx
    have : Vec2.dot x (-μ) ≠ Vec2.dot q' (-μ) := fun e => hne (uB x q' ⟨hx, fun y hy => (hb.2 y hy).trans e.ge⟩ hb)
    have := lt_of_le_of_ne hle this
    simp only [Vec2.dot_def, Vec2.sub_x, Vec2.sub_y] at this ⊢
    linarith)
  set ε := min ε1 ε2 with hε
  have pε : 0 < ε := lt_min p1 p2
  set n : Vec2 K := ⟨μ.x - ε * μ.y, μ.y + ε * μ.x⟩ with hn
  have small : ∀ {x y ε' : K}, x ≤ 0 → ε ≤ ε' → x + ε' * y ≤ 0 → x + ε * y ≤ 0 := by
    intro x y ε' hx hle h
    by_cases hy : y ≤ 0
    · have := mul_nonpos_of_nonneg_of_nonpos pε.le hy
      linarith
    · push Not at hy
      have := mul_le_mul_of_nonneg_right hle hy.le
      linarith
  have fA : ∀ x ∈ A, Vec2.dot (x - q) n ≤ 0 := by
    intro x hx
    by_cases e : x = q
    · subst e; simp [Vec2.dot_def]
    · have h1 := k1 x (List.mem_filter.2 ⟨hx, by simpa using e⟩)
      have h0 := ha.2 x hx
      have := small (by simp only [Vec2.dot_def, Vec2.sub_x, Vec2.sub_y] at h0 ⊢; linarith) (min_le_left ε1 ε2) h1
      simp only [hn, Vec2.dot_def, Vec2.sub_x, Vec2.sub_y] at this ⊢
      linarith
  have fB : ∀ x ∈ B, Vec2.dot (q' - x) n ≤ 0 := by
    intro x hx
    by_cases e : x = q'
    · subst e; simp [Vec2.dot_def]
    · have h1 := k2 x (List.mem_filter.2 ⟨hx, by simpa using e⟩)
      have h0 := hb.2 x hx
      have := small (by simp only [Vec2.dot_def, Vec2.sub_x, Vec2.sub_y] at h0 ⊢; linarith) (min_le_right ε1 ε2) h1
      simp only [hn, Vec2.dot_def, Vec2.sub_x, Vec2.sub_y, Vec2.neg_x, Vec2.neg_y] at this ⊢
      linarith
  have nn : Vec2.dot n n = Vec2.dot μ μ * (1 + ε * ε) := by
    simp only [hn, Vec2.dot_def]; ring
  have nμ : Vec2.dot μ n = Vec2.dot μ μ := by
    simp only [hn, Vec2.dot_def]; ring
  have nnp : 0 < Vec2.dot n n := by rw [nn]; exact mul_pos hμμ (by have := mul_pos pε pε; linarith)
  set μ' : Vec2 K := (Vec2.dot μ μ / Vec2.dot n n) • n with hμ'
  have hμn : Vec2.dot μ' n = Vec2.dot μ μ := by
    have : Vec2.dot μ' n = Vec2.dot μ μ / Vec2.dot n n * Vec2.dot n n := by
      simp only [hμ', Vec2.dot_def, Vec2.smul_x, Vec2.smul_y]; ring
    rw [this, div_mul_cancel₀ _ nnp.ne']
  have hc : Cleared A B μ' := by
    refine ⟨n, ?_, fun x hx y hy => ?_⟩
    · rintro e'
      rw [e'] at nnp
      simp [Vec2.dot_def] at nnp
    · have i1 := fA x hx
      have i2 := fB y hy
      have ex : q.x = q'.x + μ.x := by rw [e]; rfl
      have ey : q.y = q'.y + μ.y := by rw [e]; rfl
      have : Vec2.dot (x - (y + μ')) n = Vec2.dot (x - q) n + Vec2.dot (q' - y) n + (Vec2.dot μ n - Vec2.dot μ' n) := by
        simp only [Vec2.dot_def, Vec2.sub_x, Vec2.sub_y, Vec2.add_x, Vec2.add_y, ex, ey]; ring
      rw [this, nμ, hμn]
      linarith
  have hle := h.2 _ hc
  rw [normSq_dot, normSq_dot] at hle
  have e3 : Vec2.dot μ' μ' * Vec2.dot n n = Vec2.dot μ μ * Vec2.dot μ μ := by
    have : Vec2.dot μ' μ' = Vec2.dot μ μ / Vec2.dot n n * (Vec2.dot μ μ / Vec2.dot n n) * Vec2.dot n n := by
      simp only [hμ', Vec2.dot_def, Vec2.smul_x, Vec2.smul_y]; ring
    rw [this]
    field_simp
  have h5 := mul_le_mul_of_nonneg_right hle nnp.le
  rw [e3, nn] at h5
  have h6 : 0 < Vec2.dot μ μ * (Vec2.dot μ μ * (ε * ε)) := mul_pos hμμ (mul_pos hμμ (mul_pos pε pε))
  nlinarith

/-! ### Contacts on the incident edge -/

/-- Where an edge is clipped by the line of another one. -/
theorem clipInside_eq (e other : Vec2 K × Vec2 K) (h : Vec2.cross (e.2 - e.1) (other.2 - other.1) ≠ 0) :
    ∃ t : K, clipInside e other = .ok (e.1 + Algo.clamp t 0 1 • (e.2 - e.1)) ∧ Vec2.cross (e.1 + t • (e.2 - e.1) - other.1) (other.2 - other.1) = 0 := by
  have hn : ¬Vec2.dot (edgeDirection e) (edgeNormal other) = 0 := by
    intro h0
    apply h
    simp only [edgeNormal, edgeDirection, Vec2.dot_def, Vec2.cross, Vec2.perp, if_true, Vec2.neg_x, Vec2.neg_y] at h0 ⊢
    linarith
  unfold clipInside
  rw [if_neg hn]
  set A : Mat K 2 2 := ⟨![(edgeDirection e).x, (edgeDirection other).x, (edgeDirection e).y, (edgeDirection other).y]⟩ with hA
  have hd : A.toM.det ≠ 0 := by
    intro h0
    apply h
    rw [Matrix.det_fin_two] at h0
    have e1 : A.toM 0 0 = (edgeDirection e).x := rfl
    have e2 : A.toM 0 1 = (edgeDirection other).x := rfl
    have e3 : A.toM 1 0 = (edgeDirection e).y := rfl
    have e4 : A.toM 1 1 = (edgeDirection other).y := rfl
    rw [e1, e2, e3, e4] at h0
    simp only [edgeDirection, Vec2.cross] at h0 ⊢
    linarith
  obtain ⟨x, hx, hmul, _⟩ := (C10_solver2 A).2.2.1 hd (Mat.ofFn ![(other.1 - e.1).x, (other.1 - e.1).y])
  refine ⟨x.at_ 0, ?_, ?_⟩
  · change ((Solver2.mk' A).solve (Mat.ofFn ![(other.1 - e.1).x, (other.1 - e.1).y])).bind _ = _
    rw [hx]
    rfl
  · have r0 := congrArg (fun v : MVec K 2 => v.at_ 0) hmul
    have r1 := congrArg (fun v : MVec K 2 => v.at_ 1) hmul
    simp only [Mat.at_mul, Fin.sum_univ_two, Mat.at_ofFn] at r0 r1
    have g0 : A.get 0 0 = (edgeDirection e).x := rfl
    have g1 : A.get 0 1 = (edgeDirection other).x := rfl
    have g2 : A.get 1 0 = (edgeDirection e).y := rfl
    have g3 : A.get 1 1 = (edgeDirection other).y := rfl
    rw [g0, g1] at r0
    rw [g2, g3] at r1
    simp only [Matrix.cons_val_zero, Matrix.cons_val_one, edgeDirection, Vec2.sub_x, Vec2.sub_y] at r0 r1
    simp only [Vec2.cross, Vec2.add_x, Vec2.add_y, Vec2.sub_x, Vec2.sub_y, Vec2.smul_x, Vec2.smul_y]
    linear_combination (other.2.y - other.1.y) * r0 - (other.2.x - other.1.x) * r1

theorem clamp_cases01 (t : K) : (t ≤ 0 ∧ Algo.clamp t 0 1 = 0) ∨ (1 ≤ t ∧ Algo.clamp t 0 1 = 1) ∨ (0 < t ∧ t < 1 ∧ Algo.clamp t 0 1 = t) := by
  obtain ⟨_, _, c1, c2, c3⟩ := clamp01 t
  rcases lt_trichotomy t 0 with h | h | h
  · exact Or.inl ⟨h.le, c1 h⟩
  · exact Or.inl ⟨h.le, by rw [c3 h.ge (by rw [h]; exact zero_le_one), h]⟩
  · rcases lt_trichotomy t 1 with k | k | k
    · exact Or.inr (Or.inr ⟨h, k, c3 h.le k.le⟩)
    · exact Or.inr (Or.inl ⟨k.ge, by rw [c3 h.le k.le, k]⟩)
    · exact Or.inr (Or.inl ⟨k.le, c2 k⟩)

/-- The incident edge ends at its deepest vertex: clipping it by the edge before the reference edge gives a point that is not outside of the reference edge. -/
theorem incident_last (R V E : Vec2 K × Vec2 K) (hV : V.2 = R.1) (hL : 0 < Vec2.dot (R.2 - R.1) (R.2 - R.1)) (hπ : 0 < Vec2.dot (V.2 - V.1) (edgeNormal R))
    (hX : Vec2.dot (E.2 - E.1) (R.2 - R.1) < 0) (hY : Vec2.dot (E.2 - E.1) (edgeNormal R) ≤ 0) (hC : 0 < Vec2.cross (E.2 - E.1) (V.2 - V.1))
    (hvY : Vec2.dot (E.2 - R.1) (edgeNormal R) < 0) (hvX : 0 ≤ Vec2.dot (E.2 - R.1) (R.2 - R.1)) :
    ∃ p, clipInside E V = .ok p ∧ Vec2.dot (p - R.1) (edgeNormal R) ≤ 0 ∧ (0 ≤ twiceArea V.1 V.2 E.2 → p = E.2) := by
  obtain ⟨t, hp, ht⟩ := clipInside_eq E V hC.ne'
  refine ⟨_, hp, ?_⟩
  set n := edgeNormal R with hn
  set ρ := R.2 - R.1 with hρ
  have id : ∀ a b : Vec2 K, Vec2.dot ρ ρ * Vec2.cross a b = Vec2.dot a n * Vec2.dot b ρ - Vec2.dot a ρ * Vec2.dot b n := by
    intro a b
    simp only [hn, edgeNormal, edgeDirection, Vec2.perp, if_true, Vec2.dot_def, Vec2.cross, Vec2.neg_x, Vec2.neg_y, ← hρ]
    ring
  -- the crossing, from the deepest vertex
  have ht' : Vec2.cross (E.2 - R.1) (V.2 - V.1) + (t - 1) * Vec2.cross (E.2 - E.1) (V.2 - V.1) = 0 := by
    rw [← hV]
    simp only [Vec2.cross, Vec2.add_x, Vec2.add_y, Vec2.sub_x, Vec2.sub_y, Vec2.smul_x, Vec2.smul_y] at ht ⊢
    linear_combination ht
  have hpt : ∀ c : K, Vec2.dot (E.1 + c • (E.2 - E.1) - R.1) n = Vec2.dot (E.2 - R.1) n + (c - 1) * Vec2.dot (E.2 - E.1) n := by
    intro c
    simp only [Vec2.dot_def, Vec2.add_x, Vec2.add_y, Vec2.sub_x, Vec2.sub_y, Vec2.smul_x, Vec2.smul_y]
    ring
  have hbelow : Vec2.dot (E.2 - R.1) n + (t - 1) * Vec2.dot (E.2 - E.1) n ≤ 0 := by
    have i1 := id (E.2 - R.1) (V.2 - V.1)
    have i2 := id (E.2 - E.1) (V.2 - V.1)
    set a := Vec2.dot (E.2 - R.1) n
    set b := Vec2.dot (E.2 - R.1) ρ
    set c := Vec2.dot (E.2 - E.1) n
    set d := Vec2.dot (E.2 - E.1) ρ
    set πX := Vec2.dot (V.2 - V.1) ρ
    set πY := Vec2.dot (V.2 - V.1) n
    set C := Vec2.cross (E.2 - E.1) (V.2 - V.1)
    set L := Vec2.dot ρ ρ
    have e : L * (C * (a + (t - 1) * c)) = πY * (b * c - a * d) := by
      linear_combination a * i2 + L * c * ht' - c * i1
    have s1 : b * c - a * d ≤ 0 := by
      have := mul_nonpos_of_nonneg_of_nonpos hvX hY
      have := mul_pos_of_neg_of_neg hvY hX
      linarith
    have s2 := mul_nonpos_of_nonneg_of_nonpos hπ.le s1
    rw [← e] at s2
    by_contra hx
    push Not at hx
    have := mul_pos hL (mul_pos hC hx)
    linarith
  have hin : 0 ≤ twiceArea V.1 V.2 E.2 → 1 ≤ t := by
    intro h
    by_contra hx
    push Not at hx
    have : twiceArea V.1 V.2 E.2 = -Vec2.cross (E.2 - R.1) (V.2 - V.1) := by
      rw [← hV]
      simp only [twiceArea, Vec2.cross, Vec2.sub_x, Vec2.sub_y]
      ring
    have := mul_neg_of_neg_of_pos (show t - 1 < 0 by linarith) hC
    linarith
  rcases clamp_cases01 t with ⟨h, e⟩ | ⟨h, e⟩ | ⟨h1, h2, e⟩
  · rw [e]
    refine ⟨?_, fun h' => absurd (hin h') (by linarith [zero_lt_one (α := K)])⟩
    rw [hpt]
    have := mul_nonneg_of_nonpos_of_nonpos (show t ≤ 0 from h) hY
    linarith
  · rw [e]
    refine ⟨?_, fun _ => by ext <;> simp⟩
    rw [hpt]
    linarith
  · rw [e]
    refine ⟨?_, fun h' => absurd (hin h') (by linarith)⟩
    rw [hpt]
    exact hbelow

/-- The incident edge starts at its deepest vertex: clipping it by the edge after the reference edge gives a point that is not outside of the reference edge. -/
theorem incident_first (R N E : Vec2 K × Vec2 K) (hN : N.1 = R.2) (hL : 0 < Vec2.dot (R.2 - R.1) (R.2 - R.1)) (hν : Vec2.dot (N.2 - N.1) (edgeNormal R) < 0)
    (hX : Vec2.dot (E.2 - E.1) (R.2 - R.1) < 0) (hY : 0 ≤ Vec2.dot (E.2 - E.1) (edgeNormal R)) (hC : Vec2.cross (E.2 - E.1) (N.2 - N.1) < 0)
    (hvY : Vec2.dot (E.1 - R.2) (edgeNormal R) < 0) (hvX : Vec2.dot (E.1 - R.2) (R.2 - R.1) ≤ 0) :
    ∃ p, clipInside E N = .ok p ∧ Vec2.dot (p - R.2) (edgeNormal R) ≤ 0 ∧ (0 ≤ twiceArea N.1 N.2 E.1 → p = E.1) := by
  obtain ⟨t, hp, ht⟩ := clipInside_eq E N hC.ne
  refine ⟨_, hp, ?_⟩
  set n := edgeNormal R with hn
  set ρ := R.2 - R.1 with hρ
  have id : ∀ a b : Vec2 K, Vec2.dot ρ ρ * Vec2.cross a b = Vec2.dot a n * Vec2.dot b ρ - Vec2.dot a ρ * Vec2.dot b n := by
    intro a b
    simp only [hn, edgeNormal, edgeDirection, Vec2.perp, if_true, Vec2.dot_def, Vec2.cross, Vec2.neg_x, Vec2.neg_y, ← hρ]
    ring
  have ht' : Vec2.cross (E.1 - R.2) (N.2 - N.1) + t * Vec2.cross (E.2 - E.1) (N.2 - N.1) = 0 := by
    rw [← hN]
    simp only [Vec2.cross, Vec2.add_x, Vec2.add_y, Vec2.sub_x, Vec2.sub_y, Vec2.smul_x, Vec2.smul_y] at ht ⊢
    linear_combination ht
  have hpt : ∀ c : K, Vec2.dot (E.1 + c • (E.2 - E.1) - R.2) n = Vec2.dot (E.1 - R.2) n + c * Vec2.dot (E.2 - E.1) n := by
    intro c
    simp only [Vec2.dot_def, Vec2.add_x, Vec2.add_y, Vec2.sub_x, Vec2.sub_y, Vec2.smul_x, Vec2.smul_y]
    ring
  have hbelow : Vec2.dot (E.1 - R.2) n + t * Vec2.dot (E.2 - E.1) n ≤ 0 := by
    have i1 := id (E.1 - R.2) (N.2 - N.1)
    have i2 := id (E.2 - E.1) (N.2 - N.1)
    set a := Vec2.dot (E.1 - R.2) n
    set b := Vec2.dot (E.1 - R.2) ρ
    set c := Vec2.dot (E.2 - E.1) n
    set d := Vec2.dot (E.2 - E.1) ρ
    set πX := Vec2.dot (N.2 - N.1) ρ
    set πY := Vec2.dot (N.2 - N.1) n
    set C := Vec2.cross (E.2 - E.1) (N.2 - N.1)
    set L := Vec2.dot ρ ρ
    have e : L * (-C * (a + t * c)) = -πY * (b * c - a * d) := by
      linear_combination (-a) * i2 - L * c * ht' + c * i1
    have s1 : b * c - a * d ≤ 0 := by
      have := mul_nonpos_of_nonpos_of_nonneg hvX hY
      have := mul_pos_of_neg_of_neg hvY hX
      linarith
    have s2 := mul_nonpos_of_nonneg_of_nonpos (neg_nonneg.2 hν.le) s1
    rw [← e] at s2
    by_contra hx
    push Not at hx
    have := mul_pos hL (mul_pos (neg_pos.2 hC) hx)
    linarith
  have hin : 0 ≤ twiceArea N.1 N.2 E.1 → t ≤ 0 := by
    intro h
    by_contra hx
    push Not at hx
    have : twiceArea N.1 N.2 E.1 = -Vec2.cross (E.1 - R.2) (N.2 - N.1) := by
      rw [← hN]
      simp only [twiceArea, Vec2.cross, Vec2.sub_x, Vec2.sub_y]
      ring
    have := mul_neg_of_pos_of_neg hx hC
    linarith
  rcases clamp_cases01 t with ⟨h, e⟩ | ⟨h, e⟩ | ⟨h1, h2, e⟩
  · rw [e]
    refine ⟨?_, fun _ => by ext <;> simp⟩
    rw [hpt]
    linarith
  · rw [e]
    refine ⟨?_, fun h' => absurd (hin h') (by linarith [zero_lt_one (α := K)])⟩
    rw [hpt]
    have := mul_le_mul_of_nonneg_right h hY
    linarith
  · rw [e]
    refine ⟨?_, fun h' => absurd (hin h') (by linarith)⟩
    rw [hpt]
    exact hbelow

end Simu
