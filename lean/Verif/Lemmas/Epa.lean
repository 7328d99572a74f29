import Verif.Lemmas.Gjk
import Verif.Props.Barycentric
/-
Lemmas about `Gjk::penetration`.
-/
set_option linter.unusedSectionVars false
namespace Simu.Gjk
open Vec2 (dot cross)
variable {K : Type*} [Field K] [LinearOrder K] [IsStrictOrderedRing K]

/-! ### Edges of a ring of vertices -/

/-- Consecutive pairs, starting from `p`. -/
def chain {α : Type*} (p : α) : List α → List (α × α)
  | [] => []
  | a :: l => (p, a) :: chain a l

theorem chain_eq_zip {α : Type*} (p : α) (l : List α) : chain p l = (p :: l).zip l := by
  induction l generalizing p with
  | nil => rfl
  | cons a l ih => rw [chain, ih]; rfl

theorem edgesOf_chain {α : Type*} (l : List α) (h : l ≠ []) : edgesOf l = .ok (chain (l.getLast h) l) := by
  cases l with
  | nil => exact absurd rfl h
  | cons a l => rw [edgesOf_cons, chain, chain_eq_zip]

theorem chain_insert {α : Type*} (v : α) (l : List α) : ∀ (p : α) (i : Nat) (e : α × α), (chain p l)[i]? = some e →
    ∃ pre post, chain p l = pre ++ e :: post ∧ chain p (l.insertIdx i v) = pre ++ (e.1, v) :: (v, e.2) :: post := by
  induction l with
  | nil => intro p i e h; simp [chain] at h
  | cons a l ih =>
    intro p i e h
    cases i with
    | zero =>
      simp [chain] at h
      subst h
      exact ⟨[], chain a l, rfl, rfl⟩
    | succ i =>
      have h' : (chain a l)[i]? = some e := by simpa [chain] using h
      obtain ⟨pre, post, h1, h2⟩ := ih a i e h'
      refine ⟨(p, a) :: pre, post, by rw [chain, h1]; rfl, ?_⟩
      rw [List.insertIdx_succ_cons, chain, h2]; rfl

theorem chain_length {α : Type*} (p : α) (l : List α) : (chain p l).length = l.length := by
  induction l generalizing p with
  | nil => rfl
  | cons a l ih => simp [chain, ih]

theorem getLast_insert {α : Type*} (v : α) (l : List α) : ∀ (i : Nat) (_ : i < l.length) (h : l ≠ []) (h' : l.insertIdx i v ≠ []), (l.insertIdx i v).getLast h' = l.getLast h := by
  induction l with
  | nil => intro i hi; simp at hi
  | cons a l ih =>
    intro i hi h h'
    cases i with
    | zero => simp
    | succ i =>
      have hl : l ≠ [] := by rintro rfl; simp at hi
      have hl' : l.insertIdx i v ≠ [] := by
        intro e
        have := congrArg List.length e
        rw [List.length_insertIdx] at this
        simp at hi
        split_ifs at this <;> simp at this
        exact hl this
      have := ih i (by simpa using hi) hl hl'
      simp only [List.insertIdx_succ_cons]
      rw [List.getLast_cons hl', List.getLast_cons hl, this]

theorem mem_chain_snd {α : Type*} (p : α) (l : List α) {e : α × α} (h : e ∈ chain p l) : e.2 ∈ l := by
  induction l generalizing p with
  | nil => simp [chain] at h
  | cons a l ih =>
    rw [chain] at h
    rcases List.mem_cons.1 h with rfl | h
    · simp
    · exact List.mem_cons_of_mem _ (ih a h)

theorem bestEdge_spec (l : List (Vec2 K × Vec2 K)) : ∀ (best : (Vec2 K × Vec2 K) × Nat) (i : Nat),
    (bestEdge best i l = best ∨ ∃ j, l[j]? = some (bestEdge best i l).1 ∧ (bestEdge best i l).2 = i + j) ∧
      edgeDistance (bestEdge best i l).1 ≤ edgeDistance best.1 ∧ ∀ e ∈ l, edgeDistance (bestEdge best i l).1 ≤ edgeDistance e := by
  induction l with
  | nil => intro best i; exact ⟨Or.inl rfl, le_refl _, by simp⟩
  | cons a l ih =>
    intro best i
    rw [bestEdge]
    obtain ⟨h1, h2, h3⟩ := ih (if edgeDistance a < edgeDistance best.1 then (a, i) else best) (i + 1)
    generalize hr : bestEdge (if edgeDistance a < edgeDistance best.1 then (a, i) else best) (i + 1) l = r at h1 h2 h3 ⊢
    refine ⟨?_, ?_, ?_⟩
    · rcases h1 with h1 | ⟨j, hj, hj'⟩
      · by_cases h : edgeDistance a < edgeDistance best.1
        · rw [if_pos h] at h1
          right
          exact ⟨0, by rw [h1]; rfl, by rw [h1]; rfl⟩
        · rw [if_neg h] at h1
          exact Or.inl h1
      · right
        exact ⟨j + 1, by simpa using hj, by rw [hj']; omega⟩
    · by_cases h : edgeDistance a < edgeDistance best.1
      · rw [if_pos h] at h2
        exact h2.trans h.le
      · rw [if_neg h] at h2
        exact h2
    · intro e he
      rcases List.mem_cons.1 he with rfl | he
      · by_cases h : edgeDistance e < edgeDistance best.1
        · rw [if_pos h] at h2
          exact h2
        · rw [if_neg h] at h2
          exact h2.trans (not_lt.1 h)
      · exact h3 e he

/-- The loop of `penetration`, for evaluation. -/
def expandEval (first second : List (Vec2 K)) : Nat → List (Vec2 K) → Option (Outcome (Vec2 K))
  | 0, _ => none
  | fuel + 1, vertices =>
    match chain (vertices.getLastD 0) vertices with
    | [] => expand first second (fuel + 1) vertices
    | e :: es =>
      let best := bestEdge (e, 0) 0 (e :: es)
      match support first second ((best.1.2 - best.1.1).perp true) with
      | .ok next =>
        match addVertex vertices best.1 best.2 next with
        | some vertices => expandEval first second fuel vertices
        | none => some (.ok (LineBarycentric.mk' best.1.1 best.1.2 0).closestPoint)
      | .throw => some .throw
      | .ub => some .ub

theorem expand_eval (A B : List (Vec2 K)) (fuel : Nat) : ∀ vs, expand A B fuel vs = expandEval A B fuel vs := by
  induction fuel with
  | zero => intro vs; rfl
  | succ fuel ih =>
    intro vs
    cases vs with
    | nil => rfl
    | cons a l =>
      rw [expand, expandEval, edgesOf_chain _ (List.cons_ne_nil a l)]
      have e : (a :: l).getLastD 0 = (a :: l).getLast (List.cons_ne_nil a l) := by
        rw [List.getLastD_cons, List.getLast_eq_getLastD]
      rw [e]
      simp only [chain, ih]
      rfl

/-! ### The invariant of the polytope -/

/-- `x` is strictly inside of the cone from the origin through the edge. -/
def within (x : Vec2 K) (e : Vec2 K × Vec2 K) : Bool := decide (0 < cross e.1 x) && decide (0 < cross x e.2)

theorem within_iff {x : Vec2 K} {e : Vec2 K × Vec2 K} : within x e = true ↔ 0 < cross e.1 x ∧ 0 < cross x e.2 := by
  simp [within]

/-- The edges turn around the origin, pass through it, or are reduced to a corner. -/
def Kind (A B : List (Vec2 K)) (e : Vec2 K × Vec2 K) : Prop :=
  0 < cross e.1 e.2 ∨ (cross e.1 e.2 = 0 ∧ dot e.1 e.2 < 0) ∨ (e.1 = e.2 ∧ Corner A B e.1)

/-- The polytope turns once around the origin. -/
structure Around (A B : List (Vec2 K)) (vs : List (Vec2 K)) (es : List (Vec2 K × Vec2 K)) : Prop where
  ends : ∀ e ∈ es, Extreme A B e.1 ∧ Extreme A B e.2 ∧ Kind A B e
  cover : ∀ x : Vec2 K, ∃ e ∈ es, e.1 ≠ e.2 ∧ 0 ≤ cross e.1 x ∧ 0 ≤ cross x e.2
  once : ∀ x : Vec2 K, es.countP (within x) ≤ 1
  empty : ∀ c ∈ vs, ∀ e ∈ es, within c e = false

theorem cross_anti (a b : Vec2 K) : cross b a = -cross a b := by simp only [Vec2.cross]; ring

theorem cross_self' (a : Vec2 K) : cross a a = 0 := by simp only [Vec2.cross]; ring

theorem normSquared_eq (a : Vec2 K) : Vec2.normSquared a = a.x * a.x + a.y * a.y := by
  simp [Vec2.normSquared, Vec2.dot_def]

theorem normSquared_pos' {a : Vec2 K} (h : a ≠ 0) : 0 < a.x * a.x + a.y * a.y := by
  rcases lt_or_eq_of_le (add_nonneg (mul_self_nonneg a.x) (mul_self_nonneg a.y)) with h' | h'
  · exact h'
  · exfalso
    have hx := mul_self_nonneg a.x
    have hy := mul_self_nonneg a.y
    exact h (Vec2.ext (mul_self_eq_zero.1 (by linarith)) (mul_self_eq_zero.1 (by linarith)))

/-- With interiors that overlap, support points are away from the origin. -/
theorem support_pos {A B : List (Vec2 K)} (O : Overlap A B) {d a : Vec2 K} (hd : d ≠ 0) (ha : IsSupport A B d a) : 0 < dot a d := by
  obtain ⟨x, hx, h⟩ := O d hd
  exact lt_of_lt_of_le h (ha.2 x hx)

theorem extreme_ne {A B : List (Vec2 K)} (O : Overlap A B) {a : Vec2 K} (ha : Extreme A B a) : a ≠ 0 := by
  obtain ⟨d, hd, ha⟩ := ha
  have := support_pos O hd ha
  rintro rfl
  simp [Vec2.dot_def] at this

/-- A support point beyond an edge is inside of the cone of the edge. -/
theorem beyond_within {A B : List (Vec2 K)} (O : Overlap A B) {a b v : Vec2 K} (ha : Extreme A B a) (hb : Extreme A B b) (hv : Diff A B v)
    (hk : 0 < cross a b ∨ (cross a b = 0 ∧ dot a b < 0)) (hout : cross a b < cross a v + cross v b) : 0 < cross a v ∧ 0 < cross v b := by
  rcases hk with hk | ⟨hk, hneg⟩
  · constructor
    · by_contra hcon
      have hcon := not_lt.1 hcon
      obtain ⟨d, hd, hs⟩ := ha
      have pos := support_pos O hd hs
      have l1 := mul_le_mul_of_nonneg_right (hs.2 v hv) hk.le
      have l2 := mul_le_mul_of_nonneg_right (hs.2 b hb.diff) (show 0 ≤ -cross a v by linarith)
      have key : dot a d * cross v b = dot v d * cross a b + dot b d * (-cross a v) := by simp only [Vec2.dot_def, Vec2.cross]; ring
      have : 0 < dot a d * (cross a v + cross v b - cross a b) := mul_pos pos (by linarith)
      have e : dot a d * (cross a v + cross v b - cross a b) = dot a d * cross v b - (dot a d * cross a b + dot a d * (-cross a v)) := by ring
      linarith
    · by_contra hcon
      have hcon := not_lt.1 hcon
      obtain ⟨d, hd, hs⟩ := hb
      have pos := support_pos O hd hs
      have l1 := mul_le_mul_of_nonneg_right (hs.2 v hv) hk.le
      have l2 := mul_le_mul_of_nonneg_right (hs.2 a ha.diff) (show 0 ≤ -cross v b by linarith)
      have key : dot b d * cross a v = dot v d * cross a b + dot a d * (-cross v b) := by simp only [Vec2.dot_def, Vec2.cross]; ring
      have : 0 < dot b d * (cross a v + cross v b - cross a b) := mul_pos pos (by linarith)
      have e : dot b d * (cross a v + cross v b - cross a b) = dot b d * cross a v - (dot b d * cross a b + dot b d * (-cross v b)) := by ring
      linarith
  · have ha0 := extreme_ne O ha
    obtain ⟨t, tx, ty⟩ := multiple_of_cross ha0 hk
    have ht : t < 0 := by
      have e : dot a b = t * (a.x * a.x + a.y * a.y) := by simp only [Vec2.dot_def, tx, ty]; ring
      rw [e] at hneg
      by_contra h
      have := mul_nonneg (not_lt.1 h) (normSquared_pos' ha0).le
      linarith
    have e : cross v b = -t * cross a v := by simp only [Vec2.cross, tx, ty]; ring
    rw [hk, e] at hout
    have : 0 < (1 - t) * cross a v := by linarith
    have h1 := (mul_pos_iff_of_pos_left (show 0 < 1 - t by linarith)).1 this
    exact ⟨h1, by rw [e]; exact mul_pos (by linarith) h1⟩

/-- The ray in the direction `n` meets an edge whose cone contains it. -/
theorem ray_meets {a b n : Vec2 K} (hn : n ≠ 0) (hab : 0 < cross a b) (h1 : 0 ≤ cross a n) (h2 : 0 ≤ cross n b) :
    ∃ r : K, 0 < r ∧ OnSegment a b (r • n) := by
  have kx : n.x * cross a b = a.x * cross n b + b.x * cross a n := by simp only [Vec2.cross]; ring
  have ky : n.y * cross a b = a.y * cross n b + b.y * cross a n := by simp only [Vec2.cross]; ring
  have hs : 0 < cross n b + cross a n := by
    rcases lt_or_eq_of_le (add_nonneg h2 h1) with h | h
    · exact h
    · exfalso
      have e1 : cross n b = 0 := by linarith
      have e2 : cross a n = 0 := by linarith
      rw [e1, e2] at kx ky
      refine hn (Vec2.ext ?_ ?_)
      · have : n.x * cross a b = 0 := by linarith
        exact (mul_eq_zero.1 this).resolve_right hab.ne'
      · have : n.y * cross a b = 0 := by linarith
        exact (mul_eq_zero.1 this).resolve_right hab.ne'
  refine ⟨cross a b / (cross n b + cross a n), div_pos hab hs, cross a n / (cross n b + cross a n), div_nonneg h1 hs.le, (div_le_one hs).2 (by linarith), ?_⟩
  have e : 1 - cross a n / (cross n b + cross a n) = cross n b / (cross n b + cross a n) := by
    rw [eq_div_iff hs.ne', sub_mul, div_mul_cancel₀ _ hs.ne']; ring
  rw [e]
  ext
  · simp only [Vec2.add_x, Vec2.smul_x]
    rw [mul_div_assoc', mul_div_assoc', mul_div_assoc', ← add_div]
    congr 1
  · simp only [Vec2.add_y, Vec2.smul_y]
    rw [mul_div_assoc', mul_div_assoc', mul_div_assoc', ← add_div]
    congr 1

theorem edgeDistance_le {e : Vec2 K × Vec2 K} {P : Vec2 K} (h : OnSegment e.1 e.2 P) : edgeDistance e ≤ P.x * P.x + P.y * P.y := by
  have := (C18_closest e.1 e.2 (0 : Vec2 K)).2.1 P h
  unfold edgeDistance
  rw [normSquared_eq]
  simpa [distSq] using this

/-- How far a line is that has all the differences on one side. -/
theorem line_far {A B : List (Vec2 K)} {vs : List (Vec2 K)} {es : List (Vec2 K × Vec2 K)} (I : Around A B vs es) {δ : K} (hδ : 0 < δ) (hmin : ∀ e ∈ es, δ ≤ edgeDistance e)
    {n w : Vec2 K} (hn : n ≠ 0) (hw : ∀ x, Diff A B x → dot x n ≤ dot w n) :
    cross w n * cross w n ≤ (w.x * w.x + w.y * w.y - δ) * (n.x * n.x + n.y * n.y) := by
  obtain ⟨e, he, hne, h1, h2⟩ := I.cover n
  obtain ⟨x1, x2, hk⟩ := I.ends e he
  have hab : 0 < cross e.1 e.2 := by
    rcases hk with h | ⟨h, hneg⟩ | ⟨h, -⟩
    · exact h
    · exfalso
      -- the origin is on the edge
      have ha0 : e.1 ≠ 0 := by
        intro h0
        rw [h0] at hneg
        simp [Vec2.dot_def] at hneg
      obtain ⟨t, tx, ty⟩ := multiple_of_cross ha0 h
      have ht : t < 0 := by
        have e' : dot e.1 e.2 = t * (e.1.x * e.1.x + e.1.y * e.1.y) := by simp only [Vec2.dot_def, tx, ty]; ring
        rw [e'] at hneg
        by_contra h
        have := mul_nonneg (not_lt.1 h) (normSquared_pos' ha0).le
        linarith
      have on : OnSegment e.1 e.2 (0 : Vec2 K) := by
        have h1t : (0 : K) < 1 - t := by linarith
        refine ⟨1 / (1 - t), by positivity, (div_le_one h1t).2 (by linarith), ?_⟩
        ext
        · simp only [Vec2.zero_x, Vec2.add_x, Vec2.smul_x, tx]
          field_simp
          ring
        · simp only [Vec2.zero_y, Vec2.add_y, Vec2.smul_y, ty]
          field_simp
          ring
      have := edgeDistance_le on
      simp at this
      have := hmin e he
      linarith
    · exact absurd h hne
  obtain ⟨r, hr, t, t0, t1, et⟩ := ray_meets hn hab h1 h2
  have hdist := hmin e he
  have hd2 := edgeDistance_le (e := e) (P := r • n) ⟨t, t0, t1, et⟩
  have hN := normSquared_pos' hn
  -- the meeting point is on the same side
  have hside : r * (n.x * n.x + n.y * n.y) ≤ dot w n := by
    have l1 := mul_le_mul_of_nonneg_left (hw _ x1.diff) (show 0 ≤ 1 - t by linarith)
    have l2 := mul_le_mul_of_nonneg_left (hw _ x2.diff) t0
    have ex := congrArg Vec2.x et
    have ey := congrArg Vec2.y et
    simp only [Vec2.add_x, Vec2.smul_x, Vec2.add_y, Vec2.smul_y] at ex ey
    have : r * (n.x * n.x + n.y * n.y) = (1 - t) * dot e.1 n + t * dot e.2 n := by
      simp only [Vec2.dot_def]
      linear_combination n.x * ex + n.y * ey
    rw [this]
    linarith
  simp only [Vec2.smul_x, Vec2.smul_y] at hd2
  have hsq : (r * (n.x * n.x + n.y * n.y)) * (r * (n.x * n.x + n.y * n.y)) ≤ dot w n * dot w n :=
    mul_self_le_mul_self (mul_nonneg hr.le hN.le) hside
  have hδN : δ * (n.x * n.x + n.y * n.y) ≤ (n.x * r * (n.x * r) + n.y * r * (n.y * r)) * (n.x * n.x + n.y * n.y) :=
    mul_le_mul_of_nonneg_right (hdist.trans hd2) hN.le
  have key : cross w n * cross w n = (w.x * w.x + w.y * w.y) * (n.x * n.x + n.y * n.y) - dot w n * dot w n := by
    simp only [Vec2.cross, Vec2.dot_def]; ring
  have e2 : (n.x * r * (n.x * r) + n.y * r * (n.y * r)) * (n.x * n.x + n.y * n.y) = (r * (n.x * n.x + n.y * n.y)) * (r * (n.x * n.x + n.y * n.y)) := by ring
  rw [key]
  rw [e2] at hδN
  have e3 : (w.x * w.x + w.y * w.y - δ) * (n.x * n.x + n.y * n.y) = (w.x * w.x + w.y * w.y) * (n.x * n.x + n.y * n.y) - δ * (n.x * n.x + n.y * n.y) := by ring
  rw [e3]
  linarith

/-- The closest edge is not reduced to a point. -/
theorem best_proper {A B : List (Vec2 K)} (O : Overlap A B) {vs : List (Vec2 K)} {es : List (Vec2 K × Vec2 K)} (I : Around A B vs es) {e : Vec2 K × Vec2 K} (he : e ∈ es)
    (hmin : ∀ e' ∈ es, edgeDistance e ≤ edgeDistance e') : 0 < cross e.1 e.2 ∨ (cross e.1 e.2 = 0 ∧ dot e.1 e.2 < 0) := by
  obtain ⟨x1, -, hk⟩ := I.ends e he
  rcases hk with h | h | ⟨h, d, d', hc, s1, s2⟩
  · exact Or.inl h
  · exact Or.inr h
  · exfalso
    have ha0 := extreme_ne O x1
    have hδ : edgeDistance e = e.1.x * e.1.x + e.1.y * e.1.y := by
      unfold edgeDistance
      rw [← h, C18_degenerate, normSquared_eq]
      simp
    have hpos : 0 < edgeDistance e := by rw [hδ]; exact normSquared_pos' ha0
    have hd : d ≠ 0 := by rintro rfl; exact hc (by simp [Vec2.cross])
    have hd' : d' ≠ 0 := by rintro rfl; exact hc (by simp [Vec2.cross])
    have f1 := line_far I hpos hmin hd s1.2
    have f2 := line_far I hpos hmin hd' s2.2
    rw [hδ, sub_self, zero_mul] at f1 f2
    have z1 : cross e.1 d = 0 := mul_self_eq_zero.1 (le_antisymm f1 (mul_self_nonneg _))
    have z2 : cross e.1 d' = 0 := mul_self_eq_zero.1 (le_antisymm f2 (mul_self_nonneg _))
    obtain ⟨t, tx, ty⟩ := multiple_of_cross ha0 z1
    obtain ⟨t', tx', ty'⟩ := multiple_of_cross ha0 z2
    apply hc
    simp only [Vec2.cross, tx, ty, tx', ty']; ring

/-- Adding a support point that is inside of the cone of an edge. -/
theorem Around.insert {A B : List (Vec2 K)} {vs vs' : List (Vec2 K)} {pre post : List (Vec2 K × Vec2 K)} {e : Vec2 K × Vec2 K} (I : Around A B vs (pre ++ e :: post)) {v : Vec2 K}
    (hv : Extreme A B v) (h1 : 0 < cross e.1 v) (h2 : 0 < cross v e.2) (hk : 0 < cross e.1 e.2 ∨ (cross e.1 e.2 = 0 ∧ dot e.1 e.2 < 0)) (hvs : ∀ c, c ∈ vs' ↔ c = v ∨ c ∈ vs) :
    Around A B vs' (pre ++ (e.1, v) :: (v, e.2) :: post) := by
  have he : e ∈ pre ++ e :: post := by simp
  -- the cones of the new edges are in the cone of the old one
  have sub1 : ∀ x, within x (e.1, v) = true → within x e = true := by
    intro x hx
    rw [within_iff] at hx ⊢
    obtain ⟨a, b⟩ := hx
    simp only at a b
    refine ⟨a, ?_⟩
    have key : cross x e.2 * cross e.1 v = cross e.1 x * cross v e.2 + cross x v * cross e.1 e.2 := by simp only [Vec2.cross]; ring
    have hab : 0 ≤ cross e.1 e.2 := by rcases hk with h | ⟨h, -⟩ <;> linarith
    have : 0 < cross x e.2 * cross e.1 v := by
      rw [key]
      exact add_pos_of_pos_of_nonneg (mul_pos a h2) (mul_nonneg b.le hab)
    exact (mul_pos_iff_of_pos_right h1).1 this
  have sub2 : ∀ x, within x (v, e.2) = true → within x e = true := by
    intro x hx
    rw [within_iff] at hx ⊢
    obtain ⟨a, b⟩ := hx
    simp only at a b
    refine ⟨?_, b⟩
    have key : cross e.1 x * cross v e.2 = cross x e.2 * cross e.1 v + cross v x * cross e.1 e.2 := by simp only [Vec2.cross]; ring
    have hab : 0 ≤ cross e.1 e.2 := by rcases hk with h | ⟨h, -⟩ <;> linarith
    have : 0 < cross e.1 x * cross v e.2 := by
      rw [key]
      exact add_pos_of_pos_of_nonneg (mul_pos b h1) (mul_nonneg a.le hab)
    exact (mul_pos_iff_of_pos_right h2).1 this
  have hself : within v e = true := within_iff.2 ⟨h1, h2⟩
  refine ⟨?_, ?_, ?_, ?_⟩
  · intro f hf
    simp only [List.mem_append, List.mem_cons] at hf
    obtain ⟨x1, x2, -⟩ := I.ends e he
    rcases hf with hf | rfl | rfl | hf
    · exact I.ends f (by simp [hf])
    · exact ⟨x1, hv, Or.inl h1⟩
    · exact ⟨hv, x2, Or.inl h2⟩
    · exact I.ends f (by simp [hf])
  · intro x
    obtain ⟨f, hf, hne, f1, f2⟩ := I.cover x
    simp only [List.mem_append, List.mem_cons] at hf
    rcases hf with hf | rfl | hf
    · exact ⟨f, by simp [hf], hne, f1, f2⟩
    · rcases le_or_gt 0 (cross x v) with h | h
      · refine ⟨(f.1, v), by simp, ?_, f1, h⟩
        intro e0
        simp only at e0
        rw [e0, cross_self'] at h1
        exact lt_irrefl _ h1
      · refine ⟨(v, f.2), by simp, ?_, ?_, f2⟩
        · intro e0
          simp only at e0
          rw [e0, cross_self'] at h2
          exact lt_irrefl _ h2
        · simp only
          rw [cross_anti]; linarith
    · exact ⟨f, by simp [hf], hne, f1, f2⟩
  · intro x
    have := I.once x
    rw [List.countP_append, List.countP_cons] at this
    rw [List.countP_append, List.countP_cons, List.countP_cons]
    cases ha : within x (e.1, v)
    · cases hb : within x (v, e.2)
      · simp; omega
      · rw [sub2 x hb] at this
        simp at this ⊢
        omega
    · rw [sub1 x ha] at this
      have hb : within x (v, e.2) = false := by
        by_contra hb
        rw [Bool.not_eq_false, within_iff] at hb
        rw [within_iff] at ha
        have a := ha.2
        have b := hb.1
        simp only at a b
        rw [cross_anti] at b
        linarith
      rw [hb]
      simp at this ⊢
      omega
  · intro c hc f hf
    simp only [List.mem_append, List.mem_cons] at hf
    rcases (hvs c).1 hc with rfl | hc
    · -- the new vertex is only in the cone of the old edge
      have hcnt := I.once c
      rw [List.countP_append, List.countP_cons, hself] at hcnt
      simp only [if_true] at hcnt
      have z1 : pre.countP (within c) = 0 := by omega
      have z2 : post.countP (within c) = 0 := by omega
      rcases hf with hf | rfl | rfl | hf
      · simpa using (List.countP_eq_zero.1 z1) f hf
      · simp [within, cross_self']
      · simp [within, cross_self']
      · simpa using (List.countP_eq_zero.1 z2) f hf
    · rcases hf with hf | rfl | rfl | hf
      · exact I.empty c hc f (by simp [hf])
      · by_contra hcon
        rw [Bool.not_eq_false] at hcon
        have := sub1 c hcon
        rw [I.empty c hc e he] at this
        exact Bool.noConfusion this
      · by_contra hcon
        rw [Bool.not_eq_false] at hcon
        have := sub2 c hcon
        rw [I.empty c hc e he] at this
        exact Bool.noConfusion this
      · exact I.empty c hc f (by simp [hf])

theorem expand_spec {A B : List (Vec2 K)} (hA : A ≠ []) (hB : B ≠ []) (O : Overlap A B) (k : Nat) : ∀ (vs : List (Vec2 K)) (h : vs ≠ []), Around A B vs (chain (vs.getLast h) vs) →
    (diffs A B).countP (fun x => decide (x ∉ vs)) < k →
    ∃ m, (∀ fuel, k ≤ fuel → expand A B fuel vs = some (.ok m)) ∧ Touching A B m ∧ Cleared A B m ∧ ∀ m', Cleared A B m' → Vec2.normSquared m ≤ Vec2.normSquared m' := by
  induction k with
  | zero => intro vs h I hk; omega
  | succ k ih =>
    intro vs h I hk
    set es := chain (vs.getLast h) vs with hes
    have hlen : es.length = vs.length := chain_length _ _
    obtain ⟨e0, es0, hcons⟩ : ∃ e0 es0, es = e0 :: es0 := by
      cases hh : es with
      | nil => rw [hh] at hlen; exact absurd (List.length_eq_zero_iff.1 hlen.symm) h
      | cons a l => exact ⟨a, l, rfl⟩
    obtain ⟨hb1, -, hmin⟩ := bestEdge_spec es (e0, 0) 0
    set best := bestEdge (e0, 0) 0 es with hbest
    have hidx : es[best.2]? = some best.1 := by
      rcases hb1 with hb | ⟨j, hj, hj'⟩
      · rw [hb, hcons]; rfl
      · rw [hj', Nat.zero_add]; exact hj
    have hmem : best.1 ∈ es := List.mem_of_getElem? hidx
    obtain ⟨x1, x2, -⟩ := I.ends best.1 hmem
    have hkind := best_proper O I hmem hmin
    set a := best.1.1 with ha
    set b := best.1.2 with hb
    have hab : a ≠ b := by
      intro e
      rcases hkind with hk | ⟨-, hk⟩
      · rw [e, cross_self'] at hk; exact lt_irrefl _ hk
      · rw [e] at hk
        simp only [Vec2.dot_def] at hk
        linarith [mul_self_nonneg b.x, mul_self_nonneg b.y]
    have hn : (b - a).perp true ≠ 0 := by
      rw [perp_true]
      intro e
      have e1 := congrArg Vec2.x e
      have e2 := congrArg Vec2.y e
      simp only [Vec2.sub_x, Vec2.sub_y, Vec2.zero_x, Vec2.zero_y, neg_eq_zero] at e1 e2
      exact hab (Vec2.ext (by linarith) (by linarith))
    obtain ⟨v, ev, hv, -⟩ := support_ok hA hB hn
    have hdot : ∀ x, dot x ((b - a).perp true) = cross a x + cross x b := by
      intro x
      rw [perp_true]
      simp only [Vec2.dot_def, Vec2.cross, Vec2.sub_x, Vec2.sub_y]; ring
    have hout : dot ((b - a).perp true) (v - b) = cross a v + cross v b - cross a b := by
      rw [perp_true]
      simp only [Vec2.dot_def, Vec2.cross, Vec2.sub_x, Vec2.sub_y]; ring
    have hstep : ∀ fuel, expand A B (fuel + 1) vs =
        match addVertex vs best.1 best.2 v with
        | some vs' => expand A B fuel vs'
        | none => some (.ok (LineBarycentric.mk' a b 0).closestPoint) := by
      intro fuel
      rw [expand, edgesOf_chain vs h, ← hes]
      rw [hcons] at hbest
      simp only [hcons]
      rw [← hbest, ← ha, ← hb, ev]
      rfl
    by_cases hcase : 0 < dot ((b - a).perp true) (v - b)
    · -- the point is added
      have hvk : Extreme A B v := ⟨_, hn, hv⟩
      obtain ⟨w1, w2⟩ := beyond_within O x1 x2 hv.1 hkind (by rw [hout] at hcase; linarith)
      have hnot : v ∉ vs := by
        intro hm
        have := I.empty v hm best.1 hmem
        rw [show within v best.1 = true from within_iff.2 ⟨w1, w2⟩] at this
        exact Bool.noConfusion this
      have hadd : addVertex vs best.1 best.2 v = some (vs.insertIdx best.2 v) := by
        unfold addVertex
        rw [if_pos (by exact hcase), if_neg hnot]
      have hlt : best.2 < vs.length := by
        rw [← hlen]
        exact (List.getElem?_eq_some_iff.1 hidx).1
      have hmemi : ∀ c, c ∈ vs.insertIdx best.2 v ↔ c = v ∨ c ∈ vs := fun c => List.mem_insertIdx hlt.le
      have hne' : vs.insertIdx best.2 v ≠ [] := by
        intro e
        have := (hmemi v).2 (Or.inl rfl)
        rw [e] at this
        simp at this
      obtain ⟨pre, post, hp1, hp2⟩ := chain_insert v vs (vs.getLast h) best.2 best.1 hidx
      have I' : Around A B (vs.insertIdx best.2 v) (chain ((vs.insertIdx best.2 v).getLast hne') (vs.insertIdx best.2 v)) := by
        rw [getLast_insert v vs best.2 hlt h hne', hp2]
        rw [hes, hp1] at I
        exact I.insert hvk w1 w2 hkind hmemi
      have hcount : (diffs A B).countP (fun x => decide (x ∉ vs.insertIdx best.2 v)) < (diffs A B).countP (fun x => decide (x ∉ vs)) := by
        refine countP_lt (fun x _ hx => ?_) (mem_diffs.2 hv.1) ?_ ?_
        · simp only [decide_eq_true_eq] at hx ⊢
          exact fun hm => hx ((hmemi x).2 (Or.inr hm))
        · simp only [decide_eq_false_iff_not, not_not]
          exact (hmemi v).2 (Or.inl rfl)
        · simpa using hnot
      obtain ⟨m, hm, hrest⟩ := ih _ hne' I' (by omega)
      refine ⟨m, fun fuel hf => ?_, hrest⟩
      obtain ⟨f, rfl⟩ : ∃ f, fuel = f + 1 := ⟨fuel - 1, by omega⟩
      rw [hstep, hadd]
      exact hm f (by omega)
    · -- the edge is on the boundary
      have hadd : addVertex vs best.1 best.2 v = none := by
        unfold addVertex
        rw [if_neg (by exact hcase)]
      have hall : ∀ x, Diff A B x → cross a x + cross x b ≤ cross a b := by
        intro x hx
        have := hv.2 x hx
        rw [hdot, hdot] at this
        rw [hout] at hcase
        linarith [not_lt.1 hcase]
      have hpos : 0 < cross a b := by
        obtain ⟨x, hx, h0⟩ := O _ hn
        rw [hdot] at h0
        linarith [hall x hx]
      obtain ⟨on, hclose, -⟩ := C18_closest a b (0 : Vec2 K)
      set m := (LineBarycentric.mk' a b 0).closestPoint with hm
      refine ⟨m, fun fuel hf => ?_, ?_, ?_, ?_⟩
      · obtain ⟨f, rfl⟩ : ∃ f, fuel = f + 1 := ⟨fuel - 1, by omega⟩
        rw [hstep, hadd]
      · obtain ⟨t, t0, t1, et⟩ := on
        obtain ⟨a1, ha1, b1, hb1, ea⟩ := x1.diff
        obtain ⟨a2, ha2, b2, hb2, eb⟩ := x2.diff
        refine ⟨_, Hull.segment t t0 t1 (.vertex ha1) (.vertex ha2), _, Hull.segment t t0 t1 (.vertex hb1) (.vertex hb2), ?_⟩
        rw [et, ea, eb]
        ext <;> simp only [Vec2.add_x, Vec2.add_y, Vec2.smul_x, Vec2.smul_y, Vec2.sub_x, Vec2.sub_y] <;> ring
      · refine ⟨_, hn, fun p hp q hq => ?_⟩
        have h1 := hall (p - q) ⟨p, hp, q, hq, rfl⟩
        have h2 := hdot (p - q)
        obtain ⟨t, -, -, et⟩ := on
        have h3 : dot m ((b - a).perp true) = cross a b := by
          rw [hdot, et]
          simp only [Vec2.cross, Vec2.add_x, Vec2.add_y, Vec2.smul_x, Vec2.smul_y]; ring
        have e : dot (p - (q + m)) ((b - a).perp true) = dot (p - q) ((b - a).perp true) - dot m ((b - a).perp true) := by
          simp only [Vec2.dot_def, Vec2.sub_x, Vec2.sub_y, Vec2.add_x, Vec2.add_y]; ring
        rw [e, h2, h3]
        linarith
      · rintro m' ⟨n, hn', hcl⟩
        have hδ : edgeDistance best.1 = Vec2.normSquared m := by
          unfold edgeDistance
          rw [← ha, ← hb, ← hm]
          congr 1
          ext <;> simp
        have hm0 : m ≠ 0 := by
          intro e
          obtain ⟨t, -, -, et⟩ := on
          rw [e] at et
          have ex := congrArg Vec2.x et
          have ey := congrArg Vec2.y et
          simp only [Vec2.add_x, Vec2.add_y, Vec2.smul_x, Vec2.smul_y, Vec2.zero_x, Vec2.zero_y] at ex ey
          have h1 : t * cross a b = 0 := by
            simp only [Vec2.cross]
            linear_combination a.y * ex - a.x * ey
          have h2 : (1 - t) * cross a b = 0 := by
            simp only [Vec2.cross]
            linear_combination -b.y * ex + b.x * ey
          have : cross a b = 0 := by linear_combination h1 + h2
          linarith
        have hδpos : 0 < edgeDistance best.1 := by
          rw [hδ, normSquared_eq]
          exact normSquared_pos' hm0
        have := line_far I hδpos hmin hn' (w := m') (by
          rintro _ ⟨p, hp, q, hq, rfl⟩
          have := hcl p hp q hq
          have e : dot (p - (q + m')) n = dot (p - q) n - dot m' n := by
            simp only [Vec2.dot_def, Vec2.sub_x, Vec2.sub_y, Vec2.add_x, Vec2.add_y]; ring
          rw [e] at this
          linarith)
        have h0 := (mul_self_nonneg (cross m' n)).trans this
        have := nonneg_of_mul_nonneg_left h0 (normSquared_pos' hn')
        rw [hδ] at this
        rw [normSquared_eq m']
        linarith

/-! ### The initial polytope -/

theorem triangle_once (a b c x : Vec2 K) : [(c, a), (a, b), (b, c)].countP (within x) ≤ 1 := by
  have h1 : within x (c, a) = true → within x (a, b) = false := by
    intro h
    by_contra h'
    rw [Bool.not_eq_false, within_iff] at h'
    rw [within_iff] at h
    have := h.2
    have := h'.1
    simp only at *
    rw [cross_anti x a] at this
    linarith
  have h2 : within x (a, b) = true → within x (b, c) = false := by
    intro h
    by_contra h'
    rw [Bool.not_eq_false, within_iff] at h'
    rw [within_iff] at h
    have := h.2
    have := h'.1
    simp only at *
    rw [cross_anti x b] at this
    linarith
  have h3 : within x (b, c) = true → within x (c, a) = false := by
    intro h
    by_contra h'
    rw [Bool.not_eq_false, within_iff] at h'
    rw [within_iff] at h
    have := h.2
    have := h'.1
    simp only at *
    rw [cross_anti x c] at this
    linarith
  simp only [List.countP_cons, List.countP_nil]
  cases e1 : within x (c, a) <;> cases e2 : within x (a, b) <;> cases e3 : within x (b, c) <;> simp_all

theorem triangle_empty {a b c : Vec2 K} (hab : 0 ≤ cross a b) (hbc : 0 ≤ cross b c) (hca : 0 ≤ cross c a) : ∀ x ∈ [a, b, c], ∀ e ∈ [(c, a), (a, b), (b, c)], within x e = false := by
  intro x hx e he
  by_contra h
  rw [Bool.not_eq_false, within_iff] at h
  obtain ⟨h1, h2⟩ := h
  have sa := cross_self' a
  have sb := cross_self' b
  have sc := cross_self' c
  have t1 := cross_anti a b
  have t2 := cross_anti b c
  have t3 := cross_anti c a
  simp only [List.mem_cons, List.not_mem_nil, or_false] at hx he
  rcases hx with rfl | rfl | rfl <;> rcases he with rfl | rfl | rfl <;> simp only at h1 h2 <;> linarith

/-- A triangle around the origin. -/
theorem around_triangle {A B : List (Vec2 K)} (O : Overlap A B) {a b c : Vec2 K} (ea : Extreme A B a) (eb : Extreme A B b) (ec : Extreme A B c)
    (hT : 0 < cross a b + cross b c + cross c a) (hab : 0 ≤ cross a b) (hbc : 0 ≤ cross b c) (hca : 0 ≤ cross c a) : Around A B [a, b, c] [(c, a), (a, b), (b, c)] := by
  have kx : cross b c * a.x + cross c a * b.x + cross a b * c.x = 0 := by simp only [Vec2.cross]; ring
  have ky : cross b c * a.y + cross c a * b.y + cross a b * c.y = 0 := by simp only [Vec2.cross]; ring
  -- an edge through the origin
  have kind : ∀ {p q r : Vec2 K}, Extreme A B p → Extreme A B q → Extreme A B r → 0 ≤ cross p q → 0 ≤ cross q r → 0 ≤ cross r p → 0 < cross p q + cross q r + cross r p → Kind A B (p, q) := by
    intro p q r ep eq er h1 h2 h3 hs
    rcases lt_or_eq_of_le h1 with h | h
    · exact Or.inl h
    · refine Or.inr (Or.inl ⟨h.symm, ?_⟩)
      simp only
      have ix : cross q r * p.x + cross r p * q.x = 0 := by
        have : cross q r * p.x + cross r p * q.x + cross p q * r.x = 0 := by simp only [Vec2.cross]; ring
        rw [← h] at this; linarith
      have iy : cross q r * p.y + cross r p * q.y = 0 := by
        have : cross q r * p.y + cross r p * q.y + cross p q * r.y = 0 := by simp only [Vec2.cross]; ring
        rw [← h] at this; linarith
      have hp := normSquared_pos' (extreme_ne O ep)
      have hq := normSquared_pos' (extreme_ne O eq)
      have i1 : cross q r * (p.x * p.x + p.y * p.y) + cross r p * dot p q = 0 := by
        simp only [Vec2.dot_def]
        linear_combination p.x * ix + p.y * iy
      have i2 : cross q r * dot p q + cross r p * (q.x * q.x + q.y * q.y) = 0 := by
        simp only [Vec2.dot_def]
        linear_combination q.x * ix + q.y * iy
      by_contra hcon
      have hcon := not_lt.1 hcon
      have a1 := mul_nonneg h2 hp.le
      have a2 := mul_nonneg h3 hcon
      have a3 := mul_nonneg h2 hcon
      have a4 := mul_nonneg h3 hq.le
      have z1 : cross q r = 0 := (mul_eq_zero.1 (show cross q r * (p.x * p.x + p.y * p.y) = 0 by linarith)).resolve_right hp.ne'
      have z2 : cross r p = 0 := (mul_eq_zero.1 (show cross r p * (q.x * q.x + q.y * q.y) = 0 by linarith)).resolve_right hq.ne'
      rw [← h, z1, z2] at hs
      linarith
  refine ⟨?_, ?_, ?_, ?_⟩
  · intro e he
    simp only [List.mem_cons, List.not_mem_nil, or_false] at he
    rcases he with rfl | rfl | rfl
    · exact ⟨ec, ea, kind ec ea eb hca hab hbc (by linarith)⟩
    · exact ⟨ea, eb, kind ea eb ec hab hbc hca hT⟩
    · exact ⟨eb, ec, kind eb ec ea hbc hca hab (by linarith)⟩
  · intro x
    have nab : a ≠ b := by
      rintro rfl
      rw [cross_self', cross_anti c a] at hT
      linarith
    have nbc : b ≠ c := by
      rintro rfl
      rw [cross_self', cross_anti b a] at hT
      linarith
    have nca : c ≠ a := by
      rintro rfl
      rw [cross_self', cross_anti b c] at hT
      linarith
    have key : cross b c * cross a x + cross c a * cross b x + cross a b * cross c x = 0 := by
      simp only [Vec2.cross] at kx ky ⊢
      linear_combination x.y * kx - x.x * ky
    have anti := fun p : Vec2 K => cross_anti p x
    by_contra hcon
    push Not at hcon
    have c1 := hcon (c, a) (by simp) nca
    have c2 := hcon (a, b) (by simp) nab
    have c3 := hcon (b, c) (by simp) nbc
    simp only at c1 c2 c3
    rw [cross_anti a x] at c1
    rw [cross_anti b x] at c2
    rw [cross_anti c x] at c3
    rcases le_or_gt 0 (cross a x) with h | h
    · have hb : 0 < cross b x := by linarith [c2 h]
      have hc : 0 < cross c x := by linarith [c3 hb.le]
      have ha : 0 < cross a x := by linarith [c1 hc.le]
      rcases lt_or_eq_of_le hbc with p | p
      · linarith [mul_pos p ha, mul_nonneg hca hb.le, mul_nonneg hab hc.le]
      · rcases lt_or_eq_of_le hca with p' | p'
        · linarith [mul_nonneg hbc ha.le, mul_pos p' hb, mul_nonneg hab hc.le]
        · have : 0 < cross a b := by linarith
          linarith [mul_nonneg hbc ha.le, mul_nonneg hca hb.le, mul_pos this hc]
    · have hc : cross c x < 0 := by
        by_contra h'
        linarith [c1 (not_lt.1 h')]
      have hb : cross b x < 0 := by
        by_contra h'
        linarith [c3 (not_lt.1 h')]
      have m1 := mul_nonneg hbc (neg_nonneg.2 h.le)
      have m2 := mul_nonneg hca (neg_nonneg.2 hb.le)
      have m3 := mul_nonneg hab (neg_nonneg.2 hc.le)
      rcases lt_or_eq_of_le hbc with p | p
      · linarith [mul_pos p (neg_pos.2 h)]
      · rcases lt_or_eq_of_le hca with p' | p'
        · linarith [mul_pos p' (neg_pos.2 hb)]
        · have : 0 < cross a b := by linarith
          linarith [mul_pos this (neg_pos.2 hc)]
  · intro x
    exact triangle_once a b c x
  · exact triangle_empty hab hbc hca

/-- The thin triangle. -/
theorem around_thin {A B : List (Vec2 K)} {S : Simplex K} (T : Thin A B S) (O : Overlap A B) :
    Around A B [S.p0, S.p1, S.p2] [(S.p2, S.p0), (S.p0, S.p1), (S.p1, S.p2)] := by
  obtain ⟨t, ht, tx, ty⟩ := T.through
  have hz : cross S.p1 S.p2 = 0 := by simp only [Vec2.cross, tx, ty]; ring
  have hz' : cross S.p2 S.p1 = 0 := by rw [cross_anti, hz, neg_zero]
  have p20 := extreme_ne O T.e2
  have hdot : dot S.p1 S.p2 < 0 := by
    have e : dot S.p1 S.p2 = t * (S.p2.x * S.p2.x + S.p2.y * S.p2.y) := by simp only [Vec2.dot_def, tx, ty]; ring
    rw [e]
    exact mul_neg_of_neg_of_pos ht (normSquared_pos' p20)
  have hdot' : dot S.p2 S.p1 < 0 := by
    have : dot S.p2 S.p1 = dot S.p1 S.p2 := by simp only [Vec2.dot_def]; ring
    rw [this]; exact hdot
  have hne : S.p1 ≠ S.p2 := by
    intro e
    rw [e] at hdot
    simp only [Vec2.dot_def] at hdot
    linarith [mul_self_nonneg S.p2.x, mul_self_nonneg S.p2.y]
  have h0 : Extreme A B S.p0 := by
    rcases T.twice with h | h <;> rw [h]
    · exact T.e1
    · exact T.e2
  have z1 : cross S.p0 S.p1 = 0 := by
    rcases T.twice with h | h <;> rw [h]
    · exact cross_self' _
    · exact hz'
  have z2 : cross S.p2 S.p0 = 0 := by
    rcases T.twice with h | h <;> rw [h]
    · exact hz'
    · exact cross_self' _
  refine ⟨?_, ?_, triangle_once _ _ _, triangle_empty z1.ge hz.ge z2.ge⟩
  · intro e he
    simp only [List.mem_cons, List.not_mem_nil, or_false] at he
    rcases he with rfl | rfl | rfl
    · refine ⟨T.e2, h0, ?_⟩
      rcases T.twice with h | h
      · exact Or.inr (Or.inl ⟨z2, by simp only; rw [h]; exact hdot'⟩)
      · exact Or.inr (Or.inr ⟨h.symm, by simp only; rw [← h]; exact T.corner⟩)
    · refine ⟨h0, T.e1, ?_⟩
      rcases T.twice with h | h
      · exact Or.inr (Or.inr ⟨h, T.corner⟩)
      · exact Or.inr (Or.inl ⟨z1, by simp only; rw [h]; exact hdot'⟩)
    · exact ⟨T.e1, T.e2, Or.inr (Or.inl ⟨hz, hdot⟩)⟩
  · intro x
    have e1 : cross S.p1 x = t * cross S.p2 x := by simp only [Vec2.cross, tx, ty]; ring
    rcases le_or_gt 0 (cross S.p2 x) with h | h
    · have hx : 0 ≤ cross x S.p1 := by
        rw [cross_anti S.p1 x, e1]
        have := mul_nonneg (neg_nonneg.2 ht.le) h
        linarith
      rcases T.twice with h' | h'
      · exact ⟨(S.p2, S.p0), by simp, by simp only; rw [h']; exact hne.symm, h, by simp only; rw [h']; exact hx⟩
      · exact ⟨(S.p0, S.p1), by simp, by simp only; rw [h']; exact hne.symm, by simp only; rw [h']; exact h, hx⟩
    · refine ⟨(S.p1, S.p2), by simp, hne, ?_, ?_⟩
      · simp only
        rw [e1]
        have := mul_nonneg (neg_nonneg.2 ht.le) (neg_nonneg.2 h.le)
        linarith
      · simp only
        rw [cross_anti S.p2 x]
        linarith

/-- `orientation` without tolerance. -/
theorem orientation_negative (a b c : Vec2 K) : orientation a b c 0 = .negative ↔ cross a b + cross b c + cross c a < 0 := by
  have e : cross (b - a) (c - b) = cross a b + cross b c + cross c a := cross_sum a b c
  unfold orientation
  simp only [e]
  generalize cross a b + cross b c + cross c a = k
  have hc : ((Interval.approx 0 0 : Interval K).contains k = true) ↔ k = 0 := by
    simp [Interval.approx, Interval.contains]
    constructor
    · rintro ⟨h1, h2⟩; linarith
    · rintro rfl; simp
  by_cases h : k = 0
  · rw [if_pos (hc.2 h)]
    simp [h]
  · rw [if_neg (fun h' => h (hc.1 h'))]
    rcases lt_or_gt_of_ne h with h' | h'
    · simp [h', not_lt.2 h'.le]
    · simp [h', not_lt.2 h'.le]

/-- The polytope that `penetration` starts with. -/
theorem around_polytope {A B : List (Vec2 K)} {S : Simplex K} (O : Overlap A B) (h : Good A B S ∨ Thin A B S) :
    ∃ hne : polytope S ≠ [], Around A B (polytope S) (chain ((polytope S).getLast hne) (polytope S)) := by
  rcases h with G | T
  · rcases G.signs with ⟨hT, h1, h2, h3⟩ | ⟨hT, h1, h2, h3⟩
    · have : polytope S = [S.p0, S.p1, S.p2] := by
        unfold polytope
        rw [if_neg]
        rw [orientation_negative]
        exact not_lt.2 hT.le
      rw [this]
      exact ⟨by simp, around_triangle O G.e0 G.e1 G.e2 hT h1 h2 h3⟩
    · have : polytope S = [S.p2, S.p1, S.p0] := by
        unfold polytope
        rw [if_pos]
        rw [orientation_negative]
        exact hT
      rw [this]
      have k1 := cross_anti S.p1 S.p2
      have k2 := cross_anti S.p0 S.p1
      have k3 := cross_anti S.p2 S.p0
      exact ⟨by simp, around_triangle O G.e2 G.e1 G.e0 (by linarith) (by linarith) (by linarith) (by linarith)⟩
  · have hz : ¬orientation S.p0 S.p1 S.p2 0 = .negative := by
      rw [orientation_negative]
      obtain ⟨t, -, tx, ty⟩ := T.through
      have hz : cross S.p1 S.p2 = 0 := by simp only [Vec2.cross, tx, ty]; ring
      have k := cross_anti S.p1 S.p2
      rcases T.twice with h | h <;> rw [h, cross_self'] <;> linarith
    have : polytope S = [S.p0, S.p1, S.p2] := by
      unfold polytope
      rw [if_neg hz]
    rw [this]
    exact ⟨by simp, around_thin T O⟩

/-! ### Geometries that only touch -/

theorem mem_chain_of_mem {α : Type*} (l : List α) : ∀ (p : α) {c : α}, c ∈ l → ∃ e ∈ chain p l, e.2 = c := by
  induction l with
  | nil => intro p c h; simp at h
  | cons a l ih =>
    intro p c h
    rcases List.mem_cons.1 h with rfl | h
    · exact ⟨(p, c), by simp [chain], rfl⟩
    · obtain ⟨e, he, h'⟩ := ih a h
      exact ⟨e, by simp [chain, he], h'⟩

/-- The origin is inside of an edge beyond which there is no difference. -/
def Facing (A B : List (Vec2 K)) (e : Vec2 K × Vec2 K) : Prop := cross e.1 e.2 = 0 ∧ dot e.1 e.2 < 0 ∧ ∀ x, Diff A B x → cross e.1 x + cross x e.2 ≤ 0

theorem edgeDistance_zero {e : Vec2 K × Vec2 K} (h : e.2 = 0 ∨ (cross e.1 e.2 = 0 ∧ dot e.1 e.2 < 0)) : edgeDistance e ≤ 0 := by
  have on : OnSegment e.1 e.2 (0 : Vec2 K) := by
    rcases h with h | ⟨h, hneg⟩
    · exact ⟨1, zero_le_one, le_refl _, by rw [h]; ext <;> simp⟩
    · have ha0 : e.1 ≠ 0 := by
        intro h0
        rw [h0] at hneg
        simp [Vec2.dot_def] at hneg
      obtain ⟨t, tx, ty⟩ := multiple_of_cross ha0 h
      have ht : t < 0 := by
        have e' : dot e.1 e.2 = t * (e.1.x * e.1.x + e.1.y * e.1.y) := by simp only [Vec2.dot_def, tx, ty]; ring
        rw [e'] at hneg
        by_contra h
        have := mul_nonneg (not_lt.1 h) (normSquared_pos' ha0).le
        linarith
      have h1t : (0 : K) < 1 - t := by linarith
      refine ⟨1 / (1 - t), by positivity, (div_le_one h1t).2 (by linarith), ?_⟩
      ext
      · simp only [Vec2.zero_x, Vec2.add_x, Vec2.smul_x, tx]
        field_simp
        ring
      · simp only [Vec2.zero_y, Vec2.add_y, Vec2.smul_y, ty]
        field_simp
        ring
  have := edgeDistance_le on
  simpa using this

theorem support_zero (A B : List (Vec2 K)) : support A B 0 = .throw := by
  unfold support
  rw [C17_zero_direction]
  rfl

/-- When the origin is a vertex, or is on an edge of the boundary, the loop ends; it throws or returns the null vector. -/
theorem expand_touch {A B : List (Vec2 K)} (hA : A ≠ []) (hB : B ≠ []) (k : Nat) : ∀ (vs : List (Vec2 K)) (h : vs ≠ []),
    ((0 : Vec2 K) ∈ vs ∨ ∃ e ∈ chain (vs.getLast h) vs, Facing A B e) → (diffs A B).countP (fun x => decide (x ∉ vs)) < k →
    (∀ fuel, k ≤ fuel → expand A B fuel vs = some .throw) ∨ (∀ fuel, k ≤ fuel → expand A B fuel vs = some (.ok 0)) := by
  induction k with
  | zero => intro vs h I hk; omega
  | succ k ih =>
    intro vs h I hk
    set es := chain (vs.getLast h) vs with hes
    have hlen : es.length = vs.length := chain_length _ _
    obtain ⟨e0, es0, hcons⟩ : ∃ e0 es0, es = e0 :: es0 := by
      cases hh : es with
      | nil => rw [hh] at hlen; exact absurd (List.length_eq_zero_iff.1 hlen.symm) h
      | cons a l => exact ⟨a, l, rfl⟩
    obtain ⟨hb1, -, hmin⟩ := bestEdge_spec es (e0, 0) 0
    set best := bestEdge (e0, 0) 0 es with hbest
    have hidx : es[best.2]? = some best.1 := by
      rcases hb1 with hb | ⟨j, hj, hj'⟩
      · rw [hb, hcons]; rfl
      · rw [hj', Nat.zero_add]; exact hj
    set a := best.1.1 with ha
    set b := best.1.2 with hb
    set n := (b - a).perp true with hn
    -- the closest edge contains the origin
    have hzero : edgeDistance best.1 ≤ 0 := by
      rcases I with I | ⟨e, he, h1, h2, -⟩
      · obtain ⟨e, he, h0⟩ := mem_chain_of_mem vs (vs.getLast h) I
        exact (hmin e he).trans (edgeDistance_zero (Or.inl h0))
      · exact (hmin e he).trans (edgeDistance_zero (Or.inr ⟨h1, h2⟩))
    have hm : (LineBarycentric.mk' a b 0).closestPoint = 0 := by
      unfold edgeDistance at hzero
      rw [← ha, ← hb, normSquared_eq] at hzero
      by_contra hne
      have := normSquared_pos' hne
      simp at hzero
      linarith
    have hstep : ∀ fuel, expand A B (fuel + 1) vs =
        match support A B n with
        | .ok v =>
          match addVertex vs best.1 best.2 v with
          | some vs' => expand A B fuel vs'
          | none => some (.ok 0)
        | .throw => some .throw
        | .ub => some .ub := by
      intro fuel
      rw [expand, edgesOf_chain vs h, ← hes]
      rw [hcons] at hbest
      simp only [hcons]
      rw [← hbest, ← ha, ← hb, ← hn, hm]
      rfl
    by_cases hn0 : n = 0
    · left
      intro fuel hf
      obtain ⟨f, rfl⟩ : ∃ f, fuel = f + 1 := ⟨fuel - 1, by omega⟩
      rw [hstep, hn0, support_zero]
    obtain ⟨v, ev, hv, -⟩ := support_ok hA hB hn0
    have hout : dot n (v - b) = cross a v + cross v b - cross a b := by
      rw [hn, perp_true]
      simp only [Vec2.dot_def, Vec2.cross, Vec2.sub_x, Vec2.sub_y]; ring
    rw [ev] at hstep
    simp only at hstep
    cases hadd : addVertex vs best.1 best.2 v with
    | none =>
      right
      intro fuel hf
      obtain ⟨f, rfl⟩ : ∃ f, fuel = f + 1 := ⟨fuel - 1, by omega⟩
      rw [hstep, hadd]
    | some vs' =>
      have hcase : 0 < dot n (v - b) ∧ v ∉ vs ∧ vs' = vs.insertIdx best.2 v := by
        unfold addVertex at hadd
        split_ifs at hadd with h1 h2
        exact ⟨h1, h2, (Option.some.inj hadd).symm⟩
      obtain ⟨hpos, hnot, rfl⟩ := hcase
      have hlt : best.2 < vs.length := by
        rw [← hlen]
        exact (List.getElem?_eq_some_iff.1 hidx).1
      have hmemi : ∀ c, c ∈ vs.insertIdx best.2 v ↔ c = v ∨ c ∈ vs := fun c => List.mem_insertIdx hlt.le
      have hne' : vs.insertIdx best.2 v ≠ [] := by
        intro e
        have := (hmemi v).2 (Or.inl rfl)
        rw [e] at this
        simp at this
      obtain ⟨pre, post, hp1, hp2⟩ := chain_insert v vs (vs.getLast h) best.2 best.1 hidx
      have I' : (0 : Vec2 K) ∈ vs.insertIdx best.2 v ∨ ∃ e ∈ chain ((vs.insertIdx best.2 v).getLast hne') (vs.insertIdx best.2 v), Facing A B e := by
        rcases I with I | ⟨e, he, hF⟩
        · exact Or.inl ((hmemi 0).2 (Or.inr I))
        · right
          rw [getLast_insert v vs best.2 hlt h hne', hp2]
          rw [hes, hp1] at he
          refine ⟨e, ?_, hF⟩
          simp only [List.mem_append, List.mem_cons] at he ⊢
          rcases he with he | he | he
          · exact Or.inl he
          · exfalso
            -- no difference is beyond this edge
            rw [he] at hF
            have := hF.2.2 v hv.1
            have h0 := hF.1
            rw [← ha, ← hb] at this h0
            rw [hout, h0] at hpos
            linarith
          · exact Or.inr (Or.inr (Or.inr he))
      have hcount : (diffs A B).countP (fun x => decide (x ∉ vs.insertIdx best.2 v)) < (diffs A B).countP (fun x => decide (x ∉ vs)) := by
        refine countP_lt (fun x _ hx => ?_) (mem_diffs.2 hv.1) ?_ ?_
        · simp only [decide_eq_true_eq] at hx ⊢
          exact fun hm => hx ((hmemi x).2 (Or.inr hm))
        · simp only [decide_eq_false_iff_not, not_not]
          exact (hmemi v).2 (Or.inl rfl)
        · simpa using hnot
      rcases ih _ hne' I' (by omega) with hh | hh
      · left
        intro fuel hf
        obtain ⟨f, rfl⟩ : ∃ f, fuel = f + 1 := ⟨fuel - 1, by omega⟩
        rw [hstep, hadd]
        exact hh f (by omega)
      · right
        intro fuel hf
        obtain ⟨f, rfl⟩ : ∃ f, fuel = f + 1 := ⟨fuel - 1, by omega⟩
        rw [hstep, hadd]
        exact hh f (by omega)

/-- A normal to `a` measures on which side of `a` points are. -/
theorem normal_side {a n : Vec2 K} (ha : a ≠ 0) (hn : n ≠ 0) (h : dot a n = 0) : ∃ μ : K, μ ≠ 0 ∧ ∀ x, dot x n = μ * cross a x := by
  have hc : cross (⟨-a.y, a.x⟩ : Vec2 K) n = 0 := by
    simp only [Vec2.cross, Vec2.dot_def] at h ⊢
    linarith
  have hp : (⟨-a.y, a.x⟩ : Vec2 K) ≠ 0 := by
    intro e
    have e1 := congrArg Vec2.x e
    have e2 := congrArg Vec2.y e
    simp only [Vec2.zero_x, Vec2.zero_y, neg_eq_zero] at e1 e2
    exact ha (Vec2.ext e2 e1)
  obtain ⟨t, tx, ty⟩ := multiple_of_cross hp hc
  simp only at tx ty
  refine ⟨t, ?_, fun x => ?_⟩
  · rintro rfl
    exact hn (Vec2.ext (by rw [tx]; simp) (by rw [ty]; simp))
  · simp only [Vec2.dot_def, Vec2.cross, tx, ty]; ring

/-- The origin is on the edge of a triangle which contains it. -/
theorem edge_through {p q r : Vec2 K} (hp0 : p ≠ 0) (hq0 : q ≠ 0) (h : cross p q = 0) (h2 : 0 ≤ cross q r) (h3 : 0 ≤ cross r p) (hs : 0 < cross p q + cross q r + cross r p) : dot p q < 0 := by
  have ix : cross q r * p.x + cross r p * q.x = 0 := by
    have : cross q r * p.x + cross r p * q.x + cross p q * r.x = 0 := by simp only [Vec2.cross]; ring
    rw [h] at this; linarith
  have iy : cross q r * p.y + cross r p * q.y = 0 := by
    have : cross q r * p.y + cross r p * q.y + cross p q * r.y = 0 := by simp only [Vec2.cross]; ring
    rw [h] at this; linarith
  have hp := normSquared_pos' hp0
  have hq := normSquared_pos' hq0
  have i1 : cross q r * (p.x * p.x + p.y * p.y) + cross r p * dot p q = 0 := by
    simp only [Vec2.dot_def]
    linear_combination p.x * ix + p.y * iy
  have i2 : cross q r * dot p q + cross r p * (q.x * q.x + q.y * q.y) = 0 := by
    simp only [Vec2.dot_def]
    linear_combination q.x * ix + q.y * iy
  by_contra hcon
  have hcon := not_lt.1 hcon
  have a1 := mul_nonneg h2 hp.le
  have a2 := mul_nonneg h3 hcon
  have a3 := mul_nonneg h2 hcon
  have a4 := mul_nonneg h3 hq.le
  have z1 : cross q r = 0 := (mul_eq_zero.1 (show cross q r * (p.x * p.x + p.y * p.y) = 0 by linarith)).resolve_right hp.ne'
  have z2 : cross r p = 0 := (mul_eq_zero.1 (show cross r p * (q.x * q.x + q.y * q.y) = 0 by linarith)).resolve_right hq.ne'
  rw [h, z1, z2] at hs
  linarith

/-- When all the differences are on one side of a line through the origin, an edge through the origin of a triangle is on the boundary. -/
theorem facing_edge {A B : List (Vec2 K)} {n : Vec2 K} (hn : n ≠ 0) (hside : ∀ x, Diff A B x → dot x n ≤ 0) {p q r : Vec2 K} (dp : Diff A B p) (dq : Diff A B q) (dr : Diff A B r)
    (hp0 : p ≠ 0) (hq0 : q ≠ 0) (h : cross p q = 0) (h2 : 0 ≤ cross q r) (h3 : 0 ≤ cross r p) (hs : 0 < cross p q + cross q r + cross r p) : Facing A B (p, q) := by
  have hneg := edge_through hp0 hq0 h h2 h3 hs
  refine ⟨h, hneg, fun x hx => ?_⟩
  obtain ⟨t, tx, ty⟩ := multiple_of_cross hp0 h
  have ht : t < 0 := by
    have e' : dot p q = t * (p.x * p.x + p.y * p.y) := by simp only [Vec2.dot_def, tx, ty]; ring
    rw [e'] at hneg
    by_contra h
    have := mul_nonneg (not_lt.1 h) (normSquared_pos' hp0).le
    linarith
  have hpn : dot p n = 0 := by
    have h1 := hside p dp
    have h2 := hside q dq
    have e : dot q n = t * dot p n := by simp only [Vec2.dot_def, tx, ty]; ring
    rw [e] at h2
    have : 0 ≤ dot p n := by
      by_contra hc
      have := mul_pos_of_neg_of_neg ht (not_le.1 hc)
      linarith
    linarith
  obtain ⟨μ, hμ, hd⟩ := normal_side hp0 hn hpn
  have e : ∀ x, cross p x + cross x q = (1 - t) * cross p x := by
    intro x
    simp only [Vec2.cross, tx, ty]; ring
  -- the third vertex tells the side
  have hr : cross p r < 0 := by
    have hqr : cross q r = t * cross p r := by simp only [Vec2.cross, tx, ty]; ring
    rw [h, hqr, cross_anti p r] at hs
    by_contra hc
    have := mul_nonneg (neg_nonneg.2 ht.le) (not_lt.1 hc)
    have := not_lt.1 hc
    linarith
  have hμ' : 0 < μ := by
    rcases lt_or_gt_of_ne hμ with h' | h'
    · have h1 := hside r dr
      rw [hd] at h1
      have := mul_pos_of_neg_of_neg h' hr
      linarith
    · exact h'
  have hx' := hside x hx
  rw [hd] at hx'
  simp only
  rw [e]
  have : cross p x ≤ 0 := by
    by_contra hc
    have := mul_pos hμ' (not_le.1 hc)
    linarith
  exact mul_nonpos_of_nonneg_of_nonpos (by linarith) this

/-- The polytope that `penetration` starts with, when all the differences are on one side of a line through the origin. -/
theorem facing_polytope {A B : List (Vec2 K)} {S : Simplex K} {n : Vec2 K} (hn : n ≠ 0) (hside : ∀ x, Diff A B x → dot x n ≤ 0) (h : Good A B S ∨ OnLine A B S) :
    ∃ hne : polytope S ≠ [], (0 : Vec2 K) ∈ polytope S ∨ ∃ e ∈ chain ((polytope S).getLast hne) (polytope S), Facing A B e := by
  have tri : ∀ {a b c : Vec2 K}, Diff A B a → Diff A B b → Diff A B c → 0 < cross a b + cross b c + cross c a → 0 ≤ cross a b → 0 ≤ cross b c → 0 ≤ cross c a →
      (0 : Vec2 K) ∈ [a, b, c] ∨ ∃ e ∈ chain c [a, b, c], Facing A B e := by
    intro a b c da db dc hT h1 h2 h3
    by_cases h0 : (0 : Vec2 K) ∈ [a, b, c]
    · exact Or.inl h0
    right
    simp only [List.mem_cons, List.not_mem_nil, or_false, not_or] at h0
    obtain ⟨a0, b0, c0⟩ := h0
    rcases lt_or_eq_of_le h1 with p1 | p1
    · rcases lt_or_eq_of_le h2 with p2 | p2
      · rcases lt_or_eq_of_le h3 with p3 | p3
        · -- the origin is inside
          exfalso
          have key : cross b c * dot a n + cross c a * dot b n + cross a b * dot c n = 0 := by simp only [Vec2.cross, Vec2.dot_def]; ring
          have na := hside a da
          have nb := hside b db
          have nc := hside c dc
          have m1 := mul_nonneg p2.le (neg_nonneg.2 na)
          have m2 := mul_nonneg p3.le (neg_nonneg.2 nb)
          have m3 := mul_nonneg p1.le (neg_nonneg.2 nc)
          have za : dot a n = 0 := by
            have : cross b c * dot a n = 0 := by linarith
            exact (mul_eq_zero.1 this).resolve_left p2.ne'
          have zb : dot b n = 0 := by
            have : cross c a * dot b n = 0 := by linarith
            exact (mul_eq_zero.1 this).resolve_left p3.ne'
          have := cross_of_normal hn za zb
          linarith
        · exact ⟨(c, a), by simp [chain], facing_edge hn hside dc da db (Ne.symm c0) (Ne.symm a0) p3.symm h1 h2 (by linarith)⟩
      · exact ⟨(b, c), by simp [chain], facing_edge hn hside db dc da (Ne.symm b0) (Ne.symm c0) p2.symm h3 h1 (by linarith)⟩
    · exact ⟨(a, b), by simp [chain], facing_edge hn hside da db dc (Ne.symm a0) (Ne.symm b0) p1.symm h2 h3 hT⟩
  rcases h with G | L
  · rcases G.signs with ⟨hT, h1, h2, h3⟩ | ⟨hT, h1, h2, h3⟩
    · have : polytope S = [S.p0, S.p1, S.p2] := by
        unfold polytope
        rw [if_neg]
        rw [orientation_negative]
        exact not_lt.2 hT.le
      rw [this]
      exact ⟨by simp, tri G.e0.diff G.e1.diff G.e2.diff hT h1 h2 h3⟩
    · have : polytope S = [S.p2, S.p1, S.p0] := by
        unfold polytope
        rw [if_pos]
        rw [orientation_negative]
        exact hT
      rw [this]
      have k1 := cross_anti S.p1 S.p2
      have k2 := cross_anti S.p0 S.p1
      have k3 := cross_anti S.p2 S.p0
      exact ⟨by simp, tri G.e2.diff G.e1.diff G.e0.diff (by linarith) (by linarith) (by linarith) (by linarith)⟩
  · have : polytope S = [S.p0, S.p1, S.p2] := by
      unfold polytope
      rw [if_neg]
      rw [orientation_negative, L.c01, L.c12, L.c20]
      simp
    rw [this]
    refine ⟨by simp, ?_⟩
    show (0 : Vec2 K) ∈ [S.p0, S.p1, S.p2] ∨ ∃ e ∈ [(S.p2, S.p0), (S.p0, S.p1), (S.p1, S.p2)], Facing A B e
    rcases L.through with h | h | h | ⟨t, ht, tx, ty⟩
    · left; simp [h]
    · left; simp [h]
    · left; simp [h]
    by_cases h0 : S.p0 = 0
    · left; simp [h0]
    by_cases hq0 : S.p1 = 0
    · left; simp [hq0]
    right
    have hp0 : S.p2 ≠ 0 := by
      intro e
      rw [e] at tx ty
      exact hq0 (Vec2.ext (by rw [tx]; simp) (by rw [ty]; simp))
    have hpp := normSquared_pos' hp0
    have hpn : dot S.p2 n = 0 := by
      have h1 := hside _ L.d2
      have h2 := hside _ L.d1
      have e : dot S.p1 n = t * dot S.p2 n := by simp only [Vec2.dot_def, tx, ty]; ring
      rw [e] at h2
      have : 0 ≤ dot S.p2 n := by
        by_contra hc
        have := mul_pos_of_neg_of_neg ht (not_le.1 hc)
        linarith
      linarith
    obtain ⟨μ, hμ, hd⟩ := normal_side hp0 hn hpn
    obtain ⟨r, rx, ry⟩ := multiple_of_cross hp0 L.c20
    have c1 : ∀ x, cross S.p1 x = t * cross S.p2 x := fun x => by simp only [Vec2.cross, tx, ty]; ring
    have c0 : ∀ x, cross S.p0 x = r * cross S.p2 x := fun x => by simp only [Vec2.cross, rx, ry]; ring
    rcases lt_or_gt_of_ne hμ with hneg | hpos
    · -- the last edge
      have side : ∀ x, Diff A B x → 0 ≤ cross S.p2 x := by
        intro x hx
        have := hside x hx
        rw [hd] at this
        by_contra hc
        have := mul_pos_of_neg_of_neg hneg (not_le.1 hc)
        linarith
      refine ⟨(S.p1, S.p2), by simp, L.c12, ?_, fun x hx => ?_⟩
      · have e : dot S.p1 S.p2 = t * (S.p2.x * S.p2.x + S.p2.y * S.p2.y) := by simp only [Vec2.dot_def, tx, ty]; ring
        simp only
        rw [e]
        exact mul_neg_of_neg_of_pos ht hpp
      · simp only
        rw [c1, cross_anti S.p2 x]
        have := side x hx
        have := mul_nonneg (neg_nonneg.2 ht.le) this
        linarith
    · have side : ∀ x, Diff A B x → cross S.p2 x ≤ 0 := by
        intro x hx
        have := hside x hx
        rw [hd] at this
        by_contra hc
        have := mul_pos hpos (not_le.1 hc)
        linarith
      have hr : r ≠ 0 := by
        rintro rfl
        exact h0 (Vec2.ext (by rw [rx]; simp) (by rw [ry]; simp))
      rcases lt_or_gt_of_ne hr with hr | hr
      · refine ⟨(S.p2, S.p0), by simp, L.c20, ?_, fun x hx => ?_⟩
        · have e : dot S.p2 S.p0 = r * (S.p2.x * S.p2.x + S.p2.y * S.p2.y) := by simp only [Vec2.dot_def, rx, ry]; ring
          simp only
          rw [e]
          exact mul_neg_of_neg_of_pos hr hpp
        · simp only
          rw [cross_anti S.p0 x, c0]
          have s := side x hx
          have := mul_nonneg (neg_nonneg.2 hr.le) (neg_nonneg.2 s)
          linarith
      · refine ⟨(S.p0, S.p1), by simp, L.c01, ?_, fun x hx => ?_⟩
        · have e : dot S.p0 S.p1 = (r * t) * (S.p2.x * S.p2.x + S.p2.y * S.p2.y) := by simp only [Vec2.dot_def, rx, ry, tx, ty]; ring
          simp only
          rw [e]
          exact mul_neg_of_neg_of_pos (mul_neg_of_pos_of_neg hr ht) hpp
        · simp only
          rw [cross_anti S.p1 x, c0, c1]
          have s := side x hx
          have m1 := mul_nonneg hr.le (neg_nonneg.2 s)
          have m2 := mul_nonneg (neg_nonneg.2 ht.le) (neg_nonneg.2 s)
          linarith

end Simu.Gjk
