import Verif.Model.Gjk
import Verif.Spec.Gjk
import Verif.Props.Geometry
import Mathlib.Tactic.Ring
import Mathlib.Tactic.LinearCombination
import Mathlib.Tactic.Linarith
import Mathlib.Data.List.Count
/-
Lemmas about the boolean algorithm of `Gjk`.
-/
set_option linter.unusedSectionVars false
namespace Simu.Gjk
open Vec2 (dot cross)
variable {K : Type*} [Field K] [LinearOrder K] [IsStrictOrderedRing K]

/-- `x` is the difference of a vertex of each geometry. -/
def Diff (A B : List (Vec2 K)) (x : Vec2 K) : Prop := ∃ a ∈ A, ∃ b ∈ B, x = a - b

/-- All the differences. -/
def diffs (A B : List (Vec2 K)) : List (Vec2 K) := A.flatMap fun a => B.map fun b => a - b

theorem mem_diffs {A B : List (Vec2 K)} {x : Vec2 K} : x ∈ diffs A B ↔ Diff A B x := by
  unfold diffs Diff
  simp only [List.mem_flatMap, List.mem_map]
  constructor
  · rintro ⟨a, ha, b, hb, rfl⟩; exact ⟨a, ha, b, hb, rfl⟩
  · rintro ⟨a, ha, b, hb, rfl⟩; exact ⟨a, ha, b, hb, rfl⟩

theorem length_diffs (A B : List (Vec2 K)) : (diffs A B).length = A.length * B.length := by
  unfold diffs
  induction A with
  | nil => simp
  | cons a A ih => simp only [List.flatMap_cons, List.length_append, List.length_map, ih, List.length_cons]; ring

theorem neg_ne_zero' {d : Vec2 K} (hd : d ≠ 0) : -d ≠ 0 := by
  intro e
  apply hd
  have h1 := congrArg Vec2.x e
  have h2 := congrArg Vec2.y e
  simp only [Vec2.neg_x, Vec2.neg_y, Vec2.zero_x, Vec2.zero_y, neg_eq_zero] at h1 h2
  exact Vec2.ext h1 h2

/-- A support point of the difference. -/
def IsSupport (A B : List (Vec2 K)) (d v : Vec2 K) : Prop := Diff A B v ∧ ∀ x, Diff A B x → dot x d ≤ dot v d

theorem support_ok {A B : List (Vec2 K)} (hA : A ≠ []) (hB : B ≠ []) {d : Vec2 K} (hd : d ≠ 0) :
    ∃ v, support A B d = .ok v ∧ IsSupport A B d v ∧ (Common A B → 0 ≤ dot v d) := by
  obtain ⟨a, ea, ma, ha⟩ := C17_support A d hA hd
  obtain ⟨b, eb, mb, hb⟩ := C17_support B (-d) hB (neg_ne_zero' hd)
  refine ⟨a - b, by simp [support, ea, eb], ⟨⟨a, ma, b, mb, rfl⟩, ?_⟩, ?_⟩
  · rintro _ ⟨x, hx, y, hy, rfl⟩
    have h1 := ha x (.vertex hx)
    have h2 := hb y (.vertex hy)
    simp only [Vec2.dot_def, Vec2.sub_x, Vec2.sub_y, Vec2.neg_x, Vec2.neg_y] at *
    linarith
  · rintro ⟨q, qa, qb⟩
    have h1 := ha q qa
    have h2 := hb q qb
    simp only [Vec2.dot_def, Vec2.sub_x, Vec2.sub_y, Vec2.neg_x, Vec2.neg_y] at *
    linarith

/-- Some line has the geometries strictly on each side. -/
def Apart (A B : List (Vec2 K)) : Prop := ∃ d : Vec2 K, d ≠ 0 ∧ ∀ x, Diff A B x → dot x d < 0

theorem Apart.not_common {A B : List (Vec2 K)} (hA : A ≠ []) (hB : B ≠ []) (h : Apart A B) : ¬Common A B := by
  obtain ⟨d, hd, h⟩ := h
  obtain ⟨v, -, hv, hc⟩ := support_ok hA hB hd
  exact fun h' => absurd (hc h') (not_le.2 (h v hv.1))

/-- A convex combination of three points of a hull. -/
theorem hull_three {l : List (Vec2 K)} {x y z : Vec2 K} (hx : Hull l x) (hy : Hull l y) (hz : Hull l z) {a b c : K} (ha : 0 ≤ a) (hb : 0 ≤ b) (hc : 0 ≤ c) (hs : a + b + c = 1) :
    Hull l (⟨a * x.x + b * y.x + c * z.x, a * x.y + b * y.y + c * z.y⟩ : Vec2 K) := by
  by_cases h : b + c = 0
  · have hb0 : b = 0 := by linarith
    have hc0 : c = 0 := by linarith
    have ha1 : a = 1 := by linarith
    subst hb0 hc0 ha1
    convert hx using 1
    ext <;> simp
  · have hpos : 0 < b + c := lt_of_le_of_ne (add_nonneg hb hc) (Ne.symm h)
    have := Hull.segment (b + c) hpos.le (by linarith) hx (Hull.segment (c / (b + c)) (div_nonneg hc hpos.le) ((div_le_one hpos).2 (by linarith)) hy hz)
    convert this using 1
    have h1 : 1 - (b + c) = a := by linarith
    have h2 : 1 - c / (b + c) = b / (b + c) := by field_simp; ring
    rw [h1, h2]
    ext <;> simp only [Vec2.add_x, Vec2.add_y, Vec2.smul_x, Vec2.smul_y] <;> field_simp <;> ring

/-- The origin in a triangle of differences. -/
theorem common_of_combination {A B : List (Vec2 K)} {x y z : Vec2 K} (hx : Diff A B x) (hy : Diff A B y) (hz : Diff A B z) {a b c : K} (ha : 0 ≤ a) (hb : 0 ≤ b) (hc : 0 ≤ c)
    (hs : 0 < a + b + c) (h0 : a * x.x + b * y.x + c * z.x = 0) (h1 : a * x.y + b * y.y + c * z.y = 0) : Common A B := by
  obtain ⟨xa, hxa, xb, hxb, rfl⟩ := hx
  obtain ⟨ya, hya, yb, hyb, rfl⟩ := hy
  obtain ⟨za, hza, zb, hzb, rfl⟩ := hz
  have hne : a + b + c ≠ 0 := hs.ne'
  have sum : a / (a + b + c) + b / (a + b + c) + c / (a + b + c) = 1 := by field_simp
  have l := hull_three (.vertex hxa) (.vertex hya) (.vertex hza) (div_nonneg ha hs.le) (div_nonneg hb hs.le) (div_nonneg hc hs.le) sum
  have r := hull_three (.vertex hxb) (.vertex hyb) (.vertex hzb) (div_nonneg ha hs.le) (div_nonneg hb hs.le) (div_nonneg hc hs.le) sum
  refine ⟨_, l, ?_⟩
  convert r using 1
  simp only [Vec2.sub_x, Vec2.sub_y] at h0 h1
  ext
  · simp only
    rw [← sub_eq_zero]
    field_simp
    linear_combination h0
  · simp only
    rw [← sub_eq_zero]
    field_simp
    linear_combination h1

/-- A vector that is collinear with a non-zero vector is a multiple of it. -/
theorem multiple_of_cross {p q : Vec2 K} (hp : p ≠ 0) (h : cross p q = 0) : ∃ t : K, q.x = t * p.x ∧ q.y = t * p.y := by
  unfold Vec2.cross at h
  by_cases hx : p.x = 0
  · have hy : p.y ≠ 0 := fun hy => hp (Vec2.ext hx hy)
    refine ⟨q.y / p.y, ?_, by field_simp⟩
    rw [hx] at h ⊢
    have : p.y * q.x = 0 := by linarith
    rcases mul_eq_zero.1 this with h | h
    · exact absurd h hy
    · rw [h]; ring
  · refine ⟨q.x / p.x, by field_simp, ?_⟩
    field_simp
    linarith

section Push

/-- The three cross products of a triangle, and their sum. -/
theorem cross_sum (v q p : Vec2 K) : cross (q - v) (p - q) = cross v q + cross q p + cross p v := by
  simp only [Vec2.cross, Vec2.sub_x, Vec2.sub_y]; ring

theorem perp_true (a : Vec2 K) : a.perp true = ⟨a.y, -a.x⟩ := by ext <;> simp [Vec2.perp]

theorem perp_false (a : Vec2 K) : a.perp false = ⟨-a.y, a.x⟩ := by ext <;> simp [Vec2.perp]

/-- What `containsOrigin` says after a point was pushed. -/
theorem contains_push (S : Simplex K) (v : Vec2 K) :
    let q := S.p0
    let p := if S.keepBottomPoint then S.p2 else S.p1
    let T := cross v q + cross q p + cross p v
    (S.pushPoint v).containsOrigin = true ↔
      (0 ≤ T ∧ 0 ≤ cross v q ∧ 0 ≤ cross q p ∧ 0 ≤ cross p v) ∨ (T < 0 ∧ cross v q ≤ 0 ∧ cross q p ≤ 0 ∧ cross p v ≤ 0) := by
  intro q p T
  have hT : cross (q - v) (p - q) = T := cross_sum v q p
  unfold Simplex.containsOrigin Simplex.pushPoint
  simp only [Bool.and_eq_true, decide_eq_true_eq]
  rw [show cross (S.p0 - v) ((if S.keepBottomPoint = true then S.p2 else S.p1) - S.p0) = T from hT]
  rw [show (if S.keepBottomPoint = true then S.p2 else S.p1) = p from rfl, show S.p0 = q from rfl]
  by_cases h : 0 ≤ T
  · simp only [h, decide_true, perp_true, true_and, not_lt.2 h, false_and, or_false]
    simp only [Vec2.dot_def, Vec2.cross, Vec2.sub_x, Vec2.sub_y]
    constructor
    · rintro ⟨⟨a, b⟩, c⟩; exact ⟨by linarith, by linarith, by linarith⟩
    · rintro ⟨a, b, c⟩; exact ⟨⟨by linarith, by linarith⟩, by linarith⟩
  · simp only [h, decide_false, perp_false, false_and, not_le.1 h, true_and, false_or]
    simp only [Vec2.dot_def, Vec2.cross, Vec2.sub_x, Vec2.sub_y]
    constructor
    · rintro ⟨⟨a, b⟩, c⟩; exact ⟨by linarith, by linarith, by linarith⟩
    · rintro ⟨a, b, c⟩; exact ⟨⟨by linarith, by linarith⟩, by linarith⟩

/-- If it says so and the triangle is not flat, the origin is in the triangle. -/
theorem common_of_signs {A B : List (Vec2 K)} {v q p : Vec2 K} (hv : Diff A B v) (hq : Diff A B q) (hp : Diff A B p)
    (h : (0 < cross v q + cross q p + cross p v ∧ 0 ≤ cross v q ∧ 0 ≤ cross q p ∧ 0 ≤ cross p v) ∨
      (cross v q + cross q p + cross p v < 0 ∧ cross v q ≤ 0 ∧ cross q p ≤ 0 ∧ cross p v ≤ 0)) : Common A B := by
  have e0 : cross q p * v.x + cross p v * q.x + cross v q * p.x = 0 := by simp only [Vec2.cross]; ring
  have e1 : cross q p * v.y + cross p v * q.y + cross v q * p.y = 0 := by simp only [Vec2.cross]; ring
  rcases h with ⟨hT, h1, h2, h3⟩ | ⟨hT, h1, h2, h3⟩
  · exact common_of_combination hv hq hp h2 h3 h1 (by linarith) e0 e1
  · refine common_of_combination hv hq hp (neg_nonneg.2 h2) (neg_nonneg.2 h3) (neg_nonneg.2 h1) (by linarith) ?_ ?_ <;> linarith

end Push

/-- `x` is a support point in some direction. -/
def Extreme (A B : List (Vec2 K)) (x : Vec2 K) : Prop := ∃ d, d ≠ 0 ∧ IsSupport A B d x

theorem Extreme.diff {A B : List (Vec2 K)} {x : Vec2 K} (h : Extreme A B x) : Diff A B x := by
  obtain ⟨d, -, h, -⟩ := h
  exact h

/-- A triangle of support points that is not flat and contains the origin. -/
structure Good (A B : List (Vec2 K)) (S : Simplex K) : Prop where
  e0 : Extreme A B S.p0
  e1 : Extreme A B S.p1
  e2 : Extreme A B S.p2
  signs : (0 < cross S.p0 S.p1 + cross S.p1 S.p2 + cross S.p2 S.p0 ∧ 0 ≤ cross S.p0 S.p1 ∧ 0 ≤ cross S.p1 S.p2 ∧ 0 ≤ cross S.p2 S.p0) ∨
      (cross S.p0 S.p1 + cross S.p1 S.p2 + cross S.p2 S.p0 < 0 ∧ cross S.p0 S.p1 ≤ 0 ∧ cross S.p1 S.p2 ≤ 0 ∧ cross S.p2 S.p0 ≤ 0)

theorem Good.common {A B : List (Vec2 K)} {S : Simplex K} (G : Good A B S) : Common A B := common_of_signs G.e0.diff G.e1.diff G.e2.diff G.signs

/-- The state of the algorithm once it has a triangle: the points are differences, the triangle is oriented like `s`, its normals point outwards, the origin and `p0` are on the
same side of the edge between `p1` and `p2`, and `p0` is beyond the origin as seen from this edge. -/
structure Ready (A B : List (Vec2 K)) (S : Simplex K) (s : K) : Prop where
  sgn : s = 1 ∨ s = -1
  d0 : Extreme A B S.p0
  d1 : Extreme A B S.p1
  d2 : Extreme A B S.p2
  iters : 3 ≤ S.nIterations
  n0 : ∀ x, dot x S.n0 = s * cross x (S.p1 - S.p0)
  n1 : ∀ x, dot x S.n1 = s * cross x (S.p0 - S.p2)
  keep : S.keepBottomPoint = false
  area : 0 < s * (cross S.p0 S.p1 + cross S.p1 S.p2 + cross S.p2 S.p0)
  side : 0 < s * cross S.p1 S.p2
  beyond : 0 ≤ s * (cross S.p0 S.p1 + cross S.p2 S.p0)
  outside : s * cross S.p0 S.p1 < 0 ∨ s * cross S.p2 S.p0 < 0

/-- What an iteration does with a support point `v` in a direction normal to the edge between `q` and `p`, towards the origin. -/
theorem iterate_core {A B : List (Vec2 K)} (hA : A ≠ []) (hB : B ≠ []) {S : Simplex K} {d q p : Vec2 K} {t : K} (hS : S.nextDirection.1 = d)
    (hit : 2 ≤ S.nextDirection.2.nIterations) (hq0 : S.nextDirection.2.p0 = q)
    (hp0 : (if S.nextDirection.2.keepBottomPoint then S.nextDirection.2.p2 else S.nextDirection.2.p1) = p) (ht : t = 1 ∨ t = -1)
    (hd : ∀ x, dot x d = t * cross x (q - p)) (hpos : 0 < t * cross q p) (hq : Extreme A B q) (hp : Extreme A B p)
    (hold : ∀ x, S.nextDirection.2.hasPoint x = true → dot x d < 0) :
    ∃ S', (iterate A B S = .ok (S', some true) ∧ Good A B S') ∨ (iterate A B S = .ok (S', some false) ∧ Apart A B) ∨
      (iterate A B S = .ok (S', none) ∧ Ready A B S' t ∧ S'.p1 = q ∧ S'.p2 = p) := by
  have hqd : dot q d < 0 := by
    rw [hd q]
    have : cross q (q - p) = -cross q p := by simp only [Vec2.cross, Vec2.sub_x, Vec2.sub_y]; ring
    rw [this]; linarith
  have hd0 : d ≠ 0 := by
    rintro rfl
    simp [Vec2.dot_def] at hqd
  obtain ⟨v, ev, hv', hcom⟩ := support_ok hA hB hd0
  have hv : Extreme A B v := ⟨d, hd0, hv'⟩
  have hvd : dot v d = t * (cross v q + cross p v) := by
    rw [hd v]
    simp only [Vec2.cross, Vec2.sub_x, Vec2.sub_y]; ring
  have hc := contains_push S.nextDirection.2 v
  simp only [hq0, hp0] at hc
  have hY : cross q p ≠ 0 := by rintro h; rw [h] at hpos; simp at hpos
  -- a triangle said to contain the origin does
  have hyes : (S.nextDirection.2.pushPoint v).containsOrigin = true → Good A B (S.nextDirection.2.pushPoint v) := by
    intro h
    refine ⟨hv, ?_, ?_, ?_⟩
    · show Extreme A B S.nextDirection.2.p0
      rw [hq0]; exact hq
    · show Extreme A B (if S.nextDirection.2.keepBottomPoint then S.nextDirection.2.p2 else S.nextDirection.2.p1)
      rw [hp0]; exact hp
    unfold Simplex.pushPoint
    simp only [hq0, hp0]
    rcases hc.1 h with ⟨h0, h1, h2, h3⟩ | h
    · left
      refine ⟨lt_of_le_of_ne h0 fun e => hY ?_, h1, h2, h3⟩
      linarith
    · exact Or.inr h
  have hn : 2 < (S.nextDirection.2.pushPoint v).nIterations := by
    show 2 < S.nextDirection.2.nIterations + 1
    omega
  have eit : iterate A B S = if (S.nextDirection.2.pushPoint v).containsOrigin then .ok (S.nextDirection.2.pushPoint v, some true)
      else if S.nextDirection.2.hasPoint v then .ok (S.nextDirection.2.pushPoint v, some false)
      else .ok (S.nextDirection.2.pushPoint v, if dot v d < 0 then some false else none) := by
    unfold iterate
    simp only [hS, ev, Outcome.bind, Bool.not_not, decide_eq_true_eq]
    rw [if_pos hn]
  refine ⟨S.nextDirection.2.pushPoint v, ?_⟩
  rw [eit]
  by_cases hco : (S.nextDirection.2.pushPoint v).containsOrigin = true
  · rw [if_pos hco]
    exact Or.inl ⟨rfl, hyes hco⟩
  · rw [if_neg hco]
    right
    by_cases hlt : dot v d < 0
    · left
      rw [if_pos hlt]
      exact ⟨by split_ifs <;> rfl, d, hd0, fun x hx => lt_of_le_of_lt (hv'.2 x hx) hlt⟩
    · right
      have hge := not_lt.1 hlt
      rw [if_neg (fun h => absurd (hold v h) hlt), if_neg hlt]
      have hT : 0 < t * (cross v q + cross q p + cross p v) := by
        rw [hvd] at hge
        have e : t * (cross v q + cross q p + cross p v) = t * (cross v q + cross p v) + t * cross q p := by ring
        rw [e]; linarith
      refine ⟨rfl, ?_, hq0, hp0⟩
      have hpo : decide (0 ≤ cross (q - v) (p - q)) = decide (t = 1) := by
        rw [cross_sum]
        rcases ht with rfl | rfl
        · simp only [decide_true, decide_eq_true_eq]
          rw [one_mul] at hT
          exact hT.le
        · have : ¬(-1 : K) = 1 := by intro h; linarith
          simp only [this, decide_false, decide_eq_false_iff_not, not_le]
          linarith
      exact {
        sgn := ht
        d0 := hv
        d1 := by show Extreme A B S.nextDirection.2.p0; rw [hq0]; exact hq
        d2 := by
          show Extreme A B (if S.nextDirection.2.keepBottomPoint then S.nextDirection.2.p2 else S.nextDirection.2.p1)
          rw [hp0]; exact hp
        iters := hn
        n0 := by
          intro x
          unfold Simplex.pushPoint
          simp only [hq0, hp0, hpo]
          rcases ht with rfl | rfl
          · simp only [decide_true, perp_true, Vec2.dot_def, Vec2.cross, Vec2.sub_x, Vec2.sub_y]; ring
          · have : ¬(-1 : K) = 1 := by intro h; linarith
            simp only [this, decide_false, perp_false, Vec2.dot_def, Vec2.cross, Vec2.sub_x, Vec2.sub_y]; ring
        n1 := by
          intro x
          unfold Simplex.pushPoint
          simp only [hq0, hp0, hpo]
          rcases ht with rfl | rfl
          · simp only [decide_true, perp_true, Vec2.dot_def, Vec2.cross, Vec2.sub_x, Vec2.sub_y]; ring
          · have : ¬(-1 : K) = 1 := by intro h; linarith
            simp only [this, decide_false, perp_false, Vec2.dot_def, Vec2.cross, Vec2.sub_x, Vec2.sub_y]; ring
        keep := rfl
        area := by
          unfold Simplex.pushPoint
          simp only [hq0, hp0]
          exact hT
        side := by
          unfold Simplex.pushPoint
          simp only [hq0, hp0]
          exact hpos
        beyond := by
          unfold Simplex.pushPoint
          simp only [hq0, hp0]
          rw [← hvd]; exact hge
        outside := by
          unfold Simplex.pushPoint
          simp only [hq0, hp0]
          by_contra hcon
          push Not at hcon
          refine hco (hc.2 ?_)
          rcases ht with rfl | rfl
          · left; refine ⟨by linarith, by linarith [hcon.1], by linarith, by linarith [hcon.2]⟩
          · right; refine ⟨by linarith, by linarith [hcon.1], by linarith, by linarith [hcon.2]⟩ }

/-- The directions seen from the origin through the edge between `b` and `c`. -/
def inCone (s : K) (b c x : Vec2 K) : Bool := decide (0 ≤ s * cross b x) && decide (0 ≤ s * cross x c)

/-- How many differences are seen through the oldest edge. -/
def seen (A B : List (Vec2 K)) (S : Simplex K) (s : K) : Nat := (diffs A B).countP (inCone s S.p1 S.p2)

theorem seen_le (A B : List (Vec2 K)) (S : Simplex K) (s : K) : seen A B S s ≤ A.length * B.length := by
  rw [← length_diffs]
  exact List.countP_le_length

theorem countP_lt {α : Type*} {l : List α} {f g : α → Bool} (h : ∀ x ∈ l, f x = true → g x = true) {y : α} (hy : y ∈ l) (hf : f y = false) (hg : g y = true) :
    l.countP f < l.countP g := by
  induction l with
  | nil => simp at hy
  | cons a l ih =>
    rw [List.countP_cons, List.countP_cons]
    have hle : l.countP f ≤ l.countP g := List.countP_mono_left fun x hx => h x (by simp [hx])
    rcases List.mem_cons.1 hy with rfl | hy
    · rw [hf, hg]; simp; omega
    · have := ih (fun x hx => h x (by simp [hx])) hy
      have ha := h a (by simp)
      cases hfa : f a
      · simp; omega
      · rw [ha hfa]; simp; omega

theorem iterate_ready {A B : List (Vec2 K)} (hA : A ≠ []) (hB : B ≠ []) {S : Simplex K} {s : K} (R : Ready A B S s) :
    ∃ S', (iterate A B S = .ok (S', some true) ∧ Good A B S') ∨ (iterate A B S = .ok (S', some false) ∧ Apart A B) ∨
      (iterate A B S = .ok (S', none) ∧ ∃ s', Ready A B S' s' ∧ seen A B S s < seen A B S' s') := by
  obtain ⟨n, hn⟩ : ∃ n, S.nIterations = n + 3 := ⟨S.nIterations - 3, by have := R.iters; omega⟩
  have hpt : ∀ x, S.hasPoint x = true → x = S.p0 ∨ x = S.p1 ∨ x = S.p2 := by
    intro x hx
    unfold Simplex.hasPoint at hx
    simp only [Bool.or_eq_true, Bool.and_eq_true, decide_eq_true_eq] at hx
    rcases hx with (⟨-, h⟩ | ⟨-, h⟩) | ⟨-, h⟩
    · exact Or.inl h.symm
    · exact Or.inr (Or.inl h.symm)
    · exact Or.inr (Or.inr h.symm)
  have area := R.area
  have side := R.side
  have beyond := R.beyond
  have e1 : dot S.n0 S.p0 = s * cross S.p0 S.p1 := by
    have := R.n0 S.p0
    have c : dot S.n0 S.p0 = dot S.p0 S.n0 := by simp only [Vec2.dot_def]; ring
    rw [c, this]
    simp only [Vec2.cross, Vec2.sub_x, Vec2.sub_y]; ring
  by_cases hX : s * cross S.p0 S.p1 < 0
  · have hnd : S.nextDirection = (S.n0, S) := by
      unfold Simplex.nextDirection
      rw [hn]
      simp only
      rw [if_pos (by rw [e1]; exact hX)]
    have hcross : 0 < -s * cross S.p0 S.p1 := by linarith
    obtain ⟨S', h⟩ := iterate_core hA hB (S := S) (d := S.n0) (q := S.p0) (p := S.p1) (t := -s) (by rw [hnd]) (by rw [hnd]; show 2 ≤ S.nIterations; omega) (by rw [hnd])
      (by rw [hnd]; simp [R.keep]) (by rcases R.sgn with h | h <;> simp [h])
      (by
        intro x
        rw [R.n0 x]
        simp only [Vec2.cross, Vec2.sub_x, Vec2.sub_y]; ring) hcross R.d0 R.d1
      (by
        intro x hx
        rw [hnd] at hx
        rcases hpt x hx with rfl | rfl | rfl
        · rw [R.n0]
          have : cross S.p0 (S.p1 - S.p0) = cross S.p0 S.p1 := by simp only [Vec2.cross, Vec2.sub_x, Vec2.sub_y]; ring
          rw [this]; exact hX
        · rw [R.n0]
          have : cross S.p1 (S.p1 - S.p0) = cross S.p0 S.p1 := by simp only [Vec2.cross, Vec2.sub_x, Vec2.sub_y]; ring
          rw [this]; exact hX
        · rw [R.n0]
          have : s * cross S.p2 (S.p1 - S.p0) = s * cross S.p0 S.p1 - s * (cross S.p0 S.p1 + cross S.p1 S.p2 + cross S.p2 S.p0) := by
            simp only [Vec2.cross, Vec2.sub_x, Vec2.sub_y]; ring
          rw [this]; linarith)
    refine ⟨S', ?_⟩
    rcases h with h | h | ⟨h, R', hq, hp⟩
    · exact Or.inl h
    · exact Or.inr (Or.inl h)
    · refine Or.inr (Or.inr ⟨h, -s, R', ?_⟩)
      unfold seen
      rw [hq, hp]
      have hZ : 0 < s * cross S.p2 S.p0 := by
        have : s * (cross S.p0 S.p1 + cross S.p2 S.p0) = s * cross S.p0 S.p1 + s * cross S.p2 S.p0 := by ring
        rw [this] at beyond
        linarith
      refine countP_lt (fun x _ hx => ?_) (mem_diffs.2 R.d0.diff) ?_ ?_
      · unfold inCone at hx ⊢
        simp only [Bool.and_eq_true, decide_eq_true_eq] at hx ⊢
        obtain ⟨h1, h2⟩ := hx
        constructor
        · -- through the combination of `p1` and `p2`
          have key : (s * cross S.p1 S.p2) * (-s * cross S.p0 x) = (s * cross x S.p2) * (-(s * cross S.p0 S.p1)) + (s * cross S.p1 x) * (s * cross S.p2 S.p0) := by
            simp only [Vec2.cross]; ring
          have : 0 ≤ (s * cross S.p1 S.p2) * (-s * cross S.p0 x) := by
            rw [key]
            exact add_nonneg (mul_nonneg h2 (by linarith)) (mul_nonneg h1 hZ.le)
          exact nonneg_of_mul_nonneg_right this side
        · have : -s * cross x S.p1 = s * cross S.p1 x := by simp only [Vec2.cross]; ring
          rw [this]; exact h1
      · unfold inCone
        rw [Bool.and_eq_false_iff]
        right
        rw [decide_eq_false_iff_not, not_le]
        have : s * cross S.p0 S.p2 = -(s * cross S.p2 S.p0) := by simp only [Vec2.cross]; ring
        rw [this]; linarith
      · unfold inCone
        simp only [Bool.and_eq_true, decide_eq_true_eq]
        refine ⟨?_, hcross.le⟩
        have : -s * cross S.p0 S.p0 = 0 := by simp only [Vec2.cross]; ring
        rw [this]
  · have hZ : s * cross S.p2 S.p0 < 0 := R.outside.resolve_left hX
    have hXp : 0 < s * cross S.p0 S.p1 := by
      have : s * (cross S.p0 S.p1 + cross S.p2 S.p0) = s * cross S.p0 S.p1 + s * cross S.p2 S.p0 := by ring
      rw [this] at beyond
      linarith
    have hnd : S.nextDirection = (S.n1, { S with keepBottomPoint := true }) := by
      unfold Simplex.nextDirection
      rw [hn]
      simp only
      rw [if_neg (by rw [e1]; exact hX)]
    have hcross : 0 < s * cross S.p0 S.p2 := by
      have : s * cross S.p0 S.p2 = -(s * cross S.p2 S.p0) := by simp only [Vec2.cross]; ring
      rw [this]; linarith
    obtain ⟨S', h⟩ := iterate_core hA hB (S := S) (d := S.n1) (q := S.p0) (p := S.p2) (t := s) (by rw [hnd]) (by rw [hnd]; show 2 ≤ S.nIterations; omega) (by rw [hnd])
      (by rw [hnd]; simp) R.sgn R.n1 hcross R.d0 R.d2
      (by
        intro x hx
        rw [hnd] at hx
        have hx' : S.hasPoint x = true := hx
        rcases hpt x hx' with rfl | rfl | rfl
        · rw [R.n1]
          have : s * cross S.p0 (S.p0 - S.p2) = s * cross S.p2 S.p0 := by simp only [Vec2.cross, Vec2.sub_x, Vec2.sub_y]; ring
          rw [this]; exact hZ
        · rw [R.n1]
          have : s * cross S.p1 (S.p0 - S.p2) = s * cross S.p2 S.p0 - s * (cross S.p0 S.p1 + cross S.p1 S.p2 + cross S.p2 S.p0) := by
            simp only [Vec2.cross, Vec2.sub_x, Vec2.sub_y]; ring
          rw [this]; linarith
        · rw [R.n1]
          have : s * cross S.p2 (S.p0 - S.p2) = s * cross S.p2 S.p0 := by simp only [Vec2.cross, Vec2.sub_x, Vec2.sub_y]; ring
          rw [this]; exact hZ)
    refine ⟨S', ?_⟩
    rcases h with h | h | ⟨h, R', hq, hp⟩
    · exact Or.inl h
    · exact Or.inr (Or.inl h)
    · refine Or.inr (Or.inr ⟨h, s, R', ?_⟩)
      unfold seen
      rw [hq, hp]
      refine countP_lt (fun x _ hx => ?_) (mem_diffs.2 R.d0.diff) ?_ ?_
      · unfold inCone at hx ⊢
        simp only [Bool.and_eq_true, decide_eq_true_eq] at hx ⊢
        obtain ⟨h1, h2⟩ := hx
        refine ⟨?_, h2⟩
        have key : (s * cross S.p1 S.p2) * (s * cross S.p0 x) = (s * cross x S.p2) * (s * cross S.p0 S.p1) + (s * cross S.p1 x) * (-(s * cross S.p2 S.p0)) := by
          simp only [Vec2.cross]; ring
        have : 0 ≤ (s * cross S.p1 S.p2) * (s * cross S.p0 x) := by
          rw [key]
          exact add_nonneg (mul_nonneg h2 hXp.le) (mul_nonneg h1 (by linarith))
        exact nonneg_of_mul_nonneg_right this side
      · unfold inCone
        rw [Bool.and_eq_false_iff]
        left
        rw [decide_eq_false_iff_not, not_le]
        have : s * cross S.p1 S.p0 = -(s * cross S.p0 S.p1) := by simp only [Vec2.cross]; ring
        rw [this]; linarith
      · unfold inCone
        simp only [Bool.and_eq_true, decide_eq_true_eq]
        refine ⟨?_, hcross.le⟩
        have : s * cross S.p0 S.p0 = 0 := by simp only [Vec2.cross]; ring
        rw [this]

/-- From a triangle on, the algorithm ends with the right answer. -/
theorem run_ready {A B : List (Vec2 K)} (hA : A ≠ []) (hB : B ≠ []) (m : Nat) : ∀ {S : Simplex K} {s : K}, Ready A B S s → A.length * B.length < seen A B S s + m →
    ∃ S' c, (∀ fuel, m ≤ fuel → run A B fuel S = some (.ok (S', c))) ∧ (c = true → Good A B S') ∧ (c = false → Apart A B) := by
  induction m with
  | zero =>
    intro S s _ h
    have := seen_le A B S s
    omega
  | succ m ih =>
    intro S s R h
    obtain ⟨S', hS'⟩ := iterate_ready hA hB R
    rcases hS' with ⟨e, hc⟩ | ⟨e, hc⟩ | ⟨e, s', R', hlt⟩
    · refine ⟨S', true, fun fuel hf => ?_, by simp [hc], by simp [hc]⟩
      obtain ⟨f, rfl⟩ : ∃ f, fuel = f + 1 := ⟨fuel - 1, by omega⟩
      rw [run, e]
    · refine ⟨S', false, fun fuel hf => ?_, by simp [hc], by simp [hc]⟩
      obtain ⟨f, rfl⟩ : ∃ f, fuel = f + 1 := ⟨fuel - 1, by omega⟩
      rw [run, e]
    · obtain ⟨S'', c, hr, hc⟩ := ih R' (by omega)
      refine ⟨S'', c, fun fuel hf => ?_, hc⟩
      obtain ⟨f, rfl⟩ : ∃ f, fuel = f + 1 := ⟨fuel - 1, by omega⟩
      rw [run, e]
      exact hr f (by omega)

/-- The direction the algorithm starts with. -/
def startDir (d : Vec2 K) : Vec2 K := if d = 0 then ⟨1, 0⟩ else d

theorem startDir_ne (d : Vec2 K) : startDir d ≠ 0 := by
  unfold startDir
  split_ifs with h
  · intro e
    have := congrArg Vec2.x e
    simp at this
  · exact h

theorem mk'_dir (d : Vec2 K) : (Simplex.mk' d).initialSearchDir = startDir d := by
  unfold Simplex.mk' startDir
  by_cases h : d = 0
  · subst h; simp
  · have : ¬(d.x = 0 ∧ d.y = 0) := fun e => h (Vec2.ext e.1 e.2)
    simp [h, this]

/-- All the differences are normal to `d`. -/
def Flat (A B : List (Vec2 K)) (d : Vec2 K) : Prop := ∀ a ∈ A, ∀ b ∈ B, dot (a - b) d = 0

/-- Two vectors normal to the same one are parallel. -/
theorem cross_of_normal {d p q : Vec2 K} (hd : d ≠ 0) (hp : dot p d = 0) (hq : dot q d = 0) : cross p q = 0 := by
  simp only [Vec2.dot_def] at hp hq
  unfold Vec2.cross
  by_cases hx : d.x = 0
  · have hy : d.y ≠ 0 := fun hy => hd (Vec2.ext hx hy)
    rw [hx] at hp hq
    have h1 : p.y = 0 := by
      have : p.y * d.y = 0 := by linarith
      exact (mul_eq_zero.1 this).resolve_right hy
    have h2 : q.y = 0 := by
      have : q.y * d.y = 0 := by linarith
      exact (mul_eq_zero.1 this).resolve_right hy
    rw [h1, h2]; ring
  · have : d.x * (p.x * q.y - p.y * q.x) = 0 := by linear_combination q.y * hp - p.y * hq
    exact (mul_eq_zero.1 this).resolve_left hx

/-- `x` is a support point in two independent directions. -/
def Corner (A B : List (Vec2 K)) (x : Vec2 K) : Prop := ∃ d e, cross d e ≠ 0 ∧ IsSupport A B d x ∧ IsSupport A B e x

/-- The interiors of the hulls share a point: in every direction, some difference goes beyond the origin. -/
def Overlap (A B : List (Vec2 K)) : Prop := ∀ n : Vec2 K, n ≠ 0 → ∃ x, Diff A B x ∧ 0 < dot x n

/-- The flat triangle that the algorithm may end with: a segment through the origin, one of its ends being there twice. -/
structure Thin (A B : List (Vec2 K)) (S : Simplex K) : Prop where
  e1 : Extreme A B S.p1
  e2 : Extreme A B S.p2
  corner : Corner A B S.p0
  twice : S.p0 = S.p1 ∨ S.p0 = S.p2
  through : ∃ t : K, t < 0 ∧ S.p1.x = t * S.p2.x ∧ S.p1.y = t * S.p2.y

/-- The triangle is on a line through the origin, which is one of its vertices or between the last two. -/
structure OnLine (A B : List (Vec2 K)) (S : Simplex K) : Prop where
  d0 : Diff A B S.p0
  d1 : Diff A B S.p1
  d2 : Diff A B S.p2
  c01 : cross S.p0 S.p1 = 0
  c12 : cross S.p1 S.p2 = 0
  c20 : cross S.p2 S.p0 = 0
  through : S.p0 = 0 ∨ S.p1 = 0 ∨ S.p2 = 0 ∨ ∃ t : K, t < 0 ∧ S.p1.x = t * S.p2.x ∧ S.p1.y = t * S.p2.y

theorem make_spec {A B : List (Vec2 K)} (hA : A ≠ []) (hB : B ≠ []) (d : Vec2 K) :
    ∃ S c, (∀ fuel, A.length * B.length + 4 ≤ fuel → make fuel A B d = some (.ok (S, c))) ∧
      (c = false → Apart A B ∧ ¬Flat A B (startDir d)) ∧ (c = true → Common A B ∨ Flat A B (startDir d)) ∧ (c = true → Overlap A B → Good A B S ∨ Thin A B S) ∧
      (c = true → ¬Flat A B (startDir d) → Good A B S ∨ OnLine A B S) := by
  set d0 := startDir d with hd0
  have hne : d0 ≠ 0 := startDir_ne d
  -- first iteration
  obtain ⟨p, ep, hp, cp⟩ := support_ok hA hB hne
  set S0 : Simplex K := Simplex.mk' d with hS0
  have hdir0 : S0.nextDirection = (d0, S0) := by
    have e : S0.nIterations = 0 := rfl
    unfold Simplex.nextDirection
    rw [e]
    simp only
    rw [hS0, mk'_dir]
  set S1 : Simplex K := S0.pushPoint p with hS1
  have it1 : iterate A B S0 = .ok (S1, if dot p d0 < 0 then some false else none) := by
    have e : S1.nIterations = 1 := rfl
    unfold iterate
    simp only [hdir0, ep, Outcome.bind, decide_eq_true_eq]
    rw [← hS1, e]
    simp
  have fl : Flat A B d0 → ∀ x, Diff A B x → dot x d0 = 0 := by
    rintro h _ ⟨a, ha, b, hb, rfl⟩
    exact h a ha b hb
  by_cases h1 : dot p d0 < 0
  · refine ⟨S1, false, fun fuel hf => ?_, fun _ => ⟨⟨d0, hne, fun x hx => lt_of_le_of_lt (hp.2 x hx) h1⟩, fun h => ?_⟩, by simp, by simp, by simp⟩
    · obtain ⟨f, rfl⟩ : ∃ f, fuel = f + 1 := ⟨fuel - 1, by omega⟩
      rw [make, run, it1, if_pos h1]
    · rw [fl h p hp.1] at h1
      exact lt_irrefl _ h1
  rw [if_neg h1] at it1
  -- second iteration
  set d1 : Vec2 K := if 0 < dot d0 p then -p else -d0 with hd1
  have hdir1 : S1.nextDirection = (d1, S1) := by
    have e : S1.nIterations = 1 := rfl
    unfold Simplex.nextDirection
    rw [e]
    have e' : S1.initialSearchDir = d0 := mk'_dir d
    have e'' : S1.p0 = p := rfl
    simp only [e', e'', hd1]
  have comm : dot d0 p = dot p d0 := by simp only [Vec2.dot_def]; ring
  have hne1 : d1 ≠ 0 := by
    rw [hd1]
    split_ifs with h
    · refine neg_ne_zero' fun e => ?_
      rw [e] at h
      simp [Vec2.dot_def] at h
    · exact neg_ne_zero' hne
  obtain ⟨q, eq, hq, cq⟩ := support_ok hA hB hne1
  set S2 : Simplex K := S1.pushPoint q with hS2
  have it2 : iterate A B S1 = .ok (S2, if dot q d1 < 0 then some false else none) := by
    have e : S2.nIterations = 2 := rfl
    unfold iterate
    simp only [hdir1, eq, Outcome.bind, decide_eq_true_eq]
    rw [← hS2, e]
    simp
  by_cases h2 : dot q d1 < 0
  · refine ⟨S2, false, fun fuel hf => ?_, fun _ => ⟨⟨d1, hne1, fun x hx => lt_of_le_of_lt (hq.2 x hx) h2⟩, fun h => ?_⟩, by simp, by simp, by simp⟩
    · obtain ⟨f, rfl⟩ : ∃ f, fuel = f + 2 := ⟨fuel - 2, by omega⟩
      rw [make, run, it1]
      simp only
      rw [run, it2, if_pos h2]
    · have hp0 := fl h p hp.1
      have hq0 := fl h q hq.1
      rw [hd1, if_neg (by rw [comm, hp0]; exact lt_irrefl _)] at h2
      simp only [Vec2.dot_def, Vec2.neg_x, Vec2.neg_y] at h2 hq0
      linarith
  rw [if_neg h2] at it2
  have S2n : S2.nIterations = 2 := rfl
  have S2p0 : S2.p0 = q := rfl
  have S2p1 : S2.p1 = p := rfl
  have S2k : S2.keepBottomPoint = false := rfl
  have S2d : S2.initialSearchDir = d0 := mk'_dir d
  have exq : Extreme A B q := ⟨d1, hne1, hq⟩
  have exp : Extreme A B p := ⟨d0, hne, hp⟩
  by_cases hk : cross p q = 0
  · -- the points and the origin are on a line
    have hdir2 : S2.nextDirection = (d0.perp, S2) := by
      unfold Simplex.nextDirection
      rw [S2n]
      simp only [S2p0, S2p1, S2d, hk, if_true]
    have hne2 : d0.perp ≠ 0 := by
      intro e
      have h1 := congrArg Vec2.x e
      have h2 := congrArg Vec2.y e
      simp [Vec2.perp] at h1 h2
      exact hne (Vec2.ext h2 h1)
    obtain ⟨v, ev, hv, cv⟩ := support_ok hA hB hne2
    have hY : cross q p = 0 := by
      have : cross q p = -cross p q := by simp only [Vec2.cross]; ring
      rw [this, hk, neg_zero]
    have con := contains_push S2 v
    simp only [S2p0, S2p1, S2k, hY, Bool.false_eq_true, if_false] at con
    -- in all cases it is said that the triangle contains the origin
    have hall : (S2.pushPoint v).containsOrigin = true ∧ (Common A B ∨ Flat A B d0) ∧ (Overlap A B → Good A B (S2.pushPoint v) ∨ Thin A B (S2.pushPoint v)) ∧
        (¬Flat A B d0 → Good A B (S2.pushPoint v) ∨ OnLine A B (S2.pushPoint v)) := by
      by_cases hpd : 0 < dot p d0
      · have hp0 : p ≠ 0 := by rintro rfl; simp [Vec2.dot_def] at hpd
        obtain ⟨t, tx, ty⟩ := multiple_of_cross hp0 hk
        have hd1' : d1 = -p := by rw [hd1, if_pos (by rw [comm]; exact hpd)]
        have hpp : 0 < p.x * p.x + p.y * p.y := by
          rcases lt_or_eq_of_le (add_nonneg (mul_self_nonneg p.x) (mul_self_nonneg p.y)) with h | h
          · exact h
          · exfalso
            have hx := mul_self_nonneg p.x
            have hy := mul_self_nonneg p.y
            exact hp0 (Vec2.ext (mul_self_eq_zero.1 (by linarith)) (mul_self_eq_zero.1 (by linarith)))
        have ht : t ≤ 0 := by
          rw [hd1'] at h2
          simp only [Vec2.dot_def, Vec2.neg_x, Vec2.neg_y, tx, ty] at h2
          have : 0 ≤ -t * (p.x * p.x + p.y * p.y) := by linarith
          have := nonneg_of_mul_nonneg_left this hpp
          linarith
        have hX : cross v q = -t * cross p v := by
          simp only [Vec2.cross, tx, ty]; ring
        have hcon : (S2.pushPoint v).containsOrigin = true := by
          rw [con, hX]
          rcases le_or_gt 0 (cross p v) with h | h
          · left
            have := mul_nonneg (neg_nonneg.2 ht) h
            exact ⟨by linarith, this, le_refl _, h⟩
          · right
            have := mul_nonneg (neg_nonneg.2 ht) (neg_nonneg.2 h.le)
            exact ⟨by linarith, by linarith, le_refl _, h.le⟩
        have hgood : cross p v ≠ 0 → Good A B (S2.pushPoint v) := by
          intro hz
          refine ⟨⟨d0.perp, hne2, hv⟩, exq, exp, ?_⟩
          show (0 < cross v q + cross q p + cross p v ∧ _) ∨ (cross v q + cross q p + cross p v < 0 ∧ _)
          have := con.1 hcon
          rcases this with ⟨a, b, c, e⟩ | ⟨a, b, c, e⟩
          · left
            refine ⟨?_, b, ?_, e⟩
            · rw [hY]
              refine lt_of_le_of_ne a fun h => hz ?_
              have : 0 = (1 - t) * cross p v := by rw [hX] at h; linarith
              exact (mul_eq_zero.1 this.symm).resolve_left (by linarith)
            · show 0 ≤ cross q p; rw [hY]
          · right
            exact ⟨by rw [hY]; exact a, b, by show cross q p ≤ 0; rw [hY], e⟩
        refine ⟨hcon, Or.inl ?_, ?_, ?_⟩
        · refine common_of_combination hp.1 hq.1 hq.1 (neg_nonneg.2 ht) zero_le_one (le_refl (0 : K)) (by linarith) ?_ ?_
          · rw [tx]; ring
          · rw [ty]; ring
        · intro O
          have ht' : t < 0 := by
            obtain ⟨x, hx, hpos⟩ := O d1 hne1
            have := lt_of_lt_of_le hpos (hq.2 x hx)
            rw [hd1'] at this
            simp only [Vec2.dot_def, Vec2.neg_x, Vec2.neg_y, tx, ty] at this
            have h' : 0 < -t * (p.x * p.x + p.y * p.y) := by linarith
            have := (mul_pos_iff_of_pos_right hpp).1 h'
            linarith
          by_cases hz : cross p v = 0
          · right
            have hve : 0 < dot v d0.perp := by
              obtain ⟨x, hx, hpos⟩ := O d0.perp hne2
              exact lt_of_lt_of_le hpos (hv.2 x hx)
            obtain ⟨r, rx, ry⟩ := multiple_of_cross hp0 hz
            have hr1 : r ≤ 1 := by
              have := hp.2 v hv.1
              have e : dot v d0 = r * dot p d0 := by simp only [Vec2.dot_def, rx, ry]; ring
              rw [e] at this
              have h' : 0 ≤ (1 - r) * dot p d0 := by linarith
              have := nonneg_of_mul_nonneg_left h' hpd
              linarith
            have hrt : t ≤ r := by
              have := hq.2 v hv.1
              rw [hd1'] at this
              have e1 : dot v (-p) = -r * (p.x * p.x + p.y * p.y) := by simp only [Vec2.dot_def, Vec2.neg_x, Vec2.neg_y, rx, ry]; ring
              have e2 : dot q (-p) = -t * (p.x * p.x + p.y * p.y) := by simp only [Vec2.dot_def, Vec2.neg_x, Vec2.neg_y, tx, ty]; ring
              rw [e1, e2] at this
              have h' : 0 ≤ (r - t) * (p.x * p.x + p.y * p.y) := by linarith
              have := nonneg_of_mul_nonneg_left h' hpp
              linarith
            have ev' : dot v d0.perp = r * dot p d0.perp := by simp only [Vec2.dot_def, rx, ry]; ring
            have eq' : dot q d0.perp = t * dot p d0.perp := by simp only [Vec2.dot_def, tx, ty]; ring
            have l1 := hv.2 p hp.1
            have l2 := hv.2 q hq.1
            rw [ev'] at l1 l2 hve
            rw [eq'] at l2
            have hv12 : v = q ∨ v = p := by
              rcases lt_trichotomy (dot p d0.perp) 0 with h | h | h
              · left
                have h' : 0 ≤ (t - r) * (-dot p d0.perp) := by linarith
                have := nonneg_of_mul_nonneg_left h' (neg_pos.2 h)
                have e : r = t := by linarith
                exact Vec2.ext (by rw [rx, tx, e]) (by rw [ry, ty, e])
              · rw [h] at hve; simp at hve
              · right
                have h' : 0 ≤ (r - 1) * dot p d0.perp := by linarith
                have := nonneg_of_mul_nonneg_left h' h
                have e : r = 1 := by linarith
                exact Vec2.ext (by rw [rx, e, one_mul]) (by rw [ry, e, one_mul])
            have dd : 0 < d0.x * d0.x + d0.y * d0.y := by
              rcases lt_or_eq_of_le (add_nonneg (mul_self_nonneg d0.x) (mul_self_nonneg d0.y)) with h | h
              · exact h
              · exfalso
                have hx := mul_self_nonneg d0.x
                have hy := mul_self_nonneg d0.y
                exact hne (Vec2.ext (mul_self_eq_zero.1 (by linarith)) (mul_self_eq_zero.1 (by linarith)))
            refine ⟨exq, exp, ?_, hv12, t, ht', tx, ty⟩
            show Corner A B v
            rcases hv12 with h | h
            · refine ⟨d1, d0.perp, ?_, ?_, hv⟩
              · rw [hd1']
                intro e
                simp [Vec2.cross, Vec2.perp] at e
                simp only [Vec2.dot_def] at hpd
                first
                  | linarith
                  | (simp [Vec2.cross, Vec2.perp_def] at e; linarith)
              · rw [h]; exact hq
            · refine ⟨d0, d0.perp, ?_, ?_, hv⟩
              · intro e
                simp [Vec2.cross, Vec2.perp] at e
                linarith
              · rw [h]; exact hp
          · exact Or.inl (hgood hz)
        · intro _
          by_cases hz : cross p v = 0
          · right
            refine ⟨hv.1, hq.1, hp.1, ?_, hY, hz, ?_⟩
            · show cross v q = 0
              rw [hX, hz, mul_zero]
            · rcases lt_or_eq_of_le ht with h | h
              · exact Or.inr (Or.inr (Or.inr ⟨t, h, tx, ty⟩))
              · refine Or.inr (Or.inl ?_)
                show q = 0
                exact Vec2.ext (by rw [tx, h, zero_mul]; rfl) (by rw [ty, h, zero_mul]; rfl)
          · exact Or.inl (hgood hz)
      · have hpd0 : dot p d0 = 0 := le_antisymm (not_lt.1 hpd) (not_lt.1 h1)
        have noO : ¬Overlap A B := by
          intro O
          obtain ⟨x, hx, hpos⟩ := O d0 hne
          have := hp.2 x hx
          linarith
        by_cases hp0 : p = 0
        · have e0 : cross p v = 0 := by rw [hp0]; simp [Vec2.cross]
          refine ⟨?_, Or.inl ?_, fun O => absurd O noO, fun _ => ?_⟩
          · rw [con, hp0]
            have e : cross (0 : Vec2 K) v = 0 := by simp [Vec2.cross]
            rw [e]
            rcases le_or_gt 0 (cross v q) with h | h
            · left; exact ⟨by linarith, h, le_refl _, le_refl _⟩
            · right; exact ⟨by linarith, h.le, le_refl _, le_refl _⟩
          · refine common_of_combination hp.1 hp.1 hp.1 zero_le_one (le_refl (0 : K)) (le_refl (0 : K)) (by norm_num) ?_ ?_ <;> simp [hp0]
          · by_cases hX : cross v q = 0
            · exact Or.inr ⟨hv.1, hq.1, hp.1, hX, hY, e0, Or.inr (Or.inr (Or.inl hp0))⟩
            · left
              refine ⟨⟨d0.perp, hne2, hv⟩, exq, exp, ?_⟩
              show (0 < cross v q + cross q p + cross p v ∧ 0 ≤ cross v q ∧ 0 ≤ cross q p ∧ 0 ≤ cross p v) ∨
                (cross v q + cross q p + cross p v < 0 ∧ cross v q ≤ 0 ∧ cross q p ≤ 0 ∧ cross p v ≤ 0)
              rw [hY, e0]
              rcases lt_or_gt_of_ne hX with h | h
              · right; exact ⟨by linarith, h.le, le_refl _, le_refl _⟩
              · left; exact ⟨by linarith, h.le, le_refl _, le_refl _⟩
        · obtain ⟨t, tx, ty⟩ := multiple_of_cross hp0 hk
          have hd1' : d1 = -d0 := by rw [hd1, if_neg (by rw [comm]; exact hpd)]
          have hq0 : dot q d0 = 0 := by
            have : dot q d0 = t * dot p d0 := by simp only [Vec2.dot_def, tx, ty]; ring
            rw [this, hpd0, mul_zero]
          have hflat : ∀ x, Diff A B x → dot x d0 = 0 := by
            intro x hx
            have a := hp.2 x hx
            have b := hq.2 x hx
            rw [hd1'] at b
            simp only [Vec2.dot_def, Vec2.neg_x, Vec2.neg_y] at a b hq0 hpd0 ⊢
            linarith
          have hfl : Flat A B d0 := fun a ha b hb => hflat _ ⟨a, ha, b, hb, rfl⟩
          refine ⟨?_, Or.inr hfl, fun O => absurd O noO, fun h => absurd hfl h⟩
          have a := cross_of_normal hne (hflat v hv.1) (hflat q hq.1)
          have b := cross_of_normal hne (hflat p hp.1) (hflat v hv.1)
          rw [con, a, b]
          left; simp
    have it3 : iterate A B S2 = .ok (S2.pushPoint v, some true) := by
      have e : (S2.pushPoint v).nIterations = 3 := rfl
      unfold iterate
      simp only [hdir2, ev, Outcome.bind, e, hall.1]
      simp
    refine ⟨S2.pushPoint v, true, fun fuel hf => ?_, by simp, fun _ => hall.2.1, fun _ => hall.2.2.1, fun _ => hall.2.2.2⟩
    obtain ⟨f, rfl⟩ : ∃ f, fuel = f + 3 := ⟨fuel - 3, by omega⟩
    rw [make, run, it1]
    simp only
    rw [run, it2]
    simp only
    rw [run, it3]
  · -- third iteration, away from the line
    have nf : ¬Flat A B d0 := fun h => hk (cross_of_normal hne (fl h p hp.1) (fl h q hq.1))
    have hdir2 : S2.nextDirection = ((q - p).perp (decide (cross p q < 0)), S2) := by
      unfold Simplex.nextDirection
      rw [S2n]
      simp only [S2p0, S2p1, hk, if_false]
    have ht : ∃ t : K, (t = 1 ∨ t = -1) ∧ (∀ x, dot x ((q - p).perp (decide (cross p q < 0))) = t * cross x (q - p)) ∧ 0 < t * cross q p := by
      rcases lt_or_gt_of_ne hk with h | h
      · refine ⟨1, Or.inl rfl, fun x => ?_, ?_⟩
        · simp only [h, decide_true, perp_true]; simp only [Vec2.dot_def, Vec2.cross]; ring
        · simp only [Vec2.cross] at h ⊢; linarith
      · refine ⟨-1, Or.inr rfl, fun x => ?_, ?_⟩
        · simp only [not_lt.2 h.le, decide_false, perp_false]; simp only [Vec2.dot_def, Vec2.cross]; ring
        · simp only [Vec2.cross] at h ⊢; linarith
    obtain ⟨t, ht1, ht2, ht3⟩ := ht
    obtain ⟨S3, h⟩ := iterate_core hA hB (S := S2) (d := (q - p).perp (decide (cross p q < 0))) (q := q) (p := p) (t := t) (by rw [hdir2]) (by rw [hdir2]; exact S2n.ge) (by rw [hdir2]; exact S2p0)
      (by rw [hdir2]; simp [S2k, S2p1]) ht1 ht2 ht3 exq exp
      (by
        intro x hx
        rw [hdir2] at hx
        have hx' : x = q ∨ x = p := by
          unfold Simplex.hasPoint at hx
          simp only [S2n, S2p0, S2p1, Bool.or_eq_true, Bool.and_eq_true, decide_eq_true_eq] at hx
          rcases hx with (⟨-, h⟩ | ⟨-, h⟩) | ⟨h, -⟩
          · exact Or.inl h.symm
          · exact Or.inr h.symm
          · omega
        rw [ht2]
        rcases hx' with rfl | rfl
        · have : t * cross x (x - p) = -(t * cross x p) := by simp only [Vec2.cross, Vec2.sub_x, Vec2.sub_y]; ring
          rw [this]; linarith
        · have : t * cross x (q - x) = -(t * cross q x) := by simp only [Vec2.cross, Vec2.sub_x, Vec2.sub_y]; ring
          rw [this]; linarith)
    have hrun : ∀ f, make (f + 2) A B d = run A B f S2 := by
      intro f
      rw [make, run, it1]
      simp only
      rw [run, it2]
    rcases h with ⟨h, hg⟩ | ⟨h, hg⟩ | ⟨h, R, -, -⟩
    · refine ⟨S3, true, fun fuel hf => ?_, by simp, fun _ => Or.inl hg.common, fun _ _ => Or.inl hg, fun _ _ => Or.inl hg⟩
      obtain ⟨f, rfl⟩ : ∃ f, fuel = f + 1 + 2 := ⟨fuel - 3, by omega⟩
      rw [hrun, run, h]
    · refine ⟨S3, false, fun fuel hf => ?_, fun _ => ⟨hg, nf⟩, by simp, by simp, by simp⟩
      obtain ⟨f, rfl⟩ : ∃ f, fuel = f + 1 + 2 := ⟨fuel - 3, by omega⟩
      rw [hrun, run, h]
    · obtain ⟨S', c, hr, hyes, hno⟩ := run_ready hA hB (A.length * B.length + 1) R (by omega)
      refine ⟨S', c, fun fuel hf => ?_, fun hc => ⟨hno hc, nf⟩, fun hc => Or.inl (hyes hc).common, fun hc _ => Or.inl (hyes hc), fun hc _ => Or.inl (hyes hc)⟩
      obtain ⟨f, rfl⟩ : ∃ f, fuel = f + 1 + 2 := ⟨fuel - 3, by omega⟩
      rw [hrun, run, h]
      exact hr f (by omega)

end Simu.Gjk
