import Verif.Spec.Geometry
import Verif.Lemmas.Geometry
import Mathlib.Tactic.NormNum
import Mathlib.Algebra.Order.Field.Rat
import Mathlib.Data.Rat.Cast.Order
/-
Properties C14-C17: geometric properties of vertex loops, polygons, edges, support function.
-/
set_option linter.unusedSectionVars false
namespace Simu
variable {K : Type*} [Field K] [LinearOrder K] [IsStrictOrderedRing K]

/-! ### C16 -/

/-- C16: the edge range of `n ≥ 1` vertices yields exactly the `n` edges `(v_{i-1}, v_i)`, in order. -/
theorem C16_edges {α : Type*} (l : List α) (h : l ≠ []) :
    ∃ es, edgesOf l = .ok es ∧ es.length = l.length ∧
      ∀ i, es[i]? = (l[i]?).bind fun b => (l[(i + l.length - 1) % l.length]?).map fun a => (a, b) := by
  obtain ⟨n, v, rfl⟩ := exists_ofFn h
  refine ⟨_, edgesOf_ofFn v, by simp, fun i => ?_⟩
  by_cases hi : i < n + 1
  · have h2 : (i + (n + 1) - 1) % (n + 1) < n + 1 := Nat.mod_lt _ (by omega)
    simp only [List.length_ofFn, List.getElem?_ofFn, hi, h2, dite_true, Option.bind_some, Option.map_some]
    congr 3
    ext
    rw [Fin.sub_def]
    simp only [Fin.val_one']
    rcases n with _ | n
    · simp
    · rw [Nat.mod_eq_of_lt (show 1 < n + 1 + 1 by omega)]
      congr 1; omega
  · simp [hi]

example : edgesOf [10, 20, 30] = .ok [(30, 10), (10, 20), (20, 30)] := edgesOf_cons 10 [20, 30]
example : edgesOf [10] = .ok [(10, 10)] := edgesOf_cons 10 []

/-- C16: iterating the edges of an empty range is undefined. -/
theorem C16_empty {α : Type*} : edgesOf ([] : List α) = .ub := rfl

/-- The `i`th edge of a loop of `n` vertices. -/
def IsEdge (n : Nat) (e : EdgeIt) : Prop := e.dst < n ∧ e.src = (e.dst + n - 1) % n

/-- C16: `next` of the edge ending at vertex `i` is the edge ending at vertex `i+1` (mod `n`); it is an edge
of the loop and starts where the previous one ends. -/
theorem C16_next (n : Nat) (e : EdgeIt) (h : IsEdge n e) :
    ∃ e', e.next n = .ok e' ∧ IsEdge n e' ∧ e'.src = e.dst ∧ e'.dst = (e.dst + 1) % n := by
  obtain ⟨s, d⟩ := e
  obtain ⟨hd, hs⟩ := h
  simp only at hd hs
  have hn : n ≠ 0 := by omega
  by_cases hl : d + 1 = n
  · subst hl
    refine ⟨⟨d, 0⟩, ?_, ⟨by simp, by simp⟩, rfl, by simp⟩
    simp [EdgeIt.next, EdgeIt.incr, EdgeIt.last, EdgeIt.first]
  · refine ⟨⟨d, d + 1⟩, ?_, ⟨by simp; omega, ?_⟩, rfl, ?_⟩
    · simp [EdgeIt.next, EdgeIt.incr, EdgeIt.last, hd, hn]
      intro _ h; omega
    · simp only
      rw [show d + 1 + n - 1 = d + n by omega, Nat.add_mod_right, Nat.mod_eq_of_lt hd]
    · simp only; rw [Nat.mod_eq_of_lt (by omega)]

/-- C16: `previous` goes one edge back. -/
theorem C16_previous (n : Nat) (e : EdgeIt) (h : IsEdge n e) :
    ∃ e', e.previous n = .ok e' ∧ IsEdge n e' ∧ e'.dst = e.src := by
  obtain ⟨s, d⟩ := e
  obtain ⟨hd, hs⟩ := h
  simp only at hd hs
  have hn : n ≠ 0 := by omega
  have hsn : s < n := hs ▸ Nat.mod_lt _ (by omega)
  by_cases h0 : s = 0
  · subst h0
    refine ⟨⟨n - 1, 0⟩, by simp [EdgeIt.previous, EdgeIt.first, hn], ⟨by simp; omega, ?_⟩, rfl⟩
    simp only; rw [Nat.zero_add, Nat.mod_eq_of_lt (by omega)]
  · refine ⟨⟨s - 1, s⟩, by simp [EdgeIt.previous, h0], ⟨hsn, ?_⟩, rfl⟩
    simp only
    rw [show s + n - 1 = (s - 1) + n by omega, Nat.add_mod_right, Nat.mod_eq_of_lt (by omega)]

theorem IsEdge.ext {n : Nat} {e e' : EdgeIt} (h : IsEdge n e) (h' : IsEdge n e') (hd : e.dst = e'.dst) : e = e' := by
  obtain ⟨s, d⟩ := e; obtain ⟨s', d'⟩ := e'
  obtain ⟨_, h⟩ := h; obtain ⟨_, h'⟩ := h'
  simp only at *; subst hd; simp [h, h']

/-- C16: `next` and `previous` are mutually inverse. -/
theorem C16_inverse (n : Nat) (e : EdgeIt) (h : IsEdge n e) :
    (e.next n).bind (EdgeIt.previous n) = .ok e ∧ (e.previous n).bind (EdgeIt.next n) = .ok e := by
  have hn : 0 < n := by have := h.1; omega
  constructor
  · obtain ⟨e', h1, h2, h3, _⟩ := C16_next n e h
    obtain ⟨e'', h4, h5, h6⟩ := C16_previous n e' h2
    rw [h1, Outcome.bind_ok, h4, IsEdge.ext h5 h (h6.trans h3)]
  · obtain ⟨e', h1, h2, h3⟩ := C16_previous n e h
    obtain ⟨e'', h4, h5, h6, h7⟩ := C16_next n e' h2
    rw [h1, Outcome.bind_ok, h4, IsEdge.ext h5 h ?_]
    rw [h7, h3, h.2, Nat.mod_add_mod, show e.dst + n - 1 + 1 = e.dst + n by omega, Nat.add_mod_right,
      Nat.mod_eq_of_lt h.1]

example : IsEdge 3 ⟨2, 0⟩ ∧ EdgeIt.next 3 ⟨1, 2⟩ = .ok ⟨2, 0⟩ ∧ EdgeIt.previous 3 ⟨2, 0⟩ = .ok ⟨1, 2⟩ ∧
    EdgeIt.previous 3 ⟨0, 1⟩ = .ok ⟨2, 0⟩ := by
  unfold IsEdge; decide +kernel

/-! ### C14 -/

theorem reverse_ofFn {α : Type*} {n : Nat} (v : Fin n → α) : (List.ofFn v).reverse = List.ofFn fun i => v (Fin.rev i) := by
  apply List.ext_getElem
  · simp
  · intro i h1 h2
    simp only [List.getElem_reverse, List.getElem_ofFn, List.length_ofFn]
    congr 1
    ext
    simp only [List.length_reverse, List.length_ofFn] at h1
    simp [Fin.rev]; omega

theorem rotate_ofFn {α : Type*} {n : Nat} (v : Fin (n + 1) → α) : (List.ofFn v).rotate 1 = List.ofFn fun i => v (i + 1) := by
  apply List.ext_getElem
  · simp
  · intro i h1 h2
    rw [List.getElem_rotate]
    simp only [List.getElem_ofFn, List.length_ofFn]
    congr 1
    ext
    simp [Fin.val_add]

/-- C14: rotating the starting vertex changes nothing. -/
theorem C14_rotate (l : List (Vec2 K)) (k : Nat) : GeometricProperties.of (l.rotate k) = GeometricProperties.of l := by
  induction k with
  | zero => simp
  | succ k ih =>
    rw [← List.rotate_rotate, ← ih]
    by_cases h : l.rotate k = []
    · rw [h]; rfl
    · obtain ⟨n, v, hv⟩ := exists_ofFn h
      rw [hv, rotate_ofFn, of_ofFn, of_ofFn, cyc_rotate, cyc_rotate, cyc_rotate]

theorem finish_nondegenerate (A : K) (C : Vec2 K) (M : K) (h : A ≠ 0) :
    propsOf A C M = ⟨Vec2.sdiv C (6 * (A / 2)), A / 2, |M / 12 - A / 2 * Vec2.normSquared (Vec2.sdiv C (6 * (A / 2)))|, false⟩ := by
  simp [propsOf, GeometricProperties.finish, h]

theorem propsOf_degenerate (A : K) (C : Vec2 K) (M : K) : (propsOf A C M).isDegenerate = true ↔ A = 0 := by
  unfold propsOf GeometricProperties.finish
  by_cases h : A = 0 <;> simp [h]

theorem of_ne_nil {l : List (Vec2 K)} {g} (h : GeometricProperties.of l = .ok g) : l ≠ [] := by
  rintro rfl
  simp [GeometricProperties.of, C16_empty] at h

/-- C14: reversing a loop negates the signed area and keeps centroid and moment. -/
theorem C14_reverse (l : List (Vec2 K)) (g : GeometricProperties K) (h : GeometricProperties.of l = .ok g)
    (hd : g.isDegenerate = false) : GeometricProperties.of l.reverse = .ok { g with area := -g.area } := by
  obtain ⟨n, v, rfl⟩ := exists_ofFn (of_ne_nil h)
  rw [of_ofFn] at h
  obtain rfl := Outcome.ok.inj h
  have hA : cyc aTerm v ≠ 0 := fun hA => by
    have := (propsOf_degenerate (cyc aTerm v) (cyc cTerm v) (cyc mTerm v)).2 hA
    rw [hd] at this; cases this
  rw [reverse_ofFn, of_ofFn, cyc_rev, cyc_rev, cyc_rev]
  have e1 : cyc (fun a b => aTerm b a) v = -cyc aTerm v := by
    rw [cyc_congr (h := fun a b : Vec2 K => aTerm a b * -1) (fun a b => by simp [aTerm, Vec2.cross]; ring), cyc_mul]; ring
  have e2 : cyc (fun a b => cTerm b a) v = -cyc cTerm v := by
    unfold cyc
    rw [← Finset.sum_neg_distrib]
    exact Finset.sum_congr rfl fun i _ => by ext <;> simp [cTerm, Vec2.cross] <;> ring
  have e3 : cyc (fun a b => mTerm b a) v = -cyc mTerm v := by
    rw [cyc_congr (h := fun a b : Vec2 K => mTerm a b * -1)
      (fun a b => by simp [mTerm, Vec2.cross, Vec2.normSquared, Vec2.dot]; ring), cyc_mul]; ring
  rw [e1, e2, e3, finish_nondegenerate _ _ _ hA, finish_nondegenerate _ _ _ (neg_ne_zero.2 hA)]
  have hc : Vec2.sdiv (-cyc cTerm v) (6 * (-cyc aTerm v / 2)) = Vec2.sdiv (cyc cTerm v) (6 * (cyc aTerm v / 2)) := by
    ext <;> simp only [Vec2.sdiv_x, Vec2.sdiv_y, Vec2.neg_x, Vec2.neg_y] <;> field_simp
  rw [hc]
  simp only [Outcome.ok.injEq, GeometricProperties.mk.injEq, true_and, and_true]
  refine ⟨by ring, ?_⟩
  rw [← abs_neg]
  congr 1
  ring

/-- C14: translating a loop keeps area and moment and translates the centroid. -/
theorem C14_translate (l : List (Vec2 K)) (t : Vec2 K) (g : GeometricProperties K)
    (h : GeometricProperties.of l = .ok g) (hd : g.isDegenerate = false) :
    GeometricProperties.of (l.map (t + ·)) = .ok { g with centroid := t + g.centroid } := by
  obtain ⟨n, v, rfl⟩ := exists_ofFn (of_ne_nil h)
  rw [of_ofFn] at h
  obtain rfl := Outcome.ok.inj h
  have hA : cyc aTerm v ≠ 0 := fun hA => by
    have := (propsOf_degenerate (cyc aTerm v) (cyc cTerm v) (cyc mTerm v)).2 hA
    rw [hd] at this; cases this
  rw [List.map_ofFn, of_ofFn]
  simp only [Function.comp_def]
  rw [cyc_aTerm_translate, cyc_cTerm_translate, cyc_mTerm_translate, finish_nondegenerate _ _ _ hA,
    finish_nondegenerate _ _ _ hA]
  generalize cyc aTerm v = A at *
  generalize cyc cTerm v = C at *
  generalize cyc mTerm v = M at *
  have hc : Vec2.sdiv (C + (A * 3) • t) (6 * (A / 2)) = t + Vec2.sdiv C (6 * (A / 2)) := by
    ext <;> simp <;> field_simp <;> ring
  rw [hc]
  simp only [Outcome.ok.injEq, GeometricProperties.mk.injEq, true_and, and_true]
  congr 1
  simp only [Vec2.normSquared, Vec2.dot, Vec2.add_x, Vec2.add_y, Vec2.sdiv_x, Vec2.sdiv_y]
  field_simp
  ring

/-- C14: a loop is degenerate exactly when its area is zero. -/
theorem C14_degenerate (l : List (Vec2 K)) (g : GeometricProperties K) (h : GeometricProperties.of l = .ok g) :
    g.isDegenerate = true ↔ g.area = 0 := by
  obtain ⟨n, v, rfl⟩ := exists_ofFn (of_ne_nil h)
  rw [of_ofFn] at h
  obtain rfl := Outcome.ok.inj h
  rw [propsOf_degenerate]
  unfold propsOf GeometricProperties.finish
  by_cases h : cyc aTerm v = 0 <;> simp [h]

theorem sumTri_fan {M : Type*} [AddCommGroup M] (f : Vec2 K → Vec2 K → Vec2 K → M) (o : Vec2 K) (l : List (Vec2 K)) :
    sumTri f (fanOf o l) = pathSum (fun a b => f o a b) l := by
  induction l with
  | nil => rfl
  | cons a t ih =>
    cases t with
    | nil => rfl
    | cons b t => simp only [fanOf, sumTri, pathSum, ih]

theorem pathSum_congr {α M : Type*} [AddCommGroup M] {f g : α → α → M} (h : ∀ a b, f a b = g a b) (l : List α) :
    pathSum f l = pathSum g l := by
  have : f = g := by funext a b; exact h a b
  rw [this]

theorem pathSum_hom {α M N : Type*} [AddCommGroup M] [AddCommGroup N] (φ : M →+ N) (g : α → α → M) (l : List α) :
    pathSum (fun a b => φ (g a b)) l = φ (pathSum g l) := by
  induction l with
  | nil => simp [pathSum]
  | cons a t ih =>
    cases t with
    | nil => simp [pathSum]
    | cons b t => simp only [pathSum, ih, map_add]

theorem pathSum_add {α M : Type*} [AddCommGroup M] (f g : α → α → M) (l : List α) :
    pathSum (fun a b => f a b + g a b) l = pathSum f l + pathSum g l := by
  induction l with
  | nil => simp [pathSum]
  | cons a t ih =>
    cases t with
    | nil => simp [pathSum]
    | cons b t => simp only [pathSum, ih]; abel

theorem pathSum_mul {α : Type*} (g : α → α → K) (c : K) (l : List α) :
    pathSum (fun a b => g a b * c) l = pathSum g l * c :=
  pathSum_hom (AddMonoidHom.mulRight c) g l

theorem pathSum_dot {α : Type*} (g : α → α → Vec2 K) (c : Vec2 K) (l : List α) :
    pathSum (fun a b => Vec2.dot (g a b) c) l = Vec2.dot (pathSum g l) c :=
  pathSum_hom (⟨⟨fun v => Vec2.dot v c, by simp [Vec2.dot]⟩, fun x y => by simp [Vec2.dot]; ring⟩ : Vec2 K →+ K) g l

theorem pathSum_smul {α : Type*} (g : α → α → Vec2 K) (c : K) (l : List α) :
    pathSum (fun a b => c • g a b) l = c • pathSum g l :=
  pathSum_hom (⟨⟨fun v => c • v, by ext <;> simp⟩, fun x y => by ext <;> simp <;> ring⟩ : Vec2 K →+ Vec2 K) g l

/-- C14: the computed properties are those of the fan of triangles spanned by the first vertex: the area is the
sum of the signed areas, the centroid is the area weighted mean of the triangle centroids, and the moment is the
sum of the triangle moments transported to the centroid by the parallel axis theorem. -/
theorem C14_fan (o a : Vec2 K) (t : List (Vec2 K)) (g : GeometricProperties K)
    (h : GeometricProperties.of (o :: a :: t) = .ok g) (hd : g.isDegenerate = false) :
    g.area = sumTri triArea (fanOf o (a :: t)) ∧
    g.area • g.centroid = sumTri (fun A B C => triArea A B C • triCentroid A B C) (fanOf o (a :: t)) ∧
    g.momentOfArea = |sumTri (fun A B C => triMoment A B C + triArea A B C * distSq (triCentroid A B C) g.centroid)
      (fanOf o (a :: t))| := by
  rw [of_cons] at h
  obtain rfl := Outcome.ok.inj h
  set A := pathSum (fun a b => aTerm o a + aTerm a b + aTerm b o) (a :: t) with hAdef
  set C := pathSum (fun a b => cTerm o a + cTerm a b + cTerm b o) (a :: t) with hCdef
  set M := pathSum (fun a b => mTerm o a + mTerm a b + mTerm b o) (a :: t) with hMdef
  have hA : A ≠ 0 := fun hA => by
    have := (propsOf_degenerate A C M).2 hA
    rw [hd] at this; cases this
  have eA : pathSum (fun a b => triArea o a b) (a :: t) = A / 2 := by
    rw [div_eq_mul_inv, hAdef, ← pathSum_mul]
    exact pathSum_congr (fun a b => by simp [triArea, twiceArea, aTerm, Vec2.cross]; ring) _
  have eC : pathSum (fun a b => triArea o a b • triCentroid o a b) (a :: t) = (1 / 6 : K) • C := by
    rw [hCdef, ← pathSum_smul]
    exact pathSum_congr (fun a b => by
      ext <;> simp [triArea, triCentroid, twiceArea, cTerm, Vec2.cross] <;> ring) _
  rw [finish_nondegenerate _ _ _ hA]
  simp only [sumTri_fan]
  refine ⟨eA.symm, ?_, ?_⟩
  · rw [eC]; ext <;> simp <;> field_simp
  · have key : ∀ c : Vec2 K, pathSum (fun a b => triMoment o a b + triArea o a b * distSq (triCentroid o a b) c) (a :: t) =
        M / 12 - 2 * Vec2.dot ((1 / 6 : K) • C) c + A / 2 * Vec2.normSquared c := by
      intro c
      rw [div_eq_mul_inv M, hMdef, ← pathSum_mul, ← eA, ← eC, ← pathSum_dot, ← pathSum_mul, sub_eq_add_neg,
        ← mul_neg_one (2 * _), mul_comm 2 _, mul_assoc, ← pathSum_mul, ← pathSum_add, ← pathSum_add]
      exact pathSum_congr (fun a b => by
        simp [triMoment, triArea, triCentroid, twiceArea, distSq, mTerm, Vec2.cross, Vec2.dot, Vec2.normSquared]; ring) _
    rw [key]
    congr 1
    simp only [Vec2.normSquared, Vec2.dot, Vec2.smul_x, Vec2.smul_y, Vec2.sdiv_x, Vec2.sdiv_y]
    field_simp
    ring

/-- C14: rotating a loop by an angle of cosine `c` and sine `s` keeps area and moment and rotates the centroid. -/
theorem C14_rigid_rotation (l : List (Vec2 K)) (c s : K) (hcs : c * c + s * s = 1) (g : GeometricProperties K)
    (h : GeometricProperties.of l = .ok g) (hd : g.isDegenerate = false) :
    GeometricProperties.of (l.map fun p => ⟨c * p.x - s * p.y, s * p.x + c * p.y⟩) =
      .ok { g with centroid := ⟨c * g.centroid.x - s * g.centroid.y, s * g.centroid.x + c * g.centroid.y⟩ } := by
  obtain ⟨n, v, rfl⟩ := exists_ofFn (of_ne_nil h)
  rw [of_ofFn] at h
  obtain rfl := Outcome.ok.inj h
  have hA : cyc aTerm v ≠ 0 := fun hA => by
    have := (propsOf_degenerate (cyc aTerm v) (cyc cTerm v) (cyc mTerm v)).2 hA
    rw [hd] at this; cases this
  rw [List.map_ofFn, of_ofFn]
  simp only [Function.comp_def]
  have e1 : cyc aTerm (fun i => (⟨c * (v i).x - s * (v i).y, s * (v i).x + c * (v i).y⟩ : Vec2 K)) = cyc aTerm v := by
    unfold cyc
    refine Finset.sum_congr rfl fun i _ => ?_
    simp only [aTerm, Vec2.cross]
    linear_combination ((v (i - 1)).x * (v i).y - (v (i - 1)).y * (v i).x) * hcs
  have e3 : cyc mTerm (fun i => (⟨c * (v i).x - s * (v i).y, s * (v i).x + c * (v i).y⟩ : Vec2 K)) = cyc mTerm v := by
    unfold cyc
    refine Finset.sum_congr rfl fun i _ => ?_
    have q : ∀ p q : Vec2 K, Vec2.dot (⟨c * p.x - s * p.y, s * p.x + c * p.y⟩ : Vec2 K) ⟨c * q.x - s * q.y, s * q.x + c * q.y⟩ =
        Vec2.dot p q := fun p q => by
      simp only [Vec2.dot]; linear_combination (p.x * q.x + p.y * q.y) * hcs
    have r : ∀ p q : Vec2 K, Vec2.cross (⟨c * p.x - s * p.y, s * p.x + c * p.y⟩ : Vec2 K) ⟨c * q.x - s * q.y, s * q.x + c * q.y⟩ =
        Vec2.cross p q := fun p q => by
      simp only [Vec2.cross]; linear_combination (p.x * q.y - p.y * q.x) * hcs
    simp only [mTerm, Vec2.normSquared, q, r]
  have e2 : cyc cTerm (fun i => (⟨c * (v i).x - s * (v i).y, s * (v i).x + c * (v i).y⟩ : Vec2 K)) =
      ⟨c * (cyc cTerm v).x - s * (cyc cTerm v).y, s * (cyc cTerm v).x + c * (cyc cTerm v).y⟩ := by
    have hom : ∀ w : Vec2 K, (⟨c * w.x - s * w.y, s * w.x + c * w.y⟩ : Vec2 K) =
      (⟨⟨fun w : Vec2 K => (⟨c * w.x - s * w.y, s * w.x + c * w.y⟩ : Vec2 K), by ext <;> simp⟩,
        fun x y => by ext <;> simp <;> ring⟩ : Vec2 K →+ Vec2 K) w := fun w => rfl
    rw [hom (cyc cTerm v)]
    unfold cyc
    rw [map_sum]
    refine Finset.sum_congr rfl fun i _ => ?_
    rw [← hom]
    have r : ∀ p q : Vec2 K, Vec2.cross (⟨c * p.x - s * p.y, s * p.x + c * p.y⟩ : Vec2 K) ⟨c * q.x - s * q.y, s * q.x + c * q.y⟩ =
        Vec2.cross p q := fun p q => by
      simp only [Vec2.cross]; linear_combination (p.x * q.y - p.y * q.x) * hcs
    simp only [cTerm, r]
    ext <;> simp <;> ring
  rw [e1, e2, e3, finish_nondegenerate _ _ _ hA, finish_nondegenerate _ _ _ hA]
  generalize cyc aTerm v = A at *
  generalize cyc cTerm v = C at *
  have hc : Vec2.sdiv (⟨c * C.x - s * C.y, s * C.x + c * C.y⟩ : Vec2 K) (6 * (A / 2)) =
      ⟨c * (Vec2.sdiv C (6 * (A / 2))).x - s * (Vec2.sdiv C (6 * (A / 2))).y,
       s * (Vec2.sdiv C (6 * (A / 2))).x + c * (Vec2.sdiv C (6 * (A / 2))).y⟩ := by
    ext <;> simp <;> field_simp
  rw [hc]
  generalize Vec2.sdiv C (6 * (A / 2)) = D
  simp only [Outcome.ok.injEq, GeometricProperties.mk.injEq, true_and, and_true]
  congr 2
  have : Vec2.normSquared (⟨c * D.x - s * D.y, s * D.x + c * D.y⟩ : Vec2 K) = Vec2.normSquared D := by
    simp only [Vec2.normSquared, Vec2.dot]
    linear_combination (D.x * D.x + D.y * D.y) * hcs
  rw [this]

/-- An L-shaped loop used as a witness. -/
def ell : List (Vec2 ℚ) := [⟨0, 0⟩, ⟨2, 0⟩, ⟨2, 1⟩, ⟨1, 1⟩, ⟨1, 2⟩, ⟨0, 2⟩]

theorem ell_of : GeometricProperties.of ell = .ok ⟨⟨5 / 6, 5 / 6⟩, 3, 11 / 6, false⟩ := by
  rw [ell, GeometricProperties.of, edgesOf_cons]; decide +kernel

example : GeometricProperties.of ell.reverse = .ok ⟨⟨5 / 6, 5 / 6⟩, -3, 11 / 6, false⟩ := C14_reverse ell _ ell_of rfl
example : GeometricProperties.of (ell.map ((⟨7, -3⟩ : Vec2 ℚ) + ·)) = .ok ⟨⟨7, -3⟩ + ⟨5 / 6, 5 / 6⟩, 3, 11 / 6, false⟩ :=
  C14_translate ell ⟨7, -3⟩ _ ell_of rfl
example : GeometricProperties.of (ell.rotate 4) = .ok ⟨⟨5 / 6, 5 / 6⟩, 3, 11 / 6, false⟩ :=
  (C14_rotate ell 4).trans ell_of
example : (3 : ℚ) = sumTri triArea (fanOf ⟨0, 0⟩ [⟨2, 0⟩, ⟨2, 1⟩, ⟨1, 1⟩, ⟨1, 2⟩, ⟨0, 2⟩]) :=
  (C14_fan _ _ _ _ ell_of rfl).1
example : ∃ g, GeometricProperties.of (ell.map fun p => ⟨3 / 5 * p.x - 4 / 5 * p.y, 4 / 5 * p.x + 3 / 5 * p.y⟩) = .ok g ∧
    g.area = 3 := ⟨_, C14_rigid_rotation ell (3 / 5) (4 / 5) (by norm_num) _ ell_of rfl, rfl⟩

/-! ### C15 -/

/-- C15: a `Polygon` constructed from at least three vertices has the given vertices up to reversal, the properties
of its stored vertices, and non-negative area. -/
theorem C15_polygon (vs : List (Vec2 K)) (h : 3 ≤ vs.length) :
    ∃ p, Polygon.mk' vs = .ok p ∧ (p.vertices = vs ∨ p.vertices = vs.reverse) ∧
      GeometricProperties.of p.vertices = .ok p.properties ∧ 0 ≤ p.properties.area ∧
      (p.properties.isDegenerate = true ↔ p.properties.area = 0) := by
  have hne : vs ≠ [] := by rintro rfl; simp at h
  obtain ⟨n, v, rfl⟩ := exists_ofFn hne
  set g := propsOf (cyc aTerm v) (cyc cTerm v) (cyc mTerm v) with hg
  have hof : GeometricProperties.of (List.ofFn v) = .ok g := of_ofFn v
  unfold Polygon.mk'
  rw [hof]
  simp only [Outcome.check, h, decide_true, if_true, Outcome.bind_ok]
  have hdeg := C14_degenerate _ _ hof
  by_cases hA : g.area < 0
  · have hd : g.isDegenerate = false := by
      rcases hb : g.isDegenerate with _ | _
      · rfl
      · exact absurd (hdeg.1 hb) hA.ne
    have hrev := C14_reverse _ _ hof hd
    simp only [hA, if_true]
    refine ⟨_, rfl, Or.inr rfl, ?_, ?_, ?_⟩
    · rw [hrev]; simp
    · simp; exact hA.le
    · simp [hd, hA.ne]
  · simp only [hA, if_false]
    exact ⟨_, rfl, Or.inl rfl, hof, not_lt.1 hA, hdeg⟩

/-- C15: fewer than three vertices throw. -/
theorem C15_too_few (vs : List (Vec2 K)) (h : vs.length < 3) : Polygon.mk' vs = .throw := by
  simp [Polygon.mk', Outcome.check, not_le.2 h]

/-- C15: `Polygon::box`. A negative dimension mirrors the box; the area is then `|w h|`. -/
theorem C15_box (dim center : Vec2 K) (h : dim.x * dim.y ≠ 0) :
    ∃ p, Polygon.box dim center = .ok p ∧ p.properties.area = |dim.x * dim.y| ∧ p.properties.centroid = center ∧
      p.properties.momentOfArea = |dim.x * dim.y| * (dim.x * dim.x + dim.y * dim.y) / 12 ∧
      p.properties.isDegenerate = false ∧ p.vertices.length = 4 ∧
      (0 < dim.x * dim.y → p.vertices.head? = some (center - ⟨dim.x / 2, dim.y / 2⟩)) := by
  unfold Polygon.box Polygon.mk'
  dsimp only
  rw [of_cons]
  simp only [pathSum, List.length_cons, List.length_nil, Outcome.check]
  have e : (dim.x * dim.y * 2) / 2 = dim.x * dim.y := by ring
  have eA : (aTerm (center + (⟨-(dim.x / 2), -(dim.y / 2)⟩ : Vec2 K)) (center + ⟨dim.x / 2, -(dim.y / 2)⟩) +
      aTerm (center + ⟨dim.x / 2, -(dim.y / 2)⟩) (center + ⟨dim.x / 2, dim.y / 2⟩) +
      aTerm (center + ⟨dim.x / 2, dim.y / 2⟩) (center + ⟨-(dim.x / 2), -(dim.y / 2)⟩) +
      (aTerm (center + ⟨-(dim.x / 2), -(dim.y / 2)⟩) (center + ⟨dim.x / 2, dim.y / 2⟩) +
      aTerm (center + ⟨dim.x / 2, dim.y / 2⟩) (center + ⟨-(dim.x / 2), dim.y / 2⟩) +
      aTerm (center + ⟨-(dim.x / 2), dim.y / 2⟩) (center + ⟨-(dim.x / 2), -(dim.y / 2)⟩) + 0)) = dim.x * dim.y * 2 := by
    simp [aTerm, Vec2.cross]; ring
  have eC : (cTerm (center + (⟨-(dim.x / 2), -(dim.y / 2)⟩ : Vec2 K)) (center + ⟨dim.x / 2, -(dim.y / 2)⟩) +
      cTerm (center + ⟨dim.x / 2, -(dim.y / 2)⟩) (center + ⟨dim.x / 2, dim.y / 2⟩) +
      cTerm (center + ⟨dim.x / 2, dim.y / 2⟩) (center + ⟨-(dim.x / 2), -(dim.y / 2)⟩) +
      (cTerm (center + ⟨-(dim.x / 2), -(dim.y / 2)⟩) (center + ⟨dim.x / 2, dim.y / 2⟩) +
      cTerm (center + ⟨dim.x / 2, dim.y / 2⟩) (center + ⟨-(dim.x / 2), dim.y / 2⟩) +
      cTerm (center + ⟨-(dim.x / 2), dim.y / 2⟩) (center + ⟨-(dim.x / 2), -(dim.y / 2)⟩) + 0)) =
      (6 * (dim.x * dim.y)) • center := by
    ext <;> simp [cTerm, Vec2.cross] <;> ring
  have eM : (mTerm (center + (⟨-(dim.x / 2), -(dim.y / 2)⟩ : Vec2 K)) (center + ⟨dim.x / 2, -(dim.y / 2)⟩) +
      mTerm (center + ⟨dim.x / 2, -(dim.y / 2)⟩) (center + ⟨dim.x / 2, dim.y / 2⟩) +
      mTerm (center + ⟨dim.x / 2, dim.y / 2⟩) (center + ⟨-(dim.x / 2), -(dim.y / 2)⟩) +
      (mTerm (center + ⟨-(dim.x / 2), -(dim.y / 2)⟩) (center + ⟨dim.x / 2, dim.y / 2⟩) +
      mTerm (center + ⟨dim.x / 2, dim.y / 2⟩) (center + ⟨-(dim.x / 2), dim.y / 2⟩) +
      mTerm (center + ⟨-(dim.x / 2), dim.y / 2⟩) (center + ⟨-(dim.x / 2), -(dim.y / 2)⟩) + 0)) =
      dim.x * dim.y * (dim.x * dim.x + dim.y * dim.y) + 12 * (dim.x * dim.y) * Vec2.normSquared center := by
    simp [mTerm, Vec2.cross, Vec2.normSquared, Vec2.dot]; ring
  rw [eA, eC, eM, finish_nondegenerate _ _ _ (by simpa using h), e]
  have hc : Vec2.sdiv ((6 * (dim.x * dim.y)) • center) (6 * (dim.x * dim.y)) = center := by
    have h6 : (6 * (dim.x * dim.y) : K) ≠ 0 := mul_ne_zero (by norm_num) h
    ext
    · simp only [Vec2.sdiv_x, Vec2.smul_x]; exact mul_div_cancel_right₀ _ h6
    · simp only [Vec2.sdiv_y, Vec2.smul_y]; exact mul_div_cancel_right₀ _ h6
  rw [hc]
  have hm : |(dim.x * dim.y * (dim.x * dim.x + dim.y * dim.y) + 12 * (dim.x * dim.y) * center.normSquared) / 12 -
      dim.x * dim.y * center.normSquared| = |dim.x * dim.y| * (dim.x * dim.x + dim.y * dim.y) / 12 := by
    have : (dim.x * dim.y * (dim.x * dim.x + dim.y * dim.y) + 12 * (dim.x * dim.y) * center.normSquared) / 12 -
      dim.x * dim.y * center.normSquared = dim.x * dim.y * ((dim.x * dim.x + dim.y * dim.y) / 12) := by ring
    rw [this, abs_mul, abs_of_nonneg (div_nonneg (add_nonneg (mul_self_nonneg _) (mul_self_nonneg _)) (by norm_num : (0 : K) ≤ 12))]
    ring
  rw [hm]
  by_cases hneg : dim.x * dim.y < 0
  · simp [hneg, abs_of_neg hneg]
    exact fun h => absurd h (not_lt.2 hneg.le)
  · simp [hneg, abs_of_nonneg (not_lt.1 hneg)]
    intro _; ext <;> simp <;> ring

example : ∃ p, Polygon.mk' ell.reverse = .ok p ∧ 0 ≤ p.properties.area := by
  obtain ⟨p, h1, _, _, h2, _⟩ := C15_polygon ell.reverse (by decide)
  exact ⟨p, h1, h2⟩
example : ∃ p, Polygon.box (⟨2, 3⟩ : Vec2 ℚ) ⟨1, 1⟩ = .ok p ∧ p.properties.area = 6 ∧ p.properties.momentOfArea = 13 / 2 := by
  obtain ⟨p, h1, h2, _, h3, _⟩ := C15_box (⟨2, 3⟩ : Vec2 ℚ) ⟨1, 1⟩ (by norm_num)
  exact ⟨p, h1, by rw [h2]; norm_num, by rw [h3]; norm_num⟩

/-! ### C17 -/

theorem support_fold (d : Vec2 K) (l : List (Vec2 K)) (s : Vec2 K × K) (hs : s.2 = Vec2.dot s.1 d) :
    let r := l.foldl (supportStep d) s
    (r.1 = s.1 ∨ r.1 ∈ l) ∧ r.2 = Vec2.dot r.1 d ∧ s.2 ≤ r.2 ∧ ∀ v ∈ l, Vec2.dot v d ≤ r.2 := by
  induction l generalizing s with
  | nil => simp [hs]
  | cons v l ih =>
    simp only [List.foldl_cons]
    unfold supportStep
    by_cases h : s.2 < Vec2.dot v d
    · simp only [h, if_true]
      obtain ⟨h1, h2, h3, h4⟩ := ih (v, Vec2.dot v d) rfl
      refine ⟨Or.inr ?_, h2, h.le.trans h3, ?_⟩
      · rcases h1 with h1 | h1
        · exact List.mem_cons.2 (Or.inl h1)
        · exact List.mem_cons_of_mem _ h1
      · intro w hw
        rcases List.mem_cons.1 hw with rfl | hw
        · exact h3
        · exact h4 w hw
    · simp only [h, if_false]
      obtain ⟨h1, h2, h3, h4⟩ := ih s hs
      refine ⟨h1.imp id (List.mem_cons_of_mem _), h2, h3, ?_⟩
      intro w hw
      rcases List.mem_cons.1 hw with rfl | hw
      · exact (not_lt.1 h).trans h3
      · exact h4 w hw

/-- C17: for a non-zero direction and a non-empty geometry, the result is a vertex whose projection on the direction
is maximal over the whole convex hull. -/
theorem C17_support (l : List (Vec2 K)) (d : Vec2 K) (hl : l ≠ []) (hd : d ≠ 0) :
    ∃ p, furthestVertexInDirection l d = .ok p ∧ p ∈ l ∧ ∀ q, Hull l q → Vec2.dot q d ≤ Vec2.dot p d := by
  obtain ⟨v, t, rfl⟩ := List.exists_cons_of_ne_nil hl
  have hc : (decide (d.x ≠ 0) || decide (d.y ≠ 0)) = true := by
    by_contra hc
    simp only [Bool.or_eq_true, decide_eq_true_eq, not_or, not_not] at hc
    exact hd (Vec2.ext hc.1 hc.2)
  obtain ⟨h1, h2, _, h4⟩ := support_fold d (v :: t) (v, Vec2.dot v d) rfl
  refine ⟨_, by unfold furthestVertexInDirection Outcome.check; rw [hc]; rfl, ?_, ?_⟩
  · rcases h1 with h1 | h1
    · rw [h1]; simp
    · exact h1
  · intro q hq
    rw [← h2]
    induction hq with
    | vertex h => exact h4 _ h
    | segment u h0 h1 _ _ ih1 ih2 =>
      rename_i p q _ _
      have e : Vec2.dot ((1 - u) • p + u • q) d = (1 - u) * Vec2.dot p d + u * Vec2.dot q d := by
        simp [Vec2.dot]; ring
      rw [e]
      set m := ((v :: t).foldl (supportStep d) (v, Vec2.dot v d)).2
      have a1 := mul_le_mul_of_nonneg_left ih1 (sub_nonneg.2 h1)
      have a2 := mul_le_mul_of_nonneg_left ih2 h0
      linarith [a1, a2, (by ring : (1 - u) * m + u * m = m)]

/-- C17: a zero direction throws, whatever the geometry. -/
theorem C17_zero_direction (l : List (Vec2 K)) : furthestVertexInDirection l 0 = .throw := by
  simp [furthestVertexInDirection, Outcome.check]

/-- C17: an empty geometry is undefined behaviour (precondition of the function). -/
theorem C17_empty (d : Vec2 K) (hd : d ≠ 0) : furthestVertexInDirection [] d = .ub := by
  have hc : (decide (d.x ≠ 0) || decide (d.y ≠ 0)) = true := by
    by_contra hc
    simp only [Bool.or_eq_true, decide_eq_true_eq, not_or, not_not] at hc
    exact hd (Vec2.ext hc.1 hc.2)
  unfold furthestVertexInDirection Outcome.check; rw [hc]; rfl

example : furthestVertexInDirection ell ⟨1, 1⟩ = .ok ⟨2, 1⟩ := by decide +kernel
example : ∃ p, furthestVertexInDirection ell ⟨-1, 2⟩ = .ok p ∧ p ∈ ell ∧
    ∀ q, Hull ell q → Vec2.dot q ⟨-1, 2⟩ ≤ Vec2.dot p ⟨-1, 2⟩ :=
  C17_support ell ⟨-1, 2⟩ (by decide) (by decide)

end Simu
