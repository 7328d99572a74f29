import Verif.Spec.Triangulated
import Verif.Props.Geometry
/-
Sums over the edges of a loop that is cut into triangles.
-/
namespace Simu
variable {K : Type*} [Field K] [LinearOrder K] [IsStrictOrderedRing K]

/-- Sum over the edges of a loop. -/
def loopSum {α M : Type*} [AddCommGroup M] (f : α → α → M) (l : List α) : M := ((l.zip (l.rotate 1)).map fun e => f e.1 e.2).sum

theorem loopSum_rotate {α M : Type*} [AddCommGroup M] (f : α → α → M) (l : List α) (k : Nat) : loopSum f (l.rotate k) = loopSum f l := by
  unfold loopSum
  rw [List.rotate_rotate, Nat.add_comm, ← List.rotate_rotate, show ∀ x y : List α, x.zip y = List.zipWith Prod.mk x y from fun _ _ => rfl,
    ← List.zipWith_rotate_distrib _ _ _ _ (by simp), List.map_rotate]
  exact ((List.rotate_perm _ _).sum_eq)

theorem loopSum_ear {α M : Type*} [AddCommGroup M] (f : α → α → M) (a b c : α) (l : List α) :
    loopSum f (a :: b :: c :: l) = f a b + f b c - f a c + loopSum f (a :: c :: l) := by
  simp only [loopSum, List.rotate_cons_succ, List.rotate_zero, List.cons_append, List.zip_cons_cons, List.map_cons, List.sum_cons]
  abel

theorem zip_snoc {α : Type*} (a x : α) (t : List α) : (a :: t).zip (t ++ [x]) = (a :: t).zip t ++ [((a :: t).getLast (by simp), x)] := by
  induction t generalizing a with
  | nil => rfl
  | cons b t ih => simp only [List.cons_append, List.zip_cons_cons, ih b]; simp

theorem of_loop {l : List (Vec2 K)} (h : l ≠ []) : GeometricProperties.of l = .ok (propsOf (loopSum aTerm l) (loopSum cTerm l) (loopSum mTerm l)) := by
  obtain ⟨a, t, rfl⟩ := List.exists_cons_of_ne_nil h
  rw [GeometricProperties.of, edgesOf_cons, Outcome.bind_ok, foldl_accumulate]
  simp only [loopSum, List.rotate_cons_succ, List.rotate_zero, zip_snoc, List.map_append, List.sum_append, List.map_cons, List.map_nil, List.sum_cons, List.sum_nil, zero_add, add_zero, propsOf]
  congr 2
  rw [GeometricProperties.mk.injEq]
  exact ⟨add_comm _ _, add_comm _ _, add_comm _ _, rfl⟩

theorem Triangulated.ne_nil {l : List (Vec2 K)} {ts} (h : Triangulated l ts) : l ≠ [] := by
  induction h with
  | triangle => simp
  | ear => simp
  | start k _ ih => simpa using ih

theorem Triangulated.length {l : List (Vec2 K)} {ts} (h : Triangulated l ts) : 3 ≤ l.length := by
  induction h with
  | triangle => simp
  | ear _ _ ih => simp only [List.length_cons] at ih ⊢; omega
  | start k _ ih => simpa using ih

theorem Triangulated.sum {M : Type*} [AddCommGroup M] (f : Vec2 K → Vec2 K → M) (hf : ∀ a b, f b a = -f a b) {l : List (Vec2 K)} {ts} (h : Triangulated l ts) :
    loopSum f l = sumTri (fun a b c => f a b + f b c + f c a) ts := by
  induction h with
  | triangle => simp [loopSum, sumTri]; abel
  | @ear a b c l ts _ _ ih => rw [loopSum_ear, ih, sumTri, hf a c]; abel
  | start k _ ih => rw [loopSum_rotate, ih]

/-- The triangles are positively oriented with vertices in the list. -/
def Tris (l : List (Vec2 K)) (ts : List (Vec2 K × Vec2 K × Vec2 K)) : Prop :=
  ts ≠ [] ∧ ∀ t ∈ ts, 0 < twiceArea t.1 t.2.1 t.2.2 ∧ t.1 ∈ l ∧ t.2.1 ∈ l ∧ t.2.2 ∈ l

theorem Triangulated.tris {l : List (Vec2 K)} {ts} (h : Triangulated l ts) : Tris l ts := by
  induction h with
  | triangle h => exact ⟨by simp, by simpa using h⟩
  | ear h _ ih =>
    refine ⟨by simp, ?_⟩
    intro t ht
    rcases List.mem_cons.1 ht with rfl | ht
    · exact ⟨h, by simp, by simp, by simp⟩
    · obtain ⟨h1, h2, h3, h4⟩ := ih.2 t ht
      simp only [List.mem_cons] at h2 h3 h4 ⊢
      exact ⟨h1, by tauto, by tauto, by tauto⟩
  | start k _ ih => simpa [Tris] using ih

theorem sumTri_congr {M : Type*} [AddCommGroup M] {f g : Vec2 K → Vec2 K → Vec2 K → M} (h : ∀ a b c, f a b c = g a b c) (ts) : sumTri f ts = sumTri g ts := by
  have : f = g := by funext a b c; exact h a b c
  rw [this]

theorem sumTri_hom {M N : Type*} [AddCommGroup M] [AddCommGroup N] (φ : M →+ N) (g : Vec2 K → Vec2 K → Vec2 K → M) (ts) : sumTri (fun a b c => φ (g a b c)) ts = φ (sumTri g ts) := by
  induction ts with
  | nil => simp [sumTri]
  | cons t ts ih => simp only [sumTri, ih, map_add]

theorem sumTri_add {M : Type*} [AddCommGroup M] (f g : Vec2 K → Vec2 K → Vec2 K → M) (ts) : sumTri (fun a b c => f a b c + g a b c) ts = sumTri f ts + sumTri g ts := by
  induction ts with
  | nil => simp [sumTri]
  | cons t ts ih => simp only [sumTri, ih]; abel

theorem sumTri_mul (g : Vec2 K → Vec2 K → Vec2 K → K) (c : K) (ts) : sumTri (fun x y z => g x y z * c) ts = sumTri g ts * c :=
  sumTri_hom (AddMonoidHom.mulRight c) g ts

theorem sumTri_smul (g : Vec2 K → Vec2 K → Vec2 K → Vec2 K) (c : K) (ts) : sumTri (fun x y z => c • g x y z) ts = c • sumTri g ts :=
  sumTri_hom (⟨⟨fun v => c • v, by ext <;> simp⟩, fun x y => by ext <;> simp <;> ring⟩ : Vec2 K →+ Vec2 K) g ts

theorem sumTri_dot (g : Vec2 K → Vec2 K → Vec2 K → Vec2 K) (c : Vec2 K) (ts) : sumTri (fun x y z => Vec2.dot (g x y z) c) ts = Vec2.dot (sumTri g ts) c :=
  sumTri_hom (⟨⟨fun v => Vec2.dot v c, by simp [Vec2.dot]⟩, fun x y => by simp [Vec2.dot]; ring⟩ : Vec2 K →+ K) g ts

theorem sumTri_pos {f : Vec2 K → Vec2 K → Vec2 K → K} {ts} (hne : ts ≠ []) (h : ∀ t ∈ ts, 0 < f t.1 t.2.1 t.2.2) : 0 < sumTri f ts := by
  induction ts with
  | nil => exact absurd rfl hne
  | cons t ts ih =>
    have h1 := h t (by simp)
    rcases ts with _ | ⟨t', ts⟩
    · simpa [sumTri] using h1
    · exact add_pos h1 (ih (by simp) fun u hu => h u (by simp [hu]))

theorem hull_triCentroid {l : List (Vec2 K)} {a b c : Vec2 K} (ha : a ∈ l) (hb : b ∈ l) (hc : c ∈ l) : Hull l (triCentroid a b c) := by
  have h1 := Hull.segment (l := l) (1 / 2 : K) (by norm_num) (by norm_num) (.vertex hb) (.vertex hc)
  have h2 := Hull.segment (l := l) (2 / 3 : K) (by norm_num) (by norm_num) (.vertex ha) h1
  convert h2 using 1
  ext <;> simp [triCentroid] <;> ring

theorem hull_sumTri {l : List (Vec2 K)} {ts} (h : Tris l ts) :
    Hull l ((sumTri triArea ts)⁻¹ • sumTri (fun a b c => triArea a b c • triCentroid a b c) ts) := by
  obtain ⟨hne, h⟩ := h
  induction ts with
  | nil => exact absurd rfl hne
  | cons t ts ih =>
    obtain ⟨h1, h2, h3, h4⟩ := h t (by simp)
    have hA : 0 < triArea t.1 t.2.1 t.2.2 := by unfold triArea; linarith
    rcases ts with _ | ⟨t', ts⟩
    · have := hull_triCentroid h2 h3 h4
      convert this using 1
      simp only [sumTri, add_zero]
      ext <;> simp only [Vec2.smul_x, Vec2.smul_y] <;> field_simp
    · have hr : ∀ u ∈ t' :: ts, 0 < twiceArea u.1 u.2.1 u.2.2 ∧ u.1 ∈ l ∧ u.2.1 ∈ l ∧ u.2.2 ∈ l := fun u hu => h u (by simp [hu])
      have ih := ih (by simp) hr
      have hS : 0 < sumTri (K := K) triArea (t' :: ts) := sumTri_pos (by simp) fun u hu => by have := (hr u hu).1; unfold triArea; linarith
      generalize t' :: ts = ts at *
      simp only [sumTri]
      generalize triArea t.1 t.2.1 t.2.2 = A at *
      generalize sumTri (K := K) triArea ts = S at *
      generalize sumTri (fun a b c => triArea a b c • triCentroid a b c) ts = C at *
      have hAS : 0 < A + S := add_pos hA hS
      have := Hull.segment (S / (A + S)) (div_nonneg hS.le hAS.le) ((div_le_one hAS).2 (by linarith)) (hull_triCentroid h2 h3 h4) ih
      convert this using 1
      generalize triCentroid t.1 t.2.1 t.2.2 = c
      ext <;> simp only [Vec2.smul_x, Vec2.smul_y, Vec2.add_x, Vec2.add_y] <;> field_simp <;> ring

theorem distSq_nonneg' (P Q : Vec2 K) : 0 ≤ distSq P Q := add_nonneg (mul_self_nonneg _) (mul_self_nonneg _)

theorem distSq_pos {P Q : Vec2 K} (h : P ≠ Q) : 0 < distSq P Q := by
  rcases (distSq_nonneg' P Q).lt_or_eq with h' | h'
  · exact h'
  · exfalso
    apply h
    unfold distSq at h'
    have h1 := mul_self_nonneg (P.x - Q.x)
    have h2 := mul_self_nonneg (P.y - Q.y)
    have e1 : P.x - Q.x = 0 := mul_self_eq_zero.1 (by linarith)
    have e2 : P.y - Q.y = 0 := mul_self_eq_zero.1 (by linarith)
    ext <;> linarith

theorem triMoment_pos {a b c : Vec2 K} (h : 0 < twiceArea a b c) : 0 < triMoment a b c := by
  have hab : a ≠ b := by rintro rfl; simp [twiceArea] at h
  unfold triMoment triArea
  have := add_pos_of_pos_of_nonneg (add_pos_of_pos_of_nonneg (distSq_pos hab) (distSq_nonneg' b c)) (distSq_nonneg' c a)
  positivity

end Simu
