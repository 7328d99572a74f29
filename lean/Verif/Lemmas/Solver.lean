import Verif.Lemmas.Matrix
import Verif.Spec.Matrix
import Mathlib.LinearAlgebra.Matrix.Block
import Mathlib.LinearAlgebra.Matrix.NonsingularInverse
import Mathlib.LinearAlgebra.Matrix.Nondegenerate
import Mathlib.Tactic.FieldSimp
import Mathlib.Tactic.LinearCombination
import Mathlib.Tactic.Linarith
/-
Loop invariants of the linear solvers.
-/
set_option linter.unusedSectionVars false
namespace Simu
open Mat

theorem finRange_split {n : Nat} (i : Fin n) : ∃ l r : List (Fin n), List.finRange n = l ++ i :: r ∧
    (∀ j ∈ l, j < i) ∧ (∀ j ∈ r, i < j) := by
  obtain ⟨l, r, h⟩ := List.append_of_mem (List.mem_finRange i)
  have hp : (List.finRange n).Pairwise (· < ·) := List.pairwise_lt_finRange n
  rw [h, List.pairwise_append] at hp
  exact ⟨l, r, h, fun j hj => hp.2.2 j hj i (by simp), fun j hj => (List.pairwise_cons.1 hp.2.1).1 j hj⟩

/-- Induction along an increasing loop. -/
theorem forFin_induct {S : Type*} {n : Nat} (P : Nat → S → Prop) (f : Fin n → S → S) (s : S) (h0 : P 0 s)
    (hs : ∀ (i : Fin n) s, P i.val s → P (i.val + 1) (f i s)) : P n (forFin n f s) := by
  induction n generalizing P s with
  | zero => simpa [forFin_zero] using h0
  | succ n ih =>
    rw [forFin_succ]
    exact ih (fun k => P (k + 1)) (fun i => f i.succ) (f 0 s) (hs 0 s h0) (fun i s h => hs i.succ s h)

theorem forDown_succ {S : Type*} (n : Nat) (f : Fin (n + 1) → S → S) (s : S) :
    forDown (n + 1) f s = f 0 (forDown n (fun i => f i.succ) s) := by
  simp [forDown, List.finRange_succ, List.foldl_append, ← List.map_reverse, List.foldl_map]

/-- Induction along a decreasing loop. -/
theorem forDown_induct {S : Type*} {n : Nat} (P : Nat → S → Prop) (f : Fin n → S → S) (s : S) (h0 : P n s)
    (hs : ∀ (i : Fin n) s, P (i.val + 1) s → P i.val (f i s)) : P 0 (forDown n f s) := by
  induction n generalizing P s with
  | zero => simpa [forDown] using h0
  | succ n ih =>
    rw [forDown_succ]
    refine hs 0 _ ?_
    exact ih (fun k => P (k + 1)) (fun i => f i.succ) s h0 (fun i s h => hs i.succ s h)

/-- Invariant of a loop over some of the indices, in any order. -/
theorem foldl_induct {S ι : Type*} [DecidableEq ι] (P : Finset ι → S → Prop) (f : ι → S → S) (l : List ι) (s : S)
    (hl : l.Nodup) (h0 : P ∅ s) (hs : ∀ i D s, i ∈ l → i ∉ D → P D s → P (insert i D) (f i s)) :
    P l.toFinset (l.foldl (fun s i => f i s) s) := by
  suffices H : ∀ (k : List ι) (D : Finset ι) (s : S), k.Nodup → (∀ i ∈ k, i ∈ l) → (∀ i ∈ k, i ∉ D) → P D s →
      P (D ∪ k.toFinset) (k.foldl (fun s i => f i s) s) by
    simpa using H l ∅ s hl (fun i h => h) (by simp) h0
  intro k
  induction k with
  | nil => intro D s _ _ _ h; simpa using h
  | cons a k ih =>
    intro D s hk hm hd h
    rw [List.nodup_cons] at hk
    have := ih (insert a D) (f a s) hk.2 (fun i hi => hm i (by simp [hi]))
      (fun i hi => by
        rw [Finset.mem_insert, not_or]
        refine ⟨?_, hd i (by simp [hi])⟩
        rintro rfl; exact hk.1 hi)
      (hs a D s (hm a (by simp)) (hd a (by simp)) h)
    rw [List.foldl_cons]
    have e : D ∪ (a :: k).toFinset = insert a D ∪ k.toFinset := by
      ext x; simp only [Finset.mem_union, Finset.mem_insert, List.mem_toFinset, List.mem_cons]; tauto
    rw [e]; exact this

theorem forFrom_induct {S : Type*} {n start : Nat} (P : Finset (Fin n) → S → Prop) (f : Fin n → S → S) (s : S)
    (h0 : P ∅ s) (hs : ∀ i D s, start ≤ i.val → i ∉ D → P D s → P (insert i D) (f i s)) :
    P (Finset.univ.filter fun i => start ≤ i.val) (forFrom n start f s) := by
  have := foldl_induct P f ((List.finRange n).filter fun i => start ≤ i.val) s
    ((List.nodup_finRange n).filter _) h0 (fun i D s hi hd h => hs i D s (by simpa using hi) hd h)
  have e : ((List.finRange n).filter fun i => start ≤ i.val).toFinset = Finset.univ.filter fun i : Fin n => start ≤ i.val := by
    ext; simp
  rw [← e]; exact this

theorem forTo_induct {S : Type*} {n stop : Nat} (P : Finset (Fin n) → S → Prop) (f : Fin n → S → S) (s : S)
    (h0 : P ∅ s) (hs : ∀ i D s, i.val < stop → i ∉ D → P D s → P (insert i D) (f i s)) :
    P (Finset.univ.filter fun i => i.val < stop) (forTo n stop f s) := by
  have := foldl_induct P f ((List.finRange n).filter fun i => i.val < stop) s
    ((List.nodup_finRange n).filter _) h0 (fun i D s hi hd h => hs i D s (by simpa using hi) hd h)
  have e : ((List.finRange n).filter fun i => i.val < stop).toFinset = Finset.univ.filter fun i : Fin n => i.val < stop := by
    ext; simp
  rw [← e]; exact this

theorem forFrom_sum {T : Type*} [AddCommMonoid T] {n start : Nat} (g : Fin n → T) (s : T) :
    forFrom n start (fun i s => s + g i) s = s + ∑ i with start ≤ i.val, g i := by
  refine forFrom_induct (fun D s' => s' = s + ∑ i ∈ D, g i) _ s (by simp) ?_
  intro i D s' _ hd h
  rw [Finset.sum_insert hd, h, add_comm (g i), add_assoc]

theorem forTo_sum {T : Type*} [AddCommMonoid T] {n stop : Nat} (g : Fin n → T) (s : T) :
    forTo n stop (fun i s => s + g i) s = s + ∑ i with i.val < stop, g i := by
  refine forTo_induct (fun D s' => s' = s + ∑ i ∈ D, g i) _ s (by simp) ?_
  intro i D s' _ hd h
  rw [Finset.sum_insert hd, h, add_comm (g i), add_assoc]

namespace Mat

@[simp] theorem at_setAt {T : Type*} {n : Nat} (v : MVec T n) (i j : Fin n) (x : T) :
    (v.setAt i x).at_ j = if j = i then x else v.at_ j := by
  simp only [at_, setAt, Function.update_apply, Fin.mk.injEq, Fin.val_inj]

theorem at_zero {T : Type*} [Zero T] {n : Nat} (i : Fin n) : (zero : MVec T n).at_ i = 0 := rfl

theorem at_add {T : Type*} [Add T] {n : Nat} (u v : MVec T n) (i : Fin n) : (u.add v).at_ i = u.at_ i + v.at_ i := by
  rw [at_eq_get, get_add, ← at_eq_get, ← at_eq_get]

theorem at_sub {T : Type*} [Sub T] {n : Nat} (u v : MVec T n) (i : Fin n) : (u.sub v).at_ i = u.at_ i - v.at_ i := by
  rw [at_eq_get, get_sub, ← at_eq_get, ← at_eq_get]

theorem at_smul {T : Type*} [Mul T] {n : Nat} (u : MVec T n) (s : T) (i : Fin n) : (u.smul s).at_ i = u.at_ i * s := by
  rw [at_eq_get, get_smul, ← at_eq_get]

theorem at_sdiv {T : Type*} [Div T] {n : Nat} (u : MVec T n) (s : T) (i : Fin n) : (u.sdiv s).at_ i = u.at_ i / s := by
  rw [at_eq_get, get_sdiv, ← at_eq_get]

theorem at_mul {T : Type*} [AddCommMonoid T] [Mul T] {m n : Nat} (A : Mat T m n) (v : MVec T n) (i : Fin m) :
    (A.mul v).at_ i = ∑ k, A.get i k * v.at_ k := by
  rw [at_eq_get, get_mul]
  simp only [at_eq_get]

theorem at_neg {T : Type*} [Neg T] {n : Nat} (u : MVec T n) (i : Fin n) : u.neg.at_ i = -u.at_ i := rfl

theorem toV_mul {T : Type*} [CommRing T] {m n : Nat} (A : Mat T m n) (v : MVec T n) :
    (A.mul v).toV = A.toM.mulVec v.toV := by
  funext i; simp [toV, at_mul, Matrix.mulVec, dotProduct, toM]

theorem toM_mul {T : Type*} [CommRing T] {m n p : Nat} (A : Mat T m n) (B : Mat T n p) :
    (A.mul B).toM = A.toM * B.toM := by
  ext i j; simp [toM, get_mul, Matrix.mul_apply]

theorem toM_identity {T : Type*} [CommRing T] {n : Nat} : (identity : Mat T n n).toM = 1 := by
  ext i j; simp [toM, get_identity, Matrix.one_apply]

theorem toM_inj {T : Type*} {m n : Nat} {A B : Mat T m n} (h : A.toM = B.toM) : A = B :=
  ext_get fun r c => by simpa [toM] using congrFun (congrFun h r) c

theorem toV_inj {T : Type*} {n : Nat} {u v : MVec T n} (h : u.toV = v.toV) : u = v :=
  ext_at fun i => by simpa [toV] using congrFun h i

end Mat

/-! ### Modified Gram-Schmidt -/
section QR
variable {K : Type*} [Field K] [LinearOrder K] [IsStrictOrderedRing K] {n : Nat}

theorem dot_comm (u v : MVec K n) : dot u v = dot v u := by
  rw [dot_eq, dot_eq]; exact Finset.sum_congr rfl fun _ _ => mul_comm _ _

theorem dot_sub_smul (u v w : MVec K n) (s : K) : dot u (v.sub (w.smul s)) = dot u v - s * dot u w := by
  simp only [dot_eq, at_sub, at_smul]
  rw [Finset.mul_sum, ← Finset.sum_sub_distrib]
  exact Finset.sum_congr rfl fun _ _ => by ring

theorem dot_sdiv (u v : MVec K n) (s : K) : dot u (v.sdiv s) = dot u v / s := by
  simp only [dot_eq, at_sdiv]
  rw [div_eq_mul_inv, Finset.sum_mul]
  exact Finset.sum_congr rfl fun _ _ => by ring

theorem dot_self_nonneg (v : MVec K n) : 0 ≤ dot v v := by
  rw [dot_eq]; exact Finset.sum_nonneg fun i _ => mul_self_nonneg _

theorem dot_self_eq_zero {v : MVec K n} (h : dot v v = 0) (i : Fin n) : v.at_ i = 0 := by
  rw [dot_eq, Finset.sum_eq_zero_iff_of_nonneg fun i _ => mul_self_nonneg _] at h
  exact mul_self_eq_zero.1 (h i (Finset.mem_univ i))

/-- What the inner loop does. -/
theorem qrInner_loop (col : Fin n) (s : QRState K n) :
    let s' := forFrom n (col.val + 1) (qrInner col) s
    s'.isValid = s.isValid ∧
    (∀ j, s'.Q.at_ j = if col < j then (s.Q.at_ j).sub ((s.Q.at_ col).smul (dot (s.Q.at_ col) (s.Q.at_ j))) else s.Q.at_ j) ∧
    (∀ i j, s'.R.get i j = if i = col ∧ col < j then dot (s.Q.at_ col) (s.Q.at_ j) else s.R.get i j) := by
  have := forFrom_induct (start := col.val + 1)
    (fun D (s' : QRState K n) => s'.isValid = s.isValid ∧ (col ∉ D → 
      (∀ j, s'.Q.at_ j = if j ∈ D then (s.Q.at_ j).sub ((s.Q.at_ col).smul (dot (s.Q.at_ col) (s.Q.at_ j))) else s.Q.at_ j) ∧
      (∀ i j, s'.R.get i j = if i = col ∧ j ∈ D then dot (s.Q.at_ col) (s.Q.at_ j) else s.R.get i j)))
    (qrInner col) s ⟨rfl, fun _ => by simp⟩ ?_
  · refine ⟨this.1, ?_⟩
    have h := this.2 (by simp)
    have e : ∀ j : Fin n, (j ∈ Finset.univ.filter fun i : Fin n => col.val + 1 ≤ i.val) ↔ col < j := by
      intro j; rw [Finset.mem_filter, Fin.lt_def]; simp
    simpa only [e] using h
  · intro i D s' hi hd ⟨h1, h2⟩
    refine ⟨h1, ?_⟩
    intro hcol
    rw [Finset.mem_insert, not_or] at hcol
    obtain ⟨hq, hr⟩ := h2 hcol.2
    constructor
    · intro j
      simp only [qrInner, at_setAt, hq col, hq i, hcol.2, hd, if_false, Finset.mem_insert]
      by_cases hj : j = i
      · subst hj; simp
      · simp [hj, hq j]
    · intro a j
      simp only [qrInner, get_set, hq col, hq i, hcol.2, hd, if_false, Finset.mem_insert]
      by_cases hj : a = col ∧ j = i
      · obtain ⟨rfl, rfl⟩ := hj; simp
      · rw [if_neg hj, hr]
        by_cases ha : a = col
        · have : j ≠ i := fun h => hj ⟨ha, h⟩
          simp [this]
        · simp [ha]

/-- Invariant of the outer loop, after `c` columns. -/
structure QRInv (A : Mat K n n) (c : Nat) (s : QRState K n) : Prop where
  ortho : ∀ i j : Fin n, i.val < c → dot (s.Q.at_ i) (s.Q.at_ j) = if i = j then 1 else 0
  upper : ∀ i j : Fin n, j < i → s.R.get i j = 0
  later : ∀ i j : Fin n, c ≤ i.val → s.R.get i j = 0
  diag : ∀ i : Fin n, i.val < c → s.R.get i i ≠ 0
  prod : ∀ r j : Fin n, A.get r j = (∑ k, (s.Q.at_ k).at_ r * s.R.get k j) + if c ≤ j.val then (s.Q.at_ j).at_ r else 0

theorem qrStep_inv {sqrt : K → K} (hsqrt : ∀ x, 0 ≤ x → sqrt x * sqrt x = x) (A : Mat K n n) (col : Fin n)
    (s : QRState K n) (hv : s.isValid = true) (h : QRInv A col.val s) :
    ((qrStep sqrt col s).isValid = true → QRInv A (col.val + 1) (qrStep sqrt col s)) ∧
    ((qrStep sqrt col s).isValid = false → A.toM.det = 0) := by
  have hd : mnorm sqrt (s.Q.at_ col) * mnorm sqrt (s.Q.at_ col) = dot (s.Q.at_ col) (s.Q.at_ col) :=
    hsqrt _ (dot_self_nonneg _)
  unfold qrStep
  rw [if_pos hv]
  dsimp only
  set d := mnorm sqrt (s.Q.at_ col) with hdd
  clear_value d
  by_cases hz : d = 0
  · simp only [hz, ne_eq, not_true_eq_false, decide_false, Bool.false_eq_true, if_false, false_implies, true_and]
    intro _
    -- the current column vanished: A = Q̂ (R + I') and Q̂ has a zero column
    have hq0 : ∀ r, (s.Q.at_ col).at_ r = 0 := fun r => dot_self_eq_zero (by rw [← hd, hz, mul_zero]) r
    have : A.toM = (Matrix.of fun r k => (s.Q.at_ k).at_ r) *
        (Matrix.of fun k j => s.R.get k j + if k = j then (if col.val ≤ j.val then 1 else 0) else 0) := by
      ext r j
      rw [Matrix.mul_apply]
      simp only [Mat.toM, Matrix.of_apply, mul_add, Finset.sum_add_distrib, h.prod r j, mul_ite, mul_one, mul_zero,
        Finset.sum_ite_eq', Finset.mem_univ, if_true]
    rw [this, Matrix.det_mul, Matrix.det_eq_zero_of_column_eq_zero col (fun i => by simp [hq0]), zero_mul]
  · simp only [hz, ne_eq, not_false_eq_true, decide_true, if_true]
    obtain ⟨hval, hQ, hR⟩ := qrInner_loop col
      ({ Q := s.Q.setAt col ((s.Q.at_ col).sdiv d), R := s.R.set col col d, isValid := true } : QRState K n)
    set s' := forFrom n (col.val + 1) (qrInner col)
      ({ Q := s.Q.setAt col ((s.Q.at_ col).sdiv d), R := s.R.set col col d, isValid := true } : QRState K n) with hs'
    clear_value s'
    dsimp only at hval hQ hR
    set qc := (s.Q.at_ col).sdiv d with hqc
    have hQc : s'.Q.at_ col = qc := by rw [hQ]; simp
    have hQlt : ∀ j, j < col → s'.Q.at_ j = s.Q.at_ j := by
      intro j hj
      rw [hQ, if_neg (by simp [Fin.le_of_lt hj])]
      simp [Fin.ne_of_lt hj]
    have hQgt : ∀ j, col < j → s'.Q.at_ j = (s.Q.at_ j).sub (qc.smul (dot qc (s.Q.at_ j))) := by
      intro j hj
      rw [hQ, if_pos hj]
      simp [ne_of_gt hj]
    have hRcc : s'.R.get col col = d := by rw [hR]; simp
    have hRc : ∀ j, col < j → s'.R.get col j = dot qc (s.Q.at_ j) := by
      intro j hj
      rw [hR]; simp [hj, ne_of_gt hj]
    have hRne : ∀ i j, i ≠ col → s'.R.get i j = s.R.get i j := by
      intro i j hi
      rw [hR]; simp [hi]
    have hRlt : ∀ j, j < col → s'.R.get col j = 0 := by
      intro j hj
      rw [hR, if_neg (by simp [Fin.le_of_lt hj])]
      simp [Fin.ne_of_lt hj, h.upper col j hj]
    have hqq : dot qc qc = 1 := by
      rw [hqc, dot_sdiv, dot_comm, dot_sdiv, ← hd]; field_simp
    have hold : ∀ i j : Fin n, i < col → dot (s.Q.at_ i) (s.Q.at_ j) = if i = j then 1 else 0 := fun i j hi => h.ortho i j hi
    have hoqc : ∀ i : Fin n, i < col → dot (s.Q.at_ i) qc = 0 := by
      intro i hi
      rw [hqc, dot_sdiv, hold i col hi, if_neg (ne_of_lt hi), zero_div]
    refine ⟨fun _ => ?_, by intro hf; rw [hval] at hf; cases hf⟩
    constructor
    · intro i j hi
      rcases lt_or_eq_of_le (Nat.lt_succ_iff.1 hi) with hlt | heq
      · have hlt' : i < col := hlt
        rw [hQlt i hlt']
        rcases lt_trichotomy j col with hj | hj | hj
        · rw [hQlt j hj, hold i j hlt']
        · rw [hj, hQc, hoqc i hlt', if_neg (ne_of_lt hlt')]
        · rw [hQgt j hj, dot_sub_smul, hoqc i hlt', mul_zero, sub_zero, hold i j hlt']
      · have hi' : i = col := Fin.ext heq
        subst hi'
        rw [hQc]
        rcases lt_trichotomy j i with hj | hj | hj
        · rw [hQlt j hj, dot_comm, hoqc j hj, if_neg (ne_of_gt hj)]
        · rw [hj, hQc, hqq, if_pos rfl]
        · rw [hQgt j hj, dot_sub_smul, hqq, mul_one, sub_self, if_neg (ne_of_lt hj)]
    · intro i j hj
      by_cases hi : i = col
      · subst hi; exact hRlt j hj
      · rw [hRne i j hi]; exact h.upper i j hj
    · intro i j hi
      have : i ≠ col := by rintro rfl; omega
      rw [hRne i j this]; exact h.later i j (by omega)
    · intro i hi
      by_cases hc : i = col
      · subst hc; rw [hRcc]; exact hz
      · rw [hRne i i hc]
        refine h.diag i ?_
        have : i.val ≠ col.val := fun e => hc (Fin.ext e)
        omega
    · intro r j
      have hsum : (∑ k, (s'.Q.at_ k).at_ r * s'.R.get k j) =
          (∑ k, (s.Q.at_ k).at_ r * s.R.get k j) + qc.at_ r * s'.R.get col j := by
        have : ∀ k ∈ (Finset.univ : Finset (Fin n)), (s'.Q.at_ k).at_ r * s'.R.get k j =
            (s.Q.at_ k).at_ r * s.R.get k j + if k = col then qc.at_ r * s'.R.get col j else 0 := by
          intro k _
          by_cases hk : k = col
          · subst hk
            rw [hQc, if_pos rfl, h.later k j le_rfl, mul_zero, zero_add]
          · rw [if_neg hk, add_zero, hRne k j hk]
            rcases lt_or_gt_of_ne hk with hlt | hgt
            · rw [hQlt k hlt]
            · rw [h.later k j (le_of_lt hgt), mul_zero, mul_zero]
        rw [Finset.sum_congr rfl this, Finset.sum_add_distrib, Finset.sum_ite_eq' Finset.univ col]
        simp
      rw [hsum, h.prod r j]
      rcases lt_trichotomy j col with hj | hj | hj
      · have hj' : j.val < col.val := hj
        rw [hRlt j hj, if_neg (by omega), if_neg (by omega)]; ring
      · subst hj
        rw [hRcc, if_pos le_rfl, if_neg (by omega), hqc, at_sdiv]; field_simp; ring
      · have hj' : col.val < j.val := hj
        rw [hRc j hj, if_pos (by omega), if_pos (by omega), hQgt j hj, at_sub, at_smul]; ring

theorem qr_inv {sqrt : K → K} (hsqrt : ∀ x, 0 ≤ x → sqrt x * sqrt x = x) (A : Mat K n n) (Q : MVec (MVec K n) n)
    (hQ : ∀ r c, (Q.at_ c).at_ r = A.get r c) :
    let s := forFin n (qrStep sqrt) { Q := Q, R := Mat.zero, isValid := true }
    (s.isValid = true → QRInv A n s) ∧ (s.isValid = false → A.toM.det = 0) := by
  refine forFin_induct (n := n) (fun c s => (s.isValid = true → QRInv A c s) ∧ (s.isValid = false → A.toM.det = 0))
    (qrStep sqrt) { Q := Q, R := Mat.zero, isValid := true } ⟨fun _ => ?_, fun h => by cases h⟩ ?_
  · constructor
    · intro i j hi; omega
    · intros; rfl
    · intros; rfl
    · intro i hi; omega
    · intro r j
      rw [if_pos (Nat.zero_le _), hQ]
      have : ∀ k ∈ (Finset.univ : Finset (Fin n)), (Q.at_ k).at_ r * (Mat.zero : Mat K n n).get k j = 0 := fun k _ => mul_zero _
      rw [Finset.sum_eq_zero this, zero_add]
  · intro i s ⟨h1, h2⟩
    cases hv : s.isValid with
    | true => exact qrStep_inv hsqrt A i s hv (h1 hv)
    | false =>
      have : qrStep sqrt i s = s := by simp [qrStep, hv]
      rw [this, hv]
      exact ⟨by simp, fun _ => h2 hv⟩

/-- What the back substitution computes. -/
theorem back_substitution (R : Mat K n n) (c0 : MVec K n) (hu : ∀ i j : Fin n, j < i → R.get i j = 0)
    (hd : ∀ i, R.get i i ≠ 0) :
    ∀ i, ∑ j, R.get i j * (forDown n (backStep R) (c0, Mat.zero)).2.at_ j = c0.at_ i := by
  have := forDown_induct (n := n) (fun r (s : MVec K n × MVec K n) =>
      (∀ i : Fin n, i.val < r → s.1.at_ i = c0.at_ i ∧ s.2.at_ i = 0) ∧
      (∀ i : Fin n, r ≤ i.val → ∑ j, R.get i j * s.2.at_ j = c0.at_ i)) (backStep R) (c0, Mat.zero)
      ⟨fun i _ => ⟨rfl, rfl⟩, fun i hi => by omega⟩ ?_
  · intro i; exact this.2 i (Nat.zero_le _)
  · intro row s ⟨h1, h2⟩
    obtain ⟨hc, hx⟩ := h1 row (by omega)
    -- the inner loop
    have hin : ∀ i, (backStep R row s).1.at_ i =
        if i = row then c0.at_ row - ∑ j with row.val + 1 ≤ j.val, R.get row j * s.2.at_ j else s.1.at_ i := by
      unfold backStep
      dsimp only
      refine forFrom_induct (fun D (c : MVec K n) => ∀ i, c.at_ i =
        if i = row then c0.at_ row - ∑ j ∈ D, R.get row j * s.2.at_ j else s.1.at_ i) _ s.1 ?_ ?_
      · intro i
        by_cases hi : i = row
        · subst hi; simp [hc]
        · simp [hi]
      · intro j D c _ hjd hcD i
        rw [at_setAt, Finset.sum_insert hjd]
        by_cases hi : i = row
        · subst hi; rw [if_pos rfl, if_pos rfl, hcD, if_pos rfl]; ring
        · rw [if_neg hi, if_neg hi, hcD, if_neg hi]
    have hx' : ∀ i, (backStep R row s).2.at_ i =
        if i = row then (c0.at_ row - ∑ j with row.val + 1 ≤ j.val, R.get row j * s.2.at_ j) / R.get row row
        else s.2.at_ i := by
      intro i
      have e : (backStep R row s).2 = s.2.setAt row ((backStep R row s).1.at_ row / R.get row row) := rfl
      rw [e, at_setAt, hin row, if_pos rfl]
    have hsum : ∀ i, ∑ j, R.get i j * (backStep R row s).2.at_ j = (∑ j, R.get i j * s.2.at_ j) +
        R.get i row * (backStep R row s).2.at_ row := by
      intro i
      have : ∀ j ∈ (Finset.univ : Finset (Fin n)), R.get i j * (backStep R row s).2.at_ j =
          R.get i j * s.2.at_ j + if j = row then R.get i row * (backStep R row s).2.at_ row else 0 := by
        intro j _
        by_cases hj : j = row
        · subst hj; rw [if_pos rfl, hx]; ring
        · rw [if_neg hj, hx', if_neg hj, add_zero]
      rw [Finset.sum_congr rfl this, Finset.sum_add_distrib, Finset.sum_ite_eq' Finset.univ row]
      simp
    constructor
    · intro i hi
      have hne : i ≠ row := by rintro rfl; omega
      rw [hin, if_neg hne, hx', if_neg hne]
      exact h1 i (by omega)
    · intro i hi
      rw [hsum]
      by_cases he : i = row
      · subst he
        rw [hx' i, if_pos rfl]
        have hs : (∑ j, R.get i j * s.2.at_ j) = ∑ j with i.val + 1 ≤ j.val, R.get i j * s.2.at_ j := by
          rw [Finset.sum_filter]
          refine Finset.sum_congr rfl fun j _ => ?_
          by_cases hj : i.val + 1 ≤ j.val
          · rw [if_pos hj]
          · rw [if_neg hj]
            have : j ≤ i := by rw [Fin.le_def]; omega
            rcases lt_or_eq_of_le this with hlt | heq
            · rw [hu i j hlt, zero_mul]
            · rw [heq, hx, mul_zero]
        rw [hs]
        have := hd i
        field_simp
        ring
      · have hgt : row < i := by
          rw [Fin.lt_def]
          have : i.val ≠ row.val := fun e => he (Fin.ext e)
          omega
        rw [hu i row hgt, zero_mul, add_zero]
        exact h2 i hgt

/-- The constructed solver. -/
theorem solverN_mk {sqrt : K → K} (hsqrt : ∀ x, 0 ≤ x → sqrt x * sqrt x = x) (A : Mat K n n) :
    (∃ R, SolverN.mk' sqrt A = .ok ⟨none, R, false⟩ ∧ A.toM.det = 0) ∨
    (∃ QT R, SolverN.mk' sqrt A = .ok ⟨some QT, R, true⟩ ∧ A.toM = QT.toM.transpose * R.toM ∧
      QT.toM * QT.toM.transpose = 1 ∧ (∀ i j : Fin n, j < i → R.get i j = 0) ∧ ∀ i, R.get i i ≠ 0) := by
  obtain ⟨Q, hQ, hQA⟩ := asCols_ok A
  obtain ⟨h1, h2⟩ := qr_inv hsqrt A Q hQA
  unfold SolverN.mk'
  rw [hQ, Outcome.bind_ok]
  dsimp only
  set s := forFin n (qrStep sqrt) { Q := Q, R := Mat.zero, isValid := true } with hs
  clear_value s
  cases hv : s.isValid with
  | false =>
    left
    exact ⟨s.R, by simp, h2 hv⟩
  | true =>
    right
    have inv := h1 hv
    obtain ⟨M, hM, hMQ⟩ := fromCols_ok s.Q
    refine ⟨M.transpose, s.R, by simp [hM], ?_, ?_, inv.upper, fun i => inv.diag i i.isLt⟩
    · ext r j
      rw [Matrix.mul_apply]
      have := inv.prod r j
      rw [if_neg (by omega), add_zero] at this
      simpa [toM, hMQ] using this
    · ext i j
      have := inv.ortho i j i.isLt
      rw [dot_eq] at this
      rw [Matrix.mul_apply, Matrix.one_apply]
      simpa [toM, hMQ] using this

end QR

/-! ### Inversion column by column -/
section Invert
variable {K : Type*} [Field K] [DecidableEq K] {n : Nat}

theorem invertWith_ok (A : Mat K n n) (solve : MVec K n → Outcome (MVec K n))
    (h : ∀ b, ∃ x, solve b = .ok x ∧ A.mul x = b) :
    ∃ B, invertWith solve = .ok B ∧ A.toM * B.toM = 1 := by
  obtain ⟨cols, hc, hcv⟩ := asCols_ok (identity : Mat K n n)
  have hloop : ∃ cols', forFin n (fun i (o : Outcome (MVec (MVec K n) n)) =>
        o.bind fun cols => (solve (cols.at_ i)).bind fun c => .ok (cols.setAt i c)) (.ok cols) = .ok cols' ∧
      (∀ j : Fin n, j.val < n → A.mul (cols'.at_ j) = cols.at_ j) ∧ (∀ j : Fin n, n ≤ j.val → cols'.at_ j = cols.at_ j) := by
    refine forFin_induct (n := n) (fun c (o : Outcome (MVec (MVec K n) n)) => ∃ cols', o = .ok cols' ∧
      (∀ j : Fin n, j.val < c → A.mul (cols'.at_ j) = cols.at_ j) ∧ (∀ j : Fin n, c ≤ j.val → cols'.at_ j = cols.at_ j))
      _ _ ⟨cols, rfl, fun j hj => by omega, fun j _ => rfl⟩ ?_
    rintro i o ⟨cols', rfl, h1, h2⟩
    obtain ⟨x, hx, hAx⟩ := h (cols'.at_ i)
    refine ⟨cols'.setAt i x, by simp [hx], ?_, ?_⟩
    · intro j hj
      rw [at_setAt]
      by_cases e : j = i
      · subst e; rw [if_pos rfl, hAx, h2 j le_rfl]
      · rw [if_neg e]
        have : j.val ≠ i.val := fun h => e (Fin.ext h)
        exact h1 j (by omega)
    · intro j hj
      rw [at_setAt, if_neg (by rintro rfl; omega)]
      exact h2 j (by omega)
  obtain ⟨cols', hl, hs, _⟩ := hloop
  obtain ⟨B, hB, hBv⟩ := fromCols_ok cols'
  refine ⟨B, by unfold invertWith; rw [hc, Outcome.bind_ok, hl, Outcome.bind_ok, hB], ?_⟩
  ext r c
  have := congrArg (fun v => v.at_ r) (hs c c.isLt)
  simp only [at_mul, hcv] at this
  rw [get_identity] at this
  rw [Matrix.mul_apply, Matrix.one_apply]
  simpa [toM, hBv] using this

theorem invertWith_throw (hn : 0 < n) : invertWith (K := K) (n := n) (fun _ => .throw) = .throw := by
  obtain ⟨cols, hc, hcv⟩ := asCols_ok (identity : Mat K n n)
  unfold invertWith
  rw [hc, Outcome.bind_ok]
  obtain ⟨m, rfl⟩ : ∃ m, n = m + 1 := ⟨n - 1, by omega⟩
  rw [forFin_succ]
  simp only [Outcome.bind_ok, Outcome.bind_throw]
  have : ∀ (k : Nat) (f : Fin k → MVec (MVec K (m+1)) (m+1) → Outcome (MVec (MVec K (m+1)) (m+1))),
      forFin k (fun i o => Outcome.bind o (f i)) .throw = .throw := by
    intro k f
    refine forFin_induct (fun _ (o : Outcome (MVec (MVec K (m+1)) (m+1))) => o = .throw) _ _ rfl ?_
    rintro i s rfl; rfl
  rw [this m]
  rfl

end Invert
end Simu
