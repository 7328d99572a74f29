import Verif.Model.Matrix
import Mathlib.Data.Matrix.Mul
import Mathlib.Algebra.BigOperators.Fin
import Mathlib.Tactic.Ring
/-
Loops over matrix cells, refinement of the operations to functions of (row, column).
-/
set_option linter.unusedSectionVars false
namespace Simu

theorem foldl_pointwise {ι X : Type*} [DecidableEq ι] (h : ι → X → X) (l : List ι) (hl : l.Nodup) (d : ι → X) (j : ι) :
    (l.foldl (fun d i => Function.update d i (h i (d i))) d) j = if j ∈ l then h j (d j) else d j := by
  induction l generalizing d with
  | nil => simp
  | cons a l ih =>
    rw [List.nodup_cons] at hl
    rw [List.foldl_cons, ih hl.2]
    by_cases hj : j = a
    · subst hj; simp [hl.1]
    · simp [hj]

theorem forFin_pointwise {N : Nat} {X : Type*} (h : Fin N → X → X) (d : Fin N → X) :
    forFin N (fun i d => Function.update d i (h i (d i))) d = fun i => h i (d i) := by
  funext j
  rw [forFin, foldl_pointwise h _ (List.nodup_finRange N)]
  simp

theorem forFin_zero {S : Type*} (f : Fin 0 → S → S) (s : S) : forFin 0 f s = s := by simp [forFin]

theorem forFin_succ {S : Type*} (n : Nat) (f : Fin (n + 1) → S → S) (s : S) :
    forFin (n + 1) f s = forFin n (fun i => f i.succ) (f 0 s) := by
  simp [forFin, List.finRange_succ, List.foldl_map]

theorem forFin_add {X : Type*} [AddCommMonoid X] (n : Nat) (f : Fin n → X) (s : X) :
    forFin n (fun i s => s + f i) s = s + ∑ i, f i := by
  induction n generalizing s with
  | zero => simp [forFin_zero]
  | succ n ih => rw [forFin_succ, ih, Fin.sum_univ_succ, add_assoc]

namespace Mat
variable {T : Type*} {m n p : Nat}

theorem idx_eq (r : Fin m) (c : Fin n) : idx r c = finProdFinEquiv (r, c) := by
  ext; simp [idx, finProdFinEquiv]; ring

theorem idx_inj {r r' : Fin m} {c c' : Fin n} (h : idx r c = idx r' c') : r = r' ∧ c = c' := by
  rw [idx_eq, idx_eq] at h
  have := finProdFinEquiv.injective h
  simpa using this

theorem idx_surj (k : Fin (m * n)) : ∃ r c, k = (idx r c : Fin (m * n)) := by
  refine ⟨(finProdFinEquiv.symm k).1, (finProdFinEquiv.symm k).2, ?_⟩
  rw [idx_eq, Prod.mk.eta, Equiv.apply_symm_apply]

theorem ext_get {A B : Mat T m n} (h : ∀ r c, A.get r c = B.get r c) : A = B := by
  cases A; cases B
  congr 1
  funext k
  obtain ⟨r, c, rfl⟩ := idx_surj k
  exact h r c

@[simp] theorem get_set (M : Mat T m n) (r r' : Fin m) (c c' : Fin n) (v : T) :
    (M.set r c v).get r' c' = if r' = r ∧ c' = c then v else M.get r' c' := by
  simp only [get, set, Function.update_apply]
  by_cases h : r' = r ∧ c' = c
  · obtain ⟨rfl, rfl⟩ := h; simp
  · rw [if_neg h, if_neg]
    intro he
    exact h (idx_inj he)

@[simp] theorem get_zero [Zero T] (r : Fin m) (c : Fin n) : (zero : Mat T m n).get r c = 0 := rfl

open Classical in
/-- A loop whose `i`-th iteration applies `h` to the cells `P i` and keeps the others. -/
theorem forFin_get {N : Nat} (f : Fin N → Mat T m n → Mat T m n) (P : Fin N → Fin m → Fin n → Prop)
    (h : Fin m → Fin n → T → T)
    (hf : ∀ i M r c, (f i M).get r c = if P i r c then h r c (M.get r c) else M.get r c)
    (hd : ∀ i j r c, P i r c → P j r c → i = j) (M : Mat T m n) (r : Fin m) (c : Fin n) :
    (forFin N f M).get r c = if ∃ i, P i r c then h r c (M.get r c) else M.get r c := by
  unfold forFin
  have key : ∀ (l : List (Fin N)), l.Nodup → ∀ M : Mat T m n,
      (l.foldl (fun s i => f i s) M).get r c = if ∃ i ∈ l, P i r c then h r c (M.get r c) else M.get r c := by
    intro l
    induction l with
    | nil => intro _ M; simp
    | cons a l ih =>
      intro hl M
      rw [List.nodup_cons] at hl
      rw [List.foldl_cons, ih hl.2, hf]
      by_cases ha : P a r c
      · have : ¬ ∃ i ∈ l, P i r c := by
          rintro ⟨i, hi, hp⟩
          have := hd _ _ _ _ ha hp
          subst this; exact hl.1 hi
        simp [ha, this]
      · simp [ha]
  rw [key _ (List.nodup_finRange N)]
  simp

theorem get_neg [Neg T] (A : Mat T m n) (r : Fin m) (c : Fin n) : A.neg.get r c = -(A.get r c) := rfl

theorem forFin_data (h : Fin (m * n) → T → T) (M : Mat T m n) :
    (forFin (m * n) (fun i M => (⟨Function.update M.data i (h i (M.data i))⟩ : Mat T m n)) M).data =
      fun i => h i (M.data i) := by
  rw [← forFin_pointwise]
  unfold forFin
  generalize List.finRange (m * n) = l
  induction l generalizing M with
  | nil => rfl
  | cons a l ih => rw [List.foldl_cons, List.foldl_cons]; exact ih _

theorem get_add [Add T] (A B : Mat T m n) (r : Fin m) (c : Fin n) :
    (A.add B).get r c = A.get r c + B.get r c := by
  simp only [add, get]; rw [forFin_data (fun i x => x + B.data i) A]

theorem get_sub [Sub T] (A B : Mat T m n) (r : Fin m) (c : Fin n) :
    (A.sub B).get r c = A.get r c - B.get r c := by
  simp only [sub, get]; rw [forFin_data (fun i x => x - B.data i) A]

theorem get_smul [Mul T] (s : T) (A : Mat T m n) (r : Fin m) (c : Fin n) :
    (A.smul s).get r c = A.get r c * s := by
  simp only [smul, get]; rw [forFin_data (fun _ x => x * s) A]

theorem get_sdiv [Div T] (s : T) (A : Mat T m n) (r : Fin m) (c : Fin n) :
    (A.sdiv s).get r c = A.get r c / s := by
  simp only [sdiv, get]; rw [forFin_data (fun _ x => x / s) A]

theorem get_filled [Zero T] (v : T) (r : Fin m) (c : Fin n) : (filled v : Mat T m n).get r c = v := by
  simp only [filled, get]; rw [forFin_data (fun _ _ => v) zero]

theorem get_identity [Zero T] [One T] (r c : Fin n) :
    (identity : Mat T n n).get r c = if r = c then 1 else 0 := by
  rw [identity, forFin_get _ (fun i r c => r = i ∧ c = i) (fun _ _ _ => 1)]
  · by_cases h : r = c
    · subst h; simp
    · rw [if_neg, if_neg h]; rfl
      rintro ⟨i, rfl, rfl⟩; exact h rfl
  · intro i M r c; simp
  · rintro i j r c ⟨rfl, _⟩ ⟨rfl, _⟩; rfl

theorem get_diagonal [Zero T] (e : MVec T n) (r c : Fin n) :
    (diagonal e).get r c = if r = c then e.at_ r else 0 := by
  rw [diagonal, forFin_get _ (fun i r c => r = i ∧ c = i) (fun r _ _ => e.at_ r)]
  · by_cases h : r = c
    · subst h; simp
    · rw [if_neg, if_neg h]; rfl
      rintro ⟨i, rfl, rfl⟩; exact h rfl
  · intro i M r c
    rw [get_set]
    by_cases h : r = i ∧ c = i
    · obtain ⟨rfl, rfl⟩ := h; simp
    · rw [if_neg h, if_neg h]
  · rintro i j r c ⟨rfl, _⟩ ⟨rfl, _⟩; rfl

theorem get_transposeInto (res : Mat T n m) (A : Mat T m n) (r : Fin n) (c : Fin m) :
    (transposeInto res A).get r c = A.get c r := by
  rw [transposeInto, forFin_get _ (fun i _ c => c = i) (fun r c _ => A.get c r)]
  · simp
  · intro i M r c
    rw [forFin_get _ (fun j r c => r = j ∧ c = i) (fun r c _ => A.get c r)]
    · by_cases h : c = i <;> simp [h]
    · intro j M r c
      rw [get_set]
      by_cases h : r = j ∧ c = i
      · obtain ⟨rfl, rfl⟩ := h; simp
      · rw [if_neg h, if_neg h]
    · rintro j j' r c ⟨rfl, _⟩ ⟨rfl, _⟩; rfl
  · rintro i j r c rfl rfl; rfl

@[simp] theorem get_transpose [Zero T] (A : Mat T m n) (r : Fin n) (c : Fin m) :
    A.transpose.get r c = A.get c r := get_transposeInto _ A r c

theorem inner_product_loop [AddCommMonoid T] [Mul T] (A : Mat T m n) (B : Mat T n p) (row : Fin m) (col : Fin p) (M : Mat T m p)
    (r : Fin m) (c : Fin p) :
    (forFin n (fun k M => M.set row col (M.get row col + A.get row k * B.get k col)) M).get r c =
      if r = row ∧ c = col then M.get r c + ∑ k, A.get row k * B.get k col else M.get r c := by
  unfold forFin
  rw [← List.sum_ofFn, List.ofFn_eq_map]
  generalize List.finRange n = l
  induction l generalizing M with
  | nil => simp
  | cons k l ih =>
    rw [List.foldl_cons, ih]
    simp only [get_set, List.map_cons, List.sum_cons]
    by_cases h : r = row ∧ c = col
    · obtain ⟨rfl, rfl⟩ := h; simp [add_assoc]
    · simp [h]

theorem get_mul [AddCommMonoid T] [Mul T] (A : Mat T m n) (B : Mat T n p) (r : Fin m) (c : Fin p) :
    (A.mul B).get r c = ∑ k, A.get r k * B.get k c := by
  rw [mul, forFin_get _ (fun i r _ => r = i) (fun r c x => x + ∑ k, A.get r k * B.get k c)]
  · simp
  · intro i M r c
    rw [forFin_get _ (fun j r c => r = i ∧ c = j) (fun r c x => x + ∑ k, A.get r k * B.get k c)]
    · by_cases h : r = i <;> simp [h]
    · intro j M r c
      rw [inner_product_loop]
      by_cases h : r = i ∧ c = j
      · obtain ⟨rfl, rfl⟩ := h; simp
      · rw [if_neg h, if_neg h]
    · rintro j j' r c ⟨_, rfl⟩ ⟨_, rfl⟩; rfl
  · rintro i j r c rfl rfl; rfl

/-! ### Vectors -/

theorem at_eq_get (v : MVec T n) (i : Fin n) : v.at_ i = v.get i 0 := by
  simp [at_, get, idx]

@[simp] theorem at_ofFn (f : Fin n → T) (i : Fin n) : (ofFn f).at_ i = f i := rfl

theorem ext_at {u v : MVec T n} (h : ∀ i, u.at_ i = v.at_ i) : u = v := by
  apply ext_get
  intro r c
  have := h r
  rw [at_eq_get, at_eq_get] at this
  have hc : c = 0 := Subsingleton.elim _ _
  rw [hc]; exact this

theorem dot_eq [AddCommMonoid T] [Mul T] (u v : MVec T n) : dot u v = ∑ i, u.at_ i * v.at_ i := by
  rw [dot, forFin_add, zero_add]

/-! ### Rows and columns -/

theorem writeSeq_ok {N : Nat} (vs : List T) (pos : Nat) (d : Fin N → T) (h : pos + vs.length ≤ N) :
    ∃ d', writeSeq vs pos d = .ok d' ∧
      (∀ (k : Nat) (hk : k < vs.length), d' ⟨pos + k, by omega⟩ = vs[k]) ∧
      ∀ j : Fin N, j.val < pos → d' j = d j := by
  induction vs generalizing pos d with
  | nil => exact ⟨d, rfl, by simp, fun _ _ => rfl⟩
  | cons v vs ih =>
    simp only [List.length_cons] at h
    obtain ⟨d', h1, h2, h3⟩ := ih (pos + 1) (Function.update d ⟨pos, by omega⟩ v) (by omega)
    refine ⟨d', by rw [writeSeq, dif_pos (show pos < N by omega), h1], ?_, ?_⟩
    · intro k hk
      cases k with
      | zero =>
        have := h3 ⟨pos, by omega⟩ (by simp)
        simpa using this
      | succ k =>
        have := h2 k (by simpa using hk)
        simp only [List.getElem_cons_succ]
        rw [← this]
        congr 2
        omega
    · intro j hj
      rw [h3 j (by omega), Function.update_of_ne]
      intro he
      rw [he] at hj; simp at hj

@[simp] theorem length_elems (v : MVec T n) : v.elems.length = n := by simp [elems]

@[simp] theorem elems_getElem (v : MVec T n) (i : Nat) (h : i < v.elems.length) :
    v.elems[i] = v.at_ ⟨i, by simpa using h⟩ := by
  simp [elems]

theorem flat_length (L : List (MVec T n)) : (L.flatMap elems).length = L.length * n := by
  induction L with
  | nil => simp
  | cons a L ih => simp [ih]; ring

theorem flat_getElem (L : List (MVec T n)) (i : Nat) (hi : i < L.length) (j : Fin n)
    (h : i * n + j.val < (L.flatMap elems).length) : (L.flatMap elems)[i * n + j.val] = (L[i]).at_ j := by
  induction L generalizing i with
  | nil => simp at hi
  | cons a L ih =>
    simp only [List.flatMap_cons]
    cases i with
    | zero =>
      rw [List.getElem_append_left (by simp)]
      simp
    | succ i =>
      have e : (i + 1) * n + j.val = a.elems.length + (i * n + j.val) := by
        rw [length_elems]; ring
      have hlen : i * n + j.val < (L.flatMap elems).length := by
        rw [flat_length]
        have : i + 1 ≤ L.length := by simpa using hi
        calc i * n + j.val < i * n + n := by omega
          _ = (i + 1) * n := by ring
          _ ≤ _ := Nat.mul_le_mul_right n this
      simp only [e]
      rw [List.getElem_append_right (by omega)]
      simp only [Nat.add_sub_cancel_left, List.getElem_cons_succ]
      exact ih i (by simpa using hi) hlen

theorem fromRows_ok [Zero T] (rows : MVec (MVec T n) m) :
    ∃ M, fromRows rows = .ok M ∧ ∀ r c, M.get r c = (rows.at_ r).at_ c := by
  have hl : (rows.elems.flatMap elems).length = m * n := by rw [flat_length]; simp
  obtain ⟨d, h1, h2, _⟩ := writeSeq_ok (rows.elems.flatMap elems) 0 (zero : Mat T m n).data (by omega)
  refine ⟨⟨d⟩, by simp [fromRows, h1], ?_⟩
  intro r c
  have hlt : r.val * n + c.val < (rows.elems.flatMap elems).length := by rw [hl]; exact (idx r c).isLt
  have := h2 (r.val * n + c.val) hlt
  rw [flat_getElem _ _ (by simp) c hlt, elems_getElem] at this
  simp only [get, idx]
  rw [← this]
  congr 2
  omega

theorem readSeq_ok {N : Nat} (d : Fin N → T) (k pos : Nat) (h : pos + k ≤ N) :
    ∃ l, readSeq d k pos = .ok l ∧ l.length = k ∧
      ∀ (j : Nat) (hj : j < l.length) (hN : pos + j < N), l[j] = d ⟨pos + j, hN⟩ := by
  induction k generalizing pos with
  | zero => exact ⟨[], rfl, rfl, by simp⟩
  | succ k ih =>
    obtain ⟨l, h1, h2, h3⟩ := ih (pos + 1) (by omega)
    refine ⟨d ⟨pos, by omega⟩ :: l, by rw [readSeq, dif_pos (show pos < N by omega), h1]; rfl, by simp [h2], ?_⟩
    intro j hj hN
    cases j with
    | zero => rfl
    | succ j =>
      rw [List.getElem_cons_succ, h3 j (by simpa using hj) (by omega)]
      congr 2; omega

theorem readRows_ok {N : Nat} (d : Fin N → T) (n k pos : Nat) (h : pos + k * n ≤ N) :
    ∃ L, readRows d n k pos = .ok L ∧ L.length = k ∧
      ∀ (i : Nat) (hi : i < L.length) (j : Nat) (hj : j < n) (hN : pos + i * n + j < N),
        ∃ hl : j < L[i].length, L[i][j] = d ⟨pos + i * n + j, hN⟩ := by
  induction k generalizing pos with
  | zero => exact ⟨[], rfl, rfl, by simp⟩
  | succ k ih =>
    have hh : pos + n + k * n ≤ N := by
      have : (k + 1) * n = k * n + n := by ring
      omega
    obtain ⟨r, r1, r2, r3⟩ := readSeq_ok d n pos (by omega)
    obtain ⟨L, h1, h2, h3⟩ := ih (pos + n) hh
    refine ⟨r :: L, by rw [readRows, r1]; simp [h1], by simp [h2], ?_⟩
    intro i hi j hj hN
    cases i with
    | zero =>
      refine ⟨by simp [r2, hj], ?_⟩
      simp only [List.getElem_cons_zero]
      rw [r3 j (by omega) (by omega)]
      congr 2; omega
    | succ i =>
      have e : pos + (i + 1) * n + j = pos + n + i * n + j := by ring
      obtain ⟨hl, hv⟩ := h3 i (by simpa using hi) j hj (by omega)
      refine ⟨by simpa using hl, ?_⟩
      simp only [List.getElem_cons_succ]
      rw [hv]
      congr 2; omega

theorem asRows_ok [Zero T] (A : Mat T m n) :
    ∃ rows, asRows A = .ok rows ∧ ∀ r c, (rows.at_ r).at_ c = A.get r c := by
  obtain ⟨L, h1, h2, h3⟩ := readRows_ok A.data n m 0 (by omega)
  refine ⟨_, by rw [asRows, h1]; rfl, ?_⟩
  intro r c
  have hlt := (idx r c).isLt
  simp only [idx] at hlt
  obtain ⟨hl, hv⟩ := h3 r.val (by omega) c.val c.isLt (by omega)
  simp only [at_ofFn]
  rw [show L.getD r.val [] = L[r.val]'(by omega) by simp [List.getD, h2], show (L[r.val]'(by omega)).getD c.val 0 = (L[r.val]'(by omega))[c.val]'hl by simp [List.getD, hl], hv]
  simp only [get, idx]
  congr 2
  omega

theorem fromCols_ok [Zero T] (cols : MVec (MVec T m) n) :
    ∃ M, fromCols cols = .ok M ∧ ∀ r c, M.get r c = (cols.at_ c).at_ r := by
  obtain ⟨M, h1, h2⟩ := fromRows_ok cols
  exact ⟨M.transpose, by simp [fromCols, h1], fun r c => by rw [get_transpose, h2]⟩

theorem asCols_ok [Zero T] (A : Mat T m n) :
    ∃ cols, asCols A = .ok cols ∧ ∀ r c, (cols.at_ c).at_ r = A.get r c := by
  obtain ⟨rows, h1, h2⟩ := asRows_ok A.transpose
  exact ⟨rows, h1, fun r c => by rw [h2, get_transpose]⟩

end Mat
end Simu
