import Verif.Lemmas.Matrix
import Verif.Spec.Matrix
/-
C09: matrix algebra and storage conversions.
-/
namespace Simu.Mat

/-- C09: the storage is a bijection with (row, column) positions. -/
theorem C09_storage_bijective {m n : Nat} :
    Function.Bijective (fun rc : Fin m × Fin n => (idx rc.1 rc.2 : Fin (m * n))) := by
  constructor
  · rintro ⟨r, c⟩ ⟨r', c'⟩ h
    obtain ⟨rfl, rfl⟩ := idx_inj h
    rfl
  · intro k
    obtain ⟨r, c, h⟩ := idx_surj k
    exact ⟨(r, c), h.symm⟩

/-- C09: a matrix is determined by its elements, and any elements are those of some matrix. -/
theorem C09_elements_determine {T : Type*} {m n : Nat} : Function.Bijective (toM : Mat T m n → _) := by
  constructor
  · intro A B h
    exact ext_get fun r c => by simpa [toM] using congrFun (congrFun h r) c
  · intro M
    refine ⟨⟨fun k => M (finProdFinEquiv.symm k).1 (finProdFinEquiv.symm k).2⟩, ?_⟩
    ext r c
    simp only [toM, get, Matrix.of_apply]
    rw [idx_eq, Equiv.symm_apply_apply]

/-- C09: writing one element changes that element only. -/
theorem C09_set_get {T : Type*} {m n : Nat} (M : Mat T m n) (r : Fin m) (c : Fin n) (v : T) :
    (M.set r c v).get r c = v ∧ ∀ r' c', (r', c') ≠ (r, c) → (M.set r c v).get r' c' = M.get r' c' := by
  refine ⟨by simp, ?_⟩
  intro r' c' h
  rw [get_set, if_neg]
  rintro ⟨rfl, rfl⟩
  exact h rfl

/-- C09: the operations compute the mathematical ones. -/
theorem C09_refines {T : Type*} [CommRing T] {m n p : Nat} (A A' : Mat T m n) (B : Mat T n p) (s : T) :
    (A.add A').toM = A.toM + A'.toM ∧ (A.sub A').toM = A.toM - A'.toM ∧ A.neg.toM = -A.toM ∧
    (A.smul s).toM = s • A.toM ∧ (A.mul B).toM = A.toM * B.toM ∧ A.transpose.toM = A.toM.transpose ∧
    (identity : Mat T n n).toM = 1 := by
  refine ⟨?_, ?_, ?_, ?_, ?_, ?_, ?_⟩ <;> ext i j
  · simp [toM, get_add]
  · simp [toM, get_sub]
  · simp [toM, get_neg]
  · simp [toM, get_smul, mul_comm]
  · simp [toM, get_mul, Matrix.mul_apply]
  · simp [toM]
  · simp [toM, get_identity, Matrix.one_apply]

/-- C09: `v / s` divides every element. -/
theorem C09_scalar_division {K : Type*} [Field K] {m n : Nat} (A : Mat K m n) (s : K) :
    (A.sdiv s).toM = s⁻¹ • A.toM := by
  ext i j
  simp [toM, get_sdiv, div_eq_inv_mul]

/-- C09: `filled`, `diagonal` and the dot product. -/
theorem C09_constructors {T : Type*} [CommRing T] {m n : Nat} (v : T) (u w : MVec T n) :
    (filled v : Mat T m n).toM = (Matrix.of fun _ _ => v) ∧ (diagonal u).toM = Matrix.diagonal u.toV ∧
    dot u w = u.toV ⬝ᵥ w.toV := by
  refine ⟨?_, ?_, ?_⟩
  · ext i j; simp [toM, get_filled]
  · ext i j
    simp only [toM, get_diagonal, Matrix.diagonal_apply, Matrix.of_apply]; rfl
  · rw [dot_eq]; rfl

/-- C09: ring laws. -/
theorem C09_ring_laws {T : Type*} [CommRing T] {m n p q : Nat} (A A' : Mat T m n) (B B' : Mat T n p) (C : Mat T p q) :
    (A.mul B).mul C = A.mul (B.mul C) ∧ A.mul (B.add B') = (A.mul B).add (A.mul B') ∧
    (A.add A').mul B = (A.mul B).add (A'.mul B) ∧ A.mul identity = A ∧ identity.mul A = A ∧
    A.add A' = A'.add A ∧ (A.sub A').add A' = A ∧ A.add A.neg = zero := by
  have key : ∀ {m n : Nat} {X Y : Mat T m n}, X.toM = Y.toM → X = Y := fun h => C09_elements_determine.1 h
  have rm : ∀ {m n p : Nat} (X : Mat T m n) (Y : Mat T n p), (X.mul Y).toM = X.toM * Y.toM :=
    fun X Y => (C09_refines X X Y 0).2.2.2.2.1
  have ra : ∀ {m n : Nat} (X Y : Mat T m n), (X.add Y).toM = X.toM + Y.toM :=
    fun X Y => (C09_refines X Y (zero : Mat T _ 0) 0).1
  have rs : ∀ {m n : Nat} (X Y : Mat T m n), (X.sub Y).toM = X.toM - Y.toM :=
    fun X Y => (C09_refines X Y (zero : Mat T _ 0) 0).2.1
  have rn : ∀ {m n : Nat} (X : Mat T m n), X.neg.toM = -X.toM :=
    fun X => (C09_refines X X (zero : Mat T _ 0) 0).2.2.1
  have ri : ∀ {n : Nat}, (identity : Mat T n n).toM = 1 :=
    fun {n} => (C09_refines (zero : Mat T 0 n) zero (zero : Mat T _ 0) 0).2.2.2.2.2.2
  refine ⟨key ?_, key ?_, key ?_, key ?_, key ?_, key ?_, key ?_, key ?_⟩
  · simp only [rm, Matrix.mul_assoc]
  · simp only [rm, ra, Matrix.mul_add]
  · simp only [rm, ra, Matrix.add_mul]
  · simp only [rm, ri, Matrix.mul_one]
  · simp only [rm, ri, Matrix.one_mul]
  · simp only [ra, add_comm]
  · simp only [ra, rs, sub_add_cancel]
  · simp only [ra, rn, add_neg_cancel]; ext i j; rfl

/-- C09: transposition laws. -/
theorem C09_transpose_laws {T : Type*} [CommRing T] {m n p : Nat} (A : Mat T m n) (B : Mat T n p) :
    (A.mul B).transpose = B.transpose.mul A.transpose ∧ A.transpose.transpose = A := by
  constructor
  · apply ext_get; intro r c
    simp only [get_transpose, get_mul]
    exact Finset.sum_congr rfl fun k _ => mul_comm _ _
  · apply ext_get; intro r c; simp

/-- C09: `transpose` writes every element of its uninitialised result. -/
theorem C09_transpose_initialises {T : Type*} {m n : Nat} (A : Mat T m n) (junk junk' : Mat T n m) :
    transposeInto junk A = transposeInto junk' A := by
  apply ext_get; intro r c; rw [get_transposeInto, get_transposeInto]

/-- C09: conversions to and from rows are mutually inverse, place the elements correctly and never leave the storage. -/
theorem C09_rows_round_trip {T : Type*} [Zero T] {m n : Nat} (A : Mat T m n) (rows : MVec (MVec T n) m) :
    A.asRows.bind fromRows = .ok A ∧ (fromRows rows).bind asRows = .ok rows ∧
    (∃ R, A.asRows = .ok R ∧ ∀ r c, (R.at_ r).at_ c = A.get r c) := by
  refine ⟨?_, ?_, asRows_ok A⟩
  · obtain ⟨R, h, hR⟩ := asRows_ok A
    obtain ⟨M, h', hM⟩ := fromRows_ok R
    rw [h, Outcome.bind_ok, h']
    congr 1
    exact ext_get fun r c => by rw [hM, hR]
  · obtain ⟨M, h, hM⟩ := fromRows_ok rows
    obtain ⟨R, h', hR⟩ := asRows_ok M
    rw [h, Outcome.bind_ok, h']
    congr 1
    exact ext_at fun r => ext_at fun c => by rw [hR, hM]

/-- C09: conversions to and from columns are mutually inverse and place the elements correctly. -/
theorem C09_cols_round_trip {T : Type*} [Zero T] {m n : Nat} (A : Mat T m n) (cols : MVec (MVec T m) n) :
    A.asCols.bind fromCols = .ok A ∧ (fromCols cols).bind asCols = .ok cols ∧
    (∃ C, A.asCols = .ok C ∧ ∀ r c, (C.at_ c).at_ r = A.get r c) := by
  refine ⟨?_, ?_, asCols_ok A⟩
  · obtain ⟨R, h, hR⟩ := asCols_ok A
    obtain ⟨M, h', hM⟩ := fromCols_ok R
    rw [h, Outcome.bind_ok, h']
    congr 1
    exact ext_get fun r c => by rw [hM, hR]
  · obtain ⟨M, h, hM⟩ := fromCols_ok cols
    obtain ⟨R, h', hR⟩ := asCols_ok M
    rw [h, Outcome.bind_ok, h']
    congr 1
    exact ext_at fun r => ext_at fun c => by rw [hR, hM]

/-- C09: the initializer list constructor reads the elements in row-major order and throws exactly
when the number of elements is wrong. -/
theorem C09_initializer_list {T : Type*} {m n : Nat} (l : List T) :
    (l.length ≠ m * n → (ofList l : Outcome (Mat T m n)) = .throw) ∧
    (∀ h : l.length = m * n, ∃ M : Mat T m n, ofList l = .ok M ∧
      ∀ r c, M.get r c = l[r.val * n + c.val]'(by rw [h]; exact (idx r c).isLt)) := by
  constructor
  · intro h; rw [ofList, dif_neg h]
  · intro h
    refine ⟨_, by rw [ofList, dif_pos h], ?_⟩
    intro r c
    simp [get, idx]

/-! A concrete non-square case: the product of a 2x3 and a 3x2 matrix, and the rows of the former. -/

/-- The 2x3 matrix with elements 1..6. -/
def sample23 : Mat ℚ 2 3 := ⟨![1, 2, 3, 4, 5, 6]⟩
/-- The 3x2 matrix with elements 7..12. -/
def sample32 : Mat ℚ 3 2 := ⟨![7, 8, 9, 10, 11, 12]⟩

#guard (sample23.mul sample32).get 0 0 = 58 ∧ (sample23.mul sample32).get 1 0 = 139
#guard sample23.transpose.get 2 1 = 6
example : (sample23.mul sample32).transpose = sample32.transpose.mul sample23.transpose :=
  (C09_transpose_laws _ _).1
example : sample23.asCols.bind fromCols = .ok sample23 := (C09_cols_round_trip _ (ofFn fun _ => ofFn fun _ => 0)).1
example : (ofList [1, 2, 3] : Outcome (Mat ℚ 2 2)) = .throw := (C09_initializer_list _).1 (by decide)

end Simu.Mat
