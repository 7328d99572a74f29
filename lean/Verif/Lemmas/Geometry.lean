import Verif.Model.Geometry
import Verif.Lemmas.Vec2
import Mathlib.Algebra.BigOperators.Fin
import Mathlib.Algebra.BigOperators.Group.List.Basic
import Mathlib.Data.List.Rotate
import Mathlib.Algebra.Group.Fin.Basic
import Mathlib.Algebra.Module.BigOperators
import Mathlib.Tactic.Abel
import Mathlib.Tactic.FieldSimp
import Mathlib.Tactic.Linarith
import Mathlib.Tactic.LinearCombination
/-
Edge iteration and sums over the edges of a vertex loop.
-/
set_option linter.unusedSectionVars false
namespace Simu

/-! ### Edge iteration -/
namespace EdgeIt

theorem visitFrom_eq (n k s : Nat) (hk : k < n) :
    visitFrom n ⟨s, k⟩ = .ok (⟨s, k⟩ :: (List.range' (k + 1) (n - 1 - k)).map fun i => ⟨i - 1, i⟩) := by
  obtain ⟨d, hd⟩ : ∃ d, n = k + 1 + d := ⟨n - k - 1, by omega⟩
  induction d generalizing k s with
  | zero =>
    have hn : n = k + 1 := by omega
    subst hn
    rw [visitFrom, if_neg (by simp), dif_pos (by simp)]
    dsimp only
    rw [visitFrom, if_pos (by simp)]
    simp
  | succ d ih =>
    rw [visitFrom, if_neg (by simp; omega), dif_pos hk]
    dsimp only
    rw [ih (k + 1) k (by omega) (by omega), Outcome.bind_ok]
    have : n - 1 - k = (n - 1 - (k + 1)) + 1 := by omega
    rw [this, List.range'_succ]
    simp

theorem visit_eq (n : Nat) (hn : 0 < n) :
    visit n = .ok (⟨n - 1, 0⟩ :: (List.range' 1 (n - 1)).map fun i => ⟨i - 1, i⟩) := by
  rw [visit, first, if_neg (by omega), Outcome.bind_ok, visitFrom_eq n 0 (n - 1) hn]
  simp

end EdgeIt

theorem endsAll_eq {α : Type*} (l : List α) (es : List EdgeIt) (f : EdgeIt → α × α)
    (h : ∀ e ∈ es, e.ends l = .ok (f e)) : endsAll l es = .ok (es.map f) := by
  induction es with
  | nil => rfl
  | cons e es ih =>
    rw [endsAll, h e (by simp), Outcome.bind_ok, ih fun e he => h e (by simp [he])]
    rfl

theorem zip_getElem_pairs {α : Type*} (a : α) (l : List α) :
    (a :: l).zip l = List.ofFn fun i : Fin l.length => ((a :: l)[i.val]'(by simp; omega), l[i.val]) := by
  apply List.ext_getElem
  · simp
  · intro i h1 h2; simp

/-- The edges visited in a loop starting at `a`. -/
theorem edgesOf_cons {α : Type*} (a : α) (l : List α) :
    edgesOf (a :: l) = .ok (((a :: l).getLast (by simp), a) :: (a :: l).zip l) := by
  rw [edgesOf, EdgeIt.visit_eq _ (by simp), Outcome.bind_ok]
  rw [endsAll_eq (a :: l) _ (fun e => ((a :: l).getD e.src a, (a :: l).getD e.dst a))]
  · congr 1
    simp only [List.length_cons, Nat.add_sub_cancel, List.map_cons, List.map_map]
    congr 1
    · simp [List.getLast_eq_getElem]
    · apply List.ext_getElem
      · simp
      · intro i h1 h2
        simp only [List.length_map, List.length_range'] at h1
        simp [List.getElem_zip, Function.comp, h1]
        simp [show 1 + i = i + 1 by omega, h1, List.getElem?_eq_getElem (show i < (a :: l).length by simp; omega)]
  · intro e he
    have hb : e.src < (a :: l).length ∧ e.dst < (a :: l).length := by
      simp only [List.length_cons, Nat.add_sub_cancel, List.mem_cons, List.mem_map, List.mem_range'_1] at he
      rcases he with rfl | ⟨i, hi, rfl⟩
      · simp
      · simp; omega
    unfold EdgeIt.ends
    rw [List.getElem?_eq_getElem hb.1, List.getElem?_eq_getElem hb.2]
    simp [List.getD, List.getElem?_eq_getElem hb.1, List.getElem?_eq_getElem hb.2]

theorem fin_zero_sub_one (n : Nat) : (0 - 1 : Fin (n + 1)) = Fin.last n := by
  rw [zero_sub]
  ext
  rw [Fin.val_neg']
  rcases n with _ | n
  · simp
  · simp

theorem fin_succ_sub_one {n : Nat} (i : Fin n) : (i.succ - 1 : Fin (n + 1)) = i.castSucc := by
  rw [sub_eq_iff_eq_add]
  exact (Fin.coeSucc_eq_succ).symm

/-- The edges visited, indexed cyclically. -/
theorem edgesOf_ofFn {α : Type*} {n : Nat} (v : Fin (n + 1) → α) :
    edgesOf (List.ofFn v) = .ok (List.ofFn fun i => (v (i - 1), v i)) := by
  rw [List.ofFn_succ, edgesOf_cons]
  congr 1
  rw [List.ofFn_succ]
  congr 1
  · rw [fin_zero_sub_one]
    congr 1
    rw [List.getLast_eq_getElem]
    rcases n with _ | n
    · simp
    · simp only [List.length_cons, List.length_ofFn, Nat.add_sub_cancel, List.getElem_cons_succ, List.getElem_ofFn]
      rfl
  · apply List.ext_getElem
    · simp
    · intro i h1 h2
      simp only [List.getElem_zip, List.getElem_ofFn]
      rw [fin_succ_sub_one]
      congr 1
      rcases i with _ | i
      · rfl
      · simp only [List.getElem_cons_succ, List.getElem_ofFn]; rfl

theorem exists_ofFn {α : Type*} {l : List α} (h : l ≠ []) : ∃ (n : Nat) (v : Fin (n + 1) → α), l = List.ofFn v := by
  obtain ⟨a, t, rfl⟩ := List.exists_cons_of_ne_nil h
  refine ⟨t.length, fun i => (a :: t).get i, ?_⟩
  exact (List.ofFn_get _).symm

/-! ### Sums over the edges of a loop -/
section cyc
variable {α M : Type*} [AddCommGroup M] {n : Nat}

/-- `Σ g(v_{i-1}, v_i)` over the loop. -/
def cyc (g : α → α → M) (v : Fin (n + 1) → α) : M := ∑ i, g (v (i - 1)) (v i)

theorem cyc_telescope (f : α → M) (v : Fin (n + 1) → α) : cyc (fun a b => f b - f a) v = 0 := by
  unfold cyc
  rw [Finset.sum_sub_distrib, sub_eq_zero]
  exact (Equiv.sum_comp (Equiv.subRight 1) fun i => f (v i)).symm

theorem cyc_add (g h : α → α → M) (v : Fin (n + 1) → α) :
    cyc (fun a b => g a b + h a b) v = cyc g v + cyc h v := Finset.sum_add_distrib

theorem cyc_congr {g h : α → α → M} (H : ∀ a b, g a b = h a b) (v : Fin (n + 1) → α) : cyc g v = cyc h v :=
  Finset.sum_congr rfl fun _ _ => H _ _

theorem cyc_map {β : Type*} (g : β → β → M) (t : α → β) (v : Fin (n + 1) → α) :
    cyc g (fun i => t (v i)) = cyc (fun a b => g (t a) (t b)) v := rfl

theorem cyc_rotate (g : α → α → M) (v : Fin (n + 1) → α) : cyc g (fun i => v (i + 1)) = cyc g v := by
  unfold cyc
  rw [← Equiv.sum_comp (Equiv.addRight (1 : Fin (n + 1))) fun i => g (v (i - 1)) (v i)]
  refine Finset.sum_congr rfl fun i _ => ?_
  simp

theorem rev_eq (i : Fin (n + 1)) : Fin.rev i = -i - 1 := by
  have h : Fin.rev i + i = Fin.last n := by
    ext
    rw [Fin.val_add, Fin.val_rev, Fin.val_last]
    have : n + 1 - (i.val + 1) + i.val = n := by omega
    rw [this, Nat.mod_eq_of_lt (by omega)]
  rw [← fin_zero_sub_one] at h
  rw [eq_sub_of_add_eq h]
  abel

theorem cyc_rev (g : α → α → M) (v : Fin (n + 1) → α) : cyc g (fun i => v (Fin.rev i)) = cyc (fun a b => g b a) v := by
  unfold cyc
  rw [← Equiv.sum_comp (Equiv.neg (Fin (n + 1))) fun i => g (v i) (v (i - 1))]
  refine Finset.sum_congr rfl fun i _ => ?_
  simp only [rev_eq, Equiv.neg_apply]
  congr 2
  abel

end cyc

/-! ### Fans -/
section fan
variable {α M : Type*} [AddCommGroup M]

/-- Sum over consecutive elements. -/
def pathSum (g : α → α → M) : List α → M
  | [] => 0
  | [_] => 0
  | a :: b :: t => g a b + pathSum g (b :: t)

theorem zip_pathSum (g : α → α → M) (a : α) (l : List α) : (((a :: l).zip l).map fun e => g e.1 e.2).sum = pathSum g (a :: l) := by
  induction l generalizing a with
  | nil => rfl
  | cons b t ih => simp only [List.zip_cons_cons, List.map_cons, List.sum_cons, pathSum, ih b]

theorem fan_eq (g : α → α → M) (hg : ∀ a b, g b a = -g a b) (o a : α) (t : List α) :
    g ((a :: t).getLast (by simp)) o + pathSum g (o :: a :: t) =
      pathSum (fun a b => g o a + g a b + g b o) (a :: t) := by
  induction t generalizing a with
  | nil => simp [pathSum, hg o a]
  | cons b t ih =>
    have := ih b
    simp only [pathSum] at this ⊢
    rw [List.getLast_cons (by simp), ← this, hg o b]
    abel

end fan

/-! ### Geometric properties as sums -/
section props
variable {K : Type*} [Field K] [LinearOrder K] [IsStrictOrderedRing K]

/-- Integrands of the three sums. -/
def aTerm (a b : Vec2 K) : K := Vec2.cross a b
/-- Integrand of the first moment. -/
def cTerm (a b : Vec2 K) : Vec2 K := Vec2.cross a b • (a + b)
/-- Integrand of the second moment. -/
def mTerm (a b : Vec2 K) : K := Vec2.cross a b * (Vec2.normSquared a + Vec2.dot a b + Vec2.normSquared b)

theorem foldl_accumulate (es : List (Vec2 K × Vec2 K)) (g : GeometricProperties K) :
    es.foldl GeometricProperties.accumulate g =
      ⟨g.centroid + (es.map fun e => cTerm e.1 e.2).sum, g.area + (es.map fun e => aTerm e.1 e.2).sum,
        g.momentOfArea + (es.map fun e => mTerm e.1 e.2).sum, g.isDegenerate⟩ := by
  induction es generalizing g with
  | nil => simp
  | cons e es ih =>
    rw [List.foldl_cons, ih]
    simp only [GeometricProperties.accumulate, List.map_cons, List.sum_cons, aTerm, cTerm, mTerm, add_assoc]

/-- The properties computed from the three sums. -/
def propsOf (A : K) (C : Vec2 K) (M : K) : GeometricProperties K :=
  GeometricProperties.finish ⟨C, A, M, false⟩

theorem of_ofFn {n : Nat} (v : Fin (n + 1) → Vec2 K) :
    GeometricProperties.of (List.ofFn v) = .ok (propsOf (cyc aTerm v) (cyc cTerm v) (cyc mTerm v)) := by
  rw [GeometricProperties.of, edgesOf_ofFn, Outcome.bind_ok, foldl_accumulate]
  simp only [List.map_ofFn, List.sum_ofFn, zero_add]
  rfl

theorem of_cons (o a : Vec2 K) (t : List (Vec2 K)) :
    GeometricProperties.of (o :: a :: t) = .ok (propsOf
      (pathSum (fun a b => aTerm o a + aTerm a b + aTerm b o) (a :: t))
      (pathSum (fun a b => cTerm o a + cTerm a b + cTerm b o) (a :: t))
      (pathSum (fun a b => mTerm o a + mTerm a b + mTerm b o) (a :: t))) := by
  rw [GeometricProperties.of, edgesOf_cons, Outcome.bind_ok, foldl_accumulate]
  simp only [List.map_cons, List.sum_cons, zip_pathSum, zero_add]
  rw [List.getLast_cons (by simp : a :: t ≠ [])]
  rw [fan_eq aTerm (fun a b => by simp [aTerm, Vec2.cross]; ring),
    fan_eq cTerm (fun a b => by ext <;> simp [cTerm, Vec2.cross] <;> ring),
    fan_eq mTerm (fun a b => by simp [mTerm, Vec2.cross, Vec2.normSquared, Vec2.dot]; ring)]
  rfl

theorem cyc_aTerm_translate {n : Nat} (t : Vec2 K) (v : Fin (n + 1) → Vec2 K) :
    cyc aTerm (fun i => t + v i) = cyc aTerm v := by
  rw [cyc_map aTerm (fun a => t + a)]
  rw [cyc_congr (h := fun a b => aTerm a b + (Vec2.cross t b - Vec2.cross t a))
    (fun a b => by simp [aTerm, Vec2.cross]; ring)]
  rw [cyc_add, cyc_telescope (fun a => Vec2.cross t a), add_zero]

theorem cyc_smul {n : Nat} (g : Vec2 K → Vec2 K → K) (t : Vec2 K) (v : Fin (n + 1) → Vec2 K) :
    cyc (fun a b => g a b • t) v = cyc g v • t := (Finset.sum_smul).symm

theorem cyc_mul {n : Nat} (g : Vec2 K → Vec2 K → K) (t : K) (v : Fin (n + 1) → Vec2 K) :
    cyc (fun a b => g a b * t) v = cyc g v * t := (Finset.sum_mul _ _ _).symm

/-- `Vec2.dot` distributes over the sum of the first moment. -/
theorem cyc_dot {n : Nat} (g : Vec2 K → Vec2 K → Vec2 K) (t : Vec2 K) (v : Fin (n + 1) → Vec2 K) :
    cyc (fun a b => Vec2.dot (g a b) t) v = Vec2.dot (cyc g v) t := by
  unfold cyc
  have : ∀ s : Finset (Fin (n + 1)), ∑ i ∈ s, Vec2.dot (g (v (i - 1)) (v i)) t = Vec2.dot (∑ i ∈ s, g (v (i - 1)) (v i)) t := by
    intro s
    induction s using Finset.induction_on with
    | empty => simp [Vec2.dot]
    | insert i s hi ih => rw [Finset.sum_insert hi, Finset.sum_insert hi, ih]; simp [Vec2.dot]; ring
  exact this _

theorem cyc_cTerm_translate {n : Nat} (t : Vec2 K) (v : Fin (n + 1) → Vec2 K) :
    cyc cTerm (fun i => t + v i) = cyc cTerm v + (cyc aTerm v * 3) • t := by
  rw [cyc_map cTerm (fun a => t + a)]
  rw [cyc_congr (h := fun a b => cTerm a b + ((aTerm a b * 3) • t +
      ((Vec2.cross t b • b + (2 * Vec2.cross t b) • t) - (Vec2.cross t a • a + (2 * Vec2.cross t a) • t))))
    (fun a b => by ext <;> simp [aTerm, cTerm, Vec2.cross] <;> ring)]
  rw [cyc_add, cyc_add, cyc_telescope (fun a => Vec2.cross t a • a + (2 * Vec2.cross t a) • t), add_zero,
    cyc_smul (fun a b => aTerm a b * 3), cyc_mul]

theorem cyc_mTerm_translate {n : Nat} (t : Vec2 K) (v : Fin (n + 1) → Vec2 K) :
    cyc mTerm (fun i => t + v i) =
      cyc mTerm v + 4 * Vec2.dot (cyc cTerm v) t + 6 * cyc aTerm v * Vec2.normSquared t := by
  rw [cyc_map mTerm (fun a => t + a)]
  rw [cyc_congr (h := fun a b => mTerm a b + (Vec2.dot (cTerm a b) t * 4 + (aTerm a b * (6 * Vec2.normSquared t) +
      ((fun v => Vec2.cross t v * Vec2.normSquared v + 3 * Vec2.cross t v * Vec2.dot v t + 3 * Vec2.normSquared t * Vec2.cross t v) b -
       (fun v => Vec2.cross t v * Vec2.normSquared v + 3 * Vec2.cross t v * Vec2.dot v t + 3 * Vec2.normSquared t * Vec2.cross t v) a))))
    (fun a b => by simp [aTerm, cTerm, mTerm, Vec2.cross, Vec2.dot, Vec2.normSquared]; ring)]
  rw [cyc_add, cyc_add, cyc_add, cyc_telescope, add_zero, cyc_mul, cyc_mul, cyc_dot]
  ring

end props
end Simu
