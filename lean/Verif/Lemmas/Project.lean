import Verif.Lemmas.Contract
import Mathlib.Algebra.Order.BigOperators.Group.Finset
import Mathlib.Algebra.Order.Archimedean.Basic
import Mathlib.Analysis.PSeries
import Mathlib.Data.Rat.Cast.Order
/-
Projected block Gauss-Seidel iteration for a positive semidefinite matrix, seen from a solution.
-/
namespace Simu
open Matrix
variable {K : Type*} [Field K] [LinearOrder K] [IsStrictOrderedRing K] {ι κ : Type*} [Fintype ι]

/-- Each block of `ls` in turn is changed such that neither going back nor going to the solution (at zero) would help. -/
def PSweep (A : Matrix ι ι K) (w : ι → K) (blk : ι → κ) : List κ → (ι → K) → (ι → K) → Prop
  | [], x, y => y = x
  | l :: ls, x, y => ∃ z, (∀ i, blk i ≠ l → z i = x i) ∧
      (∀ i, blk i = l → 0 ≤ ((A *ᵥ z) i + w i) * (x i - z i) ∧ ((A *ᵥ z) i + w i) * z i ≤ 0) ∧ PSweep A w blk ls z y

/-- Twice the energy above that of the solution. -/
def gap (A : Matrix ι ι K) (w : ι → K) (x : ι → K) : K := quad A x + 2 * (x ⬝ᵥ w)

/-- The part of `x` in the block `l`. -/
def part [DecidableEq κ] (blk : ι → κ) (l : κ) (x : ι → K) : ι → K := fun i => if blk i = l then x i else 0

theorem quad_le_gap (A : Matrix ι ι K) {w x : ι → K} (h : ∀ i, 0 ≤ w i * x i) : quad A x ≤ gap A w x := by
  have : 0 ≤ x ⬝ᵥ w := Finset.sum_nonneg fun i _ => by rw [mul_comm]; exact h i
  rw [gap]; linarith

theorem quad_split {A : Matrix ι ι K} (hA : A.transpose = A) (hp : ∀ x, 0 ≤ quad A x) (x y : ι → K) {t : K} (ht : 0 < t) :
    quad A (x + y) ≤ (1 + t) * quad A x + (1 + 1 / t) * quad A y := by
  have h := hp (y + (-t) • x)
  rw [quad_add hA] at h
  have h2 := quad_add hA x y 1
  rw [one_smul, quad_symm hA y x] at h2
  rw [h2]
  set a := x ⬝ᵥ A *ᵥ y
  have h3 : 2 * a ≤ t * quad A x + 1 / t * quad A y := by
    have e : t * (t * quad A x + 1 / t * quad A y - 2 * a) = quad A y + 2 * -t * a + -t * -t * quad A x := by field_simp; ring
    rw [← e] at h
    have := nonneg_of_mul_nonneg_right h ht
    linarith
  linarith

/-- Work of one form against another. -/
theorem quad_young {A : Matrix ι ι K} (hA : A.transpose = A) (hp : ∀ x, 0 ≤ quad A x) (x y : ι → K) {t : K} (ht : 0 < t) :
    2 * (x ⬝ᵥ A *ᵥ y) ≤ t * quad A x + quad A y / t := by
  have h := quad_split hA hp x y ht
  have h2 := quad_add hA x y 1
  rw [one_smul, quad_symm hA y x] at h2
  rw [h2] at h
  have : quad A y / t = 1 / t * quad A y := by ring
  rw [this]
  linarith

/-- One call. -/
theorem gap_drop {A : Matrix ι ι K} (hA : A.transpose = A) {w x z : ι → K} {B : ι → Prop} (h1 : ∀ i, ¬B i → z i = x i)
    (h2 : ∀ i, B i → 0 ≤ ((A *ᵥ z) i + w i) * (x i - z i)) : quad A (z - x) ≤ gap A w x - gap A w z := by
  have h : 0 ≤ (x - z) ⬝ᵥ (A *ᵥ z + w) := by
    refine Finset.sum_nonneg fun i _ => ?_
    by_cases hb : B i
    · rw [mul_comm]; exact h2 i hb
    · rw [Pi.sub_apply, h1 i hb, sub_self, zero_mul]
  have hx : x = z + (1 : K) • (x - z) := by funext i; simp
  have e1 : quad A x = quad A z + 2 * ((x - z) ⬝ᵥ A *ᵥ z) + quad A (x - z) := by
    conv_lhs => rw [hx]
    rw [quad_add hA]; ring
  have e2 : quad A (z - x) = quad A (x - z) := by
    have : z - x = 0 + (-1 : K) • (x - z) := by funext i; simp
    rw [this, quad_add hA]; simp [quad]
  rw [dotProduct_add] at h
  have e3 : (x - z) ⬝ᵥ w = x ⬝ᵥ w - z ⬝ᵥ w := sub_dotProduct _ _ _
  rw [gap, gap, e1, e2]
  linarith

variable [DecidableEq κ]

/-- One round. -/
theorem psweep_drop {A : Matrix ι ι K} (hA : A.transpose = A) (hp : ∀ x, 0 ≤ quad A x) {w : ι → K} (blk : ι → κ) :
    ∀ (ls : List κ) {x y : ι → K}, ls.Nodup → PSweep A w blk ls x y → gap A w y ≤ gap A w x ∧
      quad A (y - x) ≤ 2 ^ ls.length * (gap A w x - gap A w y) ∧ (∀ i, blk i ∉ ls → y i = x i) ∧
      ∃ δ ζ : κ → ι → K, (∀ l ∈ ls, part blk l y = part blk l x + δ l) ∧ ∑ l ∈ ls.toFinset, quad A (δ l) ≤ gap A w x - gap A w y ∧
        ∀ l ∈ ls, quad A (y - ζ l) ≤ 2 ^ ls.length * (gap A w x - gap A w y) ∧ ∀ i, blk i = l → ((A *ᵥ ζ l) i + w i) * y i ≤ 0
  | [], x, y, _, h => by
    have h : y = x := h
    subst h
    exact ⟨le_rfl, by simp [quad], fun _ _ => rfl, fun _ => 0, fun _ => 0, fun l hl => (List.not_mem_nil hl).elim, by simp, fun l hl => (List.not_mem_nil hl).elim⟩
  | l :: ls, x, y, hnd, ⟨z, h1, h2, h3⟩ => by
    obtain ⟨n1, n2⟩ := List.nodup_cons.1 hnd
    obtain ⟨i1, i2, i3, δ, ζ, i4, i5, i6⟩ := psweep_drop hA hp blk ls n2 h3
    have hd := gap_drop hA (B := fun i => blk i = l) h1 (fun i hi => (h2 i hi).1)
    have hz := hp (z - x)
    have hle : gap A w z ≤ gap A w x := by linarith
    have hpow : (2 : K) ^ (l :: ls).length = 2 * 2 ^ ls.length := by rw [List.length_cons, pow_succ]; ring
    have h1p : (1 : K) ≤ 2 ^ ls.length := one_le_pow₀ (by norm_num)
    have hup : 2 ^ ls.length * (gap A w z - gap A w y) ≤ 2 ^ (l :: ls).length * (gap A w x - gap A w y) := by
      rw [hpow]
      have a1 : 0 ≤ 2 ^ ls.length * (gap A w z - gap A w y) := mul_nonneg (by linarith) (by linarith)
      have a2 : 0 ≤ 2 ^ ls.length * (gap A w x - gap A w z) := mul_nonneg (by linarith) (by linarith)
      nlinarith
    refine ⟨i1.trans hle, ?_, fun i hi => ?_, fun k => if k = l then z - x else δ k, fun k => if k = l then z else ζ k, ?_, ?_, ?_⟩
    · have hs := quad_split hA hp (y - z) (z - x) one_pos
      rw [sub_add_sub_cancel] at hs
      have a2 : gap A w x - gap A w z ≤ 2 ^ ls.length * (gap A w x - gap A w z) := le_mul_of_one_le_left (by linarith) h1p
      rw [hpow]
      have : (2 : K) * 2 ^ ls.length * (gap A w x - gap A w y) = 2 * (2 ^ ls.length * (gap A w z - gap A w y)) + 2 * (2 ^ ls.length * (gap A w x - gap A w z)) := by ring
      rw [this]
      norm_num at hs
      linarith
    · rw [List.mem_cons, not_or] at hi
      rw [i3 i hi.2, h1 i hi.1]
    · intro k hk
      by_cases hkl : k = l
      · subst hkl
        funext i
        simp only [part, if_true, Pi.add_apply, Pi.sub_apply]
        by_cases hb : blk i = k
        · rw [if_pos hb, if_pos hb, i3 i (by rw [hb]; exact n1)]; ring
        · rw [if_neg hb, if_neg hb, h1 i hb]; ring
      · have hk' := (List.mem_cons.1 hk).resolve_left hkl
        rw [i4 k hk']
        simp only [if_neg hkl]
        congr 1
        funext i
        simp only [part]
        split_ifs with hb
        · exact h1 i (by rw [hb]; exact hkl)
        · rfl
    · rw [List.toFinset_cons, Finset.sum_insert (by simpa using n1)]
      simp only [if_true]
      have : ∑ k ∈ ls.toFinset, quad A (if k = l then z - x else δ k) = ∑ k ∈ ls.toFinset, quad A (δ k) :=
        Finset.sum_congr rfl fun k hk => by
          rw [if_neg (fun h => n1 (by rw [← h]; exact List.mem_toFinset.1 hk))]
      rw [this]
      linarith
    · intro k hk
      by_cases hkl : k = l
      · subst hkl
        simp only [if_true]
        refine ⟨i2.trans hup, fun i hi => ?_⟩
        rw [i3 i (by rw [hi]; exact n1)]
        exact (h2 i hi).2
      · have hk' := (List.mem_cons.1 hk).resolve_left hkl
        simp only [if_neg hkl]
        exact ⟨(i6 k hk').1.trans hup, (i6 k hk').2⟩

/-- The energies of the blocks. -/
def blocks (A : Matrix ι ι K) (blk : ι → κ) (ls : List κ) (x : ι → K) : K := ∑ l ∈ ls.toFinset, quad A (part blk l x)

/-- What a round does to the energies. -/
theorem psweep_round {A : Matrix ι ι K} (hA : A.transpose = A) (hp : ∀ x, 0 ≤ quad A x) {w : ι → K} (blk : ι → κ) {ls : List κ} (hnd : ls.Nodup)
    (hall : ∀ i, blk i ∈ ls) {x y : ι → K} (h : PSweep A w blk ls x y) {t : K} (ht : 0 < t) :
    gap A w y ≤ gap A w x ∧ blocks A blk ls y ≤ (1 + t) * blocks A blk ls x + (1 + 1 / t) * (gap A w x - gap A w y) ∧
      gap A w y ≤ t * blocks A blk ls y + ls.length * 2 ^ ls.length * (gap A w x - gap A w y) / t := by
  obtain ⟨i1, -, -, δ, ζ, i4, i5, i6⟩ := psweep_drop hA hp blk ls hnd h
  refine ⟨i1, ?_, ?_⟩
  · calc blocks A blk ls y ≤ ∑ l ∈ ls.toFinset, ((1 + t) * quad A (part blk l x) + (1 + 1 / t) * quad A (δ l)) := by
          refine Finset.sum_le_sum fun l hl => ?_
          rw [i4 l (List.mem_toFinset.1 hl)]
          exact quad_split hA hp _ _ ht
      _ = (1 + t) * blocks A blk ls x + (1 + 1 / t) * ∑ l ∈ ls.toFinset, quad A (δ l) := by
          rw [Finset.sum_add_distrib, blocks, Finset.mul_sum, Finset.mul_sum]
      _ ≤ _ := by
          have : 0 < 1 + 1 / t := by positivity
          have := mul_le_mul_of_nonneg_left i5 this.le
          linarith
  · have hy : y = ∑ l ∈ ls.toFinset, part blk l y := by
      funext i
      rw [Finset.sum_apply]
      simp only [part]
      rw [Finset.sum_ite_eq, if_pos (List.mem_toFinset.2 (hall i))]
    have hwork : y ⬝ᵥ (A *ᵥ y + w) ≤ ∑ l ∈ ls.toFinset, part blk l y ⬝ᵥ A *ᵥ (y - ζ l) := by
      have e : y ⬝ᵥ (A *ᵥ y + w) = ∑ l ∈ ls.toFinset, part blk l y ⬝ᵥ (A *ᵥ y + w) := by
        conv_lhs => rw [hy]
        rw [sum_dotProduct, ← hy]
      rw [e]
      refine Finset.sum_le_sum fun l hl => ?_
      have e2 : A *ᵥ y + w = A *ᵥ (y - ζ l) + (A *ᵥ ζ l + w) := by rw [Matrix.mulVec_sub]; abel
      rw [e2, dotProduct_add]
      have : part blk l y ⬝ᵥ (A *ᵥ ζ l + w) ≤ 0 := by
        refine Finset.sum_nonpos fun i _ => ?_
        simp only [part]
        split_ifs with hb
        · have := (i6 l (List.mem_toFinset.1 hl)).2 i hb
          rw [mul_comm]; exact this
        · rw [zero_mul]
      linarith
    have hg : gap A w y ≤ 2 * (y ⬝ᵥ (A *ᵥ y + w)) := by
      have := hp y
      rw [gap, dotProduct_add]
      rw [quad] at this ⊢
      linarith
    have hterm : ∀ l ∈ ls.toFinset, 2 * (part blk l y ⬝ᵥ A *ᵥ (y - ζ l)) ≤ t * quad A (part blk l y) + 2 ^ ls.length * (gap A w x - gap A w y) / t := by
      intro l hl
      refine (quad_young hA hp _ _ ht).trans ?_
      have := (i6 l (List.mem_toFinset.1 hl)).1
      have := div_le_div_of_nonneg_right this ht.le
      linarith
    calc gap A w y ≤ ∑ l ∈ ls.toFinset, 2 * (part blk l y ⬝ᵥ A *ᵥ (y - ζ l)) := by rw [← Finset.mul_sum]; linarith
      _ ≤ ∑ l ∈ ls.toFinset, (t * quad A (part blk l y) + 2 ^ ls.length * (gap A w x - gap A w y) / t) := Finset.sum_le_sum hterm
      _ = _ := by
          rw [Finset.sum_add_distrib, blocks, Finset.mul_sum, Finset.sum_const, List.toFinset_card_of_nodup hnd, nsmul_eq_mul]
          ring

/-- The harmonic series has no bound. -/
theorem harmonic_unbounded [Archimedean K] (B : K) : ∃ N : Nat, ∀ k, N ≤ k → B < ∑ j ∈ Finset.range k, 1 / ((j : K) + 2) := by
  obtain ⟨b, hb⟩ := exists_nat_gt B
  have ht := Real.tendsto_sum_range_one_div_nat_succ_atTop
  obtain ⟨N, hN⟩ := (Filter.tendsto_atTop.1 ht ((b : ℝ) + 1)).exists_forall_of_atTop
  refine ⟨N, fun k hk => hb.trans_le ?_⟩
  have h1 := hN (k + 1) (by omega)
  rw [Finset.sum_range_succ'] at h1
  have h2 : (b : ℝ) ≤ ∑ j ∈ Finset.range k, 1 / ((j : ℝ) + 2) := by
    have e : ∀ j : Nat, (1 : ℝ) / (((j + 1 : ℕ) : ℝ) + 1) = 1 / ((j : ℝ) + 2) := fun j => by push_cast; ring
    simp only [e] at h1
    norm_num at h1 ⊢
    linarith
  have h3 : (b : ℚ) ≤ ∑ j ∈ Finset.range k, 1 / ((j : ℚ) + 2) := by
    have : ((b : ℚ) : ℝ) ≤ ((∑ j ∈ Finset.range k, 1 / ((j : ℚ) + 2) : ℚ) : ℝ) := by push_cast; exact h2
    exact_mod_cast this
  have h4 : ((b : ℚ) : K) ≤ ((∑ j ∈ Finset.range k, 1 / ((j : ℚ) + 2) : ℚ) : K) := Rat.cast_le.2 h3
  push_cast at h4
  exact h4

/-- Rounds bring the energy below any bound. -/
theorem psweeps_converge [Archimedean K] {A : Matrix ι ι K} (hA : A.transpose = A) (hp : ∀ x, 0 ≤ quad A x) {w : ι → K} (blk : ι → κ) {ls : List κ}
    (hnd : ls.Nodup) (hall : ∀ i, blk i ∈ ls) (B : K) {ε : K} (hε : 0 < ε) :
    ∃ N, ∀ k, N ≤ k → ∀ x : Nat → ι → K, blocks A blk ls (x 0) + gap A w (x 0) ≤ B → (∀ j, j ≤ k → ∀ i, 0 ≤ w i * x j i) →
      (∀ j, j < k → PSweep A w blk ls (x j) (x (j + 1))) → gap A w (x k) < ε := by
  set H : K := ls.length * 2 ^ ls.length with hH
  have hH0 : 0 ≤ H := by positivity
  set B' := max B 0 with hB'
  have hB0 : 0 ≤ B' := le_max_right _ _
  obtain ⟨N, hN⟩ := harmonic_unbounded (K := K) (4 * (B' + 1) * H * B' / (ε * ε))
  refine ⟨N, fun k hk x hx hpos hsw => ?_⟩
  have hxB : blocks A blk ls (x 0) + gap A w (x 0) ≤ B' := hx.trans (le_max_left _ _)
  by_contra hge
  rw [not_lt] at hge
  have hg0 : ∀ j, j ≤ k → 0 ≤ gap A w (x j) := fun j hj => (hp _).trans (quad_le_gap A (hpos j hj))
  have hb0 : ∀ y, 0 ≤ blocks A blk ls y := fun y => Finset.sum_nonneg fun l _ => hp _
  have hmono : ∀ j, j < k → gap A w (x (j + 1)) ≤ gap A w (x j) := fun j hj => (psweep_round hA hp blk hnd hall (hsw j hj) one_pos).1
  have hgeε : ∀ m, m ≤ k → ε ≤ gap A w (x (k - m)) := by
    intro m
    induction m with
    | zero => intro _; exact hge
    | succ m ih =>
      intro hm
      have h := hmono (k - (m + 1)) (by omega)
      have e : k - (m + 1) + 1 = k - m := by omega
      rw [e] at h
      exact (ih (by omega)).trans h
  have hgeε' : ∀ j, j ≤ k → ε ≤ gap A w (x j) := by
    intro j hj
    have := hgeε (k - j) (by omega)
    rwa [show k - (k - j) = j by omega] at this
  -- the blocks
  have hblocks : ∀ j, j ≤ k → blocks A blk ls (x j) ≤ ((j : K) + 1) * (B' - gap A w (x j)) := by
    intro j
    induction j with
    | zero => intro _; simp; linarith
    | succ j ih =>
      intro hj
      have ih := ih (by omega)
      have hj0 : (0 : K) < (j : K) + 1 := by positivity
      obtain ⟨-, h2, -⟩ := psweep_round hA hp blk hnd hall (hsw j (by omega)) (t := 1 / ((j : K) + 1)) (by positivity)
      have e1 : (1 : K) + 1 / ((j : K) + 1) = ((j : K) + 2) / ((j : K) + 1) := by field_simp; ring
      rw [one_div_one_div, e1] at h2
      have h3 : ((j : K) + 2) / ((j : K) + 1) * blocks A blk ls (x j) ≤ ((j : K) + 2) / ((j : K) + 1) * (((j : K) + 1) * (B' - gap A w (x j))) :=
        mul_le_mul_of_nonneg_left ih (by positivity)
      have e2 : ((j : K) + 2) / ((j : K) + 1) * (((j : K) + 1) * (B' - gap A w (x j))) = ((j : K) + 2) * (B' - gap A w (x j)) := by field_simp
      rw [e2] at h3
      push_cast
      have e3 : ((j : K) + 1 + 1) * (B' - gap A w (x (j + 1))) = ((j : K) + 2) * (B' - gap A w (x j)) + (1 + ((j : K) + 1)) * (gap A w (x j) - gap A w (x (j + 1))) := by ring
      rw [e3]
      linarith
  -- the drop of each round
  have hdrop : ∀ j, j < k → ε * ε / (4 * (B' + 1)) * (1 / ((j : K) + 2)) ≤ H * (gap A w (x j) - gap A w (x (j + 1))) := by
    intro j hj
    have hB1 : 0 < B' + 1 := by linarith
    set t : K := ε / (2 * ((j : K) + 2) * (B' + 1)) with ht
    have ht0 : 0 < t := by positivity
    obtain ⟨-, -, h3⟩ := psweep_round hA hp blk hnd hall (hsw j hj) ht0
    have h4 := hgeε' (j + 1) hj
    have h5 := hblocks (j + 1) hj
    have h6 := hg0 (j + 1) hj
    have h7 : t * blocks A blk ls (x (j + 1)) ≤ ε / 2 := by
      have a : blocks A blk ls (x (j + 1)) ≤ ((j : K) + 2) * (B' + 1) := by
        refine h5.trans ?_
        push_cast
        have e : ((j : K) + 1 + 1) = (j : K) + 2 := by ring
        rw [e]
        exact mul_le_mul_of_nonneg_left (by linarith) (by positivity)
      have b := mul_le_mul_of_nonneg_left a ht0.le
      have e : t * (((j : K) + 2) * (B' + 1)) = ε / 2 := by rw [ht]; field_simp
      rw [e] at b
      exact b
    rw [← hH] at h3
    have h8 : ε / 2 ≤ H * (gap A w (x j) - gap A w (x (j + 1))) / t := by linarith
    rw [le_div_iff₀ ht0] at h8
    refine le_trans (le_of_eq ?_) h8
    rw [ht]; field_simp; ring
  have hsum : ε * ε / (4 * (B' + 1)) * ∑ j ∈ Finset.range k, 1 / ((j : K) + 2) ≤ H * (gap A w (x 0) - gap A w (x k)) := by
    rw [Finset.mul_sum]
    refine (Finset.sum_le_sum fun j hj => hdrop j (Finset.mem_range.1 hj)).trans (le_of_eq ?_)
    rw [← Finset.mul_sum, Finset.sum_range_sub']
  have hlast : H * (gap A w (x 0) - gap A w (x k)) ≤ H * B' := by
    refine mul_le_mul_of_nonneg_left ?_ hH0
    have := hb0 (x 0)
    have := hg0 k le_rfl
    linarith
  have hB1 : 0 < B' + 1 := by linarith
  have hbig := hN k hk
  have hpos' : 0 < ε * ε / (4 * (B' + 1)) := by positivity
  have := mul_lt_mul_of_pos_left hbig hpos'
  have e : ε * ε / (4 * (B' + 1)) * (4 * (B' + 1) * H * B' / (ε * ε)) = H * B' := by field_simp
  rw [e] at this
  linarith

end Simu
