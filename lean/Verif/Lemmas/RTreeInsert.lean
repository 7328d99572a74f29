import Verif.Lemmas.RTree
import Verif.Spec.RTree
import Mathlib.Tactic.Linarith
import Mathlib.Tactic.Ring
import Mathlib.Tactic.Positivity
/-
Branch and bound of `insert` in exact arithmetic.
-/
set_option linter.unusedSectionVars false
namespace Simu.RTree
variable {K C α : Type*} [Field K] [LinearOrder K] [IsStrictOrderedRing K]
open BoundingBox Simu.Spec Spec

theorem area_eq (b : BoundingBox K) : area b = boxArea b := by
  unfold area boxArea
  by_cases h : b.isValid = true
  · have := (isValid_iff b).1 h
    simp [h, this]
  · have h' : ¬ (b.min.x ≤ b.max.x ∧ b.min.y ≤ b.max.y) := fun hh => h ((isValid_iff b).2 hh)
    simp [h, h']

theorem area_nonneg (b : BoundingBox K) : 0 ≤ area b := by
  rw [area_eq]; unfold boxArea
  split
  · rename_i h; exact mul_nonneg (by linarith [h.1]) (by linarith [h.2])
  · exact le_refl _

theorem area_mono {a b : BoundingBox K} (h : subBox a b) : area a ≤ area b := by
  by_cases hv : a.min.x ≤ a.max.x ∧ a.min.y ≤ a.max.y
  · have h1 := h ⟨a.min.x, a.min.y⟩ ⟨⟨le_refl _, hv.1⟩, ⟨le_refl _, hv.2⟩⟩
    have h2 := h ⟨a.max.x, a.max.y⟩ ⟨⟨hv.1, le_refl _⟩, ⟨hv.2, le_refl _⟩⟩
    obtain ⟨⟨p1, p2⟩, p3, p4⟩ := h1
    obtain ⟨⟨q1, q2⟩, q3, q4⟩ := h2
    simp only at p1 p2 p3 p4 q1 q2 q3 q4
    rw [area_eq, area_eq]; unfold boxArea
    rw [if_pos hv, if_pos ⟨le_trans p1 p2, le_trans p3 p4⟩]
    apply mul_le_mul <;> linarith [hv.1, hv.2]
  · have : area a = 0 := by rw [area_eq]; unfold boxArea; rw [if_neg hv]
    rw [this]; exact area_nonneg b

/-- Enlargement of the ancestors. -/
def induced (box : BoundingBox K) (path : List (Frame K α)) : K :=
  (path.map fun f => area (f.bounds.combined box) - area f.bounds).sum

/-- Cost of a position. -/
def posCost (box : BoundingBox K) (path : List (Frame K α)) (n : Node K α) : K :=
  induced box path + area (n.bounds.combined box)

theorem induced_nonneg (box : BoundingBox K) (path : List (Frame K α)) : 0 ≤ induced box path := by
  apply List.sum_nonneg
  intro x hx
  obtain ⟨f, _, rfl⟩ := List.mem_map.1 hx
  have := area_mono (subBox_combined_left f.bounds box)
  linarith

theorem induced_append (box : BoundingBox K) (p q : List (Frame K α)) :
    induced box (p ++ q) = induced box p + induced box q := by simp [induced]

theorem posCost_ge (box : BoundingBox K) (p q : List (Frame K α)) (n : Node K α) :
    induced box q + area box ≤ posCost box (p ++ q) n := by
  have h1 := induced_nonneg box p
  have h2 := area_mono (subBox_combined_right n.bounds box)
  simp only [posCost, induced_append]; linarith

theorem totalArea_close (f : Frame K α) (t : Node K α) :
    totalArea (f.close t) = boxArea f.bounds + totalArea f.other + totalArea t := by
  simp only [Frame.close]; split <;> simp only [totalArea] <;> ring

theorem totalArea_zip (t : Node K α) (path : List (Frame K α)) :
    totalArea (zip t path) = totalArea t + (path.map fun f => boxArea f.bounds + totalArea f.other).sum := by
  induction path generalizing t with
  | nil => simp [zip]
  | cons f fs ih =>
    rw [zip, ih, totalArea_close, List.map_cons, List.sum_cons]; ring

theorem totalArea_pairedWith (path : List (Frame K α)) (n : Node K α) (box : BoundingBox K) (id : α) :
    totalArea (pairedWith path n box id) = totalArea (zip n path) + posCost box path n := by
  rw [pairedWith, totalArea_zip, totalArea_zip, posCost, induced, List.map_map]
  simp only [totalArea, ← area_eq, Function.comp_def]
  have : ∀ p : List (Frame K α), (p.map fun f => area (f.bounds.combined box) + totalArea f.other).sum =
      (p.map fun f => area f.bounds + totalArea f.other).sum +
      (p.map fun f => area (f.bounds.combined box) - area f.bounds).sum := by
    intro p
    induction p with
    | nil => simp
    | cons f fs ih => simp only [List.map_cons, List.sum_cons, ih]; ring
  rw [this]; ring

theorem zip_ne_null {t : Node K α} (h : t ≠ .null) (p : List (Frame K α)) : zip t p ≠ .null := by
  induction p generalizing t with
  | nil => exact h
  | cons f fs ih =>
    apply ih; simp only [Frame.close]; split <;> simp

theorem zip_append (t : Node K α) (p q : List (Frame K α)) : zip t (p ++ q) = zip (zip t p) q := by
  induction p generalizing t with
  | nil => rfl
  | cons f fs ih => exact ih _

/-- The position lies in the subtree of the candidate. -/
def Under (e : Cand K C α) (p : List (Frame K α)) (n : Node K α) : Prop :=
  ∃ p', p = p' ++ e.path ∧ zip n p' = e.sub

theorem under_child {e : Cand K C α} {p : List (Frame K α)} {n : Node K α} (hn : n ≠ .null) (c : C)
    (q : List (Cand K C α)) (h : Under e p n) :
    (p = e.path ∧ n = e.sub) ∨ ∃ e' ∈ pushChildren e c q, Under e' p n := by
  obtain ⟨p', rfl, hz⟩ := h
  rcases List.eq_nil_or_concat p' with rfl | ⟨p'', f, rfl⟩
  · left; exact ⟨by simp, hz⟩
  · right
    rw [List.concat_eq_append, zip_append] at hz
    simp only [zip] at hz
    have hne := zip_ne_null hn p''
    obtain ⟨path, sub, cost⟩ := e
    simp only at hz
    subst hz
    obtain ⟨side, b, o⟩ := f
    cases side with
    | true =>
      refine ⟨⟨⟨true, b, o⟩ :: path, zip n p'', c⟩, ?_, p'', by simp, rfl⟩
      simp only [pushChildren, Frame.close, if_true]
      generalize zip n p'' = l at hne
      cases l with
      | null => exact absurd rfl hne
      | leaf _ _ => cases o <;> simp
      | node _ _ _ => cases o <;> simp
    | false =>
      refine ⟨⟨⟨false, b, o⟩ :: path, zip n p'', c⟩, ?_, p'', by simp, rfl⟩
      simp only [pushChildren, Frame.close, Bool.false_eq_true, if_false]
      generalize zip n p'' = r at hne
      cases r with
      | null => exact absurd rfl hne
      | leaf _ _ => simp
      | node _ _ _ => simp

theorem mem_pushChildren {e : Cand K C α} {c : C} {q : List (Cand K C α)} {x : Cand K C α}
    (h : x ∈ pushChildren e c q) : x ∈ q ∨ (x.cost = c ∧ ∃ f, x.path = f :: e.path ∧ f.bounds = e.sub.bounds) := by
  obtain ⟨path, sub, cost⟩ := e
  simp only [pushChildren] at h
  cases sub with
  | null => exact Or.inl h
  | leaf b a => exact Or.inl h
  | node b l r =>
    simp only at h
    have key : x = ⟨⟨true, b, r⟩ :: path, l, c⟩ ∨ x = ⟨⟨false, b, l⟩ :: path, r, c⟩ ∨ x ∈ q := by
      cases l <;> cases r <;> simp at h <;> tauto
    rcases key with rfl | rfl | h
    · exact Or.inr ⟨rfl, _, rfl, rfl⟩
    · exact Or.inr ⟨rfl, _, rfl, rfl⟩
    · exact Or.inl h

theorem mem_pushChildren_of_mem {e : Cand K C α} {c : C} {q : List (Cand K C α)} {x : Cand K C α}
    (h : x ∈ q) : x ∈ pushChildren e c q := by
  obtain ⟨path, sub, cost⟩ := e
  simp only [pushChildren]
  cases sub with
  | null => exact h
  | leaf b a => exact h
  | node b l r => cases l <;> cases r <;> simp [h]

/-- Cost of the best position so far. -/
def bestOf (box : BoundingBox K) : Option (List (Frame K α) × Node K α) → WithTop K
  | none => ⊤
  | some (p, n) => ((posCost box p n : K) : WithTop K)

theorem searchLoop_optimal (pq : PQ (Cand K (WithTop K) α)) (hpq : pq.Cheapest exactCfg)
    (box : BoundingBox K) (root : Node K α)
    (q : List (Cand K (WithTop K) α)) (best : Option (List (Frame K α) × Node K α)) (bestCost : WithTop K)
    (hq : ∀ e ∈ q, e.cost = ((induced box e.path : K) : WithTop K))
    (hb : bestCost = bestOf box best)
    (hall : ∀ p n, n ≠ .null → zip n p = root →
      bestCost ≤ ((posCost box p n : K) : WithTop K) ∨ ∃ e ∈ q, Under e p n)
    (res : Option (List (Frame K α) × Node K α))
    (hres : searchLoop exactCfg pq box q best bestCost = .ok res) :
    ∀ p n, n ≠ .null → zip n p = root → bestOf box res ≤ ((posCost box p n : K) : WithTop K) := by
  fun_induction searchLoop exactCfg pq box q best bestCost with
  | case1 best bestCost =>
    simp only [Outcome.ok.injEq] at hres
    subst hres hb
    intro p n hn hz
    rcases hall p n hn hz with h | ⟨e, he, _⟩
    · exact h
    · simp at he
  | case2 q best bestCost h cur hge =>
    simp only [Outcome.ok.injEq] at hres
    subst hres
    intro p n hn hz
    rw [← hb]
    rcases hall p n hn hz with h' | ⟨e, he, p', hp, _⟩
    · exact h'
    · have hcur : cur.cost ≤ e.cost := by
        rcases List.mem_cons.1 ((pq.perm q h).symm.subset he) with h1 | h1
        · exact le_of_eq (by rw [h1])
        · have := hpq q h e h1
          simp only [exactCfg, decide_eq_false_iff_not, not_lt] at this
          exact this
      have hmem : cur ∈ q := (pq.perm q h).subset (by simp [cur])
      rw [hq cur hmem, hq e he, WithTop.coe_le_coe] at hcur
      have hge' : bestCost ≤ ((induced box cur.path + area box : K) : WithTop K) := by
        have := hge
        rw [hq cur hmem] at this
        exact of_decide_eq_true this
      refine le_trans hge' (WithTop.coe_le_coe.2 ?_)
      subst hp
      have := posCost_ge box p' e.path n
      linarith
  | case3 => simp at hres
  | case4 q best bestCost h cur rest hge hnull dc tc better best' bestCost' ic hlt ih =>
    have hmem : cur ∈ q := (pq.perm q h).subset (by simp [cur])
    have hcost := hq cur hmem
    have htc : tc = ((posCost box cur.path cur.sub : K) : WithTop K) := by
      simp only [tc, dc, hcost, posCost]; rfl
    have hic : ∀ f : Frame K α, f.bounds = cur.sub.bounds →
        ic = ((induced box (f :: cur.path) : K) : WithTop K) := by
      intro f hf
      simp only [ic, htc]
      have : induced box (f :: cur.path) = posCost box cur.path cur.sub - area cur.sub.bounds := by
        simp only [induced, posCost, List.map_cons, List.sum_cons, hf]; ring
      rw [this]; rfl
    have hb' : bestCost' = bestOf box best' := by
      simp only [bestCost', best']
      split
      · rw [htc]; rfl
      · exact hb
    have hle : bestCost' ≤ bestCost ∧ bestCost' ≤ tc := by
      simp only [bestCost', better, exactCfg]
      by_cases hlt : tc < bestCost
      · simp [hlt, le_of_lt hlt]
      · simp [hlt, not_lt.1 hlt]
    refine ih ?_ hb' ?_ hres
    · intro e he
      rcases mem_pushChildren he with he | ⟨h1, f, h2, h3⟩
      · exact hq e ((pq.perm q h).subset (List.mem_cons_of_mem _ he))
      · rw [h1, h2, hic f h3]
    · intro p n hn hz
      rcases hall p n hn hz with h' | ⟨e, he, hu⟩
      · exact Or.inl (le_trans hle.1 h')
      · rcases List.mem_cons.1 ((pq.perm q h).symm.subset he) with h1 | h1
        · subst h1
          rcases under_child hn ic rest hu with ⟨rfl, rfl⟩ | hx
          · left; rw [← htc]; exact hle.2
          · right; exact hx
        · right; exact ⟨e, mem_pushChildren_of_mem h1, hu⟩
  | case5 q best bestCost h cur rest hge hnull dc tc better best' bestCost' ic hlt ih =>
    have hmem : cur ∈ q := (pq.perm q h).subset (by simp [cur])
    have hcost := hq cur hmem
    have htc : tc = ((posCost box cur.path cur.sub : K) : WithTop K) := by
      simp only [tc, dc, hcost, posCost]; rfl
    have hic : ic = ((posCost box cur.path cur.sub - area cur.sub.bounds : K) : WithTop K) := by
      simp only [ic, htc]; rfl
    have hb' : bestCost' = bestOf box best' := by
      simp only [bestCost', best']
      split
      · rw [htc]; rfl
      · exact hb
    have hle : bestCost' ≤ bestCost ∧ bestCost' ≤ tc := by
      simp only [bestCost', better, exactCfg]
      by_cases hlt : tc < bestCost
      · simp [hlt, le_of_lt hlt]
      · simp [hlt, not_lt.1 hlt]
    have hstop : bestCost' ≤ ((posCost box cur.path cur.sub - area cur.sub.bounds + area box : K) :
        WithTop K) := by
      rw [hic] at hlt
      have : ¬ ((posCost box cur.path cur.sub - area cur.sub.bounds + area box : K) : WithTop K) < bestCost' := by
        intro hc
        apply hlt
        exact decide_eq_true hc
      exact not_lt.1 this
    refine ih ?_ hb' ?_ hres
    · intro e he
      exact hq e ((pq.perm q h).subset (List.mem_cons_of_mem _ he))
    · intro p n hn hz
      rcases hall p n hn hz with h' | ⟨e, he, hu⟩
      · exact Or.inl (le_trans hle.1 h')
      · rcases List.mem_cons.1 ((pq.perm q h).symm.subset he) with h1 | h1
        · subst h1
          left
          rcases under_child hn ic rest hu with ⟨rfl, rfl⟩ | _
          · rw [← htc]; exact hle.2
          · obtain ⟨p', rfl, hzz⟩ := hu
            rcases List.eq_nil_or_concat p' with rfl | ⟨p'', f, rfl⟩
            · have hn' : n = (pq.pop q h).1.sub := hzz
              rw [hn', List.nil_append]; rw [← htc]; exact hle.2
            · rw [List.concat_eq_append, zip_append] at hzz
              have hf : f.bounds = cur.sub.bounds := by
                have : cur.sub = f.close (zip n p'') := hzz.symm
                rw [this]; simp only [Frame.close]; split <;> rfl
              refine le_trans hstop (WithTop.coe_le_coe.2 ?_)
              have := posCost_ge box p'' (f :: cur.path) n
              have h2 : induced box (f :: cur.path) = posCost box cur.path cur.sub - area cur.sub.bounds := by
                simp only [induced, posCost, List.map_cons, List.sum_cons, hf]; ring
              rw [h2] at this
              simpa using this
        · right; exact ⟨e, h1, hu⟩

theorem exactCfg_finite : (exactCfg : Cfg K (WithTop K)).FiniteAreas := by
  intro b
  have h : (exactCfg : Cfg K (WithTop K)).add (exactCfg : Cfg K (WithTop K)).zero
      ((exactCfg : Cfg K (WithTop K)).area b) = ((0 + area b : K) : WithTop K) := rfl
  rw [h]
  simp only [exactCfg, decide_eq_false_iff_not, decide_eq_true_eq, top_le_iff]
  exact ⟨WithTop.coe_ne_top, WithTop.coe_lt_top _⟩

/-- The position chosen by `insert`. -/
theorem insert_chooses (pq : PQ (Cand K (WithTop K) α)) (hpq : pq.Cheapest exactCfg)
    (root : Node K α) (hroot : GoodRoot root) (box : BoundingBox K) :
    ∃ p n, searchLoop exactCfg pq box [⟨[], root, exactCfg.zero⟩] none exactCfg.inf = .ok (some (p, n)) ∧
      n ≠ .null ∧ zip n p = root ∧
      ∀ p' n', n' ≠ .null → zip n' p' = root → posCost box p n ≤ posCost box p' n' := by
  obtain ⟨p, n, h1, h2, h3⟩ := search_found exactCfg exactCfg_finite pq box root hroot
  refine ⟨p, n, h1, h2, h3, ?_⟩
  intro p' n' hn hz
  have := searchLoop_optimal pq hpq box root _ none _ (by simp [induced, exactCfg]) rfl (by
    intro p n hn hz
    right; exact ⟨_, List.mem_singleton.2 rfl, p, by simp, hz⟩) _ h1 p' n' hn hz
  simpa [bestOf] using this

/-! ### Rotations never increase the total area -/

theorem lt_area (a b : BoundingBox K) :
    (exactCfg : Cfg K (WithTop K)).lt ((exactCfg : Cfg K (WithTop K)).area a)
      ((exactCfg : Cfg K (WithTop K)).area b) = decide (boxArea a < boxArea b) := by
  rw [← area_eq, ← area_eq]
  simp [exactCfg]

theorem rotate_area {u x y u' x' : Node K α} {pb pb' : BoundingBox K}
    (h : rotate exactCfg u pb x y = .ok (u', pb', x')) :
    totalArea u' + (boxArea pb' + totalArea x') ≤ totalArea u + (boxArea pb + totalArea x) := by
  have key : rotate exactCfg u pb x y = .ok (u', pb', x') →
      (if (exactCfg : Cfg K (WithTop K)).lt (exactCfg.area (y.bounds.combined u.bounds)) (exactCfg.area pb)
        then Outcome.ok (x, y.bounds.combined u.bounds, u) else .ok (u, pb, x)) = .ok (u', pb', x') := by
    cases x <;> cases y <;> simp [rotate]
  have h := key h
  rw [lt_area] at h
  split at h
  · rename_i hlt
    simp only [decide_eq_true_eq] at hlt
    simp only [Outcome.ok.injEq, Prod.mk.injEq] at h
    obtain ⟨rfl, rfl, rfl⟩ := h
    linarith
  · simp only [Outcome.ok.injEq, Prod.mk.injEq] at h
    obtain ⟨rfl, rfl, rfl⟩ := h
    exact le_refl _

theorem Outcome.bind_eq_ok {β γ : Type*} {x : Outcome β} {f : β → Outcome γ} {c : γ} (h : x.bind f = .ok c) :
    ∃ b, x = .ok b ∧ f b = .ok c := by
  cases x with
  | ok b => exact ⟨b, rfl, h⟩
  | throw => simp at h
  | ub => simp at h

theorem rotateBoth_area {u x y u' s' : Node K α} {pb : BoundingBox K}
    (h : rotateBoth exactCfg u pb x y = .ok (u', s')) :
    totalArea u' + totalArea s' ≤ totalArea u + (boxArea pb + totalArea x + totalArea y) := by
  obtain ⟨⟨u1, pb1, x1⟩, h1, h⟩ := Outcome.bind_eq_ok h
  obtain ⟨⟨u2, pb2, y2⟩, h2, h⟩ := Outcome.bind_eq_ok h
  simp only [Outcome.ok.injEq, Prod.mk.injEq] at h
  obtain ⟨rfl, rfl⟩ := h
  have := rotate_area h1
  have := rotate_area h2
  simp only [totalArea]
  linarith

theorem checkRotations_area {l r l' r' : Node K α} (h : checkRotations exactCfg l r = .ok (l', r')) :
    totalArea l' + totalArea r' ≤ totalArea l + totalArea r := by
  have hR : ∀ {l r l' r' : Node K α}, rotateRight exactCfg l r = .ok (l', r') →
      totalArea l' + totalArea r' ≤ totalArea l + totalArea r := by
    intro l r l' r' h
    cases r with
    | null => simp only [rotateRight, Outcome.ok.injEq, Prod.mk.injEq] at h; obtain ⟨rfl, rfl⟩ := h; exact le_refl _
    | leaf b a => simp only [rotateRight, Outcome.ok.injEq, Prod.mk.injEq] at h; obtain ⟨rfl, rfl⟩ := h; exact le_refl _
    | node b x y =>
      simp only [rotateRight] at h
      have := rotateBoth_area h
      simpa [totalArea] using this
  have hL : ∀ {l r l' r' : Node K α}, rotateLeft exactCfg l r = .ok (l', r') →
      totalArea l' + totalArea r' ≤ totalArea l + totalArea r := by
    intro l r l' r' h
    cases l with
    | null => simp only [rotateLeft, Outcome.ok.injEq, Prod.mk.injEq] at h; obtain ⟨rfl, rfl⟩ := h; exact le_refl _
    | leaf b a => simp only [rotateLeft, Outcome.ok.injEq, Prod.mk.injEq] at h; obtain ⟨rfl, rfl⟩ := h; exact le_refl _
    | node b x y =>
      simp only [rotateLeft] at h
      obtain ⟨⟨u1, s1⟩, h1, h⟩ := Outcome.bind_eq_ok h
      simp only [Outcome.ok.injEq, Prod.mk.injEq] at h
      obtain ⟨rfl, rfl⟩ := h
      have := rotateBoth_area h1
      simp only [totalArea]; linarith
  have key : checkRotations exactCfg l r = .ok (l', r') → (l' = l ∧ r' = r) ∨
      ((rotateRight exactCfg l r).bind fun p => rotateLeft exactCfg p.1 p.2) = .ok (l', r') := by
    intro h
    cases l <;> cases r <;> simp only [checkRotations, Outcome.ok.injEq, Prod.mk.injEq] at h <;>
      first | exact Or.inl ⟨h.1.symm, h.2.symm⟩ | exact Or.inr h
  rcases key h with ⟨rfl, rfl⟩ | h
  · exact le_refl _
  · obtain ⟨⟨l1, r1⟩, h1, h2⟩ := Outcome.bind_eq_ok h
    exact le_trans (hL h2) (hR h1)

theorem boxArea_congr {a b : BoundingBox K} (h : a.norm = b.norm) : boxArea a = boxArea b := by
  rw [← area_eq, ← area_eq]
  have hs := (norm_eq_iff a b).1 h
  exact le_antisymm (area_mono fun p => (hs p).1) (area_mono fun p => (hs p).2)

/-- Area of the ancestors once enlarged, and of what hangs from them. -/
def pathArea (box : BoundingBox K) (path : List (Frame K α)) : K :=
  (path.map fun f => boxArea (f.bounds.combined box) + totalArea f.other).sum

theorem refit_area (l r : Node K α) (b box : BoundingBox K) (path : List (Frame K α)) (t : Node K α)
    (hp : GoodPath b.norm path) (hj : join l.nb r.nb = join b.norm box.norm)
    (hrot : ∀ l' r', checkRotations exactCfg l r = .ok (l', r') → join l'.nb r'.nb = join l.nb r.nb)
    (hgood : ChildOk path l ∧ ChildOk path r)
    (h : refit exactCfg l r b path = .ok t) :
    totalArea t ≤ boxArea (b.combined box) + totalArea l + totalArea r + pathArea box path := by
  have hmono : ∀ c : BoundingBox K, boxArea c ≤ boxArea (c.combined box) := fun c => by
    rw [← area_eq, ← area_eq]; exact area_mono (subBox_combined_left c box)
  have hnb : boxArea (l.bounds.combined r.bounds) = boxArea (b.combined box) := by
    apply boxArea_congr; rw [norm_combined_bounds, hj, norm_combined]
  induction path generalizing l r b with
  | nil =>
    simp only [refit] at h
    split at h
    · simp only [Outcome.ok.injEq] at h; subst h
      simp only [totalArea, pathArea, List.map_nil, List.sum_nil]
      linarith [hmono b]
    · obtain ⟨⟨l', r'⟩, h1, h⟩ := Outcome.bind_eq_ok h
      simp only [Outcome.ok.injEq] at h; subst h
      have := checkRotations_area h1
      simp only [totalArea, pathArea, List.map_nil, List.sum_nil, hnb]
      linarith
  | cons f fs ih =>
    simp only [refit] at h
    split at h
    · simp only [Outcome.ok.injEq] at h; subst h
      rw [totalArea_zip]
      have : ((f :: fs).map fun f => boxArea f.bounds + totalArea f.other).sum ≤ pathArea box (f :: fs) := by
        apply List.sum_le_sum
        intro g _
        linarith [hmono g.bounds]
      simp only [totalArea]
      linarith [hmono b]
    · obtain ⟨⟨l', r'⟩, h1, h⟩ := Outcome.bind_eq_ok h
      have hA := checkRotations_area h1
      have hj' := hrot l' r' h1
      have hchild : Good (.node (l.bounds.combined r.bounds) l' r') ∧ GoodPath f.bounds.norm fs ∧
          ChildOk fs f.other ∧ join (l.bounds.combined r.bounds).norm f.other.nb = join f.bounds.norm box.norm := by
        have hg := checkRotations_spec exactCfg hgood.1 hgood.2
        obtain ⟨l2, r2, e2, g1, g2, _, g4⟩ := hg
        rw [h1] at e2
        simp only [Outcome.ok.injEq, Prod.mk.injEq] at e2
        obtain ⟨rfl, rfl⟩ := e2
        refine ⟨⟨g1, g2, by rw [norm_combined_bounds, g4]⟩, ?_⟩
        have hfb : f.bounds.norm = join b.norm f.other.nb := by
          cases fs with
          | nil => exact hp.2
          | cons g gs => exact hp.2.1
        have hjj : join (l.bounds.combined r.bounds).norm f.other.nb = join f.bounds.norm box.norm := by
          rw [norm_combined_bounds, hj, hfb]; ac_rfl
        cases fs with
        | nil => exact ⟨trivial, hp.1, hjj⟩
        | cons g gs => exact ⟨hp.2.2, hp.1, hjj⟩
      obtain ⟨hgd, hgp, hoth, hjn⟩ := hchild
      have hchk : ChildOk fs (.node (l.bounds.combined r.bounds) l' r') := by
        cases fs with
        | nil => exact hgd.orNull
        | cons g gs => exact hgd
      have hrotgen : ∀ {x y : Node K α}, ChildOk fs x → ChildOk fs y → ∀ l2 r2,
          checkRotations exactCfg x y = .ok (l2, r2) → join l2.nb r2.nb = join x.nb y.nb := by
        intro x y hx hy l2 r2 he
        have : GoodOrNull x ∧ GoodOrNull y := by
          cases fs with
          | nil => exact ⟨hx, hy⟩
          | cons g gs => exact ⟨Good.orNull hx, Good.orNull hy⟩
        obtain ⟨l3, r3, e3, _, _, _, e4⟩ := checkRotations_orNull exactCfg this.1 this.2
        rw [he] at e3
        simp only [Outcome.ok.injEq, Prod.mk.injEq] at e3
        obtain ⟨rfl, rfl⟩ := e3
        exact e4
      have hpa : pathArea box (f :: fs) = boxArea (f.bounds.combined box) + totalArea f.other + pathArea box fs := by
        simp [pathArea]
      have hnb2 : ∀ {x y : Node K α}, join x.nb y.nb = join f.bounds.norm box.norm →
          boxArea (x.bounds.combined y.bounds) = boxArea (f.bounds.combined box) := by
        intro x y hxy
        apply boxArea_congr; rw [norm_combined_bounds, hxy, norm_combined]
      split at h
      · have hjn0 : join (Node.node (l.bounds.combined r.bounds) l' r').nb f.other.nb =
            join f.bounds.norm box.norm := hjn
        have := ih _ _ _ hgp hjn0 (hrotgen hchk hoth) ⟨hchk, hoth⟩ h (hnb2 hjn0)
        rw [hpa]
        simp only [totalArea, hnb] at this
        linarith
      · have hjn' : join f.other.nb (Node.node (l.bounds.combined r.bounds) l' r').nb =
            join f.bounds.norm box.norm := by rw [join_comm]; exact hjn
        have := ih _ _ _ hgp hjn' (hrotgen hoth hchk) ⟨hoth, hchk⟩ h (hnb2 hjn')
        rw [hpa]
        simp only [totalArea, hnb] at this
        linarith

theorem refit_area' (l r : Node K α) (b box : BoundingBox K) (path : List (Frame K α)) (t : Node K α)
    (hp : GoodPath b.norm path) (hj : join l.nb r.nb = join b.norm box.norm)
    (hgood : ChildOk path l ∧ ChildOk path r)
    (h : refit exactCfg l r b path = .ok t) :
    totalArea t ≤ boxArea (b.combined box) + totalArea l + totalArea r + pathArea box path := by
  refine refit_area l r b box path t hp hj ?_ hgood h
  intro l2 r2 he
  have : GoodOrNull l ∧ GoodOrNull r := by
    cases path with
    | nil => exact hgood
    | cons g gs => exact ⟨Good.orNull hgood.1, Good.orNull hgood.2⟩
  obtain ⟨l3, r3, e3, _, _, _, e4⟩ := checkRotations_orNull exactCfg this.1 this.2
  rw [he] at e3
  simp only [Outcome.ok.injEq, Prod.mk.injEq] at e3
  obtain ⟨rfl, rfl⟩ := e3
  exact e4

theorem pairedWith_area (path : List (Frame K α)) (n : Node K α) (box : BoundingBox K) (id : α) :
    totalArea (pairedWith path n box id) =
      boxArea (n.bounds.combined box) + totalArea n + pathArea box path := by
  rw [pairedWith, totalArea_zip, List.map_map, pathArea]
  simp only [totalArea, Function.comp_def]; ring

theorem totalArea_nonneg (t : Node K α) : 0 ≤ totalArea t := by
  induction t with
  | null => exact le_refl _
  | leaf b a => exact le_refl _
  | node b l r ihl ihr =>
    have := area_nonneg b
    rw [area_eq] at this
    simp only [totalArea]; linarith

theorem addLeafTo_area (path : List (Frame K α)) (n root t : Node K α) (lb : BoundingBox K) (id : α)
    (hroot : GoodRoot root) (hn : n ≠ .null) (hz : zip n path = root)
    (h : addLeafTo exactCfg path n lb id = .ok t) :
    totalArea t ≤ totalArea (pairedWith path n lb id) := by
  subst hz
  rw [pairedWith_area]
  cases n with
  | null => exact absurd rfl hn
  | leaf b a =>
    cases path with
    | nil => simp [addLeafTo] at h
    | cons f fs =>
      obtain ⟨_, hp⟩ := good_of_zip hn f fs hroot
      have hnew : Good (.node (b.combined lb) (.leaf b a) (.leaf lb id)) :=
        ⟨trivial, trivial, by rw [norm_combined]; rfl⟩
      have hfb : f.bounds.norm = join (Node.leaf b a).nb f.other.nb ∧ GoodPath f.bounds.norm fs ∧
          ChildOk fs f.other ∧ ChildOk fs (.node (b.combined lb) (.leaf b a) (.leaf lb id)) := by
        cases fs with
        | nil => exact ⟨hp.2, trivial, hp.1, hnew.orNull⟩
        | cons g gs => exact ⟨hp.2.1, hp.2.2, hp.1, hnew⟩
      obtain ⟨h1, h2, h3, h4⟩ := hfb
      have hj : join (Node.node (b.combined lb) (.leaf b a) (.leaf lb id)).nb f.other.nb =
          join f.bounds.norm lb.norm := by
        rw [h1, nb_node, norm_combined, nb_leaf]; ac_rfl
      have hpa : pathArea lb (f :: fs) = boxArea (f.bounds.combined lb) + totalArea f.other + pathArea lb fs := by
        simp [pathArea]
      rw [hpa]
      simp only [addLeafTo, refitParent] at h
      split at h
      · have := refit_area' _ _ _ lb fs t h2 hj ⟨h4, h3⟩ h
        simp only [totalArea, Node.bounds] at this ⊢
        linarith
      · have := refit_area' _ _ _ lb fs t h2 (by rw [join_comm]; exact hj) ⟨h3, h4⟩ h
        simp only [totalArea, Node.bounds] at this ⊢
        linarith
  | node b l r =>
    have hleaf : ChildOk path (.leaf lb id : Node K α) := by
      cases path with
      | nil => exact Or.inr trivial
      | cons g gs => exact trivial
    have hgen : GoodPath b.norm path ∧ b.norm = join l.nb r.nb ∧ ChildOk path l ∧ ChildOk path r ∧
        (path ≠ [] → l ≠ .null ∧ r ≠ .null) ∧ (l ≠ .null → r ≠ .null → ChildOk path (.node b l r)) := by
      cases path with
      | nil =>
        refine ⟨trivial, hroot.2.2, hroot.1, hroot.2.1, by simp, fun h1 h2 => Or.inr ?_⟩
        exact ⟨hroot.1.resolve_left h1, hroot.2.1.resolve_left h2, hroot.2.2⟩
      | cons f fs =>
        obtain ⟨hg, hp⟩ := good_of_zip hn f fs hroot
        exact ⟨hp, hg.2.2, hg.1, hg.2.1, fun _ => ⟨hg.1.ne_null, hg.2.1.ne_null⟩, fun _ _ => hg⟩
    obtain ⟨hp, hb, hl, hr, hne, hnode⟩ := hgen
    have hb0 : 0 ≤ boxArea b := by rw [← area_eq]; exact area_nonneg b
    by_cases hl0 : l = .null
    · subst hl0
      have h' : refit exactCfg (.leaf lb id) r b path = .ok t := by
        cases r <;> simpa [addLeafTo] using h
      have := refit_area' _ _ _ lb path t hp (by
        rw [hb, nb_leaf, nb_null, join_none_left, join_comm]) ⟨hleaf, hr⟩ h'
      simp only [totalArea, Node.bounds] at this ⊢
      linarith
    · by_cases hr0 : r = .null
      · subst hr0
        have h' : refit exactCfg l (.leaf lb id) b path = .ok t := by
          cases l <;> first | exact absurd rfl hl0 | simpa [addLeafTo] using h
        have := refit_area' _ _ _ lb path t hp (by
          rw [hb, nb_leaf, nb_null, join_none_right]) ⟨hl, hleaf⟩ h'
        simp only [totalArea, Node.bounds] at this ⊢
        linarith
      · have h' : refit exactCfg (.node b l r) (.leaf lb id) b path = .ok t := by
          cases l <;> cases r <;> first | exact absurd rfl hl0 | exact absurd rfl hr0 | simpa [addLeafTo] using h
        have := refit_area' _ _ _ lb path t hp (by rw [nb_node, nb_leaf]) ⟨hnode hl0 hr0, hleaf⟩ h'
        simp only [totalArea, Node.bounds] at this ⊢
        linarith

end Simu.RTree
