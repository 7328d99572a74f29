import Verif.Lemmas.RTree
import Mathlib.Data.List.Nodup
import Mathlib.Data.List.Count
/-
The broad phase: which pairs the bulk rebuild and the range query report.
-/
set_option linter.unusedSectionVars false
set_option linter.unusedSimpArgs false
namespace Simu.RTree
variable {K C α : Type*} [Field K] [LinearOrder K] [IsStrictOrderedRing K]
open BoundingBox Spec

/-- The overlap test does not depend on the order of its arguments. -/
def Cfg.Symmetric (cfg : Cfg K C) : Prop := ∀ a b, cfg.ovl a b = cfg.ovl b a

namespace OverlapList

def Ok (o : OverlapList K α) : Prop := o.middle ≤ o.nodes.length

theorem copy_ok (o : OverlapList K α) : o.copy.Ok := le_refl _
@[simp] theorem copy_overlapping (o : OverlapList K α) : o.copy.overlapping = o.overlapping := by
  simp [copy, overlapping]

theorem sort_ok (cfg : Cfg K C) (o : OverlapList K α) (box : BoundingBox K) :
    (o.sortOverlapping cfg box).Ok := by
  simp [sortOverlapping, Ok]

theorem sort_overlapping (cfg : Cfg K C) (o : OverlapList K α) (box : BoundingBox K) :
    (o.sortOverlapping cfg box).overlapping.Perm (o.overlapping.filter fun n => cfg.ovl n.bounds box) := by
  simp only [sortOverlapping, overlapping, List.append_assoc, List.take_left']
  obtain ⟨h1, h2, h3⟩ := booleanSort_perm (fun n : Entry K α => cfg.ovl n.bounds box) (o.nodes.take o.middle)
  have := h1.filter (fun n : Entry K α => cfg.ovl n.bounds box)
  rw [List.filter_append, List.filter_eq_self.2 (by simpa using h2),
    List.filter_eq_nil_iff.2 (by simpa using h3), List.append_nil] at this
  exact this

theorem add_ok {o : OverlapList K α} (h : o.Ok) (n : Entry K α) : (o.addOverlapping n).Ok := by
  simp only [addOverlapping, Ok] at *
  simp; omega

theorem add_overlapping {o : OverlapList K α} (h : o.Ok) (n : Entry K α) :
    (o.addOverlapping n).overlapping = o.overlapping ++ [n] := by
  simp only [addOverlapping, overlapping, Ok] at *
  rw [List.take_append_of_le_length (by simp; omega), List.take_of_length_le (by simp)]

theorem fold_add {o : OverlapList K α} (h : o.Ok) (p : Entry K α → Bool) (ns : List (Entry K α)) :
    (ns.foldl (fun o n => if p n then o.addOverlapping n else o) o).Ok ∧
    (ns.foldl (fun o n => if p n then o.addOverlapping n else o) o).overlapping =
      o.overlapping ++ ns.filter p := by
  induction ns generalizing o with
  | nil => simp [h]
  | cons x xs ih =>
    simp only [List.foldl_cons, List.filter_cons]
    split
    · obtain ⟨h1, h2⟩ := ih (add_ok h x)
      exact ⟨h1, by rw [h2, add_overlapping h]; simp⟩
    · exact ih h

theorem nodes_sort_perm (cfg : Cfg K C) (o : OverlapList K α) (box : BoundingBox K) :
    (o.sortOverlapping cfg box).nodes.take o.middle |>.Perm (o.nodes.take o.middle) := by
  obtain ⟨h1, _, _⟩ := booleanSort_perm (fun n : Entry K α => cfg.ovl n.bounds box) (o.nodes.take o.middle)
  simp only [sortOverlapping]
  by_cases hm : o.middle ≤ o.nodes.length
  · have hl := h1.length_eq
    rw [List.length_take, Nat.min_eq_left hm] at hl
    rw [List.take_append_of_le_length (by omega), List.take_of_length_le (by omega)]
    exact h1
  · rw [List.drop_eq_nil_of_le (by omega), List.append_nil]
    have hl := h1.length_eq
    rw [List.length_take, Nat.min_eq_right (by omega)] at hl
    rw [List.take_of_length_le (by omega)]
    exact h1

end OverlapList

/-! ### Range query -/

theorem length_sort (cfg : Cfg K C) (o : OverlapList K α) (box : BoundingBox K) :
    (o.sortOverlapping cfg box).nodes.length = o.nodes.length ∧
    (o.sortOverlapping cfg box).middle ≤ o.nodes.length ∧
    (o.Ok → (o.sortOverlapping cfg box).middle ≤ o.middle) := by
  obtain ⟨h1, _, _⟩ := booleanSort_perm (fun n : Entry K α => cfg.ovl n.bounds box) (o.nodes.take o.middle)
  have h2 := h1.length_eq
  simp only [List.length_append, List.length_take] at h2
  simp only [OverlapList.sortOverlapping, List.length_append, List.length_drop, OverlapList.Ok]
  refine ⟨by omega, by omega, fun _ => by omega⟩

/-- All the pairs `(leaf, it)` that overlap, leaf by leaf. -/
def allPairs (cfg : Cfg K C) (leaves its : List (Entry K α)) : List (Entry K α × Entry K α) :=
  leaves.flatMap fun e => (its.filter fun i => cfg.ovl i.bounds e.bounds).map fun i => (e, i)

theorem allPairs_append (cfg : Cfg K C) (a b its : List (Entry K α)) :
    allPairs cfg (a ++ b) its = allPairs cfg a its ++ allPairs cfg b its := by
  simp [allPairs]

theorem allPairs_perm (cfg : Cfg K C) (leaves : List (Entry K α)) {its its' : List (Entry K α)}
    (h : its.Perm its') : (allPairs cfg leaves its).Perm (allPairs cfg leaves its') := by
  induction leaves with
  | nil => simp [allPairs]
  | cons x xs ih =>
    simp only [allPairs, List.flatMap_cons] at *
    exact ((h.filter _).map _).append ih

theorem allPairs_filter (cfg : Cfg K C) (hm : cfg.Monotone) (leaves : List (Entry K α)) (box : BoundingBox K)
    (hs : ∀ e ∈ leaves, subBox e.bounds box) (its : List (Entry K α)) :
    allPairs cfg leaves (its.filter fun i => cfg.ovl i.bounds box) = allPairs cfg leaves its := by
  induction leaves with
  | nil => simp [allPairs]
  | cons x xs ih =>
    simp only [allPairs, List.flatMap_cons] at *
    rw [ih fun e he => hs e (List.mem_cons_of_mem _ he), List.filter_filter]
    congr 2
    apply List.filter_congr
    intro i _
    have := hm i.bounds x.bounds box (hs x List.mem_cons_self)
    revert this
    cases cfg.ovl i.bounds x.bounds <;> cases cfg.ovl i.bounds box <;> simp

theorem take_take_perm {β : Type*} {a b : List β} {m k : Nat} (hk : m ≤ k) (h : (a.take m).Perm (b.take m))
    (hd : a.drop m = b.drop m) (hl : a.length = b.length) : (a.take k).Perm (b.take k) := by
  have e : ∀ l : List β, l.take k = l.take m ++ (l.drop m).take (k - m) := by
    intro l
    have : k = m + (k - m) := by omega
    conv_lhs => rw [this]
    exact List.take_add
  rw [e a, e b, hd]
  exact h.append_right _

theorem forEachOverlappingList_spec (cfg : Cfg K C) (hm : cfg.Monotone) {t : Node K α} (h : Good t)
    (o : OverlapList K α) (ho : o.Ok)
    (hpre : ∀ i ∈ o.overlapping, cfg.ovl i.bounds t.bounds = true) :
    ∃ calls o', forEachOverlappingList cfg t o = .ok (calls, o') ∧
      calls.Perm (allPairs cfg t.entries o.overlapping) ∧
      o'.nodes.length = o.nodes.length ∧ (o'.nodes.take o.middle).Perm (o.nodes.take o.middle) ∧
      o'.nodes.drop o.middle = o.nodes.drop o.middle := by
  induction t generalizing o with
  | null => exact h.elim
  | leaf b a =>
    refine ⟨_, o, rfl, ?_, rfl, List.Perm.refl _, rfl⟩
    simp only [allPairs, Node.entries, List.flatMap_cons, List.flatMap_nil, List.append_nil]
    rw [List.filter_eq_self.2 (by simpa [Node.bounds] using hpre)]
  | node b l r ihl ihr =>
    have hall := h.entry_subBox
    obtain ⟨hl, hr, hb⟩ := h
    have hunf : forEachOverlappingList cfg (.node b l r) o =
        (forEachOverlappingList cfg l (o.sortOverlapping cfg l.bounds)).bind fun p =>
        (forEachOverlappingList cfg r ((p.2.setMiddle o.middle).sortOverlapping cfg r.bounds)).bind
          fun q => .ok (p.1 ++ q.1, q.2) := by
      cases l <;> cases r <;> first | exact hl.elim | exact hr.elim | rfl
    have hsort := fun (o : OverlapList K α) (t : Node K α) => OverlapList.sort_overlapping cfg o t.bounds
    obtain ⟨c1, o1, e1, p1, l1, t1, d1⟩ := ihl hl (o.sortOverlapping cfg l.bounds)
      (OverlapList.sort_ok _ _ _) (by
        intro i hi
        have := (hsort o l).subset hi
        simpa using (List.mem_filter.1 this).2)
    have hlen := length_sort cfg o l.bounds
    have t1' : (o1.nodes.take o.middle).Perm (o.nodes.take o.middle) := by
      refine (take_take_perm (hlen.2.2 ho) t1 d1 l1).trans ?_
      exact OverlapList.nodes_sort_perm cfg o l.bounds
    have d1' : o1.nodes.drop o.middle = o.nodes.drop o.middle := by
      have e := hlen.2.2 ho
      have h1 := congrArg (List.drop (o.middle - (o.sortOverlapping cfg l.bounds).middle)) d1
      rw [List.drop_drop, List.drop_drop] at h1
      have h2 : (o.sortOverlapping cfg l.bounds).middle +
        (o.middle - (o.sortOverlapping cfg l.bounds).middle) = o.middle := by omega
      rw [h2] at h1
      rw [h1]
      simp only [OverlapList.sortOverlapping]
      have h3 := (booleanSort_perm (fun n : Entry K α => cfg.ovl n.bounds l.bounds)
        (o.nodes.take o.middle)).1.length_eq
      rw [List.length_take, Nat.min_eq_left ho] at h3
      exact List.drop_left' h3
    set o2 := o1.setMiddle o.middle with ho2
    have o2ok : o2.Ok := by
      simp only [ho2, OverlapList.setMiddle, OverlapList.Ok] at *
      rw [l1, hlen.1]; exact ho
    obtain ⟨c2, o3, e2, p2, l2, t2, d2⟩ := ihr hr (o2.sortOverlapping cfg r.bounds)
      (OverlapList.sort_ok _ _ _) (by
        intro i hi
        have := (hsort o2 r).subset hi
        simpa using (List.mem_filter.1 this).2)
    have hlen2 := length_sort cfg o2 r.bounds
    refine ⟨c1 ++ c2, o3, by rw [hunf, e1]; simp only [Outcome.bind_ok, ← ho2, e2], ?_, ?_, ?_, ?_⟩
    · rw [Node.entries, allPairs_append]
      have hlsub : ∀ e ∈ l.entries, subBox e.bounds l.bounds := hl.entry_subBox
      have hrsub : ∀ e ∈ r.entries, subBox e.bounds r.bounds := hr.entry_subBox
      refine List.Perm.append (p1.trans ?_) (p2.trans ?_)
      · refine (allPairs_perm cfg _ (hsort o l)).trans ?_
        rw [allPairs_filter cfg hm _ _ hlsub]
      · refine (allPairs_perm cfg _ (hsort o2 r)).trans ?_
        rw [allPairs_filter cfg hm _ _ hrsub]
        exact allPairs_perm cfg _ t1'
    · rw [l2, hlen2.1]; simp only [ho2, OverlapList.setMiddle]; rw [l1, hlen.1]
    · have hm2 : (o2.sortOverlapping cfg r.bounds).middle ≤ o.middle := hlen2.2.2 o2ok
      refine (take_take_perm hm2 t2 d2 l2).trans ?_
      exact (OverlapList.nodes_sort_perm cfg o2 r.bounds).trans t1'
    · have hm2 : (o2.sortOverlapping cfg r.bounds).middle ≤ o.middle := hlen2.2.2 o2ok
      have h1 := congrArg (List.drop (o.middle - (o2.sortOverlapping cfg r.bounds).middle)) d2
      rw [List.drop_drop, List.drop_drop] at h1
      have h2 : (o2.sortOverlapping cfg r.bounds).middle +
        (o.middle - (o2.sortOverlapping cfg r.bounds).middle) = o.middle := by omega
      rw [h2] at h1
      rw [h1]
      have h3 := (booleanSort_perm (fun n : Entry K α => cfg.ovl n.bounds r.bounds)
        (o2.nodes.take o2.middle)).1.length_eq
      rw [List.length_take, Nat.min_eq_left o2ok] at h3
      simp only [OverlapList.sortOverlapping]
      have h4 := List.drop_left' (l₂ := o2.nodes.drop o2.middle) h3
      exact h4.trans d1'

theorem forEachOverlappingRange_spec (cfg : Cfg K C) (hm : cfg.Monotone) {t : Node K α} (h : GoodRoot t)
    (its : List (Entry K α)) :
    ∃ calls, forEachOverlappingRange cfg t its = .ok calls ∧ calls.Perm (allPairs cfg t.entries its) := by
  cases t with
  | null => exact h.elim
  | leaf b a => exact h.elim
  | node b l r =>
    obtain ⟨hl, hr, hb⟩ := h
    have hsort := fun (o : OverlapList K α) (t : Node K α) => OverlapList.sort_overlapping cfg o t.bounds
    set list : OverlapList K α := ⟨its, its.length⟩ with hlist
    have hlo : list.overlapping = its := by simp [hlist, OverlapList.overlapping]
    have step1 : ∃ c1 o1, (match l with
        | .null => Outcome.ok ([], list)
        | l => forEachOverlappingList cfg l (list.sortOverlapping cfg l.bounds)) = .ok (c1, o1) ∧
        c1.Perm (allPairs cfg l.entries its) ∧ o1.nodes.Perm its := by
      rcases hl with rfl | hl
      · exact ⟨[], list, rfl, by simp [Node.entries, allPairs], List.Perm.refl _⟩
      · obtain ⟨c1, o1, e1, p1, l1, t1, d1⟩ := forEachOverlappingList_spec cfg hm hl
          (list.sortOverlapping cfg l.bounds) (OverlapList.sort_ok _ _ _) (by
            intro i hi
            have := (hsort list l).subset hi
            simpa using (List.mem_filter.1 this).2)
        refine ⟨c1, o1, ?_, p1.trans ?_, ?_⟩
        · rw [← e1]; cases l <;> first | exact hl.elim | rfl
        · refine (allPairs_perm cfg _ (hsort list l)).trans ?_
          rw [allPairs_filter cfg hm _ _ hl.entry_subBox, hlo]
        · have hp := (List.take_append_drop (list.sortOverlapping cfg l.bounds).middle o1.nodes)
          rw [← hp, d1]
          refine (t1.append_right _).trans ?_
          rw [List.take_append_drop]
          have := OverlapList.nodes_sort_perm cfg list l.bounds
          have hl' := (length_sort cfg list l.bounds).1
          simp only [hlist] at this hl' ⊢
          rwa [List.take_of_length_le (by rw [hl']), List.take_length] at this
    obtain ⟨c1, o1, e1, p1, n1⟩ := step1
    set o2 := o1.setMiddle list.middle with ho2
    have ho2p : o2.overlapping.Perm its := by
      simp only [ho2, OverlapList.setMiddle, OverlapList.overlapping, hlist]
      rw [List.take_of_length_le (by rw [n1.length_eq])]; exact n1
    have step2 : ∃ c2 o3, (match r with
        | .null => Outcome.ok ([], o1)
        | r => forEachOverlappingList cfg r (o2.sortOverlapping cfg r.bounds)) = .ok (c2, o3) ∧
        c2.Perm (allPairs cfg r.entries its) := by
      rcases hr with rfl | hr
      · exact ⟨[], o1, rfl, by simp [Node.entries, allPairs]⟩
      · obtain ⟨c2, o3, e2, p2, _⟩ := forEachOverlappingList_spec cfg hm hr
          (o2.sortOverlapping cfg r.bounds) (OverlapList.sort_ok _ _ _) (by
            intro i hi
            have := (hsort o2 r).subset hi
            simpa using (List.mem_filter.1 this).2)
        refine ⟨c2, o3, ?_, p2.trans ?_⟩
        · rw [← e2]; cases r <;> first | exact hr.elim | rfl
        · refine (allPairs_perm cfg _ (hsort o2 r)).trans ?_
          rw [allPairs_filter cfg hm _ _ hr.entry_subBox]
          exact allPairs_perm cfg _ ho2p
    obtain ⟨c2, o3, e2, p2⟩ := step2
    refine ⟨c1 ++ c2, ?_, ?_⟩
    · simp only [forEachOverlappingRange, ← hlist]
      cases l <;> cases r <;> simp_all [Outcome.bind]
    · rw [Node.entries, allPairs_append]; exact p1.append p2

/-! ### Pairs reported by the bulk rebuild -/

section pairs
variable [DecidableEq α]

/-- How many times the unordered pair `{u, v}` was reported. -/
def pairCount (u v : Entry K α) (calls : List (Entry K α × Entry K α)) : Nat :=
  calls.countP fun p => decide (p = (u, v)) || decide (p = (v, u))

theorem pairCount_append (u v : Entry K α) (a b : List (Entry K α × Entry K α)) :
    pairCount u v (a ++ b) = pairCount u v a + pairCount u v b := by simp [pairCount]

theorem pairCount_map (u v n : Entry K α) (huv : u ≠ v) (F : List (Entry K α)) (hF : F.Nodup) :
    pairCount u v (F.map fun m => (n, m)) =
      (if n = u ∧ v ∈ F then 1 else 0) + (if n = v ∧ u ∈ F then 1 else 0) := by
  simp only [pairCount, List.countP_map]
  by_cases h1 : n = u
  · subst h1
    have : ((fun p : Entry K α × Entry K α => decide (p = (n, v)) || decide (p = (v, n))) ∘
        fun m => (n, m)) = fun m => m == v := by
      funext m
      simp [huv, Prod.mk.injEq, Bool.beq_eq_decide_eq]
    rw [this]
    have hc : F.countP (fun m => m == v) = F.count v := rfl
    rw [hc, List.Nodup.count hF]
    simp [huv]
  · by_cases h2 : n = v
    · subst h2
      have : ((fun p : Entry K α × Entry K α => decide (p = (u, n)) || decide (p = (n, u))) ∘
          fun m => (n, m)) = fun m => m == u := by
        funext m
        simp [h1, Prod.mk.injEq, Bool.beq_eq_decide_eq]
      rw [this]
      have hc : F.countP (fun m => m == u) = F.count u := rfl
      rw [hc, List.Nodup.count hF]
      simp [h1]
    · simp [h1, h2, List.countP_eq_zero]

theorem hull_subBox (ns : List (Entry K α)) : ∀ e ∈ ns, subBox e.bounds (constructBounds ns) := by
  intro e he
  have h := constructBounds_norm ns
  obtain ⟨s, t, rfl⟩ := List.append_of_mem he
  have h1 : hull (s ++ e :: t) = join e.bounds.norm (hull (s ++ t)) := by
    rw [hull_append, hull_append]
    simp only [hull, List.foldr_cons]; ac_rfl
  rw [h1, ← constructBounds_norm] at h
  exact (subBox_of_norm_join h).1

theorem rebuild_calls (cfg : Cfg K C) (hm : cfg.Monotone) (hsym : cfg.Symmetric) (nodes : List (Entry K α))
    (o : OverlapList K α) (ho : o.Ok) (hnd : (nodes ++ o.overlapping).Nodup)
    (hpre : ∀ f ∈ o.overlapping, cfg.ovl f.bounds (constructBounds nodes) = true)
    (u v : Entry K α) (huv : u ≠ v) :
    pairCount u v (rebuild cfg nodes o).2 =
      (if u ∈ nodes ∧ v ∈ nodes ∧ cfg.ovl u.bounds v.bounds then 1 else 0) +
      (if u ∈ nodes ∧ v ∈ o.overlapping ∧ cfg.ovl u.bounds v.bounds then 1 else 0) +
      (if v ∈ nodes ∧ u ∈ o.overlapping ∧ cfg.ovl u.bounds v.bounds then 1 else 0) := by
  fun_induction rebuild cfg nodes o with
  | case1 => simp [pairCount]
  | case2 o n =>
    rw [pairCount_map u v n huv _ (List.nodup_append.1 hnd).2.1]
    have hcb : constructBounds [n] = n.bounds := by
      simp [constructBounds, BoundingBox.combined, BoundingBox.isValid, BoundingBox.invalid]
    rw [hcb] at hpre
    have e1 : (n = u ∧ v ∈ o.overlapping) ↔ (u ∈ [n] ∧ v ∈ o.overlapping ∧ cfg.ovl u.bounds v.bounds = true) := by
      simp only [List.mem_singleton]
      constructor
      · rintro ⟨rfl, h⟩; exact ⟨rfl, h, by rw [hsym]; exact hpre v h⟩
      · rintro ⟨rfl, h, _⟩; exact ⟨rfl, h⟩
    have e2 : (n = v ∧ u ∈ o.overlapping) ↔ (v ∈ [n] ∧ u ∈ o.overlapping ∧ cfg.ovl u.bounds v.bounds = true) := by
      simp only [List.mem_singleton]
      constructor
      · rintro ⟨rfl, h⟩; exact ⟨rfl, h, hpre u h⟩
      · rintro ⟨rfl, h, _⟩; exact ⟨rfl, h⟩
    have e3 : ¬ (u ∈ [n] ∧ v ∈ [n] ∧ cfg.ovl u.bounds v.bounds = true) := by
      simp only [List.mem_singleton]
      rintro ⟨rfl, rfl, _⟩; exact huv rfl
    simp only [e1, e2, e3, if_false, Nat.zero_add]
  | case3 o n₁ n₂ ns s lb rb lc rc lists l r ihl ihr =>
    rw [pairCount_append]
    have hperm : (s.1 ++ s.2).Perm (n₁ :: n₂ :: ns) := splitNodes_perm cfg _
    generalize (n₁ :: n₂ :: ns) = nodes at *
    have hnd' : (s.1 ++ s.2 ++ o.overlapping).Nodup := (hperm.append_right _).nodup_iff.2 hnd
    rw [List.nodup_append, List.nodup_append] at hnd'
    obtain ⟨⟨ndl, ndr, dlr⟩, ndo, dno⟩ := hnd'
    have hlsub : ∀ e ∈ s.1, subBox e.bounds lb := hull_subBox s.1
    have hrsub : ∀ e ∈ s.2, subBox e.bounds rb := hull_subBox s.2
    -- members of the filtered lists
    have lcp : lc.overlapping.Perm (o.overlapping.filter fun n => cfg.ovl n.bounds lb) := by
      have := OverlapList.sort_overlapping cfg o.copy lb
      rwa [OverlapList.copy_overlapping] at this
    have rcp : rc.overlapping.Perm (o.overlapping.filter fun n => cfg.ovl n.bounds rb) :=
      OverlapList.sort_overlapping cfg o rb
    have lcok : lc.Ok := OverlapList.sort_ok _ _ _
    have rcok : rc.Ok := OverlapList.sort_ok _ _ _
    -- the lists after adding the cross pairs
    obtain ⟨A, B, hA, hB, hlok, hrok, hlo, hro⟩ : ∃ A B : List (Entry K α),
        (A = s.2.filter (fun n => cfg.ovl lb n.bounds) ∧ B = [] ∨
         A = [] ∧ B = s.1.filter (fun n => cfg.ovl rb n.bounds) ∨
         A = [] ∧ B = [] ∧ cfg.ovl lb rb = false) ∧ True ∧ lists.1.Ok ∧ lists.2.Ok ∧
        lists.1.overlapping = lc.overlapping ++ A ∧ lists.2.overlapping = rc.overlapping ++ B := by
      simp only [lists, crossLists]
      split
      · split
        · obtain ⟨h1, h2⟩ := OverlapList.fold_add rcok (fun n => cfg.ovl rb n.bounds) s.1
          exact ⟨[], _, Or.inr (Or.inl ⟨rfl, rfl⟩), trivial, lcok, h1, by simp, h2⟩
        · obtain ⟨h1, h2⟩ := OverlapList.fold_add lcok (fun n => cfg.ovl lb n.bounds) s.2
          exact ⟨_, [], Or.inl ⟨rfl, rfl⟩, trivial, h1, rcok, h2, by simp⟩
      · rename_i h
        exact ⟨[], [], Or.inr (Or.inr ⟨rfl, rfl, by simpa using h⟩), trivial, lcok, rcok, by simp, by simp⟩
    clear hB
    have hAsub : ∀ x ∈ A, x ∈ s.2 ∧ cfg.ovl lb x.bounds = true := by
      rcases hA with ⟨rfl, _⟩ | ⟨rfl, _⟩ | ⟨rfl, _⟩ <;> simp +contextual
    have hBsub : ∀ x ∈ B, x ∈ s.1 ∧ cfg.ovl rb x.bounds = true := by
      rcases hA with ⟨_, rfl⟩ | ⟨_, rfl⟩ | ⟨_, rfl, _⟩ <;> simp +contextual
    have hAnd : A.Nodup := by
      rcases hA with ⟨rfl, _⟩ | ⟨rfl, _⟩ | ⟨rfl, _⟩
      · exact ndr.filter _
      · simp
      · simp
    have hBnd : B.Nodup := by
      rcases hA with ⟨_, rfl⟩ | ⟨_, rfl⟩ | ⟨_, rfl, _⟩
      · simp
      · exact ndl.filter _
      · simp
    have hlc : ∀ x, x ∈ lc.overlapping ↔ x ∈ o.overlapping ∧ cfg.ovl x.bounds lb = true := by
      intro x; rw [lcp.mem_iff, List.mem_filter]
    have hrc : ∀ x, x ∈ rc.overlapping ↔ x ∈ o.overlapping ∧ cfg.ovl x.bounds rb = true := by
      intro x; rw [rcp.mem_iff, List.mem_filter]
    rw [ihl hlok ?_ ?_, ihr hrok ?_ ?_]
    · -- counting
      simp only [hlo, hro, List.mem_append, hlc, hrc]
      have hN : ∀ x, x ∈ nodes ↔ x ∈ s.1 ∨ x ∈ s.2 := by
        intro x; rw [← hperm.mem_iff, List.mem_append]
      simp only [hN]
      -- overlaps imply membership of the filtered lists
      have m1 : ∀ x y : Entry K α, x ∈ s.1 → cfg.ovl x.bounds y.bounds = true → cfg.ovl y.bounds lb = true := by
        intro x y hx h; exact hm _ _ _ (hlsub x hx) (by rw [hsym]; exact h)
      have m2 : ∀ x y : Entry K α, x ∈ s.2 → cfg.ovl x.bounds y.bounds = true → cfg.ovl y.bounds rb = true := by
        intro x y hx h; exact hm _ _ _ (hrsub x hx) (by rw [hsym]; exact h)
      have m3 : ∀ x y : Entry K α, x ∈ s.1 → y ∈ s.2 → cfg.ovl x.bounds y.bounds = true → cfg.ovl lb rb = true := by
        intro x y hx hy h
        have h1 := m1 x y hx h
        rw [hsym] at h1
        exact hm _ _ _ (hrsub y hy) h1
      have hsuv := hsym u.bounds v.bounds
      by_cases hov : cfg.ovl u.bounds v.bounds = true
      swap
      · simp [hov]
      have hov' : cfg.ovl v.bounds u.bounds = true := by rw [← hsuv]; exact hov
      simp only [hov, and_true]
      have d1 : ∀ x, x ∈ s.1 → x ∉ s.2 := fun x h1 h2 => dlr x h1 x h2 rfl
      have d2 : ∀ x, x ∈ s.1 → x ∉ o.overlapping := fun x h1 h2 =>
        dno x (List.mem_append.2 (Or.inl h1)) x h2 rfl
      have d3 : ∀ x, x ∈ s.2 → x ∉ o.overlapping := fun x h1 h2 =>
        dno x (List.mem_append.2 (Or.inr h1)) x h2 rfl
      have c1 : ∀ x y : Entry K α, x ∈ s.1 → y ∈ s.2 → cfg.ovl x.bounds y.bounds = true →
          ((y ∈ A ∧ x ∉ B) ∨ (y ∉ A ∧ x ∈ B)) := by
        intro x y hx hy h
        have h1 := m1 x y hx h
        have h2 := m2 y x hy (by rw [hsym]; exact h)
        rcases hA with ⟨rfl, rfl⟩ | ⟨rfl, rfl⟩ | ⟨rfl, rfl, hf⟩
        · left; exact ⟨List.mem_filter.2 ⟨hy, by rw [hsym]; exact h1⟩, by simp⟩
        · right; exact ⟨by simp, List.mem_filter.2 ⟨hx, by rw [hsym]; exact h2⟩⟩
        · rw [m3 x y hx hy h] at hf; simp at hf
      have a1 : ∀ x, x ∈ A → x ∈ s.2 := fun x h => (hAsub x h).1
      have b1 : ∀ x, x ∈ B → x ∈ s.1 := fun x h => (hBsub x h).1
      by_cases u1 : u ∈ s.1
      · have u2 := d1 u u1
        have u3 := d2 u u1
        have uA : u ∉ A := fun h => u2 (a1 u h)
        by_cases v1 : v ∈ s.1
        · have v2 := d1 v v1
          have v3 := d2 v v1
          have vA : v ∉ A := fun h => v2 (a1 v h)
          simp [u1, u2, u3, uA, v1, v2, v3, vA]
        · have vB : v ∉ B := fun h => v1 (b1 v h)
          by_cases v2 : v ∈ s.2
          · have v3 := d3 v v2
            rcases c1 u v u1 v2 hov with ⟨h1, h2⟩ | ⟨h1, h2⟩
            · simp [u1, u2, u3, uA, v1, v2, v3, vB, h1, h2]
            · simp [u1, u2, u3, uA, v1, v2, v3, vB, h1, h2]
          · have vA : v ∉ A := fun h => v2 (a1 v h)
            have := m1 u v u1 hov
            simp [u1, u2, u3, uA, v1, v2, vA, vB, this]
      · have uB : u ∉ B := fun h => u1 (b1 u h)
        by_cases u2 : u ∈ s.2
        · have u3 := d3 u u2
          by_cases v1 : v ∈ s.1
          · have v2 := d1 v v1
            have v3 := d2 v v1
            have vA : v ∉ A := fun h => v2 (a1 v h)
            rcases c1 v u v1 u2 hov' with ⟨h1, h2⟩ | ⟨h1, h2⟩
            · simp [u1, u2, u3, uB, v1, v2, v3, vA, h1, h2]
            · simp [u1, u2, u3, uB, v1, v2, v3, vA, h1, h2]
          · have vB : v ∉ B := fun h => v1 (b1 v h)
            by_cases v2 : v ∈ s.2
            · have v3 := d3 v v2
              simp [u1, u2, u3, uB, v1, v2, v3, vB]
            · have vA : v ∉ A := fun h => v2 (a1 v h)
              have := m2 u v u2 hov
              simp [u1, u2, u3, uB, v1, v2, vA, vB, this]
        · have uA : u ∉ A := fun h => u2 (a1 u h)
          by_cases v1 : v ∈ s.1
          · have v2 := d1 v v1
            have v3 := d2 v v1
            have := m1 v u v1 hov'
            simp [u1, u2, uA, uB, v1, v2, v3, this]
          · by_cases v2 : v ∈ s.2
            · have v3 := d3 v v2
              have := m2 v u v2 hov'
              simp [u1, u2, uA, uB, v1, v2, v3, this]
            · simp [u1, u2, uA, uB, v1, v2]
    · -- right nodup
      rw [hro]
      rw [List.nodup_append]
      refine ⟨ndr, ?_, ?_⟩
      · rw [List.nodup_append]
        refine ⟨rcp.nodup_iff.2 (ndo.filter _), hBnd, ?_⟩
        intro a ha b hb hab
        subst hab
        exact dno a (List.mem_append.2 (Or.inl (hBsub a hb).1)) a ((hrc a).1 ha).1 rfl
      · intro a ha b hb hab
        subst hab
        rcases List.mem_append.1 hb with hb | hb
        · exact dno a (List.mem_append.2 (Or.inr ha)) a ((hrc a).1 hb).1 rfl
        · exact dlr a (hBsub a hb).1 a ha rfl
    · rw [hro]
      intro f hf
      rcases List.mem_append.1 hf with hf | hf
      · exact ((hrc f).1 hf).2
      · rw [hsym]; exact (hBsub f hf).2
    · rw [hlo]
      rw [List.nodup_append]
      refine ⟨ndl, ?_, ?_⟩
      · rw [List.nodup_append]
        refine ⟨lcp.nodup_iff.2 (ndo.filter _), hAnd, ?_⟩
        intro a ha b hb hab
        subst hab
        exact dno a (List.mem_append.2 (Or.inr (hAsub a hb).1)) a ((hlc a).1 ha).1 rfl
      · intro a ha b hb hab
        subst hab
        rcases List.mem_append.1 hb with hb | hb
        · exact dno a (List.mem_append.2 (Or.inl ha)) a ((hlc a).1 hb).1 rfl
        · exact dlr a ha a (hAsub a hb).1 rfl
    · rw [hlo]
      intro f hf
      rcases List.mem_append.1 hf with hf | hf
      · exact ((hlc f).1 hf).2
      · rw [hsym]; exact (hAsub f hf).2

/-- No element is ever paired with itself and only given elements are reported. -/
theorem rebuild_calls_mem (cfg : Cfg K C) (nodes : List (Entry K α))
    (o : OverlapList K α) (ho : o.Ok) (hnd : (nodes ++ o.overlapping).Nodup) :
    ∀ p ∈ (rebuild cfg nodes o).2, p.1 ∈ nodes ∧ (p.2 ∈ nodes ∨ p.2 ∈ o.overlapping) ∧ p.1 ≠ p.2 := by
  fun_induction rebuild cfg nodes o with
  | case1 => simp
  | case2 o n =>
    intro p hp
    obtain ⟨m, hm, rfl⟩ := List.mem_map.1 hp
    refine ⟨by simp, Or.inr hm, ?_⟩
    intro h
    exact (List.nodup_append.1 hnd).2.2 n (by simp) m hm h
  | case3 o n₁ n₂ ns s lb rb lc rc lists l r ihl ihr =>
    have hperm : (s.1 ++ s.2).Perm (n₁ :: n₂ :: ns) := splitNodes_perm cfg _
    generalize (n₁ :: n₂ :: ns) = nodes at *
    have hnd' : (s.1 ++ s.2 ++ o.overlapping).Nodup := (hperm.append_right _).nodup_iff.2 hnd
    rw [List.nodup_append, List.nodup_append] at hnd'
    obtain ⟨⟨ndl, ndr, dlr⟩, ndo, dno⟩ := hnd'
    have lcp : lc.overlapping.Perm (o.overlapping.filter fun n => cfg.ovl n.bounds lb) := by
      have := OverlapList.sort_overlapping cfg o.copy lb
      rwa [OverlapList.copy_overlapping] at this
    have rcp : rc.overlapping.Perm (o.overlapping.filter fun n => cfg.ovl n.bounds rb) :=
      OverlapList.sort_overlapping cfg o rb
    have lcok : lc.Ok := OverlapList.sort_ok _ _ _
    have rcok : rc.Ok := OverlapList.sort_ok _ _ _
    obtain ⟨A, B, hAsub, hBsub, hAnd, hBnd, hlok, hrok, hlo, hro⟩ : ∃ A B : List (Entry K α),
        (∀ x ∈ A, x ∈ s.2) ∧ (∀ x ∈ B, x ∈ s.1) ∧ A.Nodup ∧ B.Nodup ∧ lists.1.Ok ∧ lists.2.Ok ∧
        lists.1.overlapping = lc.overlapping ++ A ∧ lists.2.overlapping = rc.overlapping ++ B := by
      simp only [lists, crossLists]
      split
      · split
        · obtain ⟨h1, h2⟩ := OverlapList.fold_add rcok (fun n => cfg.ovl rb n.bounds) s.1
          exact ⟨[], _, by simp, fun x hx => (List.mem_filter.1 hx).1, by simp, ndl.filter _, lcok, h1,
            by simp, h2⟩
        · obtain ⟨h1, h2⟩ := OverlapList.fold_add lcok (fun n => cfg.ovl lb n.bounds) s.2
          exact ⟨_, [], fun x hx => (List.mem_filter.1 hx).1, by simp, ndr.filter _, by simp, h1, rcok, h2,
            by simp⟩
      · exact ⟨[], [], by simp, by simp, by simp, by simp, lcok, rcok, by simp, by simp⟩
    have hlc : ∀ x ∈ lc.overlapping, x ∈ o.overlapping := fun x hx =>
      (List.mem_filter.1 (lcp.subset hx)).1
    have hrc : ∀ x ∈ rc.overlapping, x ∈ o.overlapping := fun x hx =>
      (List.mem_filter.1 (rcp.subset hx)).1
    have hN : ∀ x, x ∈ nodes ↔ x ∈ s.1 ∨ x ∈ s.2 := by
      intro x; rw [← hperm.mem_iff, List.mem_append]
    intro p hp
    rcases List.mem_append.1 hp with hp | hp
    · obtain ⟨h1, h2, h3⟩ := ihl hlok (by
        rw [hlo, List.nodup_append, List.nodup_append]
        refine ⟨ndl, ⟨lcp.nodup_iff.2 (ndo.filter _), hAnd, ?_⟩, ?_⟩
        · rintro a ha b hb rfl
          exact dno a (List.mem_append.2 (Or.inr (hAsub a hb))) a (hlc a ha) rfl
        · rintro a ha b hb rfl
          rcases List.mem_append.1 hb with hb | hb
          · exact dno a (List.mem_append.2 (Or.inl ha)) a (hlc a hb) rfl
          · exact dlr a ha a (hAsub a hb) rfl) p hp
      refine ⟨(hN _).2 (Or.inl h1), ?_, h3⟩
      rw [hlo, List.mem_append] at h2
      rcases h2 with h2 | h2 | h2
      · exact Or.inl ((hN _).2 (Or.inl h2))
      · exact Or.inr (hlc _ h2)
      · exact Or.inl ((hN _).2 (Or.inr (hAsub _ h2)))
    · obtain ⟨h1, h2, h3⟩ := ihr hrok (by
        rw [hro, List.nodup_append, List.nodup_append]
        refine ⟨ndr, ⟨rcp.nodup_iff.2 (ndo.filter _), hBnd, ?_⟩, ?_⟩
        · rintro a ha b hb rfl
          exact dno a (List.mem_append.2 (Or.inl (hBsub a hb))) a (hrc a ha) rfl
        · rintro a ha b hb rfl
          rcases List.mem_append.1 hb with hb | hb
          · exact dno a (List.mem_append.2 (Or.inr ha)) a (hrc a hb) rfl
          · exact dlr a (hBsub a hb) a ha rfl) p hp
      refine ⟨(hN _).2 (Or.inr h1), ?_, h3⟩
      rw [hro, List.mem_append] at h2
      rcases h2 with h2 | h2 | h2
      · exact Or.inl ((hN _).2 (Or.inr h2))
      · exact Or.inr (hrc _ h2)
      · exact Or.inl ((hN _).2 (Or.inl (hBsub _ h2)))

end pairs
end Simu.RTree
