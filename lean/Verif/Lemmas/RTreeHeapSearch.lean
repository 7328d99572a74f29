import Verif.Lemmas.RTreeHeapInsert
/-
The search of the place of insertion on the memory of an R-tree, and insertion as a whole.
-/
set_option linter.unusedSectionVars false
set_option linter.unusedSimpArgs false
namespace Simu.RTreeHeap
open Simu.RTree (Cfg PQ Entry OverlapList)
variable {K C V X Y : Type} [Field K] [LinearOrder K]

/-- Number of nodes. -/
def ATree.count : ATree K → Nat
  | .null => 0
  | .leaf _ _ => 1
  | .node _ _ l r => 1 + l.count + r.count

/-- A candidate of the queue is a node of the tree. -/
def Match (t : ATree K) (e : Ptr × C) (c : ATree K × List (AFrame K)) : Prop :=
  c.1.ptr = e.1 ∧ c.1.ptr.isSome ∧ azip c.1 c.2 = t

/-- A pointer to some node of the tree. -/
def Place (t : ATree K) (p : Ptr) : Prop := ∃ n path, azip n path = t ∧ n.ptr = p ∧ p.isSome

def weight (cs : List (ATree K × List (AFrame K))) : Nat := (cs.map fun c => c.1.count).sum

theorem weight_cons (c : ATree K × List (AFrame K)) (cs) : weight (c :: cs) = c.1.count + weight cs := by
  simp [weight]

theorem weight_perm {cs cs' : List (ATree K × List (AFrame K))} (h : cs.Perm cs') : weight cs = weight cs' :=
  (h.map _).sum_eq

theorem count_pos {n : ATree K} (h : n.ptr.isSome) : 0 < n.count := by
  cases n <;> simp_all [ATree.ptr, ATree.count] <;> omega

/-- The children of a candidate that exist. -/
def kids (c : ATree K × List (AFrame K)) : List (ATree K × List (AFrame K)) :=
  match c.1 with
  | .node a b l r =>
    (if r.ptr.isSome then [(r, ⟨a, false, b, l⟩ :: c.2)] else []) ++ (if l.ptr.isSome then [(l, ⟨a, true, b, r⟩ :: c.2)] else [])
  | _ => []

theorem weight_kids (c : ATree K × List (AFrame K)) (h : c.1.ptr.isSome) : weight (kids c) < c.1.count := by
  obtain ⟨n, path⟩ := c
  cases n with
  | null => simp [ATree.ptr] at h
  | leaf a b => simp [kids, weight, ATree.count]
  | node a b l r =>
    simp only [kids, ATree.count]
    cases hl : l.ptr.isSome <;> cases hr : r.ptr.isSome <;> simp [weight] <;> omega

/-- The queue after the children of `p` were pushed, as computed by the loop. -/
def pushed (c : Cell K V) (cost : C) (rest : List (Ptr × C)) : List (Ptr × C) :=
  let q := if c.left.isSome then (c.left, cost) :: rest else rest
  if c.right.isSome then (c.right, cost) :: q else q

theorem match_pushed {t : ATree K} {val : Addr → Option V} {m : Mem K V} (hr : Rep val m none t)
    {e : Ptr × C} {c : ATree K × List (AFrame K)} (hm : Match t e c) {rest : List (Ptr × C)}
    {cs : List (ATree K × List (AFrame K))} (hrest : List.Forall₂ (Match t) rest cs) (cost : C) :
    ∃ cell, load e.1 m = .ok (cell, m) ∧ cell.bounds = c.1.shape.bounds ∧
      List.Forall₂ (Match t) (pushed cell cost rest) (kids c ++ cs) := by
  obtain ⟨n, path⟩ := c
  obtain ⟨h1, h2, h3⟩ := hm
  dsimp only at h1 h2 h3
  subst h3
  have hz := (rep_azip _ _ _ _).1 hr
  cases n with
  | null => simp [ATree.ptr] at h2
  | leaf a b =>
    refine ⟨_, by rw [← h1]; exact load_some hz.1.1, rfl, ?_⟩
    simpa [pushed, kids] using hrest
  | node a b l r =>
    refine ⟨_, by rw [← h1]; exact load_some hz.1.1, rfl, ?_⟩
    simp only [pushed, kids]
    have ml : l.ptr.isSome → Match (azip (.node a b l r) path) (l.ptr, cost) (l, ⟨a, true, b, r⟩ :: path) :=
      fun h => ⟨rfl, h, rfl⟩
    have mr : r.ptr.isSome → Match (azip (.node a b l r) path) (r.ptr, cost) (r, ⟨a, false, b, l⟩ :: path) :=
      fun h => ⟨rfl, h, rfl⟩
    cases hl : l.ptr.isSome <;> cases hr : r.ptr.isSome
    · simpa using hrest
    · simpa using ⟨mr hr, hrest⟩
    · simpa using ⟨ml hl, hrest⟩
    · simpa using ⟨mr hr, ml hl, hrest⟩

theorem search_heap (cfg : Cfg K C) (pq : PQ (Ptr × C)) (box : BoundingBox K) {t : ATree K} {val : Addr → Option V}
    {m : Mem K V} (hr : Rep val m none t) (N : Nat) : ∀ (q : List (Ptr × C)) (cs : List (ATree K × List (AFrame K))),
    weight cs = N → List.Forall₂ (Match t) q cs → ∀ (best : Ptr) (bestCost : C), (best = none ∨ Place t best) →
    ∃ res, (∀ fuel, N < fuel → searchLoop cfg pq box fuel q best bestCost m = .ok (res, m)) ∧
      ((res = none ∧ best = none) ∨ Place t res) := by
  induction N using Nat.strong_induction_on with
  | _ N ih =>
    intro q cs hN hq best bestCost hb
    by_cases hnil : q = []
    · refine ⟨best, fun fuel hf => ?_, ?_⟩
      · obtain ⟨k, rfl⟩ := Nat.exists_eq_add_of_lt hf
        simp only [searchLoop, dif_pos hnil, pure_run]
      · rcases hb with h | h
        · exact Or.inl ⟨h, h⟩
        · exact Or.inr h
    · obtain ⟨cs', hq', hcs⟩ := List.perm_comp_forall₂ (pq.perm q hnil) hq
      obtain ⟨c, cs2, hm, hrest, rfl⟩ := List.forall₂_cons_left_iff.1 hq'
      have hw := weight_perm hcs
      rw [weight_cons, hN] at hw
      have hpos := count_pos hm.2.1
      by_cases hge : cfg.ge (cfg.add (pq.pop q hnil).1.2 (cfg.area box)) bestCost = true
      · refine ⟨best, fun fuel hf => ?_, ?_⟩
        · obtain ⟨k, rfl⟩ := Nat.exists_eq_add_of_lt hf
          simp only [searchLoop, dif_neg hnil, hge, if_true, pure_run]
        · rcases hb with h | h
          · exact Or.inl ⟨h, h⟩
          · exact Or.inr h
      · obtain ⟨cell, hload, hbd, -⟩ := match_pushed hr hm hrest bestCost
        have hplace : Place t (pq.pop q hnil).1.1 := ⟨c.1, c.2, hm.2.2, hm.1, by rw [← hm.1]; exact hm.2.1⟩
        set tot := cfg.add (pq.pop q hnil).1.2 (cfg.area (cell.bounds.combined box)) with htot
        set best' := if cfg.lt tot bestCost = true then (pq.pop q hnil).1.1 else best with hbest'
        set cost' := if cfg.lt tot bestCost = true then tot else bestCost with hcost'
        have hb' : best' = none ∨ Place t best' := by
          rw [hbest']; split
          · exact Or.inr hplace
          · exact hb
        have hbb : best' = none → best = none := by
          rw [hbest']; split
          · intro h; rw [h] at hplace; obtain ⟨_, _, _, _, h⟩ := hplace; simp at h
          · exact id
        by_cases hin : cfg.lt (cfg.add (cfg.sub tot (cfg.area cell.bounds)) (cfg.area box)) cost' = true
        · obtain ⟨cell', hload', -, hq2⟩ := match_pushed hr hm hrest (cfg.sub tot (cfg.area cell.bounds))
          rw [hload] at hload'
          simp only [Outcome.ok.injEq, Prod.mk.injEq, and_true] at hload'
          subst hload'
          have hwk : weight (kids c ++ cs2) < N := by
            have := weight_kids c hm.2.1
            simp only [weight, List.map_append, List.sum_append] at this ⊢
            simp only [weight] at hw
            omega
          obtain ⟨res, h1, h2⟩ := ih _ hwk _ _ rfl hq2 best' cost' hb'
          refine ⟨res, fun fuel hf => ?_, h2.imp (fun h => ⟨h.1, hbb h.2⟩) id⟩
          obtain ⟨k, rfl⟩ := Nat.exists_eq_add_of_lt hf
          have := h1 (N + k) (by omega)
          simp only [searchLoop, dif_neg hnil, hge, Bool.false_eq_true, if_false, bind_run, hload, Outcome.bind_ok, ← htot,
            ← hbest', ← hcost', hin, if_true]
          exact this
        · have hwk : weight cs2 < N := by omega
          obtain ⟨res, h1, h2⟩ := ih _ hwk _ _ rfl hrest best' cost' hb'
          refine ⟨res, fun fuel hf => ?_, h2.imp (fun h => ⟨h.1, hbb h.2⟩) id⟩
          obtain ⟨k, rfl⟩ := Nat.exists_eq_add_of_lt hf
          have := h1 (N + k) (by omega)
          simp only [searchLoop, dif_neg hnil, hge, Bool.false_eq_true, if_false, bind_run, hload, Outcome.bind_ok, ← htot,
            ← hbest', ← hcost', hin]
          exact this

/-- The search ends at a node of the tree when areas are finite. -/
theorem search_root (cfg : Cfg K C) (hfin : cfg.FiniteAreas) (pq : PQ (Ptr × C)) (box : BoundingBox K) {t : ATree K}
    {val : Addr → Option V} {m : Mem K V} (hr : Rep val m none t) (ht : t.ptr.isSome) :
    ∃ res, (∀ fuel, t.count < fuel → searchLoop cfg pq box fuel [(t.ptr, cfg.zero)] none cfg.inf m = .ok (res, m)) ∧
      Place t res := by
  have hm : Match t (t.ptr, cfg.zero) (t, []) := ⟨rfl, ht, rfl⟩
  obtain ⟨e1, e2⟩ := RTree.pq_pop_singleton pq ((t.ptr, cfg.zero) : Ptr × C) (by simp)
  have f1 : ∀ b, cfg.ge (cfg.add cfg.zero (cfg.area b)) cfg.inf = false := fun b => (hfin b).1
  have f2 : ∀ b, cfg.lt (cfg.add cfg.zero (cfg.area b)) cfg.inf = true := fun b => (hfin b).2
  obtain ⟨cell, hload, -, -⟩ := match_pushed hr hm (List.Forall₂.nil) cfg.zero
  set tot := cfg.add cfg.zero (cfg.area (cell.bounds.combined box)) with htot
  have hpl : Place t t.ptr := ⟨t, [], rfl, rfl, ht⟩
  have hne : t.ptr ≠ none := fun h => by rw [h] at ht; simp at ht
  dsimp only at hload
  by_cases hin : cfg.lt (cfg.add (cfg.sub tot (cfg.area cell.bounds)) (cfg.area box)) tot = true
  · obtain ⟨cell', hload', -, hq2⟩ := match_pushed hr hm (List.Forall₂.nil) (cfg.sub tot (cfg.area cell.bounds))
    rw [hload] at hload'
    simp only [Outcome.ok.injEq, Prod.mk.injEq, and_true] at hload'
    subst hload'
    rw [List.append_nil] at hq2
    obtain ⟨res, h1, h2⟩ := search_heap cfg pq box hr _ _ _ rfl hq2 t.ptr tot (Or.inr hpl)
    refine ⟨res, fun fuel hf => ?_, ?_⟩
    · obtain ⟨k, rfl⟩ := Nat.exists_eq_add_of_lt hf
      have hk := weight_kids (t, []) ht
      have := h1 (t.count + k) (by dsimp only at hk; omega)
      simp only [searchLoop, e1, e2, List.cons_ne_self, reduceCtorEq, reduceDIte, f1, f2, Bool.false_eq_true, if_false, bind_run,
        hload, Outcome.bind_ok, ← htot, if_true, hin]
      exact this
    · rcases h2 with h2 | h2
      · exact absurd h2.2 hne
      · exact h2
  · obtain ⟨res, h1, h2⟩ := search_heap cfg pq box hr 0 [] [] rfl .nil t.ptr tot (Or.inr hpl)
    refine ⟨res, fun fuel hf => ?_, ?_⟩
    · obtain ⟨k, rfl⟩ := Nat.exists_eq_add_of_lt hf
      have := h1 (t.count + k) (by have := count_pos ht; omega)
      simp only [searchLoop, e1, e2, List.cons_ne_self, reduceCtorEq, reduceDIte, f1, f2, Bool.false_eq_true, if_false, bind_run,
        hload, Outcome.bind_ok, ← htot, if_true, hin]
      exact this
    · rcases h2 with h2 | h2
      · exact absurd h2.2 hne
      · exact h2

theorem length_le_count (n : ATree K) (path : List (AFrame K)) : path.length + n.count ≤ (azip n path).count := by
  induction path generalizing n with
  | nil => simp [azip]
  | cons f fs ih =>
    have h1 := ih (f.close n)
    have h2 : n.count + 1 ≤ (f.close n).count := by
      unfold AFrame.close; split <;> simp [ATree.count] <;> omega
    simp only [azip, List.length_cons]; omega

/-- `insert(Node*)` of a leaf that hangs nowhere. -/
theorem insertNode_heap (cfg : Cfg K C) (hfin : cfg.FiniteAreas) (pq : PQ (Ptr × C)) {al : Alloc K V} (hal : Sound al)
    {val : Addr → Option V} {m : Mem K V} {t : ATree K} {lf : Addr} {lb : BoundingBox K}
    (hr : Rep val m none t) (hnd : t.addrs.Nodup) (ht : t.ptr.isSome) (hl : Loose val m lf lb) (hlf : lf ∉ t.addrs)
    (P : RTree.Node K Addr → Prop)
    (hadd : ∀ n path, n ≠ .null → RTree.zip n path = t.shape → ∃ T, RTree.addLeafTo cfg path n lb lf = .ok T ∧ P T) :
    ∃ m' t' T, (∀ fuel, t.count < fuel → insertNode cfg pq al fuel t.ptr (some lf) m = .ok ((), m')) ∧
      Added val m m' t lf T t' ∧ P T := by
  obtain ⟨res, h1, n, path, rfl, rfl, hs⟩ := search_root cfg hfin pq lb hr ht
  obtain ⟨a, ha⟩ := Option.isSome_iff_exists.1 hs
  obtain ⟨T, hT, hP⟩ := hadd n.shape (pathShape path) (shape_ne_null ha) (azip_shape n path).symm
  obtain ⟨m', t', h2, h3⟩ := addLeafTo_spec_heap cfg hal hr hnd hl hlf hT
  refine ⟨m', t', T, fun fuel hf => ?_, h3, hP⟩
  obtain ⟨⟨par, hlc⟩, -⟩ := hl
  simp only [insertNode, bind_run, load_some hlc, Outcome.bind_ok, h1 fuel hf]
  refine h2 fuel ?_
  have := length_le_count n path
  omega

end Simu.RTreeHeap
