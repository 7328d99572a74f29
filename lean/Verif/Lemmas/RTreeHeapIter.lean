import Verif.Lemmas.RTreeHeapOps
/-
Iteration over the memory of an R-tree, and its destruction.
-/
set_option linter.unusedSectionVars false
set_option linter.unusedSimpArgs false
namespace Simu.RTreeHeap
open Simu.RTree (Cfg PQ Entry OverlapList)
variable {K C V X Y : Type} [Field K] [LinearOrder K]

/-! ### Destruction -/

/-- `deleteNode` of a whole tree. -/
theorem deleteNode_heap {val : Addr → Option V} {m : Mem K V} {par : Ptr} {t : ATree K} (hr : Rep val m par t) (hnd : t.addrs.Nodup) :
    ∃ m', (∀ fuel, t.count < fuel → deleteNode fuel t.ptr m = .ok ((), m')) ∧ (∀ a, m'.get a = if a ∈ t.addrs then none else m.get a) ∧
      m'.destroyed = t.leaves.reverse.filterMap val ++ m.destroyed := by
  induction t generalizing par m with
  | null => exact ⟨m, fun fuel _ => deleteNode_none fuel m, fun a => by simp [ATree.addrs], by simp [ATree.leaves]⟩
  | leaf a b =>
    refine ⟨m.del a (val a).toList, fun fuel hf => deleteNode_single hr.1 rfl rfl (by omega), fun z => ?_, ?_⟩
    · rw [get_del]; simp [ATree.addrs]
    · show (val a).toList ++ m.destroyed = _
      cases hv : val a <;> simp [ATree.leaves, hv]
  | node a b l r ihl ihr =>
    simp only [ATree.addrs, List.nodup_cons, List.mem_append, not_or] at hnd
    obtain ⟨⟨nal, nar⟩, hnd⟩ := hnd
    obtain ⟨ndl, ndr, ndd⟩ := List.nodup_append.1 hnd
    obtain ⟨hac, hl, hrr⟩ := hr
    obtain ⟨m1, l1, l2, l3⟩ := ihl hl ndl
    have hr1 : Rep val m1 (some a) r := rep_congr (fun z hz => by
      rw [l2, if_neg]; intro h; exact ndd z h z hz rfl) hrr
    obtain ⟨m2, r1, r2, r3⟩ := ihr hr1 ndr
    have ha2 : m2.get a = _ := (show m2.get a = m.get a by rw [r2, if_neg nar, l2, if_neg nal]).trans hac
    have ha1 : m1.get a = _ := (show m1.get a = m.get a by rw [l2, if_neg nal]).trans hac
    refine ⟨m2.del a [], fun fuel hf => ?_, fun z => ?_, ?_⟩
    · obtain ⟨k, rfl⟩ : ∃ k, fuel = k + 1 := ⟨fuel - 1, by omega⟩
      simp only [ATree.count] at hf
      have hp : (ATree.node a b l r).ptr = some a := rfl
      rw [hp]
      simp only [deleteNode, bind_run, load_some hac, l1 k (by omega), Outcome.bind_ok, load_some ha1, r1 k (by omega), free_some ha2, Option.toList_none]
    · rw [get_del, r2, l2]
      simp only [ATree.addrs, List.mem_cons, List.mem_append]
      by_cases h1 : z = a
      · simp [h1]
      · by_cases h2 : z ∈ r.addrs <;> by_cases h3 : z ∈ l.addrs <;> simp [h1, h2, h3]
    · show [] ++ m2.destroyed = _
      rw [r3, l3]; simp [ATree.leaves]

/-! ### Iterators -/

/-- Internal nodes have two children. -/
def Full : ATree K → Prop
  | .null => False
  | .leaf _ _ => True
  | .node _ _ l r => Full l ∧ Full r

/-- The root may miss children. -/
def FullRoot : ATree K → Prop
  | .node _ _ l r => (l = .null ∨ Full l) ∧ (r = .null ∨ Full r)
  | _ => False

theorem full_of_good {t : ATree K} (h : RTree.Good t.shape) : Full t := by
  induction t with
  | null => exact h
  | leaf a b => trivial
  | node a b l r ihl ihr => exact ⟨ihl h.1, ihr h.2.1⟩

theorem null_of_shape {t : ATree K} (h : t.shape = .null) : t = .null := by
  cases t <;> simp_all [ATree.shape]

theorem fullRoot_of_good {t : ATree K} (h : RTree.GoodRoot t.shape) : FullRoot t := by
  cases t with
  | null => exact h.elim
  | leaf a b => exact h.elim
  | node a b l r => exact ⟨h.1.imp null_of_shape full_of_good, h.2.1.imp null_of_shape full_of_good⟩

/-- The leaf where iteration of a subtree begins; the top if there is none. -/
def ATree.first (t : ATree K) : Ptr := t.leaves.head?.or t.ptr

theorem Full.leaves_ne {t : ATree K} (h : Full t) : t.leaves ≠ [] := by
  induction t with
  | null => exact h.elim
  | leaf a b => simp [ATree.leaves]
  | node a b l r ihl ihr => simp [ATree.leaves, ihl h.1]

theorem Full.ptr {t : ATree K} (h : Full t) : t.ptr.isSome := by
  cases t with
  | null => exact h.elim
  | leaf a b => rfl
  | node a b l r => rfl

theorem first_node {a : Addr} {b : BoundingBox K} {l r : ATree K} (h : Full l) : (ATree.node a b l r).first = l.first := by
  obtain ⟨x, xs, e⟩ := List.exists_cons_of_ne_nil h.leaves_ne
  simp [ATree.first, ATree.leaves, e]

theorem goLeft_full {val : Addr → Option V} {m : Mem K V} {par : Ptr} {t : ATree K} (hr : Rep val m par t) (h : Full t)
    {fuel : Nat} (hf : t.count ≤ fuel) : goLeft fuel t.ptr m = .ok (t.first, m) := by
  induction t generalizing par fuel with
  | null => exact h.elim
  | leaf a b =>
    obtain ⟨k, rfl⟩ : ∃ k, fuel = k + 1 := ⟨fuel - 1, by simp [ATree.count] at hf; omega⟩
    simp only [ATree.ptr, goLeft, bind_run, load_some hr.1, Outcome.bind_ok, hr.2, if_true, pure_run, ATree.first, ATree.leaves]
    rfl
  | node a b l r ihl ihr =>
    obtain ⟨k, rfl⟩ : ∃ k, fuel = k + 1 := ⟨fuel - 1, by simp [ATree.count] at hf; omega⟩
    simp only [ATree.count] at hf
    have hp : (ATree.node a b l r).ptr = some a := rfl
    rw [hp, first_node h.1]
    simp only [goLeft, bind_run, load_some hr.1, Outcome.bind_ok, Option.isSome_none, Bool.false_eq_true, if_false, h.1.ptr, if_true]
    exact ihl hr.2.1 h.1 (by omega)

theorem goLeft_root {val : Addr → Option V} {m : Mem K V} {par : Ptr} {t : ATree K} (hr : Rep val m par t) (h : FullRoot t)
    {fuel : Nat} (hf : t.count ≤ fuel) : goLeft fuel t.ptr m = .ok (t.first, m) := by
  cases t with
  | null => exact h.elim
  | leaf a b => exact h.elim
  | node a b l r =>
    obtain ⟨k, rfl⟩ : ∃ k, fuel = k + 1 := ⟨fuel - 1, by simp [ATree.count] at hf; omega⟩
    simp only [ATree.count] at hf
    have hp : (ATree.node a b l r).ptr = some a := rfl
    rw [hp]
    rcases h.1 with rfl | hl
    · rcases h.2 with rfl | hr'
      · simp only [goLeft, bind_run, load_some hr.1, Outcome.bind_ok]
        rfl
      · have hn : (ATree.null : ATree K).ptr = none := rfl
        have e : (ATree.node a b .null r).first = r.first := by
          obtain ⟨x, xs, e⟩ := List.exists_cons_of_ne_nil hr'.leaves_ne
          simp [ATree.first, ATree.leaves, e]
        rw [e]
        simp only [goLeft, bind_run, load_some hr.1, Outcome.bind_ok, Option.isSome_none, Bool.false_eq_true, if_false, hn, hr'.ptr, if_true]
        exact goLeft_full hr.2.2 hr' (by omega)
    · rw [first_node hl]
      simp only [goLeft, bind_run, load_some hr.1, Outcome.bind_ok, Option.isSome_none, Bool.false_eq_true, if_false, hl.ptr, if_true]
      exact goLeft_full hr.2.1 hl (by omega)

/-- Where iteration continues after the subtree at the end of a path, whose top is `p`. -/
def succ (p : Ptr) : List (AFrame K) → Ptr
  | [] => p
  | f :: fs => if f.onLeft then (if f.other.ptr.isSome then f.other.first else some f.addr) else succ (some f.addr) fs

def pathCount (path : List (AFrame K)) : Nat := (path.map fun f => 1 + f.other.count).sum

theorem pathCount_azip (n : ATree K) (path : List (AFrame K)) : (azip n path).count = n.count + pathCount path := by
  induction path generalizing n with
  | nil => rfl
  | cons f fs ih =>
    have : (f.close n).count = n.count + (1 + f.other.count) := by
      unfold AFrame.close; split <;> simp only [ATree.count] <;> omega
    simp only [azip, ih, this, pathCount, List.map_cons, List.sum_cons]; omega

/-- Siblings have two children each or, next to the root, are missing. -/
def FullPath (path : List (AFrame K)) : Prop := ∀ f ∈ path, f.other = .null ∨ Full f.other

/-- The cell of a node and its parent's. -/
theorem rep_ptr_cell {val : Addr → Option V} {m : Mem K V} {par : Ptr} {n : ATree K} {a : Addr} (h : Rep val m par n) (ha : n.ptr = some a) :
    ∃ c, m.get a = some c ∧ c.parent = par := by
  obtain ⟨h1, c, h2, h3, -⟩ := rep_cell h ha
  exact ⟨c, h1.trans h2, h3⟩

theorem next_heap {val : Addr → Option V} {m : Mem K V} {n : ATree K} {path : List (AFrame K)} {a : Addr}
    (hr : Rep val m none (azip n path)) (hnd : (azip n path).addrs.Nodup) (ha : n.ptr = some a) (hfp : FullPath path)
    {fuel : Nat} (hf : pathCount path < fuel) : next fuel (some a) m = .ok (succ (some a) path, m) := by
  induction path generalizing n a fuel with
  | nil =>
    obtain ⟨c, h1, h2⟩ := rep_ptr_cell hr ha
    obtain ⟨k, rfl⟩ : ∃ k, fuel = k + 1 := ⟨fuel - 1, by omega⟩
    simp only [next, isLeft, isRight, bind_run, load_some h1, Outcome.bind_ok, h2, pure_run, Option.isNone_none, if_true, Bool.false_eq_true, if_false, succ]
  | cons f fs ih =>
    obtain ⟨hn, hfc, hfo, hfs⟩ := (rep_azip _ _ _ _).1 hr
    obtain ⟨c, h1, h2⟩ := rep_ptr_cell hn ha
    simp only [up] at h2
    have hnd2 := (azip_addrs n (f :: fs)).nodup_iff.1 hnd
    have hao : a ∉ f.other.addrs := fun h => by
      have := (List.nodup_append.1 hnd2).2.2 a (ptr_mem_addrs ha) a (by rw [pathAddrs_cons]; simp [h])
      exact this rfl
    obtain ⟨k, rfl⟩ : ∃ k, fuel = k + 1 := ⟨fuel - 1, by omega⟩
    have hcnt : pathCount (f :: fs) = 1 + f.other.count + pathCount fs := by simp [pathCount]
    rw [hcnt] at hf
    rw [ha] at hfc
    cases hs : f.onLeft
    · have hne : ¬ (f.other.ptr = some a) := fun h => hao (ptr_mem_addrs h)
      rw [hs] at hfc
      simp only [Bool.false_eq_true, if_false] at hfc
      have e1 : isLeft (some a) m = .ok (false, m) := by
        simp only [isLeft, bind_run, load_some h1, Outcome.bind_ok, h2, Option.isNone_some, Bool.false_eq_true, if_false, load_some hfc, pure_run]
        simp [hne, Ne.symm hne]
      have e2 : isRight (some a) m = .ok (true, m) := by
        simp only [isRight, bind_run, load_some h1, Outcome.bind_ok, h2, Option.isNone_some, Bool.false_eq_true, if_false, load_some hfc, pure_run]
        simp
      simp only [next, bind_run, e1, e2, Outcome.bind_ok, Bool.false_eq_true, if_false, if_true, load_some h1, h2]
      simp only [succ, hs, Bool.false_eq_true, if_false]
      exact ih (n := f.close n) hr hnd (close_ptr f n) (fun g hg => hfp g (List.mem_cons_of_mem _ hg)) (by omega)
    · rw [hs] at hfc
      simp only [if_true] at hfc
      have e1 : isLeft (some a) m = .ok (true, m) := by
        simp only [isLeft, bind_run, load_some h1, Outcome.bind_ok, h2, Option.isNone_some, Bool.false_eq_true, if_false, load_some hfc, pure_run]
        simp
      simp only [next, bind_run, e1, Outcome.bind_ok, if_true, load_some h1, h2, load_some hfc]
      simp only [succ, hs, if_true]
      rcases hfp f (by simp) with ho | ho
      · have hn : f.other.ptr = none := by rw [ho]; rfl
        simp only [hn, Option.isNone_none, if_true, pure_run, Option.isSome_none, Bool.false_eq_true, if_false]
      · have hp := ho.ptr
        have hp' : f.other.ptr.isNone = false := by
          cases h : f.other.ptr <;> simp_all
        simp only [hp, hp', if_true, Bool.false_eq_true, if_false]
        exact goLeft_full hfo ho (by omega)

theorem mem_leaves_addrs {t : ATree K} {x : Addr} (h : x ∈ t.leaves) : x ∈ t.addrs := by
  induction t with
  | null => simp [ATree.leaves] at h
  | leaf a b => simpa [ATree.leaves, ATree.addrs] using h
  | node a b l r ihl ihr =>
    simp only [ATree.leaves, List.mem_append] at h
    simp only [ATree.addrs, List.mem_cons, List.mem_append]
    rcases h with h | h
    · exact Or.inr (Or.inl (ihl h))
    · exact Or.inr (Or.inr (ihr h))

theorem root_path {n : ATree K} {path : List (AFrame K)} (hne : path ≠ []) : ∃ a, (azip n path).ptr = some a ∧ a ∈ pathAddrs path := by
  induction path generalizing n with
  | nil => exact absurd rfl hne
  | cons f fs ih =>
    by_cases h : fs = []
    · subst h
      exact ⟨f.addr, close_ptr f n, by simp [pathAddrs, AFrame.addrs]⟩
    · obtain ⟨a, h1, h2⟩ := ih (n := f.close n) h
      exact ⟨a, h1, by rw [pathAddrs_cons]; simp [h2]⟩

/-- Visiting a subtree. -/
theorem visit_sub {val : Addr → Option V} {m : Mem K V} {n : ATree K} {path : List (AFrame K)}
    (hr : Rep val m none (azip n path)) (hnd : (azip n path).addrs.Nodup) (hfu : Full n) (hfp : FullPath path) (hne : path ≠ [])
    {fuel : Nat} (hf : (azip n path).count < fuel) (k : Nat) {ps : List Ptr}
    (hk : visit fuel (azip n path).ptr k (succ n.ptr path) m = .ok (ps, m)) :
    visit fuel (azip n path).ptr (k + n.leaves.length) n.first m = .ok (n.leaves.map some ++ ps, m) := by
  induction n generalizing path k ps with
  | null => exact hfu.elim
  | leaf a b =>
    obtain ⟨q, hq, hqm⟩ := root_path (n := .leaf a b) hne
    have hqa : ¬ (some a = (azip (.leaf a b) path).ptr) := by
      rw [hq]
      intro h
      obtain rfl : a = q := by simpa using h
      have := (azip_addrs (.leaf a b) path).nodup_iff.1 hnd
      simp only [ATree.addrs, List.cons_append, List.nil_append, List.nodup_cons] at this
      exact this.1 hqm
    have hfuel : pathCount path < fuel := by rw [pathCount_azip] at hf; omega
    have hp : (ATree.leaf a b).ptr = some a := rfl
    have hfi : (ATree.leaf a b).first = some a := rfl
    rw [hp] at hk
    rw [hfi]
    simp only [ATree.leaves, List.length_singleton, visit, if_neg hqa, bind_run, next_heap hr hnd hp hfp hfuel, Outcome.bind_ok, hk, pure_run]
    simp
  | node a b l r ihl ihr =>
    have er : azip r (⟨a, false, b, l⟩ :: path) = azip (.node a b l r) path := rfl
    have el : azip l (⟨a, true, b, r⟩ :: path) = azip (.node a b l r) path := rfl
    have hfr : FullPath (⟨a, false, b, l⟩ :: path) := by
      intro f hf'
      rcases List.mem_cons.1 hf' with rfl | h
      · exact Or.inr hfu.1
      · exact hfp f h
    have hfl : FullPath (⟨a, true, b, r⟩ :: path) := by
      intro f hf'
      rcases List.mem_cons.1 hf' with rfl | h
      · exact Or.inr hfu.2
      · exact hfp f h
    have h1 := ihr (path := ⟨a, false, b, l⟩ :: path) (by rw [er]; exact hr) (by rw [er]; exact hnd) hfu.2 hfr (by simp) (by rw [er]; exact hf) k
      (ps := ps) (by rw [er]; exact hk)
    have h2 := ihl (path := ⟨a, true, b, r⟩ :: path) (by rw [el]; exact hr) (by rw [el]; exact hnd) hfu.1 hfl (by simp) (by rw [el]; exact hf) _
      (ps := r.leaves.map some ++ ps) (by
        rw [el, ← er]
        have : succ l.ptr (⟨a, true, b, r⟩ :: path) = r.first := by simp [succ, hfu.2.ptr]
        rw [this]; exact h1)
    rw [el] at h2
    rw [first_node hfu.1]
    have e3 : k + (ATree.node a b l r).leaves.length = k + r.leaves.length + l.leaves.length := by
      simp [ATree.leaves]; omega
    rw [e3, h2]
    simp [ATree.leaves]

theorem visit_end (fuel : Nat) (root : Ptr) (n : Nat) (m : Mem K V) : visit fuel root n root m = .ok ([], m) := by
  cases n <;> simp [visit]

/-- `for (it = begin(); it != end(); ++it)` visits the leaves from left to right. -/
theorem visit_root {val : Addr → Option V} {m : Mem K V} {t : ATree K}
    (hr : Rep val m none t) (hnd : t.addrs.Nodup) (hfu : FullRoot t) {fuel : Nat} (hf : t.count < fuel) {k : Nat} (hk : t.leaves.length ≤ k) :
    visit fuel t.ptr k t.first m = .ok (t.leaves.map some, m) := by
  cases t with
  | null => exact hfu.elim
  | leaf a b => exact hfu.elim
  | node a b l r =>
    have hp : (ATree.node a b l r).ptr = some a := rfl
    have er : azip r [⟨a, false, b, l⟩] = .node a b l r := rfl
    have el : azip l [⟨a, true, b, r⟩] = .node a b l r := rfl
    have hfr : FullPath [(⟨a, false, b, l⟩ : AFrame K)] := by
      intro f hf'; rw [List.mem_singleton] at hf'; subst hf'; exact hfu.1
    have hfl : FullPath [(⟨a, true, b, r⟩ : AFrame K)] := by
      intro f hf'; rw [List.mem_singleton] at hf'; subst hf'; exact hfu.2
    have R : Full r → ∀ k, visit fuel (some a) (k + r.leaves.length) r.first m = .ok (r.leaves.map some, m) := by
      intro h k
      have := visit_sub (path := [⟨a, false, b, l⟩]) hr hnd h hfr (by simp) hf k (ps := []) (visit_end fuel _ k m)
      rw [List.append_nil] at this
      exact this
    rcases hfu.1 with rfl | hl
    · rcases hfu.2 with rfl | hr'
      · exact visit_end fuel _ k m
      · have e : (ATree.node a b .null r).first = r.first := by
          obtain ⟨x, xs, e⟩ := List.exists_cons_of_ne_nil hr'.leaves_ne
          simp [ATree.first, ATree.leaves, e]
        have e2 : (ATree.node a b .null r).leaves = r.leaves := by simp [ATree.leaves]
        rw [e, e2, hp]
        rw [e2] at hk
        obtain ⟨j, rfl⟩ := Nat.exists_eq_add_of_le' hk
        exact R hr' j
    · rw [first_node hl, hp]
      simp only [ATree.leaves, List.length_append] at hk
      rcases hfu.2 with rfl | hr'
      · obtain ⟨j, rfl⟩ := Nat.exists_eq_add_of_le' hk
        have := visit_sub (path := [⟨a, true, b, .null⟩]) hr hnd hl hfl (by simp) hf j (ps := []) (visit_end fuel _ j m)
        simpa [ATree.leaves, ATree.ptr, azip, AFrame.close] using this
      · obtain ⟨j, rfl⟩ := Nat.exists_eq_add_of_le' hk
        have := visit_sub (path := [⟨a, true, b, r⟩]) hr hnd hl hfl (by simp) hf (j + r.leaves.length) (ps := r.leaves.map some) (by
          have e : succ l.ptr [(⟨a, true, b, r⟩ : AFrame K)] = r.first := by simp [succ, hr'.ptr]
          rw [e]; exact R hr' j)
        rw [show j + (l.leaves.length + r.leaves.length) = j + r.leaves.length + l.leaves.length by omega]
        simp only [ATree.leaves, List.map_append]
        exact this

theorem begin_heap {val : Addr → Option V} {m : Mem K V} {t : ATree K} (hr : Rep val m none t) (hfu : FullRoot t) {fuel : Nat}
    (hf : t.count < fuel) : begin fuel t.ptr m = .ok (t.first, m) := goLeft_root hr hfu (by omega)

end Simu.RTreeHeap
