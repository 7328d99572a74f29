import Verif.Lemmas.RTreeHeapClient
/-
C95: the R-tree as memory. Any legal history of calls runs without undefined behaviour, iterators stay
valid until their element is removed, nothing leaks and every element is destroyed once.
-/
set_option linter.unusedSectionVars false
namespace Simu.RTreeHeap
open Simu.RTree (Cfg PQ Entry exactCfg)
open Spec (Op Contents)
variable {K C V : Type} [Field K] [LinearOrder K]

/-- `RTree<T> tree; ` followed by some calls. -/
def session (cfg : Cfg K C) (pq : PQ (Ptr × C)) (al : Alloc K V) (fuel : Nat) (m : Mem K V) (ops : List (Op K V)) : Outcome (Client K V) :=
  (Client.start al m).bind fun s => s.runOps cfg pq al fuel ops

/-- `for (auto it = begin(); it != end(); ++it)` (RTree.hpp:135, 168-169; RTree.inl.hpp:118-137). -/
def iterate (fuel : Nat) (root : Ptr) : Prog K V (List Ptr) := do
  visit fuel root fuel (← begin fuel root)

/-- The iterators of the elements in the tree, in the order of their insertions. -/
def livingIts (its : List Addr) (c : Contents K V) : List Ptr :=
  (its.zip c).filterMap fun p => p.2.map fun _ => some p.1

/-- A loop of a client which took more rounds than foreseen. -/
def outOfRounds : Prog K V Unit := fun _ => .ub

/-- `for (auto it = begin(); it != end();) it = erase(it);` -/
def eraseLoop (cfg : Cfg K C) (fuel : Nat) (root : Ptr) : Nat → Ptr → Prog K V Unit
  | 0, it => if it = root then pure () else outOfRounds
  | n + 1, it =>
    if it = root then pure ()
    else do eraseLoop cfg fuel root n (← erase cfg fuel it)

/-- `while (begin() != end()) erase(begin());` -/
def drain (cfg : Cfg K C) (fuel : Nat) (root : Ptr) : Nat → Prog K V Unit
  | 0 => do
    let it ← begin fuel root
    if it = root then pure () else outOfRounds
  | n + 1 => do
    let it ← begin fuel root
    if it = root then pure ()
    else do
      let _ ← erase cfg fuel it
      drain cfg fuel root n

variable [IsStrictOrderedRing K]

/-! ### Helpers -/

theorem session_inv (cfg : Cfg K C) (hfin : cfg.FiniteAreas) (pq : PQ (Ptr × C)) {al : Alloc K V} (hal : Sound al)
    (m : Mem K V) (ops : List (Op K V)) (hop : Spec.legalHistory [] ops) :
    ∃ s val t N, (∀ fuel, N < fuel → session cfg pq al fuel m ops = .ok s) ∧ Inv m.get (Spec.run [] ops) s val t ∧
      s.mem.destroyed.Perm (Spec.lostBy [] ops ++ m.destroyed) := by
  obtain ⟨s0, t0, h1, h2, h3⟩ := start_inv hal m
  obtain ⟨s, val, t, N, h4, h5, h6⟩ := runOps_inv cfg hfin pq hal ops h2 hop
  refine ⟨s, val, t, N, fun fuel hf => ?_, h5, by rw [← h3]; exact h6⟩
  simp only [session, h1, Outcome.bind_ok, h4 fuel hf]

theorem iterate_heap {val : Addr → Option V} {m : Mem K V} {t : ATree K} (hr : Rep val m none t) (hnd : t.addrs.Nodup)
    (hg : RTree.GoodRoot t.shape) {fuel : Nat} (hf : t.count + t.leaves.length < fuel) :
    iterate fuel t.ptr m = .ok (t.leaves.map some, m) := by
  have hfu := fullRoot_of_good hg
  simp only [iterate, bind_run, begin_heap hr hfu (show t.count < fuel by omega), Outcome.bind_ok]
  exact visit_root hr hnd hfu (by omega) (by omega)

theorem Inv.leaves_perm {other : Addr → Option (Cell K V)} {c : Contents K V} {s : Client K V} {val : Addr → Option V} {t : ATree K}
    (I : Inv other c s val t) : (t.leaves.map some).Perm (livingIts s.its c) := by
  have h := I.elems.map fun q => some q.1
  simp only [List.map_map] at h
  have e1 : t.leaves.map some = t.shape.entries.map ((fun q : Addr × BoundingBox K × Option V => some q.1) ∘ fun e => (e.id, e.bounds, val e.id)) := by
    rw [leaves_entries, List.map_map]; rfl
  have e2 : livingIts s.its c = (alive s.its c).map ((fun q : Addr × BoundingBox K × Option V => some q.1) ∘ fun p => (p.1, p.2.1, some p.2.2)) := by
    simp only [livingIts, alive, List.map_filterMap, Option.map_map]; rfl
  rw [e1, e2]; exact h

theorem Inv.get {other : Addr → Option (Cell K V)} {c : Contents K V} {s : Client K V} {val : Addr → Option V} {t : ATree K}
    (I : Inv other c s val t) {k : Nat} {b : BoundingBox K} {v : V} (h : c[k]? = some (some (b, v))) :
    ∃ x, s.its[k]? = some x ∧ (⟨x, b⟩ : Entry K Addr) ∈ t.shape.entries ∧ val x = some v := by
  obtain ⟨i₁, x, i₂, c₁, c₂, e1, e2, hl, hk⟩ := split_at I.length h
  refine ⟨x, by rw [e1, ← hk, ← hl]; simp, ?_⟩
  refine I.find ?_
  rw [e1, e2, alive_append hl]
  simp [alive]

theorem FullRoot.count {t : ATree K} (h : FullRoot t) : t.addrs.length ≤ 2 * t.leaves.length + 1 := by
  have hs := (addrs_split t).length_eq
  rw [List.length_append] at hs
  suffices t.bare.addrs.length ≤ t.leaves.length + 1 by omega
  cases t with
  | null => exact h.elim
  | leaf a b => exact h.elim
  | node a b l r =>
    simp only [ATree.leaves, ATree.bare, ATree.addrs, List.length_append, List.length_cons]
    rcases h.1 with rfl | hl <;> rcases h.2 with rfl | hr
    · simp [ATree.leaves, ATree.bare, ATree.addrs]
    · have := hr.count_bare; simp only [ATree.bare, ATree.addrs, ATree.leaves, List.length_nil]; omega
    · have := hl.count_bare; simp only [ATree.bare, ATree.addrs, ATree.leaves, List.length_nil]; omega
    · have := hl.count_bare; have := hr.count_bare; omega

theorem livingIts_length (its : List Addr) (c : Contents K V) (h : its.length = c.length) : (livingIts its c).length = (Spec.living c).length := by
  induction c generalizing its with
  | nil => simp [livingIts, Spec.living]
  | cons e c ih =>
    cases its with
    | nil => simp at h
    | cons x its =>
      have := ih its (by simpa using h)
      simp only [livingIts, Spec.living] at this ⊢
      cases e <;> simp [this]

theorem destroyed_perm {other : Addr → Option (Cell K V)} {c : Contents K V} {s : Client K V} {val : Addr → Option V} {t : ATree K}
    (I : Inv other c s val t) : (t.leaves.reverse.filterMap val).Perm ((Spec.living c).map Prod.snd) := by
  have h4 : (t.leaves.reverse.filterMap val).Perm (t.leaves.filterMap val) := (List.reverse_perm _).filterMap _
  refine h4.trans ?_
  have h5 : t.leaves.filterMap val = (t.shape.entries.map fun e => (e.id, e.bounds, val e.id)).filterMap fun q => q.2.2 := by
    rw [leaves_entries, List.filterMap_map, List.filterMap_map]; rfl
  rw [h5]
  refine (I.elems.filterMap _).trans ?_
  have h6 : ((alive s.its c).map fun p => (p.1, p.2.1, some p.2.2)).filterMap (fun q => q.2.2) = (alive s.its c).map fun p => p.2.2 := by
    rw [List.filterMap_map]
    exact congrFun (List.filterMap_eq_map (f := fun p : Addr × BoundingBox K × V => p.2.2)) _
  rw [h6, ← alive_vals s.its c I.length, List.map_map]
  exact List.Perm.refl _

/-- What is inserted is in the tree or was removed. -/
theorem lost_living (c : Contents K V) (op : Op K V) :
    (Spec.lost c op ++ (Spec.living (Spec.apply c op)).map Prod.snd).Perm (Spec.inserted [op] ++ (Spec.living c).map Prod.snd) := by
  cases op with
  | insert b v => simp [Spec.lost, Spec.living, Spec.apply, Spec.inserted]
  | erase k =>
    simp only [Spec.lost, Spec.living, Spec.apply, Spec.inserted, List.filterMap_cons_none, List.filterMap_nil, List.nil_append]
    induction c generalizing k with
    | nil => simp
    | cons e c ih =>
      cases k with
      | zero => cases e <;> simp
      | succ k =>
        have := ih k
        cases e with
        | none => simpa using this
        | some e =>
          simp only [List.set_cons_succ, List.getElem?_cons_succ, List.filterMap_cons_some (f := id) rfl, List.map_cons]
          exact List.perm_middle.trans (this.cons _)
  | update k b =>
    simp only [Spec.lost, Spec.living, Spec.apply, Spec.inserted, List.filterMap_cons_none, List.filterMap_nil, List.nil_append]
    refine List.Perm.of_eq ?_
    induction c generalizing k with
    | nil => simp
    | cons e c ih =>
      cases k with
      | zero => cases e <;> simp
      | succ k =>
        have := ih k
        cases e with
        | none => exact this
        | some e => exact congrArg (e.2 :: ·) this
  | updateAll f =>
    simp only [Spec.lost, Spec.living, Spec.apply, Spec.inserted, List.filterMap_cons_none, List.filterMap_nil, List.nil_append]
    refine List.Perm.of_eq ?_
    induction c with
    | nil => rfl
    | cons e c ih =>
      cases e with
      | none => exact ih
      | some e => exact congrArg (e.2 :: ·) ih
  | clear =>
    have : Spec.living (Spec.apply c .clear) = [] := by simp [Spec.living, Spec.apply]
    simp [Spec.lost, this, Spec.inserted]

theorem lostBy_living (c : Contents K V) (ops : List (Op K V)) :
    (Spec.lostBy c ops ++ (Spec.living (Spec.run c ops)).map Prod.snd).Perm (Spec.inserted ops ++ (Spec.living c).map Prod.snd) := by
  induction ops generalizing c with
  | nil => exact List.Perm.refl _
  | cons op ops ih =>
    have e : Spec.inserted (op :: ops) = Spec.inserted [op] ++ Spec.inserted ops := by
      simp only [Spec.inserted]; rw [← List.filterMap_append]; rfl
    rw [e]
    simp only [Spec.lostBy, List.append_assoc]
    refine ((ih (Spec.apply c op)).append_left _).trans ?_
    rw [← List.append_assoc]
    refine (List.perm_append_comm.append_right _).trans ?_
    rw [List.append_assoc]
    refine ((lost_living c op).append_left _).trans ?_
    rw [← List.append_assoc, ← List.append_assoc]
    exact List.perm_append_comm.append_right _

theorem leaf_ne_root {t : ATree K} (hg : RTree.GoodRoot t.shape) (hnd : t.addrs.Nodup) {x : Addr} (hx : x ∈ t.leaves) : some x ≠ t.ptr := by
  cases t with
  | null => exact hg.elim
  | leaf a b => exact hg.elim
  | node a b l r =>
    intro h
    obtain rfl : x = a := Option.some.inj h
    have h1 := (List.nodup_cons.1 hnd).1
    rw [List.mem_append] at h1
    rcases List.mem_append.1 hx with hx | hx
    · exact h1 (Or.inl (mem_leaves_addrs hx))
    · exact h1 (Or.inr (mem_leaves_addrs hx))

theorem leaf_entry {t : ATree K} {x : Addr} (hx : x ∈ t.leaves) : ∃ b, (⟨x, b⟩ : Entry K Addr) ∈ t.shape.entries := by
  rw [leaves_entries, List.mem_map] at hx
  obtain ⟨e, he, rfl⟩ := hx
  exact ⟨e.bounds, he⟩

theorem drain_holds (cfg : Cfg K C) {other : Addr → Option (Cell K V)} {val : Addr → Option V} (n : Nat) {m : Mem K V}
    {t : ATree K} (H : Holds other val m t) (hg : RTree.GoodRoot t.shape) (hn : t.leaves.length ≤ n) :
    ∃ m' t' N, (∀ fuel, N < fuel → drain cfg fuel t.ptr n m = .ok ((), m')) ∧
      Holds other val m' t' ∧ RTree.GoodRoot t'.shape ∧ t'.ptr = t.ptr ∧ t'.leaves = [] ∧
      m'.destroyed.Perm (t.leaves.filterMap val ++ m.destroyed) := by
  induction n generalizing m t with
  | zero =>
    have h0 : t.leaves = [] := List.length_eq_zero_iff.1 (by omega)
    refine ⟨m, t, t.count, fun fuel hf => ?_, H, hg, rfl, h0, by simp [h0]⟩
    have hfi : t.first = t.ptr := by simp [ATree.first, h0]
    simp only [drain, bind_run, begin_heap H.rep (fullRoot_of_good hg) hf, Outcome.bind_ok, hfi, if_true, pure_run]
  | succ n ih =>
    cases hl : t.leaves with
    | nil =>
      refine ⟨m, t, t.count, fun fuel hf => ?_, H, hg, rfl, hl, by simp⟩
      have hfi : t.first = t.ptr := by simp [ATree.first, hl]
      simp only [drain, bind_run, begin_heap H.rep (fullRoot_of_good hg) hf, Outcome.bind_ok, hfi, if_true, pure_run]
    | cons x xs =>
      have hx : x ∈ t.leaves := by simp [hl]
      obtain ⟨b, he⟩ := leaf_entry hx
      obtain ⟨m1, t1, pre, post, h1, -, h3, h4, h5, h6, h7, -⟩ := erase_holds cfg H hg he
      have hid := h6.map Entry.id
      rw [← leaves_entries, List.map_cons, ← leaves_entries] at hid
      obtain ⟨m2, t2, N, g1, g2, g3, g4, g5, g6⟩ := ih h3 h4 (by have := hid.length_eq; simp only [List.length_cons] at this; omega)
      refine ⟨m2, t2, N + t.count, fun fuel hf => ?_, g2, g3, g4.trans h5, g5, ?_⟩
      · have hfi : t.first = some x := by simp [ATree.first, hl]
        have := g1 fuel (by omega)
        rw [h5] at this
        simp only [drain, bind_run, begin_heap H.rep (fullRoot_of_good hg) (show t.count < fuel by omega), Outcome.bind_ok, hfi,
          if_neg (leaf_ne_root hg H.nodup hx), h1 fuel (by omega), this]
      · refine g6.trans ?_
        rw [h7, ← hl]
        refine List.Perm.trans ?_ ((hid.filterMap val).append_right _).symm
        have e : ((⟨x, b⟩ : Entry K Addr).id :: t1.leaves).filterMap val = (val x).toList ++ t1.leaves.filterMap val := by
          cases hv : val x <;> simp [hv]
        rw [e, ← List.append_assoc]
        exact List.perm_append_comm.append_right _

theorem eraseLoop_holds (cfg : Cfg K C) {other : Addr → Option (Cell K V)} {val : Addr → Option V} (n : Nat) {m : Mem K V}
    {t : ATree K} (H : Holds other val m t) (hg : RTree.GoodRoot t.shape) (hn : t.leaves.length ≤ n) {it : Ptr}
    (hit : it = t.ptr ∨ ∃ x ∈ t.leaves, it = some x) :
    ∃ m' t' gone N, (∀ fuel, N < fuel → eraseLoop cfg fuel t.ptr n it m = .ok ((), m')) ∧
      Holds other val m' t' ∧ RTree.GoodRoot t'.shape ∧ t'.ptr = t.ptr ∧ t.leaves.Perm (gone ++ t'.leaves) ∧
      m'.destroyed.Perm (gone.filterMap val ++ m.destroyed) := by
  induction n generalizing m t it with
  | zero =>
    have h0 : t.leaves = [] := List.length_eq_zero_iff.1 (by omega)
    obtain rfl : it = t.ptr := by
      rcases hit with h | ⟨x, hx, -⟩
      · exact h
      · simp [h0] at hx
    exact ⟨m, t, [], 0, fun fuel _ => by simp only [eraseLoop, if_true, pure_run], H, hg, rfl, List.Perm.refl _, List.Perm.refl _⟩
  | succ n ih =>
    rcases hit with rfl | ⟨x, hx, rfl⟩
    · exact ⟨m, t, [], 0, fun fuel _ => by simp only [eraseLoop, if_true, pure_run], H, hg, rfl, List.Perm.refl _, List.Perm.refl _⟩
    · obtain ⟨b, he⟩ := leaf_entry hx
      obtain ⟨m1, t1, pre, post, h1, h2, h3, h4, h5, h6, h7, -⟩ := erase_holds cfg H hg he
      have hid := h6.map Entry.id
      rw [← leaves_entries, List.map_cons, ← leaves_entries] at hid
      have hpp : (pre ++ post).Perm t1.leaves := List.Perm.cons_inv (List.perm_middle.symm.trans (h2 ▸ hid))
      have hit' : post.head?.or t.ptr = t1.ptr ∨ ∃ y ∈ t1.leaves, post.head?.or t.ptr = some y := by
        cases post with
        | nil => exact Or.inl h5.symm
        | cons y ys => exact Or.inr ⟨y, hpp.mem_iff.1 (by simp), rfl⟩
      obtain ⟨m2, t2, gone, N, g1, g2, g3, g4, g5, g6⟩ := ih h3 h4 (by have := hid.length_eq; simp only [List.length_cons] at this; omega) hit'
      refine ⟨m2, t2, x :: gone, N + t.count, fun fuel hf => ?_, g2, g3, g4.trans h5, ?_, ?_⟩
      · have := g1 fuel (by omega)
        rw [h5] at this
        simp only [eraseLoop, if_neg (leaf_ne_root hg H.nodup hx), bind_run, h1 fuel (by omega), Outcome.bind_ok, this]
      · exact hid.trans (g5.cons _)
      · refine g6.trans ?_
        have e : (x :: gone).filterMap val = (val x).toList ++ gone.filterMap val := by
          cases hv : val x <;> simp [hv]
        rw [h7, e, ← List.append_assoc]
        exact List.perm_append_comm.append_right _

theorem Inv.first {other : Addr → Option (Cell K V)} {c : Contents K V} {s : Client K V} {val : Addr → Option V} {t : ATree K}
    (I : Inv other c s val t) {fuel : Nat} (hf : t.count < fuel) : begin fuel s.tree.root s.mem = .ok (t.first, s.mem) := by
  rw [I.root]; exact begin_heap I.holds.rep (fullRoot_of_good I.good) hf

theorem empty_addrs {t : ATree K} (hg : RTree.GoodRoot t.shape) (h : t.leaves = []) : t.addrs.length = 1 := by
  have := (fullRoot_of_good hg).count
  rw [h] at this
  cases t with
  | null => exact hg.elim
  | leaf a b => exact hg.elim
  | node a b l r => simp only [ATree.addrs, List.length_cons, List.length_nil] at this ⊢; omega

/-! ### C95 -/

/-- C95: any legal history of calls on a new tree runs without undefined behaviour, whatever the allocator
(as long as it gives unused addresses), the order in which the queue breaks ties and the arithmetic. Then
each element of the tree is found through the iterator given by its insertion, with its latest box and its
value; an iteration visits each iterator of an element of the tree once; the nodes of the tree are distinct,
were unused at the start and are at most twice as many as its elements plus one; the rest of the memory is
as it was; the elements destroyed are those that were removed.

Missing: trees which are moved (`C95_move_disagreement`), emptying the tree with the iterators returned by `erase`
(`C95_erase_loop_disagreement`). -/
theorem C95_histories_partial (cfg : Cfg K C) (hfin : cfg.FiniteAreas) (pq : PQ (Ptr × C)) (al : Alloc K V) (hal : Sound al)
    (m : Mem K V) (ops : List (Op K V)) (hop : Spec.legalHistory [] ops) :
    ∃ (s : Client K V) (N : Nat) (order : List Ptr) (nodes : List Addr), (∀ fuel, N < fuel → session cfg pq al fuel m ops = .ok s) ∧
      s.its.length = (Spec.run [] ops).length ∧
      (∀ (k : Nat) (b : BoundingBox K) (v : V), (Spec.run [] ops)[k]? = some (some (b, v)) →
        ∃ x cell, s.its[k]? = some x ∧ s.mem.get x = some cell ∧ cell.bounds = b ∧ cell.data = some v) ∧
      (∀ fuel, N < fuel → iterate fuel s.tree.root s.mem = .ok (order, s.mem)) ∧
      order.Nodup ∧ order.Perm (livingIts s.its (Spec.run [] ops)) ∧
      nodes.Nodup ∧ nodes.length ≤ 2 * (Spec.living (Spec.run [] ops)).length + 1 ∧
      (∀ a ∈ nodes, m.get a = none ∧ (s.mem.get a).isSome) ∧ (∀ a, a ∉ nodes → s.mem.get a = m.get a) ∧
      s.mem.destroyed.Perm (Spec.lostBy [] ops ++ m.destroyed) := by
  obtain ⟨s, val, t, N, h1, I, h3⟩ := session_inv cfg hfin pq hal m ops hop
  refine ⟨s, N + t.count + t.leaves.length, t.leaves.map some, t.addrs, fun fuel hf => h1 fuel (by omega), I.length, ?_, ?_,
    (ids_nodup I.holds.nodup).map (Option.some_injective _), I.leaves_perm, I.holds.nodup, ?_, ?_, I.holds.rest, h3⟩
  · intro k b v hk
    obtain ⟨x, hx, he, hv⟩ := I.get hk
    obtain ⟨⟨par, hc⟩, -⟩ := rep_leaf I.holds.rep he
    exact ⟨x, _, hx, hc, rfl, hv⟩
  · intro fuel hf
    rw [I.root]
    exact iterate_heap I.holds.rep I.holds.nodup I.good (by omega)
  · have := (fullRoot_of_good I.good).count
    have h := I.leaves_perm.length_eq
    rw [livingIts_length _ _ I.length, List.length_map] at h
    omega
  · exact fun a ha => ⟨I.holds.fresh a ha, rep_mem I.holds.rep a ha⟩

/-- C95: the destructor of a tree after any legal history gives back all its memory, and every element
inserted has been destroyed exactly once. -/
theorem C95_no_leak (cfg : Cfg K C) (hfin : cfg.FiniteAreas) (pq : PQ (Ptr × C)) (al : Alloc K V) (hal : Sound al)
    (m : Mem K V) (ops : List (Op K V)) (hop : Spec.legalHistory [] ops) :
    ∃ (m' : Mem K V) (N : Nat), (∀ fuel, N < fuel → ((session cfg pq al fuel m ops).bind fun s => destroy fuel s.tree s.mem) = .ok ((), m')) ∧
      (∀ a, m'.get a = m.get a) ∧ m'.destroyed.Perm (Spec.inserted ops ++ m.destroyed) := by
  obtain ⟨s, val, t, N, h1, I, h3⟩ := session_inv cfg hfin pq hal m ops hop
  obtain ⟨m', h4, h5, h6⟩ := deleteNode_heap I.holds.rep I.holds.nodup
  have hts : t.ptr.isSome := by
    have := I.good
    cases t with
    | null => exact this.elim
    | leaf a b => rfl
    | node a b l r => rfl
  obtain ⟨r, hr⟩ := Option.isSome_iff_exists.1 hts
  refine ⟨m', N + t.count, fun fuel hf => ?_, fun a => ?_, ?_⟩
  · have := h4 fuel (by omega)
    rw [hr] at this
    simp only [h1 fuel (by omega), Outcome.bind_ok, destroy, I.root, hr, this]
  · rw [h5]
    by_cases ha : a ∈ t.addrs
    · rw [if_pos ha, I.holds.fresh a ha]
    · rw [if_neg ha, I.holds.rest a ha]
  · rw [h6]
    refine ((destroyed_perm I).append h3).trans ?_
    rw [← List.append_assoc]
    refine List.Perm.append_right _ (List.perm_append_comm.trans ?_)
    simpa [Spec.living] using lostBy_living [] ops

/-- C95: `erase(it)` returns the iterator which came after `it` (or `end()`), and it is still valid: the
elements left are those before and after. -/
theorem C95_erase (cfg : Cfg K C) (hfin : cfg.FiniteAreas) (pq : PQ (Ptr × C)) (al : Alloc K V) (hal : Sound al)
    (m : Mem K V) (ops : List (Op K V)) (hop : Spec.legalHistory [] ops) (k : Nat) (hk : Spec.legal (Spec.run [] ops) (.erase k)) :
    ∃ (s : Client K V) (m' : Mem K V) (N : Nat) (x : Addr) (pre post order : List Ptr), (∀ fuel, N < fuel →
        session cfg pq al fuel m ops = .ok s ∧ iterate fuel s.tree.root s.mem = .ok (pre ++ some x :: post, s.mem) ∧
        erase cfg fuel (some x) s.mem = .ok (post.head?.getD s.tree.root, m') ∧
        iterate fuel s.tree.root m' = .ok (order, m')) ∧
      s.its[k]? = some x ∧ order.Perm (pre ++ post) ∧ order.Nodup ∧
      (∀ y ∈ pre ++ post, ∃ a c c', y = some a ∧ s.mem.get a = some c ∧ m'.get a = some c' ∧ c'.bounds = c.bounds ∧ c'.data = c.data) ∧
      m'.get x = none := by
  obtain ⟨s, val, t, N, h1, I, -⟩ := session_inv cfg hfin pq hal m ops hop
  obtain ⟨⟨b, v⟩, hk⟩ := hk
  obtain ⟨x, hx, he, hv⟩ := I.get hk
  obtain ⟨m', t', pre, post, h4, h5, H', hg', hp', hperm, -, hxt⟩ := erase_holds cfg I.holds I.good he
  have hid := hperm.map Entry.id
  rw [← leaves_entries, List.map_cons, ← leaves_entries, h5] at hid
  have hid' : (pre ++ post).Perm t'.leaves := List.Perm.cons_inv (List.perm_middle.symm.trans hid)
  have hnd := ids_nodup I.holds.nodup
  refine ⟨s, m', N + (t.count + t.leaves.length) + (t'.count + t'.leaves.length), x, pre.map some, post.map some, t'.leaves.map some, fun fuel hf => ⟨h1 fuel (by omega), ?_, ?_, ?_⟩, hx, ?_, (ids_nodup H'.nodup).map (Option.some_injective _), ?_, ?_⟩
  · rw [I.root, iterate_heap I.holds.rep I.holds.nodup I.good (by omega), h5]; simp
  · rw [h4 fuel (by omega), I.root]
    cases post <;> simp
  · rw [I.root, ← hp']
    exact iterate_heap H'.rep H'.nodup hg' (by omega)
  · rw [← List.map_append]; exact (hid'.map _).symm
  · intro y hy
    rw [← List.map_append, List.mem_map] at hy
    obtain ⟨a, ha, rfl⟩ := hy
    have ha' := hid'.mem_iff.1 ha
    rw [leaves_entries, List.mem_map] at ha'
    obtain ⟨e, he', rfl⟩ := ha'
    have he2 : e ∈ t.shape.entries := hperm.mem_iff.2 (List.mem_cons_of_mem _ he')
    obtain ⟨⟨par, hc⟩, -⟩ := rep_leaf I.holds.rep he2
    obtain ⟨⟨par', hc'⟩, -⟩ := rep_leaf H'.rep he'
    exact ⟨e.id, _, _, rfl, hc, hc', rfl, rfl⟩
  · rw [H'.rest x hxt]
    exact I.holds.fresh x (mem_leaves_addrs (by rw [h5]; simp))

/-- C95: `while (begin() != end()) erase(begin());` empties the tree after any legal history: the root is
left, all elements are destroyed. -/
theorem C95_drain (cfg : Cfg K C) (hfin : cfg.FiniteAreas) (pq : PQ (Ptr × C)) (al : Alloc K V) (hal : Sound al)
    (m : Mem K V) (ops : List (Op K V)) (hop : Spec.legalHistory [] ops) :
    ∃ (s : Client K V) (m' : Mem K V) (N : Nat), (∀ fuel, N < fuel → session cfg pq al fuel m ops = .ok s ∧
        drain cfg fuel s.tree.root (Spec.living (Spec.run [] ops)).length s.mem = .ok ((), m') ∧
        iterate fuel s.tree.root m' = .ok ([], m')) ∧
      (∀ a, m'.get a ≠ m.get a → some a = s.tree.root) ∧ m'.destroyed.Perm (Spec.inserted ops ++ m.destroyed) := by
  obtain ⟨s, val, t, N, h1, I, h3⟩ := session_inv cfg hfin pq hal m ops hop
  have hlen : t.leaves.length = (Spec.living (Spec.run [] ops)).length := by
    have h := I.leaves_perm.length_eq
    rwa [livingIts_length _ _ I.length, List.length_map] at h
  obtain ⟨m', t', N', g1, H', hg', hp', hl', hd'⟩ := drain_holds cfg _ I.holds I.good hlen.le
  refine ⟨s, m', N + N' + t'.count + t'.leaves.length, fun fuel hf => ⟨h1 fuel (by omega), ?_, ?_⟩, ?_, ?_⟩
  · rw [I.root]; exact g1 fuel (by omega)
  · rw [I.root, ← hp', iterate_heap H'.rep H'.nodup hg' (by omega), hl']; rfl
  · intro a ha
    have hat : a ∈ t'.addrs := by
      by_contra h
      exact ha (H'.rest a h)
    have h1 := empty_addrs hg' hl'
    rw [I.root, ← hp']
    cases t' with
    | null => exact hg'.elim
    | leaf b bb => exact hg'.elim
    | node b bb l r =>
      simp only [ATree.addrs, List.length_cons] at h1
      have h2 : l.addrs ++ r.addrs = [] := List.length_eq_zero_iff.1 (by omega)
      simp only [ATree.addrs, h2, List.mem_singleton] at hat
      rw [hat]; rfl
  · refine hd'.trans ?_
    have h5 : (t.leaves.filterMap val).Perm ((Spec.living (Spec.run [] ops)).map Prod.snd) :=
      ((List.reverse_perm t.leaves).filterMap val).symm.trans (destroyed_perm I)
    refine (h5.append h3).trans ?_
    rw [← List.append_assoc]
    refine List.Perm.append_right _ (List.perm_append_comm.trans ?_)
    simpa [Spec.living] using lostBy_living [] ops

/-- C95: the loop `for (it = begin(); it != end();) it = erase(it)` ends without undefined behaviour after any
legal history. The elements that it erases are destroyed; those left are still visited by an iteration. It need not
erase all of them: `C95_erase_loop_disagreement`. -/
theorem C95_erase_loop_partial (cfg : Cfg K C) (hfin : cfg.FiniteAreas) (pq : PQ (Ptr × C)) (al : Alloc K V) (hal : Sound al)
    (m : Mem K V) (ops : List (Op K V)) (hop : Spec.legalHistory [] ops) :
    ∃ (s : Client K V) (m' : Mem K V) (N : Nat) (gone left : List Ptr), (∀ fuel, N < fuel → session cfg pq al fuel m ops = .ok s ∧
        (∃ it, begin fuel s.tree.root s.mem = .ok (it, s.mem) ∧
          eraseLoop cfg fuel s.tree.root (Spec.living (Spec.run [] ops)).length it s.mem = .ok ((), m')) ∧
        iterate fuel s.tree.root m' = .ok (left, m')) ∧
      (livingIts s.its (Spec.run [] ops)).Perm (gone ++ left) ∧ m'.destroyed.length = s.mem.destroyed.length + gone.length := by
  obtain ⟨s, val, t, N, h1, I, h3⟩ := session_inv cfg hfin pq hal m ops hop
  have hlen : t.leaves.length = (Spec.living (Spec.run [] ops)).length := by
    have h := I.leaves_perm.length_eq
    rwa [livingIts_length _ _ I.length, List.length_map] at h
  have hit : t.first = t.ptr ∨ ∃ x ∈ t.leaves, t.first = some x := by
    cases hl : t.leaves with
    | nil => exact Or.inl (by simp [ATree.first, hl])
    | cons x xs => exact Or.inr ⟨x, by simp, by simp [ATree.first, hl]⟩
  obtain ⟨m', t', gone, N', g1, H', hg', hp', hl', hd'⟩ := eraseLoop_holds cfg _ I.holds I.good hlen.le hit
  refine ⟨s, m', N + N' + t.count + t'.count + t'.leaves.length, gone.map some, t'.leaves.map some, fun fuel hf => ⟨h1 fuel (by omega), ⟨t.first, I.first (by omega), ?_⟩, ?_⟩, ?_, ?_⟩
  · rw [I.root]; exact g1 fuel (by omega)
  · rw [I.root, ← hp']; exact iterate_heap H'.rep H'.nodup hg' (by omega)
  · rw [← List.map_append]; exact I.leaves_perm.symm.trans (hl'.map _)
  · rw [hd'.length_eq, List.length_append, List.length_map]
    have hsome : ∀ x ∈ gone, ∃ v, val x = some v := by
      intro x hx
      have : x ∈ t.leaves := hl'.mem_iff.2 (by simp [hx])
      obtain ⟨b, he⟩ := leaf_entry this
      exact Option.isSome_iff_exists.1 (rep_leaf I.holds.rep he).2
    have : (gone.filterMap val).length = gone.length := by
      clear hl' hd' g1
      induction gone with
      | nil => rfl
      | cons x xs ih =>
        obtain ⟨v, hv⟩ := hsome x (by simp)
        simp only [List.filterMap_cons_some hv, List.length_cons, ih fun y hy => hsome y (by simp [hy])]
    omega

/-! ### Where the code falls short -/

/-- Disagreement: `RTree(RTree&&)` (RTree.hpp:79) swaps its own `root_`, which has no value yet, with the one of
the tree that is moved from. Destroying that tree is undefined, whatever was done with it. -/
theorem C95_move_disagreement (t : Tree) (fuel : Nat) (m : Mem K V) :
    (moveConstruct t).1 = t ∧ destroy fuel (moveConstruct t).2 m = .ub := ⟨rfl, rfl⟩

section Examples

/-- Takes the first element of smallest cost out of `best :: xs`. -/
def takeLeast (lt : C → C → Bool) : Ptr × C → List (Ptr × C) → List (Ptr × C) → (Ptr × C) × List (Ptr × C)
  | best, seen, [] => (best, seen)
  | best, seen, x :: xs => if lt x.2 best.2 then takeLeast lt x (best :: seen) xs else takeLeast lt best (x :: seen) xs

theorem takeLeast_perm (lt : C → C → Bool) (best : Ptr × C) (seen xs : List (Ptr × C)) :
    ((takeLeast lt best seen xs).1 :: (takeLeast lt best seen xs).2).Perm (best :: (seen ++ xs)) := by
  induction xs generalizing seen best with
  | nil => simp [takeLeast]
  | cons x xs ih =>
    simp only [takeLeast]
    split
    · exact (ih _ _).trans (List.perm_middle (l₁ := best :: seen)).symm
    · exact (ih _ _).trans ((List.perm_middle.symm).cons _)

/-- A queue for the examples. -/
def leastFirst (lt : C → C → Bool) : PQ (Ptr × C) where
  pop q h := match q, h with | x :: xs, _ => takeLeast lt x [] xs
  perm q h := match q, h with | x :: xs, _ => by simpa using takeLeast_perm lt x [] xs

/-- An allocator for the examples: the address after the largest one in use. -/
def bump : Alloc K V := fun m => m.cells.keys.sup id + 1

theorem bump_sound : Sound (bump : Alloc K V) := by
  intro m
  rw [Mem.get, Finmap.lookup_eq_none]
  intro h
  have := Finset.le_sup (f := id) (Finmap.mem_keys.2 h)
  exact absurd this (by simp only [id, bump]; exact Nat.not_succ_le_self _)

abbrev cfgQ : Cfg ℚ (WithTop ℚ) := exactCfg
abbrev pqQ : PQ (Ptr × WithTop ℚ) := leastFirst cfgQ.lt

/-- The unit square with its left side at `x`. -/
def unitAt (x : ℚ) : BoundingBox ℚ := ⟨⟨x, 0⟩, ⟨x + 1, 1⟩⟩

/-- Four squares in a row, inserted out of order. -/
def fourInserts : List (Op ℚ Nat) := [.insert (unitAt 0) 0, .insert (unitAt 1) 1, .insert (unitAt 4) 2, .insert (unitAt 2) 3]

/-- What a loop of erasures leaves in the tree; `none` if there is undefined behaviour. -/
def leftAfter (fuel : Nat) (ops : List (Op ℚ Nat)) : Option (List (Option Nat)) :=
  match session cfgQ pqQ bump fuel ⟨∅, []⟩ ops with
  | .ok s =>
    match (do
      eraseLoop cfgQ fuel s.tree.root fuel (← begin fuel s.tree.root)
      iterate fuel s.tree.root : Prog ℚ Nat (List Ptr)) s.mem with
    | .ok (left, m) => some (left.map fun p => (p.bind m.get).bind Cell.data)
    | _ => none
  | _ => none

/-- Disagreement: `for (it = begin(); it != end();) it = erase(it)` does not empty the tree. The iterator returned
by `erase` (RTree.hpp:186-191) was computed before the removal, which may move other elements in front of it (the rotations
of `refit`). Four unit squares at 0, 1, 4 and 2 are enough: the one at 4 stays. -/
theorem C95_erase_loop_disagreement :
    Spec.legalHistory [] fourInserts ∧ leftAfter 40 fourInserts = some [some 2] := by
  refine ⟨⟨trivial, trivial, trivial, trivial, trivial⟩, ?_⟩
  decide +kernel

/-- A history with all kinds of calls. -/
def mixedHistory : List (Op ℚ Nat) :=
  fourInserts ++ [.erase 1, .update 2 (unitAt 9), .updateAll fun v b => if v = 0 then unitAt 20 else b, .insert (unitAt 3) 4, .clear, .insert (unitAt 6) 5, .insert (unitAt 7) 6]

theorem mixedHistory_legal : Spec.legalHistory [] mixedHistory :=
  ⟨trivial, trivial, trivial, trivial, ⟨_, rfl⟩, ⟨_, rfl⟩, trivial, trivial, trivial, trivial, trivial, trivial⟩

example := C95_histories_partial cfgQ RTree.exactCfg_finite pqQ bump bump_sound ⟨∅, []⟩ mixedHistory mixedHistory_legal
example := C95_no_leak cfgQ RTree.exactCfg_finite pqQ bump bump_sound ⟨∅, []⟩ mixedHistory mixedHistory_legal
example := C95_drain cfgQ RTree.exactCfg_finite pqQ bump bump_sound ⟨∅, []⟩ mixedHistory mixedHistory_legal
example := C95_erase_loop_partial cfgQ RTree.exactCfg_finite pqQ bump bump_sound ⟨∅, []⟩ mixedHistory mixedHistory_legal
example := C95_erase cfgQ RTree.exactCfg_finite pqQ bump bump_sound ⟨∅, []⟩ fourInserts ⟨trivial, trivial, trivial, trivial, trivial⟩ 1 ⟨_, rfl⟩
example : (moveConstruct ⟨some 5⟩).1 = ⟨some 5⟩ ∧ destroy 10 (moveConstruct ⟨some 5⟩).2 (⟨∅, []⟩ : Mem ℚ Nat) = .ub :=
  C95_move_disagreement _ _ _

/-- What can be seen of a session: the number of nodes, the elements visited and the elements destroyed. -/
def seen (ops : List (Op ℚ Nat)) : Option (Nat × List (Option Nat) × List Nat) :=
  match session cfgQ pqQ bump 40 ⟨∅, []⟩ ops with
  | .ok s =>
    match iterate 40 s.tree.root s.mem with
    | .ok (order, m) => some (m.cells.keys.card, order.map fun p => (p.bind m.get).bind Cell.data, m.destroyed)
    | _ => none
  | _ => none

#guard seen fourInserts = some (7, [some 0, some 1, some 2, some 3], [])
#guard seen (mixedHistory.take 7) = some (5, [some 3, some 2, some 0], [1])
#guard seen mixedHistory = some (3, [some 5, some 6], [0, 2, 4, 3, 1])

end Examples
end Simu.RTreeHeap
