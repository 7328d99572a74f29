import Verif.Lemmas.RTreeHeapRebuild
import Verif.Spec.RTreeHeap
/-
Clients of the R-tree, and the invariant of their histories.
-/
set_option linter.unusedSectionVars false
set_option linter.unusedSimpArgs false
namespace Simu.RTreeHeap
open Simu.RTree (Cfg PQ Entry OverlapList)
open Spec (Op Contents)
variable {K C V X Y : Type} [Field K] [LinearOrder K]

/-- The state of a client: the memory, the tree object, and the iterators that `insert` returned. -/
structure Client (K V : Type) where
  mem : Mem K V
  tree : Tree
  its : List Addr

/-- `update(it)` as computed from the element and its bounds. -/
def updFrom (m : Mem K V) (f : V → BoundingBox K → BoundingBox K) (a : Addr) (b : BoundingBox K) : BoundingBox K :=
  match (m.get a).bind Cell.data with
  | some v => f v b
  | none => b

/-- RTree.hpp:127-166, 175-199: one call. -/
def Client.step (cfg : Cfg K C) (pq : PQ (Ptr × C)) (al : Alloc K V) (fuel : Nat) (s : Client K V) : Op K V → Outcome (Client K V)
  | .insert b v => (insert cfg pq al fuel s.tree.root b v s.mem).bind fun r =>
    match r.1 with
    | none => .ub
    | some x => .ok ⟨r.2, s.tree, s.its ++ [x]⟩
  | .erase k =>
    match s.its[k]? with
    | none => .ub
    | some x => (erase cfg fuel (some x) s.mem).bind fun r => .ok ⟨r.2, s.tree, s.its⟩
  | .update k b =>
    match s.its[k]? with
    | none => .ub
    | some x => (update cfg pq al fuel s.tree.root (some x) b s.mem).bind fun r => .ok ⟨r.2, s.tree, s.its⟩
  | .updateAll f =>
    match s.tree.root with
    | none => .ub
    | some root => (updateAndCollide cfg pq al fuel root (updFrom s.mem f) s.mem).bind fun r => .ok ⟨r.2, ⟨some r.1⟩, s.its⟩
  | .clear => (clear al fuel s.tree s.mem).bind fun r => .ok ⟨r.2, r.1, s.its⟩

/-- A sequence of calls. -/
def Client.runOps (cfg : Cfg K C) (pq : PQ (Ptr × C)) (al : Alloc K V) (fuel : Nat) : Client K V → List (Op K V) → Outcome (Client K V)
  | s, [] => .ok s
  | s, op :: ops => (s.step cfg pq al fuel op).bind fun s' => runOps cfg pq al fuel s' ops

/-- RTree.hpp:69-72: a new tree in the memory `m`. -/
def Client.start (al : Alloc K V) (m : Mem K V) : Outcome (Client K V) :=
  (construct al m).bind fun r => .ok ⟨r.2, r.1, []⟩

/-! ### The invariant -/

/-- The living elements with their iterators. -/
def alive (its : List Addr) (c : Contents K V) : List (Addr × BoundingBox K × V) :=
  (its.zip c).filterMap fun p => p.2.map fun e => (p.1, e.1, e.2)

/-- What the memory of a client holds. -/
structure Inv (other : Addr → Option (Cell K V)) (c : Contents K V) (s : Client K V) (val : Addr → Option V) (t : ATree K) : Prop where
  holds : Holds other val s.mem t
  good : RTree.GoodRoot t.shape
  root : s.tree.root = t.ptr
  length : s.its.length = c.length
  elems : (t.shape.entries.map fun e => (e.id, e.bounds, val e.id)).Perm ((alive s.its c).map fun p => (p.1, p.2.1, some p.2.2))

theorem alive_append {i₁ i₂ : List Addr} {c₁ c₂ : Contents K V} (h : i₁.length = c₁.length) :
    alive (i₁ ++ i₂) (c₁ ++ c₂) = alive i₁ c₁ ++ alive i₂ c₂ := by
  simp only [alive, List.zip_append h, List.filterMap_append]

/-- The two lists cut at a living element. -/
theorem split_at {its : List Addr} {c : Contents K V} (hl : its.length = c.length) {k : Nat} {e : BoundingBox K × V}
    (h : c[k]? = some (some e)) : ∃ i₁ x i₂ c₁ c₂, its = i₁ ++ x :: i₂ ∧ c = c₁ ++ some e :: c₂ ∧ i₁.length = c₁.length ∧ c₁.length = k := by
  obtain ⟨hk, hke⟩ := List.getElem?_eq_some_iff.1 h
  have hk' : k < its.length := by omega
  refine ⟨its.take k, its[k], its.drop (k + 1), c.take k, c.drop (k + 1), ?_, ?_, by simp; omega, by simp; omega⟩
  · simp
  · rw [← hke]; simp

theorem ids_nodup {t : ATree K} (h : t.addrs.Nodup) : t.leaves.Nodup :=
  (List.nodup_append.1 ((addrs_split t).nodup_iff.1 h)).2.1

theorem Inv.find {other : Addr → Option (Cell K V)} {c : Contents K V} {s : Client K V} {val : Addr → Option V} {t : ATree K}
    (I : Inv other c s val t) {x : Addr} {b : BoundingBox K} {v : V} (h : (x, b, v) ∈ alive s.its c) :
    (⟨x, b⟩ : Entry K Addr) ∈ t.shape.entries ∧ val x = some v := by
  have : (x, b, some v) ∈ (alive s.its c).map fun p => (p.1, p.2.1, some p.2.2) := List.mem_map.2 ⟨(x, b, v), h, rfl⟩
  rw [← I.elems.mem_iff, List.mem_map] at this
  obtain ⟨e, he, heq⟩ := this
  simp only [Prod.mk.injEq] at heq
  obtain ⟨rfl, rfl, h3⟩ := heq
  exact ⟨he, h3⟩

variable [IsStrictOrderedRing K]

theorem good_empty (a : Addr) : RTree.GoodRoot (ATree.node a BoundingBox.invalid .null .null : ATree K).shape := by
  refine ⟨Or.inl rfl, Or.inl rfl, ?_⟩
  rw [ATree.shape, RTree.nb_null, BoundingBox.join_none_left]; exact @RTree.nb_null K Addr _ _ _

theorem start_inv {al : Alloc K V} (hal : Sound al) (m : Mem K V) :
    ∃ s t, Client.start al m = .ok s ∧ Inv m.get [] s (fun _ => none) t ∧ s.mem.destroyed = m.destroyed := by
  have hfr := hal m
  refine ⟨⟨m.set (al m) ⟨none, none, none, BoundingBox.invalid, none⟩, ⟨some (al m)⟩, []⟩, .node (al m) BoundingBox.invalid .null .null, ?_, ⟨⟨⟨?_, trivial, trivial⟩, by simp [ATree.addrs], ?_, ?_⟩, good_empty _, rfl, rfl, by simp [ATree.shape, RTree.Node.entries, alive]⟩, rfl⟩
  · simp only [Client.start, construct, bind_run, makeNode_run hfr, Outcome.bind_ok, pure_run]
  · rw [get_set, if_pos rfl]; rfl
  · intro a ha; rw [get_set, if_neg (by simpa [ATree.addrs] using ha)]
  · intro a ha
    obtain rfl : a = al m := by simpa [ATree.addrs] using ha
    exact hfr

/-! ### Erasing through an iterator -/

/-- Siblings have two children each, except for a missing one next to the root. -/
def TightPath : List (AFrame K) → Prop
  | [] => True
  | [f] => f.other = .null ∨ Full f.other
  | f :: g :: fs => Full f.other ∧ TightPath (g :: fs)

theorem TightPath.full {path : List (AFrame K)} (h : TightPath path) : FullPath path := by
  induction path with
  | nil => intro f hf; simp at hf
  | cons f fs ih =>
    intro g hg
    cases fs with
    | nil => rw [List.mem_singleton] at hg; subst hg; exact h
    | cons f' fs' =>
      rcases List.mem_cons.1 hg with rfl | hg
      · exact Or.inr h.1
      · exact ih h.2 g hg

theorem tight_of_good {b : Option (BoundingBox K)} {path : List (AFrame K)} (h : RTree.GoodPath b (pathShape path)) : TightPath path := by
  induction path generalizing b with
  | nil => trivial
  | cons f fs ih =>
    cases fs with
    | nil => exact h.1.imp null_of_shape full_of_good
    | cons f' fs' => exact ⟨full_of_good h.1, ih h.2.2⟩

/-- The leaves around a subtree; the iteration continues with those on its right. -/
theorem leaves_around (n : ATree K) {path : List (AFrame K)} (h : TightPath path) :
    ∃ pre post, (azip n path).leaves = pre ++ n.leaves ++ post ∧ succ n.ptr path = post.head?.or (azip n path).ptr := by
  induction path generalizing n with
  | nil => exact ⟨[], [], by simp [azip], by simp [azip, succ]⟩
  | cons f fs ih =>
    have ht : TightPath fs := by cases fs with
      | nil => trivial
      | cons g gs => exact h.2
    obtain ⟨pre, post, h1, h2⟩ := ih (f.close n) ht
    have hp := close_ptr f n
    cases hs : f.onLeft
    · refine ⟨pre ++ f.other.leaves, post, ?_, ?_⟩
      · simp only [azip, h1]
        simp [AFrame.close, hs, ATree.leaves]
      · simp only [succ, hs, Bool.false_eq_true, if_false, azip]
        rw [← hp]; exact h2
    · refine ⟨pre, f.other.leaves ++ post, ?_, ?_⟩
      · simp only [azip, h1]
        simp [AFrame.close, hs, ATree.leaves]
      · simp only [succ, hs, if_true]
        have hcase : Full f.other ∨ (f.other = .null ∧ fs = []) := by
          cases fs with
          | nil => exact h.symm.imp id (fun h => ⟨h, rfl⟩)
          | cons g gs => exact Or.inl h.1
        rcases hcase with hf | ⟨hn, rfl⟩
        · rw [if_pos hf.ptr]
          obtain ⟨y, ys, e⟩ := List.exists_cons_of_ne_nil hf.leaves_ne
          simp [ATree.first, e]
        · have hpn : f.other.ptr = none := by rw [hn]; rfl
          have hln : f.other.leaves = [] := by rw [hn]; rfl
          have hpost : post = [] := by
            simp only [azip] at h1
            have hc : (f.close n).leaves = n.leaves := by simp [AFrame.close, hs, ATree.leaves, hln]
            rw [hc] at h1
            have := congrArg List.length h1
            simp only [List.length_append] at this
            exact List.length_eq_zero_iff.1 (by omega)
          simp only [hpn, Option.isSome_none, Bool.false_eq_true, if_false, hln, hpost, List.nil_append, List.head?_nil, Option.none_or]
          exact hp.symm

theorem erase_holds (cfg : Cfg K C) {other : Addr → Option (Cell K V)} {val : Addr → Option V} {m : Mem K V}
    {t : ATree K} (H : Holds other val m t) (hg : RTree.GoodRoot t.shape) {x : Addr} {b : BoundingBox K}
    (hx : (⟨x, b⟩ : Entry K Addr) ∈ t.shape.entries) :
    ∃ m' t' pre post, (∀ fuel, t.count < fuel → erase cfg fuel (some x) m = .ok (post.head?.or t.ptr, m')) ∧
      t.leaves = pre ++ x :: post ∧
      Holds other val m' t' ∧ RTree.GoodRoot t'.shape ∧ t'.ptr = t.ptr ∧
      t.shape.entries.Perm (⟨x, b⟩ :: t'.shape.entries) ∧ m'.destroyed = (val x).toList ++ m.destroyed ∧ x ∉ t'.addrs := by
  obtain ⟨m', t', h1, h2⟩ := eraseNode_holds cfg H hg hx
  obtain ⟨path, hp⟩ := exists_path t [] hx
  simp only [azip] at hp
  subst hp
  have htight : TightPath path := by
    cases path with
    | nil => trivial
    | cons f fs =>
      rw [azip_shape] at hg
      exact tight_of_good (RTree.good_of_zip (by simp [ATree.shape]) _ _ hg).2
  obtain ⟨pre, post, h3, h4⟩ := leaves_around (.leaf x b) htight
  refine ⟨m', t', pre, post, fun fuel hf => ?_, by rw [h3]; simp [ATree.leaves], h2⟩
  have hpx : (ATree.leaf x b).ptr = some x := rfl
  have hn := next_heap H.rep H.nodup hpx htight.full (fuel := fuel) (by rw [pathCount_azip] at hf; omega)
  rw [hpx] at h4
  simp only [erase, bind_run, hn, Outcome.bind_ok, h1 fuel hf, pure_run, h4]

/-! ### Each call keeps the invariant -/

theorem entries_val {t : ATree K} {val val' : Addr → Option V} {x : Addr} (hx : x ∉ t.addrs) (h : ∀ a, a ≠ x → val' a = val a) :
    (t.shape.entries.map fun e => (e.id, e.bounds, val' e.id)) = t.shape.entries.map fun e => (e.id, e.bounds, val e.id) := by
  refine List.map_congr_left fun e he => ?_
  have : e.id ∈ t.leaves := by rw [leaves_entries]; exact List.mem_map_of_mem he
  rw [h e.id (by rintro rfl; exact hx (mem_leaves_addrs this))]

theorem clear_holds {al : Alloc K V} (hal : Sound al) {other : Addr → Option (Cell K V)} {val : Addr → Option V} {m : Mem K V}
    {t : ATree K} (H : Holds other val m t) (hs : t.ptr.isSome) :
    ∃ m' x, (∀ fuel, t.count < fuel → clear al fuel ⟨t.ptr⟩ m = .ok (⟨some x⟩, m')) ∧
      Holds other val m' (.node x BoundingBox.invalid .null .null) ∧ m'.destroyed = t.leaves.reverse.filterMap val ++ m.destroyed := by
  have hfr := hal m
  obtain ⟨x, hx⟩ : ∃ x, al m = x := ⟨_, rfl⟩
  have hm1 := makeNode_run hfr (BoundingBox.invalid : BoundingBox K)
  rw [hx] at hfr hm1
  have hxt : ¬ (x ∈ t.addrs) := fun h => by
    have := rep_mem H.rep x h
    rw [hfr] at this; simp at this
  set m1 := m.set x ⟨none, none, none, BoundingBox.invalid, none⟩ with hm1'
  have hr1 : Rep val m1 none t := rep_congr (fun a ha => by rw [hm1', get_set, if_neg (by rintro rfl; exact hxt ha)]) H.rep
  obtain ⟨m2, h1, h2, h3⟩ := deleteNode_heap hr1 H.nodup
  obtain ⟨r, hr⟩ := Option.isSome_iff_exists.1 hs
  refine ⟨m2, x, fun fuel hf => ?_, ⟨⟨?_, trivial, trivial⟩, by simp [ATree.addrs], ?_, ?_⟩, h3⟩
  · have := h1 fuel hf
    rw [hr] at this ⊢
    simp only [clear, construct, bind_run, hm1, Outcome.bind_ok, pure_run, moveAssign, destroy, this]
  · rw [h2, if_neg hxt, hm1', get_set, if_pos rfl]; rfl
  · intro a ha
    have hax : a ≠ x := by simpa [ATree.addrs] using ha
    rw [h2]
    by_cases hat : a ∈ t.addrs
    · rw [if_pos hat, H.fresh a hat]
    · rw [if_neg hat, hm1', get_set, if_neg hax, H.rest a hat]
  · intro a ha
    obtain rfl : a = x := by simpa [ATree.addrs] using ha
    rw [← H.rest a hxt, hfr]

theorem alive_vals (its : List Addr) (c : Contents K V) (h : its.length = c.length) :
    (alive its c).map (fun p => p.2) = Spec.living c := by
  induction c generalizing its with
  | nil => simp [alive, Spec.living]
  | cons e c ih =>
    cases its with
    | nil => simp at h
    | cons x its =>
      have := ih its (by simpa using h)
      simp only [alive, Spec.living] at this ⊢
      cases e <;> simp [this]

/-- Every legal call succeeds and keeps the invariant. -/
theorem step_inv (cfg : Cfg K C) (hfin : cfg.FiniteAreas) (pq : PQ (Ptr × C)) {al : Alloc K V} (hal : Sound al)
    {other : Addr → Option (Cell K V)} {c : Contents K V} {s : Client K V} {val : Addr → Option V} {t : ATree K}
    (I : Inv other c s val t) (op : Op K V) (hop : Spec.legal c op) :
    ∃ s' val' t' N, (∀ fuel, N < fuel → s.step cfg pq al fuel op = .ok s') ∧ Inv other (Spec.apply c op) s' val' t' ∧
      s'.mem.destroyed.Perm (Spec.lost c op ++ s.mem.destroyed) := by
  obtain ⟨m, ⟨root⟩, its⟩ := s
  obtain ⟨H, hg, hroot, hlen, hel⟩ := I
  simp only at H hroot hlen hel
  subst hroot
  cases op with
  | insert b v =>
    obtain ⟨m', t', x, h1, h2, h3, h4, h5, h6, h7, h8⟩ := insert_holds cfg hfin pq hal H hg b v
    refine ⟨⟨m', ⟨t.ptr⟩, its ++ [x]⟩, _, t', t.count, fun fuel hf => ?_, ⟨h4, h5, h6.symm, by simp [Spec.apply, hlen], ?_⟩, by simp [Spec.lost, h8]⟩
    · simp only [Client.step, h1 fuel hf, Outcome.bind_ok]
    · refine (h7.map _).trans ?_
      simp only [List.map_cons, Spec.apply, Function.update_self]
      rw [entries_val h3 (fun a ha => Function.update_of_ne ha _ _), alive_append hlen, List.map_append]
      refine (List.Perm.cons _ hel).trans ?_
      have e : (alive [x] [some (b, v)]).map (fun p => (p.1, p.2.1, some p.2.2)) = [(x, b, some v)] := rfl
      rw [e]
      exact (List.perm_append_singleton _ _).symm
  | erase k =>
    obtain ⟨⟨b, v⟩, hk⟩ := hop
    have hk' := hk
    obtain ⟨i₁, x, i₂, c₁, c₂, rfl, rfl, hl1, rfl⟩ := split_at hlen hk
    have hl2 : i₂.length = c₂.length := by simp at hlen; omega
    have e1 : alive (i₁ ++ x :: i₂) (c₁ ++ some (b, v) :: c₂) = alive i₁ c₁ ++ (x, b, v) :: alive i₂ c₂ := by
      rw [alive_append hl1]; rfl
    have e2 : Spec.apply (c₁ ++ some (b, v) :: c₂) (.erase c₁.length) = c₁ ++ none :: c₂ := by simp [Spec.apply]
    have e3 : alive (i₁ ++ x :: i₂) (c₁ ++ none :: c₂) = alive i₁ c₁ ++ alive i₂ c₂ := by
      rw [alive_append hl1]; rfl
    obtain ⟨hx, hv⟩ := Inv.find (s := ⟨m, ⟨t.ptr⟩, i₁ ++ x :: i₂⟩) ⟨H, hg, rfl, hlen, hel⟩ (x := x) (b := b) (v := v) (by rw [e1]; simp)
    obtain ⟨m', t', pre, post, h1, -, h3, h4, h5, h6, h7, -⟩ := erase_holds cfg H hg hx
    refine ⟨⟨m', ⟨t.ptr⟩, i₁ ++ x :: i₂⟩, val, t', t.count, fun fuel hf => ?_, ⟨h3, h4, h5.symm, by simp [Spec.apply, hlen], ?_⟩, ?_⟩
    · have : (i₁ ++ x :: i₂)[c₁.length]? = some x := by rw [← hl1]; simp
      simp only [Client.step, this, h1 fuel hf, Outcome.bind_ok]
    · rw [e2]
      simp only [e3]
      rw [e1] at hel
      have := (h6.map fun e => (e.id, e.bounds, val e.id)).symm.trans hel
      simp only [List.map_cons, List.map_append, hv] at this ⊢
      exact List.Perm.cons_inv (this.trans List.perm_middle)
    · rw [h7, hv]; simp [Spec.lost]
  | update k nb =>
    obtain ⟨⟨b, v⟩, hk⟩ := hop
    obtain ⟨i₁, x, i₂, c₁, c₂, rfl, rfl, hl1, rfl⟩ := split_at hlen hk
    have e1 : alive (i₁ ++ x :: i₂) (c₁ ++ some (b, v) :: c₂) = alive i₁ c₁ ++ (x, b, v) :: alive i₂ c₂ := by
      rw [alive_append hl1]; rfl
    have e2 : Spec.apply (c₁ ++ some (b, v) :: c₂) (.update c₁.length nb) = c₁ ++ some (nb, v) :: c₂ := by
      simp only [Spec.apply]
      clear e1 hel hk hlen hl1
      induction c₁ with
      | nil => rfl
      | cons e c₁ ih => simp only [List.cons_append, List.length_cons, List.modify_succ_cons, ih]
    have e3 : alive (i₁ ++ x :: i₂) (c₁ ++ some (nb, v) :: c₂) = alive i₁ c₁ ++ (x, nb, v) :: alive i₂ c₂ := by
      rw [alive_append hl1]; rfl
    obtain ⟨hx, hv⟩ := Inv.find (s := ⟨m, ⟨t.ptr⟩, i₁ ++ x :: i₂⟩) ⟨H, hg, rfl, hlen, hel⟩ (x := x) (b := b) (v := v) (by rw [e1]; simp)
    obtain ⟨m', t', rest, ⟨N, h1⟩, h3, h4, h5, h6, h6', h7⟩ := update_holds cfg hfin pq hal H hg hx nb
    refine ⟨⟨m', ⟨t.ptr⟩, i₁ ++ x :: i₂⟩, val, t', N, fun fuel hf => ?_, ⟨h3, h4, h5.symm, by rw [e2]; simpa using hlen, ?_⟩, by simp [Spec.lost, h7]⟩
    · have : (i₁ ++ x :: i₂)[c₁.length]? = some x := by rw [← hl1]; simp
      simp only [Client.step, this, h1 fuel hf, Outcome.bind_ok]
    · rw [e2]
      simp only [e3]
      rw [e1] at hel
      have h8 := (h6.map fun e => (e.id, e.bounds, val e.id)).symm.trans hel
      refine (h6'.map _).trans ?_
      simp only [List.map_cons, List.map_append, hv] at h8 ⊢
      have := List.Perm.cons_inv (h8.trans List.perm_middle)
      exact (List.Perm.cons _ this).trans List.perm_middle.symm
  | updateAll f =>
    have hts : t.ptr.isSome := by
      cases t with
      | null => exact hg.elim
      | leaf a b => rfl
      | node a b l r => rfl
    obtain ⟨root, hroot⟩ := Option.isSome_iff_exists.1 hts
    obtain ⟨m', t', ⟨N, h1⟩, h3, h4, h5, h6, h7⟩ := updateAndCollide_holds cfg hfin pq hal H hg hroot (updFrom m f)
    refine ⟨⟨m', ⟨some root⟩, its⟩, val, t', N, fun fuel hf => ?_, ⟨h3, h4, h5.symm, by simp [Spec.apply, hlen], ?_⟩, by simp [Spec.lost, h7]⟩
    · simp only [Client.step, hroot, h1 fuel hf, Outcome.bind_ok]
    · have hal' : alive its (Spec.apply c (.updateAll f)) = (alive its c).map fun p => (p.1, f p.2.2 p.2.1, p.2.2) := by
        clear hel H hop
        simp only [Spec.apply]
        induction c generalizing its with
        | nil => simp [alive]
        | cons e c ih =>
          cases its with
          | nil => simp at hlen
          | cons x its =>
            have := ih its (by simpa using hlen)
            simp only [alive] at this ⊢
            cases e <;> simp [this]
      simp only [hal', List.map_map]
      refine (h6.map _).trans ?_
      rw [List.map_map]
      have hmap : t.shape.entries.map ((fun e : Entry K Addr => (e.id, e.bounds, val e.id)) ∘ newBox (updFrom m f)) =
          (t.shape.entries.map fun e => (e.id, e.bounds, val e.id)).map fun q => (q.1, (match q.2.2 with | some v => f v q.2.1 | none => q.2.1), q.2.2) := by
        rw [List.map_map]
        refine List.map_congr_left fun e he => ?_
        obtain ⟨⟨par, h8⟩, h9⟩ := rep_leaf H.rep he
        simp only [Function.comp, newBox, updFrom, h8, Option.bind_some]
      rw [hmap]
      refine (hel.map _).trans ?_
      rw [List.map_map]
      exact List.Perm.refl _
  | clear =>
    have hts : t.ptr.isSome := by
      cases t with
      | null => exact hg.elim
      | leaf a b => rfl
      | node a b l r => rfl
    obtain ⟨m', x, h1, h2, h3⟩ := clear_holds hal H hts
    have hz : alive its (Spec.apply c .clear) = [] := by
      simp only [alive, Spec.apply]
      rw [List.filterMap_eq_nil_iff]
      intro p hp
      obtain ⟨a, e⟩ := p
      obtain ⟨y, -, rfl⟩ := List.mem_map.1 (List.of_mem_zip hp).2
      rfl
    refine ⟨⟨m', ⟨some x⟩, its⟩, val, _, t.count, fun fuel hf => ?_, ⟨h2, good_empty x, rfl, by simp [Spec.apply, hlen], ?_⟩, ?_⟩
    · simp only [Client.step, h1 fuel hf, Outcome.bind_ok]
    · simp only [hz]; exact List.Perm.refl _
    · rw [h3]
      refine List.Perm.append_right _ ?_
      have h4 : (t.leaves.reverse.filterMap val).Perm (t.leaves.filterMap val) := (List.reverse_perm _).filterMap _
      refine h4.trans ?_
      have h5 : t.leaves.filterMap val = (t.shape.entries.map fun e => (e.id, e.bounds, val e.id)).filterMap fun q => q.2.2 := by
        rw [leaves_entries, List.filterMap_map, List.filterMap_map]; rfl
      rw [h5]
      refine (hel.filterMap _).trans ?_
      have h6 : ((alive its c).map fun p => (p.1, p.2.1, some p.2.2)).filterMap (fun q => q.2.2) = (alive its c).map fun p => p.2.2 := by
        rw [List.filterMap_map]
        exact congrFun (List.filterMap_eq_map (f := fun p : Addr × BoundingBox K × V => p.2.2)) _
      rw [h6]
      simp only [Spec.lost, ← alive_vals its c hlen, List.map_map]
      exact List.Perm.refl _

theorem runOps_inv (cfg : Cfg K C) (hfin : cfg.FiniteAreas) (pq : PQ (Ptr × C)) {al : Alloc K V} (hal : Sound al)
    {other : Addr → Option (Cell K V)} (ops : List (Op K V)) {c : Contents K V} {s : Client K V} {val : Addr → Option V} {t : ATree K}
    (I : Inv other c s val t) (hop : Spec.legalHistory c ops) :
    ∃ s' val' t' N, (∀ fuel, N < fuel → s.runOps cfg pq al fuel ops = .ok s') ∧ Inv other (Spec.run c ops) s' val' t' ∧
      s'.mem.destroyed.Perm (Spec.lostBy c ops ++ s.mem.destroyed) := by
  induction ops generalizing c s val t with
  | nil => exact ⟨s, val, t, 0, fun _ _ => rfl, I, List.Perm.refl _⟩
  | cons op ops ih =>
    obtain ⟨s1, v1, t1, N1, h1, h2, h3⟩ := step_inv cfg hfin pq hal I op hop.1
    obtain ⟨s2, v2, t2, N2, h4, h5, h6⟩ := ih h2 hop.2
    refine ⟨s2, v2, t2, N1 + N2, fun fuel hf => ?_, h5, ?_⟩
    · simp only [Client.runOps, h1 fuel (by omega), Outcome.bind_ok, h4 fuel (by omega)]
    · refine h6.trans ?_
      simp only [Spec.lostBy]
      refine (h3.append_left _).trans ?_
      rw [← List.append_assoc]
      exact List.Perm.append_right _ List.perm_append_comm

end Simu.RTreeHeap
