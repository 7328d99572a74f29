import Verif.Lemmas.RTreeHeapErase
import Verif.Lemmas.RTree
import Mathlib.Logic.Function.Basic
/-
The operations of an R-tree on its memory, as a whole.
-/
set_option linter.unusedSectionVars false
set_option linter.unusedSimpArgs false
namespace Simu.RTreeHeap
open Simu.RTree (Cfg PQ Entry OverlapList)
variable {K C V X Y : Type} [Field K] [LinearOrder K]

/-- The memory holds the tree `t`, at addresses that are unused in `other`; elsewhere it is as `other`
says. -/
structure Holds (other : Addr → Option (Cell K V)) (val : Addr → Option V) (m : Mem K V) (t : ATree K) : Prop where
  rep : Rep val m none t
  nodup : t.addrs.Nodup
  rest : ∀ a, a ∉ t.addrs → m.get a = other a
  fresh : ∀ a ∈ t.addrs, other a = none

/-! ### Extraction -/

theorem extract_heap (cfg : Cfg K C) {val : Addr → Option V} {m : Mem K V} {x : Addr} {b : BoundingBox K}
    {path : List (AFrame K)} {T : RTree.Node K Addr}
    (hr : Rep val m none (azip (.leaf x b) path)) (hnd : (azip (.leaf x b) path).addrs.Nodup)
    (hf : RTree.extract cfg (pathShape path) = .ok T) :
    ∃ m' t', (∀ fuel, path.length < fuel → extract cfg fuel (some x) m = .ok ((), m')) ∧
      Removed val m m' (azip (.leaf x b) path) x b T t' := by
  match path, hr, hnd, hf with
  | [], _, _, hf => simp [pathShape, RTree.extract] at hf
  | [f], hr, hnd, hf =>
    simp only [pathShape, List.map_cons, List.map_nil, RTree.extract, AFrame.shape] at hf
    cases ho : f.other with
    | null =>
      rw [ho] at hf
      obtain ⟨m', t', h1, h2⟩ := extract_simple cfg (T := T) hr hnd (by rw [ho]; simp) (by rw [ho]; exact hf)
      exact ⟨m', t', fun fuel h => h1 fuel (by simp at h; omega), h2⟩
    | leaf a c =>
      rw [ho] at hf
      obtain ⟨m', t', h1, h2⟩ := extract_simple cfg (T := T) hr hnd (by rw [ho]; simp) (by rw [ho]; exact hf)
      exact ⟨m', t', fun fuel h => h1 fuel (by simp at h; omega), h2⟩
    | node s sb sl sr =>
      rw [ho] at hf
      obtain ⟨u, hu⟩ : ∃ u, sl.ptr = some u := by
        cases sl with
        | null => simp [ATree.shape] at hf
        | leaf a c => exact ⟨_, rfl⟩
        | node a c l r => exact ⟨_, rfl⟩
      obtain ⟨w, hw⟩ : ∃ w, sr.ptr = some w := by
        cases sr with
        | null => cases sl <;> simp [ATree.shape] at hf
        | leaf a c => exact ⟨_, rfl⟩
        | node a c l r => exact ⟨_, rfl⟩
      have hf' : (if f.onLeft then RTree.refit cfg sl.shape sr.shape f.bounds [] else RTree.refit cfg sr.shape sl.shape f.bounds []) = .ok T := by
        cases sl with
        | null => simp [ATree.ptr] at hu
        | leaf a c => cases sr with
          | null => simp [ATree.ptr] at hw
          | leaf a' c' => exact hf
          | node a' c' l' r' => exact hf
        | node a c l r => cases sr with
          | null => simp [ATree.ptr] at hw
          | leaf a' c' => exact hf
          | node a' c' l' r' => exact hf
      obtain ⟨m', t', h1, h2⟩ := extract_promote cfg hr hnd ho hu hw hf'
      exact ⟨m', t', fun fuel h => h1 fuel (by simp at h; omega), h2⟩
  | f :: g :: gs, hr, hnd, hf =>
    simp only [pathShape, List.map_cons, RTree.extract, AFrame.shape] at hf
    obtain ⟨s, hs⟩ : ∃ s, f.other.ptr = some s := by
      cases ho : f.other with
      | null => rw [ho] at hf; simp [ATree.shape] at hf
      | leaf a c => exact ⟨_, rfl⟩
      | node a c l r => exact ⟨_, rfl⟩
    have hf' : RTree.refitParent cfg f.other.shape g.shape (pathShape gs) = .ok T := by
      cases ho : f.other with
      | null => rw [ho] at hs; simp [ATree.ptr] at hs
      | leaf a c => rw [ho] at hf; exact hf
      | node a c l r => rw [ho] at hf; exact hf
    obtain ⟨m', t', h1, h2⟩ := extract_deep cfg hr hnd hs hf'
    exact ⟨m', t', fun fuel h => h1 fuel (by simp at h; omega), h2⟩

/-- A leaf lies at the end of some path. -/
theorem exists_path {x : Addr} {b : BoundingBox K} (t : ATree K) (path : List (AFrame K))
    (h : (⟨x, b⟩ : Entry K Addr) ∈ t.shape.entries) : ∃ path', azip (.leaf x b) path' = azip t path := by
  induction t generalizing path with
  | null => simp [ATree.shape, RTree.Node.entries] at h
  | leaf a c =>
    simp only [ATree.shape, RTree.Node.entries, List.mem_singleton, Entry.mk.injEq] at h
    obtain ⟨rfl, rfl⟩ := h
    exact ⟨path, rfl⟩
  | node a c l r ihl ihr =>
    simp only [ATree.shape, RTree.Node.entries, List.mem_append] at h
    rcases h with h | h
    · obtain ⟨p, hp⟩ := ihl (⟨a, true, c, r⟩ :: path) h
      exact ⟨p, by rw [hp]; rfl⟩
    · obtain ⟨p, hp⟩ := ihr (⟨a, false, c, l⟩ :: path) h
      exact ⟨p, by rw [hp]; rfl⟩

theorem rep_val_congr {val val' : Addr → Option V} {m : Mem K V} {par : Ptr} {t : ATree K}
    (h : ∀ a ∈ t.addrs, val' a = val a) (hr : Rep val m par t) : Rep val' m par t := by
  induction t generalizing par with
  | null => trivial
  | leaf a b =>
    have := h a (by simp [ATree.addrs])
    exact ⟨by rw [this]; exact hr.1, by rw [this]; exact hr.2⟩
  | node a b l r ihl ihr =>
    exact ⟨hr.1, ihl (fun x hx => h x (by simp [ATree.addrs, hx])) hr.2.1, ihr (fun x hx => h x (by simp [ATree.addrs, hx])) hr.2.2⟩

theorem makeLeaf_run {m : Mem K V} {al : Alloc K V} (h : m.get (al m) = none) (b : BoundingBox K) (v : V) :
    makeLeaf al b v m = .ok (some (al m), m.set (al m) ⟨none, none, none, b, some v⟩) := by
  simp only [makeLeaf, bind_run, makeNode_run h, Outcome.bind_ok, pure_run]
  rw [modify_some (c := ⟨none, none, none, b, none⟩) (by rw [get_set, if_pos rfl])]
  simp only [Outcome.bind_ok, Mem.set, Finmap.insert_insert]

section
variable [IsStrictOrderedRing K]

theorem extract_holds (cfg : Cfg K C) {other : Addr → Option (Cell K V)} {val : Addr → Option V} {m : Mem K V}
    {t : ATree K} (H : Holds other val m t) (hg : RTree.GoodRoot t.shape) {x : Addr} {b : BoundingBox K}
    (hx : (⟨x, b⟩ : Entry K Addr) ∈ t.shape.entries) :
    ∃ m' t', (∀ fuel, t.count < fuel → extract cfg fuel (some x) m = .ok ((), m')) ∧
      Holds (Function.update other x (m'.get x)) val m' t' ∧ RTree.GoodRoot t'.shape ∧ t'.ptr = t.ptr ∧
      t.shape.entries.Perm (⟨x, b⟩ :: t'.shape.entries) ∧ Loose val m' x b ∧ x ∉ t'.addrs ∧ other x = none ∧
      m'.destroyed = m.destroyed := by
  obtain ⟨path, hp⟩ := exists_path t [] hx
  simp only [azip] at hp
  subst hp
  obtain ⟨T, hT, hTg, hTe⟩ := RTree.extract_spec cfg (pathShape path) _ b x hg (azip_shape (.leaf x b) path).symm
  obtain ⟨m', t', h1, h2⟩ := extract_heap cfg H.rep H.nodup hT
  obtain ⟨gone, hgone, hperm⟩ := h2.addrs
  have hnd := hperm.nodup_iff.1 H.nodup
  simp only [List.nodup_cons, List.mem_append, not_or] at hnd
  obtain ⟨⟨-, hxt⟩, hnd2⟩ := hnd
  refine ⟨m', t', fun fuel hf => h1 fuel ?_, ⟨h2.rep, (List.nodup_append.1 hnd2).2.1, ?_, ?_⟩, ?_, h2.ptr, ?_, h2.loose, hxt, ?_, h2.destroyed⟩
  · have := length_le_count (.leaf x b) path
    omega
  · intro a ha
    by_cases hax : a = x
    · subst hax; simp
    rw [Function.update_of_ne hax]
    by_cases hat : a ∈ (azip (.leaf x b) path).addrs
    · have : a ∈ gone := by
        have := hperm.mem_iff.1 hat
        simp only [List.mem_cons, List.mem_append] at this
        rcases this with h | h | h
        · exact absurd h hax
        · exact h
        · exact absurd h ha
      rw [hgone a this, H.fresh a hat]
    · rw [h2.only a hat, H.rest a hat]
  · intro a ha
    have hax : a ≠ x := by rintro rfl; exact hxt ha
    rw [Function.update_of_ne hax]
    exact H.fresh a (hperm.mem_iff.2 (by simp [ha]))
  · rw [h2.shape]; exact hTg
  · rw [h2.shape]; exact hTe
  · exact H.fresh x (hperm.mem_iff.2 (by simp))

theorem insertNode_holds (cfg : Cfg K C) (hfin : cfg.FiniteAreas) (pq : PQ (Ptr × C)) {al : Alloc K V} (hal : Sound al)
    {other : Addr → Option (Cell K V)} {val : Addr → Option V} {m : Mem K V} {t : ATree K} {x : Addr} {b : BoundingBox K}
    (H : Holds (Function.update other x (m.get x)) val m t) (ht : t.ptr.isSome) (hl : Loose val m x b)
    (hx : x ∉ t.addrs) (hox : other x = none) (P : RTree.Node K Addr → Prop)
    (hadd : ∀ n path, n ≠ .null → RTree.zip n path = t.shape → ∃ T, RTree.addLeafTo cfg path n b x = .ok T ∧ P T) :
    ∃ m' t', (∀ fuel, t.count < fuel → insertNode cfg pq al fuel t.ptr (some x) m = .ok ((), m')) ∧
      Holds other val m' t' ∧ t'.ptr = t.ptr ∧ P t'.shape ∧ m'.destroyed = m.destroyed := by
  obtain ⟨m', t', T, h1, h2, h3⟩ := insertNode_heap cfg hfin pq hal H.rep H.nodup ht hl hx P hadd
  obtain ⟨new, hnew, hperm⟩ := h2.addrs
  refine ⟨m', t', h1, ⟨h2.rep, h2.nodup, ?_, ?_⟩, h2.ptr, by rw [h2.shape]; exact h3, h2.only.1⟩
  · intro a ha
    have ha' : ¬ (a ∈ new ++ x :: t.addrs) := fun h => ha (hperm.mem_iff.2 h)
    simp only [List.mem_append, List.mem_cons, not_or] at ha'
    rw [h2.only.2 a ha, H.rest a ha'.2.2, Function.update_of_ne ha'.2.1]
  · intro a ha
    have ha' := hperm.mem_iff.1 ha
    simp only [List.mem_append, List.mem_cons] at ha'
    by_cases hax : a = x
    · subst hax; exact hox
    rcases ha' with h | h | h
    · have hn := hnew a h
      have : a ∉ t.addrs := fun h' => by
        have := rep_mem H.rep a h'
        rw [hn] at this; simp at this
      have := H.rest a this
      rw [Function.update_of_ne hax] at this
      rw [← this, hn]
    · exact absurd h hax
    · have := H.fresh a h
      rwa [Function.update_of_ne hax] at this

/-- The public `insert`. -/
theorem insert_holds (cfg : Cfg K C) (hfin : cfg.FiniteAreas) (pq : PQ (Ptr × C)) {al : Alloc K V} (hal : Sound al)
    {other : Addr → Option (Cell K V)} {val : Addr → Option V} {m : Mem K V} {t : ATree K}
    (H : Holds other val m t) (hg : RTree.GoodRoot t.shape) (b : BoundingBox K) (v : V) :
    ∃ m' t' x, (∀ fuel, t.count < fuel → insert cfg pq al fuel t.ptr b v m = .ok (some x, m')) ∧ m.get x = none ∧ x ∉ t.addrs ∧
      Holds other (Function.update val x (some v)) m' t' ∧ RTree.GoodRoot t'.shape ∧ t'.ptr = t.ptr ∧
      t'.shape.entries.Perm (⟨x, b⟩ :: t.shape.entries) ∧ m'.destroyed = m.destroyed := by
  have hfr := hal m
  obtain ⟨x, hx⟩ : ∃ x, al m = x := ⟨_, rfl⟩
  have hm1 := makeLeaf_run hfr b v
  rw [hx] at hfr hm1
  have hxt : ¬ (x ∈ t.addrs) := fun h => by
    have := rep_mem H.rep x h
    rw [hfr] at this; simp at this
  set m1 := m.set x ⟨none, none, none, b, some v⟩ with hm1'
  have hox : other x = none := by rw [← H.rest x hxt, hfr]
  have H1 : Holds (Function.update other x (m1.get x)) (Function.update val x (some v)) m1 t := by
    refine ⟨?_, H.nodup, ?_, ?_⟩
    · refine rep_val_congr (fun a ha => Function.update_of_ne (by rintro rfl; exact hxt ha) _ _) ?_
      exact rep_congr (fun a ha => by rw [hm1', get_set, if_neg (by rintro rfl; exact hxt ha)]) H.rep
    · intro a ha
      by_cases hax : a = x
      · subst hax; simp
      · rw [Function.update_of_ne hax, hm1', get_set, if_neg hax, H.rest a ha]
    · intro a ha
      rw [Function.update_of_ne (by rintro rfl; exact hxt ha)]; exact H.fresh a ha
  have hts : t.ptr.isSome := by
    cases t with
    | null => exact hg.elim
    | leaf a b => rfl
    | node a b l r => rfl
  obtain ⟨m', t', h1, h2, h3, h4, h5⟩ := insertNode_holds cfg hfin pq hal (b := b) H1 hts
    ⟨⟨none, by rw [hm1', get_set, if_pos rfl, Function.update_self]⟩, by simp⟩ hxt hox
    (fun T => RTree.GoodRoot T ∧ T.entries.Perm (⟨x, b⟩ :: t.shape.entries))
    (fun n path hn hz => RTree.addLeafTo_spec cfg path n _ b x hg hn hz)
  refine ⟨m', t', x, fun fuel hf => ?_, hfr, hxt, h2, h4.1, h3, h4.2, h5⟩
  simp only [insert, bind_run, hm1, Outcome.bind_ok, h1 fuel hf, pure_run]

/-- `erase(Node*)`. -/
theorem eraseNode_holds (cfg : Cfg K C) {other : Addr → Option (Cell K V)} {val : Addr → Option V} {m : Mem K V}
    {t : ATree K} (H : Holds other val m t) (hg : RTree.GoodRoot t.shape) {x : Addr} {b : BoundingBox K}
    (hx : (⟨x, b⟩ : Entry K Addr) ∈ t.shape.entries) :
    ∃ m' t', (∀ fuel, t.count < fuel → eraseNode cfg fuel (some x) m = .ok ((), m')) ∧
      Holds other val m' t' ∧ RTree.GoodRoot t'.shape ∧ t'.ptr = t.ptr ∧
      t.shape.entries.Perm (⟨x, b⟩ :: t'.shape.entries) ∧ m'.destroyed = (val x).toList ++ m.destroyed ∧ x ∉ t'.addrs := by
  obtain ⟨m1, t', h1, h2, h3, h4, h5, ⟨⟨par, h6⟩, h6'⟩, h7, h8, h9⟩ := extract_holds cfg H hg hx
  refine ⟨m1.del x (val x).toList, t', fun fuel hf => ?_, ⟨?_, h2.nodup, ?_, ?_⟩, h3, h4, h5, by show (val x).toList ++ m1.destroyed = _; rw [h9], h7⟩
  · simp only [eraseNode, bind_run, h1 fuel hf, Outcome.bind_ok, deleteNode_single h6 rfl rfl (show 0 < fuel by omega)]
  · exact rep_congr (fun a ha => by rw [get_del, if_neg (by rintro rfl; exact h7 ha)]) h2.rep
  · intro a ha
    rw [get_del]
    by_cases hax : a = x
    · subst hax; simp [h8]
    · rw [if_neg hax, h2.rest a ha, Function.update_of_ne hax]
  · intro a ha
    have := h2.fresh a ha
    rwa [Function.update_of_ne (by rintro rfl; exact h7 ha)] at this

/-- The public `update`. -/
theorem update_holds (cfg : Cfg K C) (hfin : cfg.FiniteAreas) (pq : PQ (Ptr × C)) {al : Alloc K V} (hal : Sound al)
    {other : Addr → Option (Cell K V)} {val : Addr → Option V} {m : Mem K V}
    {t : ATree K} (H : Holds other val m t) (hg : RTree.GoodRoot t.shape) {x : Addr} {b : BoundingBox K}
    (hx : (⟨x, b⟩ : Entry K Addr) ∈ t.shape.entries) (nb : BoundingBox K) :
    ∃ m' t' rest, (∃ N, ∀ fuel, N < fuel → update cfg pq al fuel t.ptr (some x) nb m = .ok ((), m')) ∧
      Holds other val m' t' ∧ RTree.GoodRoot t'.shape ∧ t'.ptr = t.ptr ∧
      t.shape.entries.Perm (⟨x, b⟩ :: rest) ∧ t'.shape.entries.Perm (⟨x, nb⟩ :: rest) ∧ m'.destroyed = m.destroyed := by
  obtain ⟨m1, t1, h1, h2, h3, h4, h5, ⟨⟨par, h6⟩, h6'⟩, h7, h8, h9⟩ := extract_holds cfg H hg hx
  set m2 := m1.set x ⟨par, none, none, nb, val x⟩ with hm2
  have H2 : Holds (Function.update other x (m2.get x)) val m2 t1 := by
    refine ⟨rep_congr (fun a ha => by rw [hm2, get_set, if_neg (by rintro rfl; exact h7 ha)]) h2.rep, h2.nodup, ?_, ?_⟩
    · intro a ha
      by_cases hax : a = x
      · subst hax; simp
      · have := h2.rest a ha
        rw [Function.update_of_ne hax] at this ⊢
        rw [hm2, get_set, if_neg hax, this]
    · intro a ha
      have := h2.fresh a ha
      rw [Function.update_of_ne (by rintro rfl; exact h7 ha)] at this ⊢
      exact this
  have hts : t1.ptr.isSome := by
    cases t1 with
    | null => exact h3.elim
    | leaf a b => rfl
    | node a b l r => rfl
  obtain ⟨m', t', g1, g2, g3, g4, g5⟩ := insertNode_holds cfg hfin pq hal (b := nb) H2 hts
    ⟨⟨par, by rw [hm2, get_set, if_pos rfl]⟩, h6'⟩ h7 h8
    (fun T => RTree.GoodRoot T ∧ T.entries.Perm (⟨x, nb⟩ :: t1.shape.entries))
    (fun n path hn hz => RTree.addLeafTo_spec cfg path n _ nb x h3 hn hz)
  refine ⟨m', t', t1.shape.entries, ⟨t.count + t1.count, fun fuel hf => ?_⟩, g2, g4.1, g3.trans h4, h5, g4.2, by rw [g5, ← h9]; rfl⟩
  have hroot : insertNode cfg pq al fuel t.ptr (some x) m2 = .ok ((), m') := by
    rw [← h4]; exact g1 fuel (by omega)
  simp only [update, bind_run, h1 fuel (by omega), Outcome.bind_ok, modify_some h6, ← hm2, hroot]

end

end Simu.RTreeHeap
