import Verif.Lemmas.RTreeHeapSearch
/-
Removal from the memory of an R-tree.
-/
set_option linter.unusedSectionVars false
set_option linter.unusedSimpArgs false
namespace Simu.RTreeHeap
open Simu.RTree (Cfg PQ Entry OverlapList)
variable {K C V X Y : Type} [Field K] [LinearOrder K]

/-- What `extract` achieves: the leaf `x` hangs nowhere, the memory holds the tree `T`, the nodes that are
not needed any more were freed. -/
structure Removed (val : Addr → Option V) (m m' : Mem K V) (t : ATree K) (x : Addr) (b : BoundingBox K)
    (T : RTree.Node K Addr) (t' : ATree K) : Prop where
  shape : t'.shape = T
  rep : Rep val m' none t'
  ptr : t'.ptr = t.ptr
  addrs : ∃ gone, (∀ z ∈ gone, m'.get z = none) ∧ t.addrs.Perm (x :: (gone ++ t'.addrs))
  loose : Loose val m' x b
  destroyed : m'.destroyed = m.destroyed
  only : ∀ z, z ∉ t.addrs → m'.get z = m.get z

theorem deleteNode_none (fuel : Nat) (m : Mem K V) : deleteNode fuel none m = .ok ((), m) := by
  cases fuel <;> rfl

theorem deleteNode_single {m : Mem K V} {s : Addr} {c : Cell K V} (hs : m.get s = some c) (hl : c.left = none)
    (hr : c.right = none) {fuel : Nat} (hf : 0 < fuel) : deleteNode fuel (some s) m = .ok ((), m.del s c.data.toList) := by
  obtain ⟨k, rfl⟩ := Nat.exists_eq_add_of_lt hf
  rw [Nat.zero_add]
  simp only [deleteNode, bind_run, load_some hs, Outcome.bind_ok, hl, hr, deleteNode_none, free_some hs]

theorem sibling_run {m : Mem K V} {a p : Addr} {ca cp : Cell K V} (ha : m.get a = some ca) (hpar : ca.parent = some p)
    (hp : m.get p = some cp) {s : Bool} (hs : decide (some a = cp.left) = s) :
    sibling (some a) m = .ok (⟨some p, !s⟩, m) := by
  simp only [sibling, bind_run, load_some ha, Outcome.bind_ok, hpar, load_some hp, pure_run, ← hs]
  congr 3
  by_cases h : some a = cp.left <;> simp [h]

theorem read_run {m : Mem K V} {p : Addr} {cp : Cell K V} (hp : m.get p = some cp) (s : Bool) :
    (⟨some p, s⟩ : Slot).read m = .ok (if s then cp.left else cp.right, m) := by
  simp only [Slot.read, bind_run, load_some hp, Outcome.bind_ok, pure_run]

/-- Which side a child is on. -/
theorem side_eq {a : Addr} {f : AFrame K} (h : a ∉ f.other.addrs) :
    decide (some a = (if f.onLeft = true then (some a : Ptr) else f.other.ptr)) = f.onLeft := by
  cases f.onLeft
  · have : some a ≠ f.other.ptr := fun h' => h (ptr_mem_addrs h'.symm)
    simp [this]
  · simp

/-- The sibling found by `extract`. -/
theorem other_eq (f : AFrame K) (p : Ptr) :
    (if (!f.onLeft) = true then (if f.onLeft = true then p else f.other.ptr) else (if f.onLeft = true then f.other.ptr else p)) =
      f.other.ptr := by
  cases f.onLeft <;> rfl

section one
variable (cfg : Cfg K C) {val : Addr → Option V} {m : Mem K V} {x : Addr} {b : BoundingBox K} {f : AFrame K} {T : RTree.Node K Addr}

/-- The leaf is a child of the root and its sibling is not an internal node. -/
theorem extract_simple (hr : Rep val m none (azip (.leaf x b) [f])) (hnd : (azip (.leaf x b) [f]).addrs.Nodup)
    (ho : ∀ a c l r, f.other ≠ .node a c l r)
    (hf : (if f.onLeft then RTree.refit cfg .null f.other.shape f.bounds [] else RTree.refit cfg f.other.shape .null f.bounds []) = .ok T) :
    ∃ m' t', (∀ fuel, 0 < fuel → extract cfg fuel (some x) m = .ok ((), m')) ∧ Removed val m m' (azip (.leaf x b) [f]) x b T t' := by
  obtain ⟨⟨hxc, hxv⟩, hfc, hfo, -⟩ := (rep_azip _ _ _ _).1 hr
  have pz := azip_addrs (.leaf x b) [f]
  have hnd2 := pz.nodup_iff.1 hnd
  simp only [ATree.addrs, pathAddrs_cons, List.cons_append, List.nil_append] at hnd2
  simp only [List.nodup_cons, List.mem_cons, List.mem_append, not_or] at hnd2
  obtain ⟨⟨nxf, nxo, -⟩, ⟨nfo, -⟩, -⟩ := hnd2
  have hpx : (ATree.leaf x b).ptr = some x := rfl
  simp only [up, hpx] at hxc hfc
  set cf : Cell K V := ⟨none, if f.onLeft = true then some x else f.other.ptr, if f.onLeft = true then f.other.ptr else some x, f.bounds, none⟩ with hcf
  have hsd : decide (some x = cf.left) = f.onLeft := side_eq nxo
  set m1 := m.set f.addr (cf.child f.onLeft none) with hm1
  have g1 : ∀ z, z ≠ f.addr → m1.get z = m.get z := fun z hz => by rw [hm1, get_set, if_neg hz]
  set t1 : ATree K := f.close .null with ht1
  have hr1 : Rep val m1 none t1 := by
    rw [ht1, rep_close]
    refine ⟨?_, trivial, rep_congr (fun z hz => g1 z (by rintro rfl; exact nfo hz)) hfo⟩
    rw [hm1, get_set, if_pos rfl, hcf]; cases f.onLeft <;> rfl
  have hp1 : (azip (.leaf x b) [f]).addrs.Perm (x :: t1.addrs) := by
    refine pz.trans ?_
    simp only [ATree.addrs, List.cons_append, List.nil_append]
    refine List.Perm.cons _ ?_
    rw [ht1]
    refine List.Perm.trans ?_ (close_addrs f .null).symm
    simp [pathAddrs, ATree.addrs]
  have hnd1 : t1.addrs.Nodup := (List.nodup_cons.1 (hp1.nodup_iff.1 hnd)).2
  have hx1 : x ∉ t1.addrs := (List.nodup_cons.1 (hp1.nodup_iff.1 hnd)).1
  have key : ∃ m' t', (∀ fuel, 0 < fuel → refit cfg fuel (some f.addr) m1 = .ok ((), m')) ∧ t'.shape = T ∧
      Rep val m' none t' ∧ t'.addrs.Perm t1.addrs ∧ t'.ptr = t1.ptr ∧ Only t1.addrs m1 m' := by
    rw [ht1] at hr1 hnd1 ⊢
    cases hs : f.onLeft
    · have e : f.close .null = .node f.addr f.bounds f.other .null := by unfold AFrame.close; rw [hs]; rfl
      rw [hs] at hf
      rw [e] at hr1 hnd1 ⊢
      exact refit_spec_heap cfg (path := []) hr1 hnd1 hf
    · have e : f.close .null = .node f.addr f.bounds .null f.other := by unfold AFrame.close; rw [hs]; rfl
      rw [hs] at hf
      rw [e] at hr1 hnd1 ⊢
      exact refit_spec_heap cfg (path := []) hr1 hnd1 hf
  obtain ⟨m', t', q1, q2, q3, q4, q5, q6⟩ := key
  have hxm : m'.get x = some ⟨some f.addr, none, none, b, val x⟩ := by
    rw [q6.2 x hx1, g1 x nxf]; exact hxc
  refine ⟨m', t', fun fuel hfuel => ?_, q2, q3, ?_, ⟨[], by simp, ?_⟩, ⟨⟨_, hxm⟩, hxv⟩, q6.1, ?_⟩
  · have hleaf : leafLike f.other.ptr m = .ok (true, m) := by
      cases hot : f.other with
      | null => rfl
      | leaf a c =>
        rw [hot] at hfo
        obtain ⟨v, hv⟩ := Option.isSome_iff_exists.1 hfo.2
        simp only [ATree.ptr, leafLike, isLeaf, bind_run, load_some hfo.1, Outcome.bind_ok, pure_run, hv, Option.isSome_some]
      | node a c l r => exact absurd hot (ho a c l r)
    simp only [extract, bind_run, sibling_run hxc rfl hfc hsd, Outcome.bind_ok, read_run hfc]
    have hot : (if (!f.onLeft) = true then cf.left else cf.right) = f.other.ptr := other_eq f (some x)
    rw [hot]
    simp only [load_some hxc, Outcome.bind_ok, isRoot, bind_run, load_some hfc, pure_run, hcf, Option.isNone_none, if_true]
    simp only [hleaf, Outcome.bind_ok, if_true, bind_run, handle_run hxc rfl hfc hsd, write_run hfc, ← hcf, ← hm1, q1 fuel hfuel]
  · rw [q5, ht1, close_ptr]; simp only [azip]; rw [close_ptr]
  · rw [List.nil_append]; exact hp1.trans (List.Perm.cons _ q4.symm)
  · intro z hz
    have hz1 : z ∉ t1.addrs := fun h => hz (hp1.mem_iff.2 (List.mem_cons_of_mem _ h))
    have hzf : z ≠ f.addr := by
      rintro rfl; exact hz (pz.mem_iff.2 (by simp [pathAddrs, AFrame.addrs]))
    rw [q6.2 z hz1, g1 z hzf]

end one

/-- The leaf is not a child of the root: its sibling takes the place of its parent. -/
theorem extract_deep (cfg : Cfg K C) {val : Addr → Option V} {m : Mem K V} {x s : Addr} {b : BoundingBox K} {f g : AFrame K}
    {gs : List (AFrame K)} {T : RTree.Node K Addr}
    (hr : Rep val m none (azip (.leaf x b) (f :: g :: gs))) (hnd : (azip (.leaf x b) (f :: g :: gs)).addrs.Nodup)
    (hs : f.other.ptr = some s) (hf : RTree.refitParent cfg f.other.shape g.shape (pathShape gs) = .ok T) :
    ∃ m' t', (∀ fuel, gs.length < fuel → extract cfg fuel (some x) m = .ok ((), m')) ∧
      Removed val m m' (azip (.leaf x b) (f :: g :: gs)) x b T t' := by
  obtain ⟨⟨hxc, hxv⟩, hfc, hfo, hgc, hgo, hgp⟩ := (rep_azip _ _ _ _).1 hr
  have pz := azip_addrs (.leaf x b) (f :: g :: gs)
  have hnd2 := pz.nodup_iff.1 hnd
  have hndo : f.other.addrs.Nodup := by
    have := hnd2
    simp only [ATree.addrs, pathAddrs_cons, List.cons_append, List.nil_append, List.nodup_cons] at this
    exact (List.nodup_append.1 this.2.2).1
  have hso := ptr_mem_addrs hs
  have hpx : (ATree.leaf x b).ptr = some x := rfl
  have hnd3 := hnd2
  simp only [ATree.addrs, pathAddrs_cons, List.cons_append, List.nil_append] at hnd3
  simp only [List.nodup_cons, List.mem_cons, List.mem_append, not_or] at hnd3
  obtain ⟨⟨nxf, nxo, nxg, nxgo, nxp⟩, ⟨nfo, nfg, nfgo, nfp⟩, hnd4⟩ := hnd3
  have hdis := List.nodup_append.1 hnd4
  have nog : ∀ z ∈ f.other.addrs, z ≠ g.addr := fun z hz h => hdis.2.2 z hz g.addr (by simp) h
  have nogo : ∀ z ∈ f.other.addrs, z ∉ g.other.addrs := fun z hz h => hdis.2.2 z hz z (by simp [h]) rfl
  have nop : ∀ z ∈ f.other.addrs, z ∉ pathAddrs gs := fun z hz h => hdis.2.2 z hz z (by simp [h]) rfl
  have hgnd := List.nodup_cons.1 hdis.2.1
  have ngo : g.addr ∉ g.other.addrs := fun h => hgnd.1 (by simp [h])
  have ngp : g.addr ∉ pathAddrs gs := fun h => hgnd.1 (by simp [h])
  simp only [up, hpx] at hxc hfc hgc
  obtain ⟨hsc, cs, hcs, hcsp, -⟩ := rep_cell hfo hs
  rw [hcs] at hsc
  set cf : Cell K V := ⟨some g.addr, if f.onLeft = true then some x else f.other.ptr, if f.onLeft = true then f.other.ptr else some x, f.bounds, none⟩ with hcf
  set cg : Cell K V := ⟨up gs, if g.onLeft = true then some f.addr else g.other.ptr, if g.onLeft = true then g.other.ptr else some f.addr, g.bounds, none⟩ with hcg
  have nxs : x ≠ s := fun h => nxo (h ▸ hso)
  have nfs : f.addr ≠ s := fun h => nfo (h ▸ hso)
  have nsg : s ≠ g.addr := nog s hso
  have sdx : decide (some x = cf.left) = f.onLeft := side_eq nxo
  have sdf : decide (some f.addr = cg.left) = g.onLeft := side_eq nfgo
  have sds : decide (some s = cf.left) = !f.onLeft := by
    rw [hcf, hs]; cases f.onLeft
    · simp
    · simp [nxs.symm]
  set cf1 := cf.child (!f.onLeft) none with hcf1
  have hcf1p : cf1.parent = some g.addr := by rw [hcf1, Cell.child]; split <;> rfl
  have sdx1 : decide (some x = cf1.left) = f.onLeft := by
    rw [hcf1, Cell.child, hcf]; cases h : f.onLeft <;> simp
  set m1 := m.set f.addr cf1 with hm1
  have g1 : ∀ z, z ≠ f.addr → m1.get z = m.get z := fun z hz => by rw [hm1, get_set, if_neg hz]
  have f1 : m1.get f.addr = some cf1 := by rw [hm1, get_set, if_pos rfl]
  set m2 := (m1.set g.addr (cg.child g.onLeft (some s))).set s { cs with parent := some g.addr } with hm2
  have g2 : ∀ z, z ≠ f.addr → z ≠ g.addr → z ≠ s → m2.get z = m.get z := fun z h1 h2 h3 => by
    rw [hm2, get_set, if_neg h3, get_set, if_neg h2, g1 z h1]
  have f2 : m2.get f.addr = some cf1 := by rw [hm2, get_set, if_neg nfs, get_set, if_neg nfg, f1]
  have x2 : m2.get x = _ := (g2 x nxf nxg nxs).trans hxc
  have hr2 : Rep val m2 none (azip f.other (g :: gs)) := by
    rw [rep_azip]
    refine ⟨?_, ?_, ?_, ?_⟩
    · refine rep_reparent hfo hs hndo ?_ ?_
      · rw [hm2, get_set, if_pos rfl, hsc]; rfl
      · intro z hz hzs; exact g2 z (by rintro rfl; exact nfo hz) (nog z hz) hzs
    · rw [hm2, get_set, if_neg nsg.symm, get_set, if_pos rfl, hcg, hs]
      cases g.onLeft <;> rfl
    · exact rep_congr (fun z hz => g2 z (by rintro rfl; exact nfgo hz) (by rintro rfl; exact ngo hz) (by rintro rfl; exact nogo _ hso hz)) hgo
    · exact repPath_congr (fun z hz => g2 z (by rintro rfl; exact nfp hz) (by rintro rfl; exact ngp hz) (by rintro rfl; exact nop _ hso hz)) hgp
  have hp2 : (azip (.leaf x b) (f :: g :: gs)).addrs.Perm (x :: f.addr :: (azip f.other (g :: gs)).addrs) := by
    refine pz.trans ?_
    simp only [ATree.addrs, pathAddrs_cons, List.cons_append, List.nil_append]
    refine List.Perm.cons _ (List.Perm.cons _ ?_)
    refine List.Perm.trans ?_ (azip_addrs _ _).symm
    rw [pathAddrs_cons]
  have hnd5 := hp2.nodup_iff.1 hnd
  simp only [List.nodup_cons, List.mem_cons, not_or] at hnd5
  obtain ⟨⟨-, hx5⟩, hf5, hnd6⟩ := hnd5
  obtain ⟨m3, t', q1, q2, q3, q4, q5, q6⟩ := refitParent_spec_heap cfg hr2 hnd6 hf
  have f3 : m3.get f.addr = some cf1 := (q6.2 _ hf5).trans f2
  have x3 : m3.get x = _ := (q6.2 _ hx5).trans x2
  set cf4 := cf1.child f.onLeft none with hcf4
  have hcf4l : cf4.left = none := by
    rw [hcf4, hcf1, hcf]; cases f.onLeft <;> rfl
  have hcf4r : cf4.right = none := by
    rw [hcf4, hcf1, hcf]; cases f.onLeft <;> rfl
  have hcf4d : cf4.data = none := by
    rw [hcf4, hcf1, hcf]; cases f.onLeft <;> rfl
  set m4 := m3.set f.addr cf4 with hm4
  have f4 : m4.get f.addr = some cf4 := by rw [hm4, get_set, if_pos rfl]
  have x4 : m4.get x = _ := (show m4.get x = m3.get x by rw [hm4, get_set, if_neg nxf]).trans x3
  set m5 := m4.del f.addr [] with hm5
  have g5 : ∀ z, z ≠ f.addr → m5.get z = m3.get z := fun z hz => by
    rw [hm5, get_del, if_neg hz, hm4, get_set, if_neg hz]
  have hft : ¬ (f.addr ∈ t'.addrs) := fun h => hf5 (q4.mem_iff.1 h)
  refine ⟨m5, t', fun fuel hfuel => ?_, q2, ?_, ?_, ⟨[f.addr], ?_, ?_⟩, ⟨⟨_, (g5 x nxf).trans x3⟩, hxv⟩, ?_, ?_⟩
  · have hot : (if (!f.onLeft) = true then cf.left else cf.right) = some s := by rw [← hs]; exact other_eq f (some x)
    have r1 : replaceBy (some f.addr) (some s) m1 = .ok ((), m2) :=
      replaceBy_run f1 hcf1p ((g1 _ (Ne.symm nfg)).trans hgc) ((g1 _ nfs.symm).trans hsc) nsg sdf
    have r2 : deleteNode fuel (some f.addr) m4 = .ok ((), m5) := by
      rw [deleteNode_single f4 hcf4l hcf4r (by omega), hcf4d]; rfl
    simp only [extract, bind_run, sibling_run hxc rfl hfc sdx, Outcome.bind_ok, read_run hfc, hot, load_some hxc, isRoot,
      load_some hfc, pure_run]
    have hroot : cf.parent.isNone = false := rfl
    simp only [hroot, Bool.false_eq_true, if_false, bind_run, handle_run hsc hcsp hfc sds, Outcome.bind_ok, write_run hfc,
      ← hcf1, ← hm1, load_some ((g1 x nxf).trans hxc), r1, load_some x2, load_some f2, hcf1p, q1 fuel hfuel,
      handle_run x3 rfl f3 sdx1, write_run f3, ← hcf4, ← hm4, load_some x4, r2]
  · exact rep_congr (fun z hz => g5 z (by rintro rfl; exact hft hz)) q3
  · rw [q5]
    simp only [azip]
    exact azip_ptr gs (by rw [close_ptr, close_ptr])
  · intro z hz
    obtain rfl : z = f.addr := by simpa using hz
    rw [hm5, get_del, if_pos rfl]
  · exact hp2.trans (List.Perm.cons _ (List.Perm.cons _ q4.symm))
  · show m5.destroyed = _
    rw [hm5]; show m3.destroyed = _
    rw [q6.1]; rfl
  · intro z hz
    have hz' : ¬ (z ∈ x :: f.addr :: (azip f.other (g :: gs)).addrs) := fun h => hz (hp2.mem_iff.2 h)
    simp only [List.mem_cons, not_or] at hz'
    have hz6 : ¬ (z ∈ f.other.addrs ++ pathAddrs (g :: gs)) := fun h => hz'.2.2 ((azip_addrs _ _).mem_iff.2 h)
    rw [pathAddrs_cons] at hz6
    simp only [List.mem_append, List.mem_cons, not_or] at hz6
    rw [g5 z hz'.2.1, q6.2 z hz'.2.2, g2 z hz'.2.1 hz6.2.1 (by rintro rfl; exact hz6.1 hso)]

/-- The leaf is a child of the root and its sibling is an internal node: the children of the sibling take the
place of the children of the root. -/
theorem extract_promote (cfg : Cfg K C) {val : Addr → Option V} {m : Mem K V} {x s : Addr} {b sb : BoundingBox K} {f : AFrame K}
    {sl sr : ATree K} {u w : Addr} {T : RTree.Node K Addr}
    (hr : Rep val m none (azip (.leaf x b) [f])) (hnd : (azip (.leaf x b) [f]).addrs.Nodup)
    (ho : f.other = .node s sb sl sr) (hu : sl.ptr = some u) (hw : sr.ptr = some w)
    (hf : (if f.onLeft then RTree.refit cfg sl.shape sr.shape f.bounds [] else RTree.refit cfg sr.shape sl.shape f.bounds []) = .ok T) :
    ∃ m' t', (∀ fuel, 0 < fuel → extract cfg fuel (some x) m = .ok ((), m')) ∧
      Removed val m m' (azip (.leaf x b) [f]) x b T t' := by
  obtain ⟨⟨hxc, hxv⟩, hfc, hfo, -⟩ := (rep_azip _ _ _ _).1 hr
  have pz := azip_addrs (.leaf x b) [f]
  have hnd2 := pz.nodup_iff.1 hnd
  have hpx : (ATree.leaf x b).ptr = some x := rfl
  have hpo : f.other.ptr = some s := by rw [ho]; rfl
  simp only [up, hpx, hpo] at hxc hfc
  rw [ho] at hfo
  obtain ⟨hsc, hfl, hfr⟩ := hfo
  rw [hu, hw] at hsc
  simp only [ATree.addrs, pathAddrs_cons, List.cons_append, List.nil_append, ho] at hnd2
  have pn : pathAddrs ([] : List (AFrame K)) = [] := rfl
  simp only [pn, List.append_nil, List.nodup_cons, List.mem_cons, List.mem_append, not_or] at hnd2
  obtain ⟨⟨nxf, nxs, nxl, nxr⟩, ⟨nfs, nfl, nfr⟩, ⟨nsl, nsr⟩, hnd3⟩ := hnd2
  obtain ⟨hndl, hndr, hdis⟩ := List.nodup_append.1 hnd3
  have hul := ptr_mem_addrs hu
  have hwr := ptr_mem_addrs hw
  have nlr : ∀ z ∈ sl.addrs, z ∉ sr.addrs := fun z hz h => hdis z hz z h rfl
  have nxu : x ≠ u := fun h => nxl (h ▸ hul)
  have nxw : x ≠ w := fun h => nxr (h ▸ hwr)
  have nfu : f.addr ≠ u := fun h => nfl (h ▸ hul)
  have nfw : f.addr ≠ w := fun h => nfr (h ▸ hwr)
  have nsu : s ≠ u := fun h => nsl (h ▸ hul)
  have nsw : s ≠ w := fun h => nsr (h ▸ hwr)
  have nuw : u ≠ w := fun h => nlr u hul (h ▸ hwr)
  obtain ⟨huc, cu, hcu, hcup, -⟩ := rep_cell hfl hu
  obtain ⟨hwc, cw, hcw, hcwp, -⟩ := rep_cell hfr hw
  rw [hcu] at huc
  rw [hcw] at hwc
  set cf : Cell K V := ⟨none, if f.onLeft = true then some x else some s, if f.onLeft = true then some s else some x, f.bounds, none⟩ with hcf
  have sdx : decide (some x = cf.left) = f.onLeft := by
    rw [hcf]; cases f.onLeft
    · simp [nxs]
    · simp
  set cf1 := cf.child f.onLeft (some u) with hcf1
  have sds : decide (some s = cf1.left) = !f.onLeft := by
    rw [hcf1, Cell.child, hcf]; cases f.onLeft
    · simp
    · simp [nsu]
  set cf2 := cf1.child (!f.onLeft) (some w) with hcf2
  set m1 := (m.set f.addr cf1).set u { cu with parent := some f.addr } with hm1
  have g1 : ∀ z, z ≠ f.addr → z ≠ u → m1.get z = m.get z := fun z h1 h2 => by
    rw [hm1, get_set, if_neg h2, get_set, if_neg h1]
  have f1 : m1.get f.addr = some cf1 := by rw [hm1, get_set, if_neg nfu, get_set, if_pos rfl]
  have s1 : m1.get s = _ := (g1 s (Ne.symm nfs) nsu).trans hsc
  have w1 : m1.get w = _ := (g1 w nfw.symm nuw.symm).trans hwc
  set m2 := (m1.set f.addr cf2).set w { cw with parent := some f.addr } with hm2
  have g2 : ∀ z, z ≠ f.addr → z ≠ u → z ≠ w → m2.get z = m.get z := fun z h1 h2 h3 => by
    rw [hm2, get_set, if_neg h3, get_set, if_neg h1, g1 z h1 h2]
  have f2 : m2.get f.addr = some cf2 := by rw [hm2, get_set, if_neg nfw, get_set, if_pos rfl]
  have s2 : m2.get s = _ := (g2 s (Ne.symm nfs) nsu nsw).trans hsc
  have x2 : m2.get x = _ := (g2 x nxf nxu nxw).trans hxc
  have hl2 : Rep val m2 (some f.addr) sl := by
    refine rep_reparent hfl hu hndl ?_ ?_
    · rw [hm2, get_set, if_neg nuw, get_set, if_neg nfu.symm, hm1, get_set, if_pos rfl, huc]; rfl
    · intro z hz hzu
      exact g2 z (by rintro rfl; exact nfl hz) hzu (by rintro rfl; exact nlr _ hz hwr)
  have hr2 : Rep val m2 (some f.addr) sr := by
    refine rep_reparent hfr hw hndr ?_ ?_
    · rw [hm2, get_set, if_pos rfl, hwc]; rfl
    · intro z hz hzw
      exact g2 z (by rintro rfl; exact nfr hz) (by rintro rfl; exact nlr _ hul hz) hzw
  set t1 : ATree K := if f.onLeft then .node f.addr f.bounds sl sr else .node f.addr f.bounds sr sl with ht1
  have ht1p : t1.ptr = some f.addr := by rw [ht1]; split <;> rfl
  have hrt1 : Rep val m2 none t1 := by
    rw [ht1]
    have e : m2.get f.addr = some ⟨none, if f.onLeft = true then some u else some w, if f.onLeft = true then some w else some u, f.bounds, none⟩ := by
      rw [f2, hcf2, hcf1, hcf]; cases f.onLeft <;> rfl
    cases hb : f.onLeft
    · refine ⟨?_, hr2, hl2⟩
      rw [e, hb, hu, hw]; rfl
    · refine ⟨?_, hl2, hr2⟩
      rw [e, hb, hu, hw]; rfl
  have hpt : t1.addrs.Perm (f.addr :: (sl.addrs ++ sr.addrs)) := by
    rw [ht1]; cases f.onLeft
    · exact List.Perm.cons _ List.perm_append_comm
    · exact List.Perm.refl _
  have hp2 : (azip (.leaf x b) [f]).addrs.Perm (x :: s :: t1.addrs) := by
    refine pz.trans ?_
    simp only [ATree.addrs, pathAddrs_cons, List.cons_append, List.nil_append, ho, pn, List.append_nil]
    refine List.Perm.cons _ ?_
    refine (List.Perm.swap _ _ _).trans (List.Perm.cons _ hpt.symm)
  have hnd5 := hp2.nodup_iff.1 hnd
  simp only [List.nodup_cons, List.mem_cons, not_or] at hnd5
  obtain ⟨⟨-, hx5⟩, hs5, hnd6⟩ := hnd5
  have key : ∃ m' t', (∀ fuel, 0 < fuel → refit cfg fuel (some f.addr) m2 = .ok ((), m')) ∧ t'.shape = T ∧
      Rep val m' none t' ∧ t'.addrs.Perm t1.addrs ∧ t'.ptr = t1.ptr ∧ Only t1.addrs m2 m' := by
    rw [ht1] at hrt1 hnd6 ⊢
    cases hb : f.onLeft
    · rw [hb] at hf hrt1 hnd6
      exact refit_spec_heap cfg (path := []) hrt1 hnd6 hf
    · rw [hb] at hf hrt1 hnd6
      exact refit_spec_heap cfg (path := []) hrt1 hnd6 hf
  obtain ⟨m3, t', q1, q2, q3, q4, q5, q6⟩ := key
  have s3 : m3.get s = _ := (q6.2 _ hs5).trans s2
  have x3 : m3.get x = _ := (q6.2 _ hx5).trans x2
  set m4 := m3.set s ⟨some f.addr, none, some w, sb, none⟩ with hm4
  have s4 : m4.get s = some ⟨some f.addr, none, some w, sb, none⟩ := by rw [hm4, get_set, if_pos rfl]
  set m5 := m4.set s ⟨some f.addr, none, none, sb, none⟩ with hm5
  have s5 : m5.get s = some ⟨some f.addr, none, none, sb, none⟩ := by rw [hm5, get_set, if_pos rfl]
  set m6 := m5.del s [] with hm6
  have g6 : ∀ z, z ≠ s → m6.get z = m3.get z := fun z hz => by
    rw [hm6, get_del, if_neg hz, hm5, get_set, if_neg hz, hm4, get_set, if_neg hz]
  have hst : ¬ (s ∈ t'.addrs) := fun h => hs5 (q4.mem_iff.1 h)
  refine ⟨m6, t', fun fuel hfuel => ?_, q2, ?_, ?_, ⟨[s], ?_, ?_⟩, ⟨⟨_, (g6 x nxs).trans x3⟩, hxv⟩, ?_, ?_⟩
  · have hot : (if (!f.onLeft) = true then cf.left else cf.right) = some s := by rw [hcf]; cases f.onLeft <;> rfl
    have hll : leafLike (some s) m = .ok (false, m) := by
      simp only [leafLike, isLeaf, bind_run, load_some hsc, Outcome.bind_ok, pure_run, Option.isSome_none]
    have r1 : replaceBy (some x) (some u) m = .ok ((), m1) :=
      replaceBy_run hxc rfl hfc huc nfu.symm sdx
    have r2 : replaceBy (some s) (some w) m1 = .ok ((), m2) :=
      replaceBy_run s1 rfl f1 w1 nfw.symm sds
    have r3 : deleteNode fuel (some s) m5 = .ok ((), m6) := deleteNode_single s5 rfl rfl hfuel
    simp only [extract, bind_run, sibling_run hxc rfl hfc sdx, Outcome.bind_ok, read_run hfc, hot, load_some hxc, isRoot,
      load_some hfc, pure_run]
    have hroot : cf.parent.isNone = true := rfl
    simp only [hroot, if_true, bind_run, hll, Outcome.bind_ok, Bool.false_eq_true, if_false, load_some hsc, r1, load_some s1, r2,
      load_some x2, q1 fuel hfuel, modify_some s3, ← hm4, modify_some s4, ← hm5, r3]
  · exact rep_congr (fun z hz => g6 z (by rintro rfl; exact hst hz)) q3
  · rw [q5, ht1p]; simp only [azip]; rw [close_ptr]
  · intro z hz
    obtain rfl : z = s := by simpa using hz
    rw [hm6, get_del, if_pos rfl]
  · exact hp2.trans (List.Perm.cons _ (List.Perm.cons _ q4.symm))
  · show m6.destroyed = _
    rw [hm6]; show m3.destroyed = _
    rw [q6.1]; rfl
  · intro z hz
    have hz' : ¬ (z ∈ x :: s :: t1.addrs) := fun h => hz (hp2.mem_iff.2 h)
    simp only [List.mem_cons, not_or, hpt.mem_iff, List.mem_append] at hz'
    obtain ⟨z1, z2, z3, z4, z5⟩ := hz'
    rw [g6 z z2, q6.2 z (by simp [hpt.mem_iff, z3, z4, z5]), g2 z z3 (by rintro rfl; exact z4 hul) (by rintro rfl; exact z5 hwr)]

end Simu.RTreeHeap
