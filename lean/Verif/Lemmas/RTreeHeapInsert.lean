import Verif.Lemmas.RTreeHeap
/-
Insertion and removal on the memory of an R-tree.
-/
set_option linter.unusedSectionVars false
set_option linter.unusedSimpArgs false
namespace Simu.RTreeHeap
open Simu.RTree (Cfg PQ Entry OverlapList)
variable {K C V X Y : Type} [Field K] [LinearOrder K]

theorem load_run (a : Addr) (m : Mem K V) :
    load (some a) m = match m.get a with | none => .ub | some c => .ok (c, m) := rfl
theorem modify_run (a : Addr) (f : Cell K V → Cell K V) (m : Mem K V) :
    modify (some a) f m = match m.get a with | none => .ub | some c => .ok ((), m.set a (f c)) := rfl
theorem makeNode_run {m : Mem K V} {al : Alloc K V} (h : m.get (al m) = none) (b : BoundingBox K) :
    makeNode al b m = .ok (some (al m), m.set (al m) ⟨none, none, none, b, none⟩) := allocate_ok h _

theorem rep_mem {val : Addr → Option V} {m : Mem K V} {par : Ptr} {t : ATree K} (h : Rep val m par t) :
    ∀ x ∈ t.addrs, (m.get x).isSome := by
  induction t generalizing par with
  | null => simp [ATree.addrs]
  | leaf a b => intro x hx; obtain rfl : x = a := by simpa [ATree.addrs] using hx
                rw [h.1]; rfl
  | node a b l r ihl ihr =>
    intro x hx
    simp only [ATree.addrs, List.mem_cons, List.mem_append] at hx
    rcases hx with rfl | hx | hx
    · rw [h.1]; rfl
    · exact ihl h.2.1 x hx
    · exact ihr h.2.2 x hx

theorem refitParent_spec_heap (cfg : Cfg K C) {val : Addr → Option V} {m : Mem K V} {t : ATree K} {f : AFrame K}
    {fs : List (AFrame K)} {T : RTree.Node K Addr}
    (hr : Rep val m none (azip t (f :: fs))) (hnd : (azip t (f :: fs)).addrs.Nodup)
    (hf : RTree.refitParent cfg t.shape f.shape (pathShape fs) = .ok T) :
    ∃ m' t', (∀ fuel, fs.length < fuel → refit cfg fuel (some f.addr) m = .ok ((), m')) ∧ t'.shape = T ∧
      Rep val m' none t' ∧ t'.addrs.Perm (azip t (f :: fs)).addrs ∧
      t'.ptr = (azip t (f :: fs)).ptr ∧ Only (azip t (f :: fs)).addrs m m' := by
  simp only [azip] at hr hnd ⊢
  cases hs : f.onLeft
  · have e : f.close t = .node f.addr f.bounds f.other t := by
      unfold AFrame.close; rw [hs]; rfl
    rw [e] at hr hnd ⊢
    refine refit_spec_heap cfg hr hnd ?_
    simpa [AFrame.shape, hs, pathShape, ATree.shape, RTree.refitParent] using hf
  · have e : f.close t = .node f.addr f.bounds t f.other := by
      unfold AFrame.close; rw [hs]; rfl
    rw [e] at hr hnd ⊢
    refine refit_spec_heap cfg hr hnd ?_
    simpa [AFrame.shape, hs, pathShape, ATree.shape, RTree.refitParent] using hf

theorem setLeft_run {m : Mem K V} {p n : Addr} {cp cn : Cell K V} (hp : m.get p = some cp) (hn : m.get n = some cn)
    (h : n ≠ p) : setLeft (some p) (some n) m =
      .ok ((), (m.set p { cp with left := some n }).set n { cn with parent := some p }) := by
  simp only [setLeft, bind_run, modify_some hp, Outcome.bind_ok]
  rw [modify_some (c := cn) (by rw [get_set, if_neg h]; exact hn)]

theorem setRight_run {m : Mem K V} {p n : Addr} {cp cn : Cell K V} (hp : m.get p = some cp) (hn : m.get n = some cn)
    (h : n ≠ p) : setRight (some p) (some n) m =
      .ok ((), (m.set p { cp with right := some n }).set n { cn with parent := some p }) := by
  simp only [setRight, bind_run, modify_some hp, Outcome.bind_ok]
  rw [modify_some (c := cn) (by rw [get_set, if_neg h]; exact hn)]

/-- A node with one child changed. -/
def Cell.child (c : Cell K V) (onLeft : Bool) (p : Ptr) : Cell K V :=
  if onLeft then { c with left := p } else { c with right := p }

theorem handle_run {m : Mem K V} {a p : Addr} {ca cp : Cell K V} (ha : m.get a = some ca) (hpar : ca.parent = some p)
    (hp : m.get p = some cp) {s : Bool} (hs : decide (some a = cp.left) = s) :
    handle (some a) m = .ok (⟨some p, s⟩, m) := by
  simp only [handle, bind_run, load_some ha, Outcome.bind_ok, hpar, load_some hp, pure_run, hs]

theorem write_run {m : Mem K V} {p : Addr} {cp : Cell K V} (hp : m.get p = some cp) (s : Bool) (v : Ptr) :
    (⟨some p, s⟩ : Slot).write v m = .ok ((), m.set p (cp.child s v)) := by
  simp only [Slot.write, modify_some hp, Cell.child]

theorem replaceBy_run {m : Mem K V} {a p w : Addr} {ca cp cw : Cell K V} (ha : m.get a = some ca)
    (hpar : ca.parent = some p) (hp : m.get p = some cp) (hw : m.get w = some cw) (hwp : w ≠ p)
    {s : Bool} (hs : decide (some a = cp.left) = s) :
    replaceBy (some a) (some w) m =
      .ok ((), (m.set p (cp.child s (some w))).set w { cw with parent := some p }) := by
  simp only [replaceBy, bind_run, load_some ha, Outcome.bind_ok, handle_run ha hpar hp hs, write_run hp]
  rw [modify_some (c := cw) (by rw [get_set, if_neg hwp]; exact hw), hpar]

theorem pathAddrs_cons (f : AFrame K) (fs : List (AFrame K)) :
    pathAddrs (f :: fs) = f.addr :: (f.other.addrs ++ pathAddrs fs) := by
  simp [pathAddrs, AFrame.addrs]

/-- The allocator gives addresses that are not in use. -/
def Sound (al : Alloc K V) : Prop := ∀ m : Mem K V, m.get (al m) = none

/-- A leaf that hangs nowhere. -/
def Loose (val : Addr → Option V) (m : Mem K V) (x : Addr) (b : BoundingBox K) : Prop :=
  (∃ par, m.get x = some ⟨par, none, none, b, val x⟩) ∧ (val x).isSome

/-- What `addLeafTo` and `insert` achieve: the memory holds the tree `T`, whose nodes are those of `t`,
the leaf, and new ones. -/
structure Added (val : Addr → Option V) (m m' : Mem K V) (t : ATree K) (lf : Addr) (T : RTree.Node K Addr) (t' : ATree K) : Prop where
  shape : t'.shape = T
  rep : Rep val m' none t'
  ptr : t'.ptr = t.ptr
  addrs : ∃ new, (∀ x ∈ new, m.get x = none) ∧ t'.addrs.Perm (new ++ lf :: t.addrs)
  nodup : t'.addrs.Nodup
  only : Only t'.addrs m m'

theorem addLeafTo_leaf (cfg : Cfg K C) {al : Alloc K V} (hal : Sound al) {val : Addr → Option V} {m : Mem K V}
    {a lf : Addr} {b lb : BoundingBox K} {f : AFrame K} {fs : List (AFrame K)} {T : RTree.Node K Addr}
    (hr : Rep val m none (azip (.leaf a b) (f :: fs))) (hnd : (azip (.leaf a b) (f :: fs)).addrs.Nodup)
    (hl : Loose val m lf lb) (hlf : lf ∉ (azip (.leaf a b) (f :: fs)).addrs)
    (hf : RTree.refitParent cfg (.node (b.combined lb) (.leaf b a) (.leaf lb lf)) f.shape (pathShape fs) = .ok T) :
    ∃ m' t', (∀ fuel, fs.length < fuel → addLeafTo cfg al fuel (some a) (some lf) m = .ok ((), m')) ∧
      Added val m m' (azip (.leaf a b) (f :: fs)) lf T t' := by
  obtain ⟨⟨lpar, hlc⟩, hlv⟩ := hl
  obtain ⟨⟨hac, hav⟩, hfc, hfo, hfp⟩ := (rep_azip _ _ _ _).1 hr
  have hmem := rep_mem hr
  have hfr := hal m
  obtain ⟨w, hw⟩ : ∃ w, al m = w := ⟨_, rfl⟩
  rw [hw] at hfr
  have pz := azip_addrs (.leaf a b) (f :: fs)
  have hwn : w ∉ (azip (.leaf a b) (f :: fs)).addrs := fun h => by
    have := hmem w h; rw [hfr] at this; simp at this
  have hlw : lf ≠ w := by rintro rfl; rw [hlc] at hfr; simp at hfr
  have hnd2 := pz.nodup_iff.1 hnd
  have hlf2 : lf ∉ _ := fun h => hlf (pz.mem_iff.2 h)
  have hwn2 : w ∉ _ := fun h => hwn (pz.mem_iff.2 h)
  simp only [ATree.addrs, pathAddrs_cons, List.cons_append, List.nil_append] at hnd2 hlf2 hwn2
  simp only [List.nodup_cons, List.mem_cons, List.mem_append, not_or] at hnd2 hlf2 hwn2
  obtain ⟨⟨naf, nao, nap⟩, ⟨nfo, nfp⟩, ndop⟩ := hnd2
  obtain ⟨nla, nlf, nlo, nlp⟩ := hlf2
  obtain ⟨nwa, nwf, nwo, nwp⟩ := hwn2
  obtain ⟨va, hva⟩ := Option.isSome_iff_exists.1 hav
  set cf : Cell K V := ⟨up fs, if f.onLeft then some a else f.other.ptr, if f.onLeft then f.other.ptr else some a, f.bounds, none⟩ with hcf
  have hfc' : m.get f.addr = some cf := hfc
  have hsd : decide (some a = cf.left) = f.onLeft := by
    rw [hcf]
    cases f.onLeft
    · have : some a ≠ f.other.ptr := fun h => nao (ptr_mem_addrs h.symm)
      simp [this]
    · simp
  set m1 := m.set w ⟨none, none, none, b.combined lb, none⟩ with hm1
  set m2 := (m1.set f.addr (cf.child f.onLeft (some w))).set w ⟨some f.addr, none, none, b.combined lb, none⟩ with hm2
  set m3 := (m2.set w ⟨some f.addr, some a, none, b.combined lb, none⟩).set a ⟨some w, none, none, b, val a⟩ with hm3
  set m4 := (m3.set w ⟨some f.addr, some a, some lf, b.combined lb, none⟩).set lf ⟨some w, none, none, lb, val lf⟩ with hm4
  have nsym : ∀ {x y : Addr}, ¬ x = y → ¬ y = x := fun h h' => h h'.symm
  have r1 : replaceBy (some a) (some w) m1 = .ok ((), m2) :=
    replaceBy_run (ca := ⟨some f.addr, none, none, b, val a⟩) (cp := cf) (cw := ⟨none, none, none, b.combined lb, none⟩)
      (by simp [hm1, get_set, nsym nwa, hac, up]) rfl (by simp [hm1, get_set, nsym nwf, hfc']) (by simp [hm1, get_set]) nwf hsd
  have r2 : setLeft (some w) (some a) m2 = .ok ((), m3) :=
    setLeft_run (cp := ⟨some f.addr, none, none, b.combined lb, none⟩) (cn := ⟨some f.addr, none, none, b, val a⟩)
      (by simp [hm2, get_set]) (by simp [hm2, hm1, get_set, nsym nwa, naf, hac, up]) (nsym nwa)
  have r3 : setRight (some w) (some lf) m3 = .ok ((), m4) :=
    setRight_run (cp := ⟨some f.addr, some a, none, b.combined lb, none⟩) (cn := ⟨lpar, none, none, lb, val lf⟩)
      (by simp [hm3, get_set, nwa]) (by simp [hm3, hm2, hm1, get_set, nla, hlw, nlf, hlc]) hlw
  have g4w : m4.get w = some ⟨some f.addr, some a, some lf, b.combined lb, none⟩ := by simp [hm4, get_set, nsym hlw]
  have g4a : m4.get a = some ⟨some w, none, none, b, val a⟩ := by simp [hm4, hm3, get_set, nsym nla, nsym nwa]
  have g4l : m4.get lf = some ⟨some w, none, none, lb, val lf⟩ := by simp [hm4, get_set]
  have g4f : m4.get f.addr = some (cf.child f.onLeft (some w)) := by
    simp [hm4, hm3, hm2, get_set, nsym nlf, nsym nwf, nsym naf]
  have g4 : ∀ x, x ≠ w → x ≠ a → x ≠ lf → x ≠ f.addr → m4.get x = m.get x := by
    intro x x1 x2 x3 x4
    simp [hm4, hm3, hm2, hm1, get_set, x1, x2, x3, x4]
  have run : ∀ fuel, addLeafTo cfg al fuel (some a) (some lf) m = refit cfg fuel (some f.addr) m4 := by
    intro fuel
    simp only [addLeafTo, bind_run, isLeaf, load_some hac, Outcome.bind_ok, pure_run, hva, Option.isSome_some, if_true,
      load_some hlc, makeNode_run (hal m), hw, ← hm1, r1, r2, r3, load_some g4w]
  have hr4 : Rep val m4 none (azip (.node w (b.combined lb) (.leaf a b) (.leaf lf lb)) (f :: fs)) := by
    rw [rep_azip]
    refine ⟨⟨g4w, ⟨g4a, hav⟩, g4l, hlv⟩, ?_, rep_congr ?_ hfo, repPath_congr ?_ hfp⟩
    · rw [g4f, hcf]; cases f.onLeft <;> rfl
    · intro x hx
      refine g4 x ?_ ?_ ?_ ?_ <;> rintro rfl
      · exact nwo hx
      · exact nao hx
      · exact nlo hx
      · exact nfo hx
    · intro x hx
      refine g4 x ?_ ?_ ?_ ?_ <;> rintro rfl
      · exact nwp hx
      · exact nap hx
      · exact nlp hx
      · exact nfp hx
  have pe : (azip (.node w (b.combined lb) (.leaf a b) (.leaf lf lb)) (f :: fs)).addrs.Perm
      ([w] ++ lf :: (azip (.leaf a b) (f :: fs)).addrs) := by
    refine (azip_addrs _ _).trans ?_
    simp only [ATree.addrs, List.cons_append, List.nil_append]
    refine List.Perm.cons _ ?_
    refine (List.Perm.swap _ _ _).trans (List.Perm.cons _ ?_)
    exact pz.symm
  have hnd4 : (azip (.node w (b.combined lb) (.leaf a b) (.leaf lf lb)) (f :: fs)).addrs.Nodup := by
    rw [pe.nodup_iff]
    simp only [List.cons_append, List.nil_append, List.nodup_cons, List.mem_cons, not_or]
    exact ⟨⟨nsym hlw, hwn⟩, hlf, hnd⟩
  obtain ⟨m', t', q1, q2, q3, q4, q5, q6⟩ := refitParent_spec_heap cfg hr4 hnd4 hf
  refine ⟨m', t', fun fuel hfuel => by rw [run]; exact q1 fuel hfuel, ⟨q2, q3, ?_, ⟨[w], ?_, q4.trans pe⟩, q4.nodup_iff.2 hnd4, ?_⟩⟩
  · rw [q5]; simp only [azip]; exact azip_ptr fs (by rw [close_ptr, close_ptr])
  · intro x hx; obtain rfl : x = w := by simpa using hx
    exact hfr
  · refine Only.trans (m₂ := m4) ⟨rfl, fun x hx => ?_⟩ (q6.mono fun x hx => q4.mem_iff.2 hx)
    have hx' : ¬ (x ∈ _) := fun h => hx ((q4.trans pe).mem_iff.2 h)
    simp only [List.cons_append, List.nil_append, List.mem_cons, not_or] at hx'
    refine g4 x hx'.1 ?_ hx'.2.1 ?_ <;> rintro rfl
    · exact hx'.2.2 (pz.mem_iff.2 (by simp [ATree.addrs]))
    · exact hx'.2.2 (pz.mem_iff.2 (by simp [pathAddrs, AFrame.addrs]))

/-- The last steps of `addLeafTo`: the memory holds the enlarged tree, which is then refitted. -/
theorem added_of_refit (cfg : Cfg K C) {val : Addr → Option V} {m m1 : Mem K V} {n : ATree K} {a lf : Addr}
    {b : BoundingBox K} {l r : ATree K} {path : List (AFrame K)} {T : RTree.Node K Addr} {new : List Addr}
    {prog : Nat → Outcome (Unit × Mem K V)} (run : ∀ fuel, prog fuel = refit cfg fuel (some a) m1)
    (hr1 : Rep val m1 none (azip (.node a b l r) path)) (hptr : n.ptr = some a)
    (hnew : ∀ x ∈ new, m.get x = none)
    (pe : (ATree.node a b l r).addrs.Perm (new ++ lf :: n.addrs)) (hnd : (new ++ lf :: (azip n path).addrs).Nodup)
    (ho : Only (ATree.node a b l r).addrs m m1)
    (hf : RTree.refit cfg l.shape r.shape b (pathShape path) = .ok T) :
    ∃ m' t', (∀ fuel, path.length < fuel → prog fuel = .ok ((), m')) ∧ Added val m m' (azip n path) lf T t' := by
  have pe' : (azip (.node a b l r) path).addrs.Perm (new ++ lf :: (azip n path).addrs) := by
    refine (azip_addrs _ _).trans ((pe.append_right _).trans ?_)
    rw [List.append_assoc, List.cons_append]
    exact List.Perm.append_left _ (List.Perm.cons _ (azip_addrs n path).symm)
  have hnd1 := pe'.nodup_iff.2 hnd
  obtain ⟨m', t', q1, q2, q3, q4, q5, q6⟩ := refit_spec_heap cfg hr1 hnd1 hf
  refine ⟨m', t', fun fuel hfuel => by rw [run]; exact q1 fuel hfuel, ⟨q2, q3, ?_, ⟨new, hnew, q4.trans pe'⟩, q4.nodup_iff.2 hnd1, ?_⟩⟩
  · rw [q5]; exact azip_ptr path (by rw [hptr]; rfl)
  · refine Only.trans (ho.mono fun x hx => q4.mem_iff.2 ?_) (q6.mono fun x hx => q4.mem_iff.2 hx)
    exact (azip_addrs _ _).mem_iff.2 (List.mem_append_left _ hx)

theorem addLeafTo_node (cfg : Cfg K C) {al : Alloc K V} (hal : Sound al) {val : Addr → Option V} {m : Mem K V}
    {a lf : Addr} {b lb : BoundingBox K} {l r : ATree K} {path : List (AFrame K)} {T : RTree.Node K Addr}
    (hr : Rep val m none (azip (.node a b l r) path)) (hnd : (azip (.node a b l r) path).addrs.Nodup)
    (hl : Loose val m lf lb) (hlf : lf ∉ (azip (.node a b l r) path).addrs)
    (hf : RTree.addLeafTo cfg (pathShape path) (.node b l.shape r.shape) lb lf = .ok T) :
    ∃ m' t', (∀ fuel, path.length < fuel → addLeafTo cfg al fuel (some a) (some lf) m = .ok ((), m')) ∧
      Added val m m' (azip (.node a b l r) path) lf T t' := by
  obtain ⟨⟨lpar, hlc⟩, hlv⟩ := hl
  obtain ⟨⟨hac, hrl, hrr⟩, hrp⟩ := (rep_azip _ _ _ _).1 hr
  have hmem := rep_mem hr
  have pz := azip_addrs (.node a b l r) path
  have hd := disjoint_azip hnd
  have hdt := hd.1
  have hlf2 : lf ∉ _ := fun h => hlf (pz.mem_iff.2 h)
  simp only [ATree.addrs, List.nodup_cons, List.mem_append, not_or] at hdt
  simp only [ATree.addrs, List.cons_append, List.mem_cons, List.mem_append, not_or] at hlf2
  obtain ⟨nla, ⟨nll, nlr⟩, nlp⟩ := hlf2
  obtain ⟨⟨nal, nar⟩, ndlr⟩ := hdt
  have nap : a ∉ pathAddrs path := hd.2.2 a (by simp [ATree.addrs])
  have nsym : ∀ {x y : Addr}, ¬ x = y → ¬ y = x := fun h h' => h h'.symm
  have ndm : (lf :: (azip (.node a b l r) path).addrs).Nodup := List.nodup_cons.2 ⟨hlf, hnd⟩
  by_cases hln : l.ptr = none
  · -- a free place on the left
    have el : l = .null := by cases l <;> simp_all [ATree.ptr]
    subst el
    set m1 := (m.set a ⟨up path, some lf, r.ptr, b, none⟩).set lf ⟨some a, none, none, lb, val lf⟩ with hm1
    have r1 : setLeft (some a) (some lf) m = .ok ((), m1) := setLeft_run hac hlc nla
    have g1 : ∀ x, x ≠ a → x ≠ lf → m1.get x = m.get x := by
      intro x x1 x2; simp [hm1, get_set, x1, x2]
    refine added_of_refit cfg (new := []) (l := .leaf lf lb) (r := r) (b := b) (m1 := m1) (fun fuel => ?_) ?_ rfl (by simp) ?_ ndm ?_ hf
    · simp only [addLeafTo, bind_run, isLeaf, load_some hac, Outcome.bind_ok, pure_run, Option.isSome_none, Bool.false_eq_true,
        if_false, ATree.ptr, Option.isNone_none, if_true, r1]
    · rw [rep_azip]
      refine ⟨⟨by simp [hm1, get_set, nsym nla, ATree.ptr], ⟨by simp [hm1, get_set], hlv⟩, rep_congr ?_ hrr⟩, repPath_congr ?_ hrp⟩
      · intro x hx; exact g1 x (by rintro rfl; exact nar hx) (by rintro rfl; exact nlr hx)
      · intro x hx; exact g1 x (by rintro rfl; exact nap hx) (by rintro rfl; exact nlp hx)
    · simp only [ATree.addrs, List.nil_append, List.cons_append]
      exact List.Perm.swap _ _ _
    · refine ⟨rfl, fun x hx => g1 x ?_ ?_⟩ <;> rintro rfl <;> simp [ATree.addrs] at hx
  · obtain ⟨x, hx⟩ := Option.ne_none_iff_exists'.1 hln
    have esl : l.shape ≠ .null := shape_ne_null hx
    by_cases hrn : r.ptr = none
    · -- a free place on the right
      have er : r = .null := by cases r <;> simp_all [ATree.ptr]
      subst er
      set m1 := (m.set a ⟨up path, l.ptr, some lf, b, none⟩).set lf ⟨some a, none, none, lb, val lf⟩ with hm1
      have r1 : setRight (some a) (some lf) m = .ok ((), m1) := setRight_run hac hlc nla
      have g1 : ∀ x, x ≠ a → x ≠ lf → m1.get x = m.get x := by
        intro x x1 x2; simp [hm1, get_set, x1, x2]
      have hf' : RTree.refit cfg l.shape (.leaf lb lf) b (pathShape path) = .ok T := by
        cases l <;> first | exact absurd rfl esl | exact hf
      refine added_of_refit cfg (new := []) (l := l) (r := .leaf lf lb) (b := b) (m1 := m1) (fun fuel => ?_) ?_ rfl (by simp) ?_ ndm ?_ hf'
      · simp only [addLeafTo, bind_run, isLeaf, load_some hac, Outcome.bind_ok, pure_run, Option.isSome_none, Bool.false_eq_true,
          if_false, hx, Option.isNone_some, hrn, Option.isNone_none, if_true, r1]
      · rw [rep_azip]
        refine ⟨⟨by simp [hm1, get_set, nsym nla, ATree.ptr], rep_congr ?_ hrl, ⟨by simp [hm1, get_set], hlv⟩⟩, repPath_congr ?_ hrp⟩
        · intro x hx; exact g1 x (by rintro rfl; exact nal hx) (by rintro rfl; exact nll hx)
        · intro x hx; exact g1 x (by rintro rfl; exact nap hx) (by rintro rfl; exact nlp hx)
      · simp only [ATree.addrs, List.nil_append, List.append_nil]
        exact (List.Perm.cons _ List.perm_append_comm).trans (List.Perm.swap _ _ _)
      · refine ⟨rfl, fun x hx => g1 x ?_ ?_⟩ <;> rintro rfl <;> simp [ATree.addrs] at hx
    · obtain ⟨y, hy⟩ := Option.ne_none_iff_exists'.1 hrn
      have esr : r.shape ≠ .null := shape_ne_null hy
      have hfr := hal m
      obtain ⟨w, hw⟩ : ∃ w, al m = w := ⟨_, rfl⟩
      rw [hw] at hfr
      have hwn : w ∉ (azip (.node a b l r) path).addrs := fun h => by
        have := hmem w h; rw [hfr] at this; simp at this
      have hlw : ¬ lf = w := by rintro rfl; rw [hlc] at hfr; simp at hfr
      have hwn2 : w ∉ _ := fun h => hwn (pz.mem_iff.2 h)
      simp only [ATree.addrs, List.cons_append, List.mem_cons, List.mem_append, not_or] at hwn2
      obtain ⟨nwa, ⟨nwl, nwr⟩, nwp⟩ := hwn2
      have xl := ptr_mem_addrs hx
      have yr := ptr_mem_addrs hy
      rw [List.nodup_append] at ndlr
      obtain ⟨ndl, ndr, dlr⟩ := ndlr
      obtain ⟨cx, hcx, hcxp, -⟩ := bounds_of_ptr hrl hx
      obtain ⟨cy, hcy, hcyp, -⟩ := bounds_of_ptr hrr hy
      have xw : ¬ x = w := by rintro rfl; exact nwl xl
      have yw : ¬ y = w := by rintro rfl; exact nwr yr
      have xa : ¬ x = a := by rintro rfl; exact nal xl
      have ya : ¬ y = a := by rintro rfl; exact nar yr
      have xy : ¬ x = y := dlr x xl y yr
      have lx : ¬ lf = x := by rintro rfl; exact nll xl
      have ly : ¬ lf = y := by rintro rfl; exact nlr yr
      rw [hx, hy] at hac
      set m1 := m.set w ⟨none, none, none, b, none⟩ with hm1
      set m2 := (m1.set w ⟨none, some x, none, b, none⟩).set x { cx with parent := some w } with hm2
      set m3 := (m2.set w ⟨none, some x, some y, b, none⟩).set y { cy with parent := some w } with hm3
      set m4 := (m3.set a ⟨up path, some w, some y, b, none⟩).set w ⟨some a, some x, some y, b, none⟩ with hm4
      set m5 := (m4.set a ⟨up path, some w, some lf, b, none⟩).set lf ⟨some a, none, none, lb, val lf⟩ with hm5
      have r1 : setLeft (some w) (some x) m1 = .ok ((), m2) :=
        setLeft_run (cp := ⟨none, none, none, b, none⟩) (cn := cx) (by simp [hm1, get_set]) (by simp [hm1, get_set, xw, hcx]) xw
      have r2 : setRight (some w) (some y) m2 = .ok ((), m3) :=
        setRight_run (cp := ⟨none, some x, none, b, none⟩) (cn := cy) (by simp [hm2, get_set, nsym xw])
          (by simp [hm2, hm1, get_set, yw, nsym xy, hcy]) yw
      have r3 : setLeft (some a) (some w) m3 = .ok ((), m4) :=
        setLeft_run (cp := ⟨up path, some x, some y, b, none⟩) (cn := ⟨none, some x, some y, b, none⟩)
          (by simp [hm3, hm2, hm1, get_set, nsym xa, nsym ya, nsym nwa, hac]) (by simp [hm3, get_set, nsym yw]) nwa
      have r4 : setRight (some a) (some lf) m4 = .ok ((), m5) :=
        setRight_run (cp := ⟨up path, some w, some y, b, none⟩) (cn := ⟨lpar, none, none, lb, val lf⟩)
          (by simp [hm4, get_set, nsym nwa]) (by simp [hm4, hm3, hm2, hm1, get_set, hlw, nla, lx, ly, hlc]) nla
      have g5 : ∀ z, z ≠ a → z ≠ lf → z ≠ w → z ≠ x → z ≠ y → m5.get z = m.get z := by
        intro z z1 z2 z3 z4 z5; simp [hm5, hm4, hm3, hm2, hm1, get_set, z1, z2, z3, z4, z5]
      have hf' : RTree.refit cfg (.node b l.shape r.shape) (.leaf lb lf) b (pathShape path) = .ok T := by
        cases l <;> cases r <;> first | exact absurd rfl esl | exact absurd rfl esr | exact hf
      refine added_of_refit cfg (new := [w]) (l := .node w b l r) (r := .leaf lf lb) (b := b) (m1 := m5) (fun fuel => ?_) ?_ rfl ?_ ?_ ?_ ?_ hf'
      · simp only [addLeafTo, bind_run, isLeaf, load_some hac, Outcome.bind_ok, pure_run, Option.isSome_none, Bool.false_eq_true,
          if_false, Option.isNone_some, makeNode_run (hal m), hw, ← hm1, r1, r2, r3, r4]
      · rw [rep_azip]
        refine ⟨⟨by simp [hm5, get_set, nsym nla, ATree.ptr], ⟨?_, ?_, ?_⟩, ⟨by simp [hm5, get_set], hlv⟩⟩, repPath_congr ?_ hrp⟩
        · rw [hx, hy]; simp [hm5, hm4, get_set, nsym hlw, nwa]
        · refine rep_reparent hrl hx ndl ?_ fun z hz hzx => g5 z ?_ ?_ ?_ hzx ?_
          · rw [hcx]; simp [hm5, hm4, hm3, hm2, get_set, nsym lx, xa, xw, xy]
          all_goals rintro rfl
          · exact nal hz
          · exact nll hz
          · exact nwl hz
          · exact dlr z hz z yr rfl
        · refine rep_reparent hrr hy ndr ?_ fun z hz hzy => g5 z ?_ ?_ ?_ ?_ hzy
          · rw [hcy]; simp [hm5, hm4, hm3, hm2, get_set, nsym ly, ya, yw, nsym xy]
          all_goals rintro rfl
          · exact nar hz
          · exact nlr hz
          · exact nwr hz
          · exact dlr z xl z hz rfl
        · intro z hz
          refine g5 z ?_ ?_ ?_ ?_ ?_ <;> rintro rfl
          · exact nap hz
          · exact nlp hz
          · exact nwp hz
          · exact hd.2.2 z (by simp [ATree.addrs, xl]) hz
          · exact hd.2.2 z (by simp [ATree.addrs, yr]) hz
      · intro z hz; obtain rfl : z = w := by simpa using hz
        exact hfr
      · simp only [ATree.addrs, List.cons_append, List.nil_append]
        refine (List.Perm.swap _ _ _).trans (List.Perm.cons _ ?_)
        refine (List.Perm.cons _ List.perm_append_comm).trans ?_
        simp only [List.cons_append, List.nil_append]
        exact List.Perm.swap _ _ _
      · simp only [List.cons_append, List.nil_append, List.nodup_cons, List.mem_cons, not_or]
        exact ⟨⟨nsym hlw, hwn⟩, hlf, hnd⟩
      · refine ⟨rfl, fun z hz => ?_⟩
        simp only [ATree.addrs, List.cons_append, List.mem_cons, List.mem_append, not_or, List.not_mem_nil, or_false, not_false_eq_true, and_true] at hz
        refine g5 z ?_ ?_ ?_ ?_ ?_ <;> rintro rfl
        · exact hz.1 rfl
        · exact hz.2.2.2 rfl
        · exact hz.2.1 rfl
        · exact hz.2.2.1.1 xl
        · exact hz.2.2.1.2 yr

/-- `addLeafTo` where the search ended. -/
theorem addLeafTo_spec_heap (cfg : Cfg K C) {al : Alloc K V} (hal : Sound al) {val : Addr → Option V} {m : Mem K V}
    {lf : Addr} {lb : BoundingBox K} {n : ATree K} {path : List (AFrame K)} {T : RTree.Node K Addr}
    (hr : Rep val m none (azip n path)) (hnd : (azip n path).addrs.Nodup)
    (hl : Loose val m lf lb) (hlf : lf ∉ (azip n path).addrs)
    (hf : RTree.addLeafTo cfg (pathShape path) n.shape lb lf = .ok T) :
    ∃ m' t', (∀ fuel, path.length < fuel → addLeafTo cfg al fuel n.ptr (some lf) m = .ok ((), m')) ∧
      Added val m m' (azip n path) lf T t' := by
  cases n with
  | null => simp [ATree.shape, RTree.addLeafTo] at hf
  | leaf a b =>
    cases path with
    | nil => simp [ATree.shape, RTree.addLeafTo, pathShape] at hf
    | cons f fs =>
      obtain ⟨m', t', h1, h2⟩ := addLeafTo_leaf cfg hal hr hnd hl hlf hf
      exact ⟨m', t', fun fuel hfuel => h1 fuel (by simp only [List.length_cons] at hfuel; omega), h2⟩
  | node a b l r => exact addLeafTo_node cfg hal hr hnd hl hlf hf

end Simu.RTreeHeap
