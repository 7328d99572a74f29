import Verif.Lemmas.RTreeHeapIter
/-
`updateAndCollide` on the memory of an R-tree.
-/
set_option linter.unusedSectionVars false
set_option linter.unusedSimpArgs false
namespace Simu.RTreeHeap
open Simu.RTree (Cfg PQ Entry OverlapList)
variable {K C V X Y : Type} [Field K] [LinearOrder K]

/-! ### The new bounds -/

/-- The tree whose leaves have new bounds; those of the internal nodes are not touched yet. -/
def ATree.rebound (upd : Addr → BoundingBox K → BoundingBox K) : ATree K → ATree K
  | .null => .null
  | .leaf a b => .leaf a (upd a b)
  | .node a b l r => .node a b (l.rebound upd) (r.rebound upd)

/-- The elements with their new bounds. -/
def newBox (upd : Addr → BoundingBox K → BoundingBox K) (e : Entry K Addr) : Entry K Addr := ⟨e.id, upd e.id e.bounds⟩

theorem rebound_ptr (upd : Addr → BoundingBox K → BoundingBox K) (t : ATree K) : (t.rebound upd).ptr = t.ptr := by
  cases t <;> rfl

theorem rebound_addrs (upd : Addr → BoundingBox K → BoundingBox K) (t : ATree K) : (t.rebound upd).addrs = t.addrs := by
  induction t with
  | null => rfl
  | leaf a b => rfl
  | node a b l r ihl ihr => simp [ATree.rebound, ATree.addrs, ihl, ihr]

theorem rebound_leaves (upd : Addr → BoundingBox K → BoundingBox K) (t : ATree K) : (t.rebound upd).leaves = t.leaves := by
  induction t with
  | null => rfl
  | leaf a b => rfl
  | node a b l r ihl ihr => simp [ATree.rebound, ATree.leaves, ihl, ihr]

theorem rebound_entries (upd : Addr → BoundingBox K → BoundingBox K) (t : ATree K) :
    (t.rebound upd).shape.entries = t.shape.entries.map (newBox upd) := by
  induction t with
  | null => rfl
  | leaf a b => rfl
  | node a b l r ihl ihr => simp [ATree.rebound, ATree.shape, RTree.Node.entries, ihl, ihr]

theorem leaves_entries (t : ATree K) : t.leaves = t.shape.entries.map Entry.id := by
  induction t with
  | null => rfl
  | leaf a b => rfl
  | node a b l r ihl ihr => simp [ATree.leaves, ATree.shape, RTree.Node.entries, ihl, ihr]

theorem gather_append (upd : Addr → BoundingBox K → BoundingBox K) {ps qs : List Ptr} {m m1 m2 : Mem K V} {es fs : List (Entry K Addr)}
    (h1 : gather upd ps m = .ok (es, m1)) (h2 : gather upd qs m1 = .ok (fs, m2)) : gather upd (ps ++ qs) m = .ok (es ++ fs, m2) := by
  induction ps generalizing m es with
  | nil =>
    simp only [gather, pure_run, Outcome.ok.injEq, Prod.mk.injEq] at h1
    obtain ⟨rfl, rfl⟩ := h1
    exact h2
  | cons p ps ih =>
    cases p with
    | none =>
      simp only [gather, bind_run] at h1
      obtain ⟨_, _, h⟩ := RTree.Outcome.bind_eq_ok h1
      exact absurd h (by simp)
    | some a =>
      simp only [List.cons_append, gather, bind_run] at h1 ⊢
      obtain ⟨⟨c, m3⟩, h3, h4⟩ := RTree.Outcome.bind_eq_ok h1
      rw [h3]
      simp only [Outcome.bind_ok] at h4 ⊢
      obtain ⟨⟨u, m4⟩, h5, h6⟩ := RTree.Outcome.bind_eq_ok h4
      rw [h5]
      simp only [Outcome.bind_ok] at h6 ⊢
      obtain ⟨⟨es', m5⟩, h7, h8⟩ := RTree.Outcome.bind_eq_ok h6
      simp only [pure_run, Outcome.ok.injEq, Prod.mk.injEq] at h8
      obtain ⟨rfl, rfl⟩ := h8
      rw [ih h7]
      rfl

theorem gather_tree (upd : Addr → BoundingBox K → BoundingBox K) {val : Addr → Option V} {m : Mem K V} {par : Ptr} {t : ATree K}
    (hr : Rep val m par t) (hnd : t.addrs.Nodup) :
    ∃ m', gather upd (t.leaves.map some) m = .ok (t.shape.entries.map (newBox upd), m') ∧ Rep val m' par (t.rebound upd) ∧ Only t.addrs m m' := by
  induction t generalizing par m with
  | null => exact ⟨m, rfl, trivial, Only.refl _ _⟩
  | leaf a b =>
    refine ⟨m.set a ⟨par, none, none, upd a b, val a⟩, ?_, ⟨by rw [get_set, if_pos rfl], hr.2⟩, rfl, fun z hz => ?_⟩
    · simp only [ATree.leaves, List.map_cons, List.map_nil, gather, bind_run, load_some hr.1, Outcome.bind_ok, modify_some hr.1, pure_run]
      rfl
    · rw [get_set, if_neg (by simpa [ATree.addrs] using hz)]
  | node a b l r ihl ihr =>
    simp only [ATree.addrs, List.nodup_cons, List.mem_append, not_or] at hnd
    obtain ⟨⟨nal, nar⟩, hnd⟩ := hnd
    obtain ⟨ndl, ndr, ndd⟩ := List.nodup_append.1 hnd
    obtain ⟨hac, hl, hrr⟩ := hr
    obtain ⟨m1, l1, l2, l3⟩ := ihl hl ndl
    have hr1 : Rep val m1 (some a) r := rep_congr (fun z hz => l3.2 z (fun h => ndd z h z hz rfl)) hrr
    obtain ⟨m2, r1, r2, r3⟩ := ihr hr1 ndr
    refine ⟨m2, ?_, ⟨?_, ?_, r2⟩, ?_⟩
    · simp only [ATree.leaves, List.map_append, ATree.shape, RTree.Node.entries]
      exact gather_append upd l1 r1
    · rw [r3.2 a nar, l3.2 a nal, hac, rebound_ptr, rebound_ptr]
    · refine rep_congr (fun z hz => r3.2 z (fun h => ?_)) l2
      rw [rebound_addrs] at hz
      exact ndd z hz z h rfl
    · exact (l3.mono (by intro x hx; simp [ATree.addrs, hx])).trans (r3.mono (by intro x hx; simp [ATree.addrs, hx]))

/-! ### Detaching the leaves -/

/-- The internal nodes. -/
def ATree.bare : ATree K → ATree K
  | .null => .null
  | .leaf _ _ => .null
  | .node a b l r => .node a b l.bare r.bare

theorem addrs_split (t : ATree K) : t.addrs.Perm (t.bare.addrs ++ t.leaves) := by
  induction t with
  | null => exact List.Perm.refl _
  | leaf a b => exact List.Perm.refl _
  | node a b l r ihl ihr =>
    simp only [ATree.addrs, ATree.bare, ATree.leaves, List.cons_append]
    refine List.Perm.cons _ ((ihl.append ihr).trans ?_)
    rw [List.append_assoc, List.append_assoc]
    refine List.Perm.append_left _ ?_
    rw [← List.append_assoc, ← List.append_assoc]
    exact List.Perm.append_right _ List.perm_append_comm

theorem bare_sub {t : ATree K} {x : Addr} (h : x ∈ t.bare.addrs) : x ∈ t.addrs := (addrs_split t).mem_iff.2 (by simp [h])

theorem bare_ptr {t : ATree K} {x : Addr} (h : t.bare.ptr = some x) : t.ptr = some x := by
  cases t <;> simp_all [ATree.bare, ATree.ptr]

theorem detach_append {ns ms : List (Entry K Addr)} {m m1 m2 : Mem K V}
    (h1 : detach ns m = .ok ((), m1)) (h2 : detach ms m1 = .ok ((), m2)) : detach (ns ++ ms) m = .ok ((), m2) := by
  induction ns generalizing m with
  | nil =>
    simp only [detach, pure_run, Outcome.ok.injEq, Prod.mk.injEq, true_and] at h1
    subst h1
    exact h2
  | cons n ns ih =>
    simp only [List.cons_append, detach, bind_run] at h1 ⊢
    obtain ⟨⟨c, m3⟩, h3, h4⟩ := RTree.Outcome.bind_eq_ok h1
    rw [h3]
    simp only [Outcome.bind_ok] at h4 ⊢
    obtain ⟨⟨u, m4⟩, h5, h6⟩ := RTree.Outcome.bind_eq_ok h4
    rw [h5]
    simp only [Outcome.bind_ok] at h6 ⊢
    exact ih h6

/-- Detaching the leaves of a subtree that hangs on one side of `p`. -/
theorem detach_sub {val : Addr → Option V} {m : Mem K V} {n : ATree K} {p : Addr} {cp : Cell K V} {s : Bool}
    (hr : Rep val m (some p) n) (hnd : n.addrs.Nodup) (hp : m.get p = some cp) (hpn : p ∉ n.addrs)
    (hslot : cp.child s n.ptr = cp) (hside : ∀ x b, n = .leaf x b → decide (some x = cp.left) = s) :
    ∃ m', detach n.shape.entries m = .ok ((), m') ∧ m'.get p = some (cp.child s n.bare.ptr) ∧ Rep val m' (some p) n.bare ∧
      Only (p :: n.bare.addrs) m m' := by
  induction n generalizing p cp s m with
  | null => exact ⟨m, rfl, by show _ = some (cp.child s none); rw [show cp.child s none = cp from hslot, hp], trivial, Only.refl _ _⟩
  | leaf x b =>
    refine ⟨m.set p (cp.child s none), ?_, by rw [get_set, if_pos rfl]; rfl, trivial, rfl, fun z hz => ?_⟩
    · simp only [ATree.shape, RTree.Node.entries, detach, bind_run, handle_run hr.1 rfl hp (hside x b rfl), Outcome.bind_ok, write_run hp, pure_run]
    · rw [get_set, if_neg (by simp at hz; exact hz.1)]
  | node a b l r ihl ihr =>
    simp only [ATree.addrs, List.nodup_cons, List.mem_append, not_or] at hnd
    obtain ⟨⟨nal, nar⟩, hnd⟩ := hnd
    obtain ⟨ndl, ndr, ndd⟩ := List.nodup_append.1 hnd
    simp only [ATree.addrs, List.mem_cons, List.mem_append, not_or] at hpn
    obtain ⟨npa, npl, npr⟩ := hpn
    obtain ⟨hac, hl, hrr⟩ := hr
    obtain ⟨m1, l1, l2, l3, l4⟩ := ihl (s := true) hl ndl hac nal rfl (by rintro x c rfl; simp [ATree.ptr])
    have hr1 : Rep val m1 (some a) r := rep_congr (fun z hz => l4.2 z (by
      simp only [List.mem_cons, not_or]
      exact ⟨by rintro rfl; exact nar hz, fun h => ndd z (bare_sub h) z hz rfl⟩)) hrr
    obtain ⟨m2, r1, r2, r3, r4⟩ := ihr (s := false) hr1 ndr l2 nar rfl (by
      rintro x c rfl
      have : ¬ (some x = l.bare.ptr) := fun h => ndd x (bare_sub (ptr_mem_addrs h.symm)) x (by simp [ATree.addrs]) rfl
      simp [Cell.child, this])
    have hpm : m2.get p = some cp := by
      rw [r4.2 p (by simp only [List.mem_cons, not_or]; exact ⟨npa, fun h => npr (bare_sub h)⟩),
        l4.2 p (by simp only [List.mem_cons, not_or]; exact ⟨npa, fun h => npl (bare_sub h)⟩), hp]
    refine ⟨m2, ?_, ?_, ⟨?_, ?_, r3⟩, ?_⟩
    · simp only [ATree.shape, RTree.Node.entries]
      exact detach_append l1 r1
    · rw [hpm]
      show some cp = some (cp.child s (some a))
      rw [show cp.child s (some a) = cp from hslot]
    · rw [r2]; rfl
    · refine rep_congr (fun z hz => r4.2 z ?_) l3
      simp only [List.mem_cons, not_or]
      exact ⟨by rintro rfl; exact nal (bare_sub hz), fun h => ndd z (bare_sub hz) z (bare_sub h) rfl⟩
    · refine (l4.mono ?_).trans (r4.mono ?_)
      · intro x hx; simp only [ATree.bare, ATree.addrs, List.mem_cons, List.mem_append] at hx ⊢; tauto
      · intro x hx; simp only [ATree.bare, ATree.addrs, List.mem_cons, List.mem_append] at hx ⊢; tauto

theorem detach_root {val : Addr → Option V} {m : Mem K V} {a : Addr} {b : BoundingBox K} {l r : ATree K}
    (hr : Rep val m none (.node a b l r)) (hnd : (ATree.node a b l r).addrs.Nodup) :
    ∃ m', detach (ATree.node a b l r).shape.entries m = .ok ((), m') ∧ Rep val m' none (ATree.node a b l r).bare ∧
      Only (ATree.node a b l r).bare.addrs m m' := by
  simp only [ATree.addrs, List.nodup_cons, List.mem_append, not_or] at hnd
  obtain ⟨⟨nal, nar⟩, hnd⟩ := hnd
  obtain ⟨ndl, ndr, ndd⟩ := List.nodup_append.1 hnd
  obtain ⟨hac, hl, hrr⟩ := hr
  obtain ⟨m1, l1, l2, l3, l4⟩ := detach_sub (s := true) hl ndl hac nal rfl (by rintro x c rfl; simp [ATree.ptr])
  have hr1 : Rep val m1 (some a) r := rep_congr (fun z hz => l4.2 z (by
    simp only [List.mem_cons, not_or]
    exact ⟨by rintro rfl; exact nar hz, fun h => ndd z (bare_sub h) z hz rfl⟩)) hrr
  obtain ⟨m2, r1, r2, r3, r4⟩ := detach_sub (s := false) hr1 ndr l2 nar rfl (by
    rintro x c rfl
    have : ¬ (some x = l.bare.ptr) := fun h => ndd x (bare_sub (ptr_mem_addrs h.symm)) x (by simp [ATree.addrs]) rfl
    simp [Cell.child, this])
  refine ⟨m2, ?_, ⟨?_, ?_, r3⟩, ?_⟩
  · simp only [ATree.shape, RTree.Node.entries]
    exact detach_append l1 r1
  · rw [r2]; rfl
  · refine rep_congr (fun z hz => r4.2 z ?_) l3
    simp only [List.mem_cons, not_or]
    exact ⟨by rintro rfl; exact nal (bare_sub hz), fun h => ndd z (bare_sub hz) z (bare_sub h) rfl⟩
  · refine (l4.mono ?_).trans (r4.mono ?_)
    · intro x hx; simp only [ATree.bare, ATree.addrs, List.mem_cons, List.mem_append] at hx ⊢; tauto
    · intro x hx; simp only [ATree.bare, ATree.addrs, List.mem_cons, List.mem_append] at hx ⊢; tauto

/-! ### The bin -/

/-- A node ready to be used again. -/
def Clean (m : Mem K V) (a : Addr) : Prop := ∃ b, m.get a = some ⟨none, none, none, b, none⟩

/-- A tree of internal nodes. -/
def Bare : ATree K → Prop
  | .null => True
  | .leaf _ _ => False
  | .node _ _ l r => Bare l ∧ Bare r

theorem bare_bare (t : ATree K) : Bare t.bare := by
  induction t with
  | null => trivial
  | leaf a b => trivial
  | node a b l r ihl ihr => exact ⟨ihl, ihr⟩

/-- The order in which nodes are put into the bin, the last one first. -/
def ATree.post : ATree K → List Addr
  | .null => []
  | .leaf a _ => [a]
  | .node a _ l r => a :: (r.post ++ l.post)

theorem post_perm (t : ATree K) : t.post.Perm t.addrs := by
  induction t with
  | null => exact List.Perm.refl _
  | leaf a b => exact List.Perm.refl _
  | node a b l r ihl ihr => exact List.Perm.cons _ ((ihr.append ihl).trans List.perm_append_comm)

/-- `recycleSubTree` for a child pointer. -/
def recycleChild (fuel : Nat) (p : Ptr) (bin : List Addr) : Prog K V (List Addr) :=
  match p with
  | none => pure bin
  | some l => recycleSubTree fuel l bin

theorem recycle_step (fuel : Nat) (a : Addr) (bin : List Addr) : (recycleSubTree (fuel + 1) a bin : Prog K V (List Addr)) = do
    let bin ← recycleChild fuel (← load (some a)).left bin
    let bin ← recycleChild fuel (← load (some a)).right bin
    modify (some a) fun c => { c with parent := none, left := none, right := none }
    return a :: bin := rfl

theorem recycle_heap {val : Addr → Option V} {m : Mem K V} {par : Ptr} {t : ATree K} (hr : Rep val m par t) (hnd : t.addrs.Nodup) (hb : Bare t) :
    ∃ m', (∀ fuel bin, t.count < fuel → recycleChild fuel t.ptr bin m = .ok (t.post ++ bin, m')) ∧ (∀ a ∈ t.addrs, Clean m' a) ∧ Only t.addrs m m' := by
  induction t generalizing par m with
  | null => exact ⟨m, fun fuel bin _ => rfl, by simp [ATree.addrs], Only.refl _ _⟩
  | leaf a b => exact hb.elim
  | node a b l r ihl ihr =>
    simp only [ATree.addrs, List.nodup_cons, List.mem_append, not_or] at hnd
    obtain ⟨⟨nal, nar⟩, hnd⟩ := hnd
    obtain ⟨ndl, ndr, ndd⟩ := List.nodup_append.1 hnd
    obtain ⟨hac, hl, hrr⟩ := hr
    obtain ⟨m1, l1, l2, l3⟩ := ihl hl ndl hb.1
    have hr1 : Rep val m1 (some a) r := rep_congr (fun z hz => l3.2 z (fun h => ndd z h z hz rfl)) hrr
    obtain ⟨m2, r1, r2, r3⟩ := ihr hr1 ndr hb.2
    have ha1 : m1.get a = _ := (l3.2 a nal).trans hac
    have ha2 : m2.get a = _ := (r3.2 a nar).trans ha1
    refine ⟨m2.set a ⟨none, none, none, b, none⟩, fun fuel bin hf => ?_, ?_, ?_⟩
    · obtain ⟨k, rfl⟩ : ∃ k, fuel = k + 1 := ⟨fuel - 1, by omega⟩
      simp only [ATree.count] at hf
      have hp : (ATree.node a b l r).ptr = some a := rfl
      rw [hp]
      show recycleSubTree (k + 1) a bin m = _
      rw [recycle_step]
      simp only [bind_run, load_some hac, Outcome.bind_ok, l1 k bin (by omega), load_some ha1, r1 k _ (by omega), modify_some ha2, pure_run]
      simp [ATree.post]
    · intro z hz
      by_cases hza : z = a
      · subst hza; exact ⟨b, by rw [get_set, if_pos rfl]⟩
      simp only [ATree.addrs, List.mem_cons, List.mem_append] at hz
      rcases hz with h | h | h
      · exact absurd h hza
      · obtain ⟨c, hc⟩ := l2 z h
        exact ⟨c, by rw [get_set, if_neg hza, r3.2 z (fun h' => ndd z h z h' rfl), hc]⟩
      · obtain ⟨c, hc⟩ := r2 z h
        exact ⟨c, by rw [get_set, if_neg hza, hc]⟩
    · refine ((l3.mono ?_).trans (r3.mono ?_)).trans ⟨rfl, fun z hz => ?_⟩
      · intro x hx; simp [ATree.addrs, hx]
      · intro x hx; simp [ATree.addrs, hx]
      · rw [get_set, if_neg (by rintro rfl; exact hz (by simp [ATree.addrs]))]

theorem emptyBin_heap {m : Mem K V} (bin : List Addr) (hc : ∀ a ∈ bin, Clean m a) (hnd : bin.Nodup) :
    ∃ m', (∀ fuel, 0 < fuel → emptyBin fuel bin m = .ok ((), m')) ∧ (∀ a, m'.get a = if a ∈ bin then none else m.get a) ∧
      m'.destroyed = m.destroyed := by
  induction bin with
  | nil => exact ⟨m, fun _ _ => rfl, by simp, rfl⟩
  | cons a bin ih =>
    obtain ⟨m1, h1, h2, h3⟩ := ih (fun z hz => hc z (List.mem_cons_of_mem _ hz)) (List.nodup_cons.1 hnd).2
    obtain ⟨b, hb⟩ := hc a (by simp)
    have hab := (List.nodup_cons.1 hnd).1
    have ha : m1.get a = _ := (show m1.get a = m.get a by rw [h2, if_neg hab]).trans hb
    refine ⟨m1.del a [], fun fuel hf => ?_, fun z => ?_, h3⟩
    · simp only [emptyBin, bind_run, h1 fuel hf, Outcome.bind_ok, deleteNode_single ha rfl rfl hf]
      rfl
    · rw [get_del, h2]
      by_cases h : z = a <;> simp [h]

theorem setParent_run {m : Mem K V} {a : Addr} {c : Cell K V} (h : m.get a = some c) (q : Ptr) :
    setParent (some a) q m = .ok ((), m.set a { c with parent := q }) := modify_some h _

/-- The recursive `updateAndCollide`, for leaves that hang nowhere and enough nodes in the bin. -/
theorem rebuild_heap [IsStrictOrderedRing K] (cfg : Cfg K C) (al : Alloc K V) {val : Addr → Option V} (k : Nat) :
    ∀ (nodes : List (Entry K Addr)) (bin : List Addr) (m : Mem K V) (o : OverlapList K Addr), nodes.length ≤ k → nodes ≠ [] →
      (∀ n ∈ nodes, Loose val m n.id n.bounds) → (∀ a ∈ bin, Clean m a) → (nodes.map Entry.id ++ bin).Nodup →
      nodes.length ≤ bin.length + 1 →
      ∃ m' t used bin', rebuild cfg al nodes bin m = .ok ((t.ptr, bin'), m') ∧ bin = used ++ bin' ∧ used.length + 1 = nodes.length ∧
        t.shape = (RTree.rebuild cfg nodes o).1 ∧ t.addrs.Perm (used ++ nodes.map Entry.id) ∧ t.ptr.isSome ∧
        (∃ q, Rep val m' q t ∧ (2 ≤ nodes.length → q = none ∧ t.ptr = bin.head?)) ∧ Only (used ++ nodes.map Entry.id) m m' := by
  induction k with
  | zero =>
    intro nodes bin m o hk hne
    exact absurd (List.length_eq_zero_iff.1 (by omega)) hne
  | succ k ih =>
    intro nodes bin m o hk hne hL hC hnd hlen
    match nodes, hne with
    | [], hne => exact absurd rfl hne
    | [n], _ =>
      obtain ⟨⟨par, h1⟩, h2⟩ := hL n (by simp)
      refine ⟨m, .leaf n.id n.bounds, [], bin, ?_, rfl, rfl, ?_, List.Perm.refl _, rfl, ⟨par, ⟨h1, h2⟩, by simp⟩, Only.refl _ _⟩
      · rw [rebuild]; rfl
      · rw [RTree.rebuild]; rfl
    | n₁ :: n₂ :: ns, _ =>
      obtain ⟨g, bin0, rfl⟩ : ∃ g bin0, bin = g :: bin0 := by
        cases bin with
        | nil => simp at hlen
        | cons g bin0 => exact ⟨g, bin0, rfl⟩
      obtain ⟨gb, hg⟩ := hC g (by simp)
      rw [rebuild, RTree.rebuild]
      obtain ⟨hne1, hne2⟩ := RTree.splitNodes_ne_nil cfg (n₁ :: n₂ :: ns) (by simp)
      have hperm := RTree.splitNodes_perm cfg (n₁ :: n₂ :: ns)
      obtain ⟨hlt1, hlt2⟩ := RTree.splitNodes_length cfg (n₁ :: n₂ :: ns) (by simp)
      generalize RTree.splitNodes cfg (n₁ :: n₂ :: ns) = s at hne1 hne2 hperm hlt1 hlt2
      generalize (n₁ :: n₂ :: ns) = nodes at *
      obtain ⟨s1, s2⟩ := s
      simp only at hne1 hne2 hperm hlt1 hlt2 ⊢
      set B := (RTree.constructBounds s1).combined (RTree.constructBounds s2) with hB
      have hlens : s1.length + s2.length = nodes.length := by rw [← hperm.length_eq, List.length_append]
      have hpid : (nodes.map Entry.id).Perm (s1.map Entry.id ++ s2.map Entry.id) := by
        rw [← List.map_append]; exact (hperm.map _).symm
      have hnd' : (s1.map Entry.id ++ s2.map Entry.id ++ g :: bin0).Nodup := (hpid.append_right _).nodup_iff.1 hnd
      have hnd1 := List.nodup_append.1 hnd'
      have hnd2 := List.nodup_append.1 hnd1.1
      have hndb := List.nodup_cons.1 hnd1.2.1
      have d12 : ∀ z ∈ s1.map Entry.id, z ∉ s2.map Entry.id := fun z h h' => hnd2.2.2 z h z h' rfl
      have d1b : ∀ z ∈ s1.map Entry.id, z ∉ bin0 := fun z h h' => hnd1.2.2 z (by simp only [List.mem_append]; exact Or.inl h) z (by simp [h']) rfl
      have d2b : ∀ z ∈ s2.map Entry.id, z ∉ bin0 := fun z h h' => hnd1.2.2 z (by simp only [List.mem_append]; exact Or.inr h) z (by simp [h']) rfl
      have ng1 : ¬ (g ∈ s1.map Entry.id) := fun h => hnd1.2.2 g (by simp only [List.mem_append]; exact Or.inl h) g (by simp) rfl
      have ng2 : ¬ (g ∈ s2.map Entry.id) := fun h => hnd1.2.2 g (by simp only [List.mem_append]; exact Or.inr h) g (by simp) rfl
      have ngb : ¬ (g ∈ bin0) := hndb.1
      have hL1 : ∀ n ∈ s1, Loose val m n.id n.bounds := fun n hn => hL n (hperm.mem_iff.1 (by simp [hn]))
      have hL2 : ∀ n ∈ s2, Loose val m n.id n.bounds := fun n hn => hL n (hperm.mem_iff.1 (by simp [hn]))
      have hC0 : ∀ a ∈ bin0, Clean m a := fun a ha => hC a (by simp [ha])
      set m1 := m.set g ⟨none, none, none, B, none⟩ with hm1
      have g1 : ∀ z, z ≠ g → m1.get z = m.get z := fun z hz => by rw [hm1, get_set, if_neg hz]
      have hg1 : m1.get g = some ⟨none, none, none, B, none⟩ := by rw [hm1, get_set, if_pos rfl]
      obtain ⟨m2, tl, ul, bin1, a1, a2, a3, a4, a5, a6, ⟨ql, a7, -⟩, a8⟩ :=
        ih s1 bin0 m1 (RTree.crossLists cfg s1 s2 (RTree.constructBounds s1) (RTree.constructBounds s2)
          (o.copy.sortOverlapping cfg (RTree.constructBounds s1)) (o.sortOverlapping cfg (RTree.constructBounds s2))).1 (by omega) hne1
          (fun n hn => by
            obtain ⟨⟨par, h1⟩, h2⟩ := hL1 n hn
            exact ⟨⟨par, by rw [g1 _ (by rintro rfl; exact ng1 (List.mem_map_of_mem hn)), h1]⟩, h2⟩)
          (fun a ha => by
            obtain ⟨b, h⟩ := hC0 a ha
            exact ⟨b, by rw [g1 _ (by rintro rfl; exact ngb ha), h]⟩)
          (List.nodup_append.2 ⟨hnd2.1, hndb.2, fun a ha b hb hab => d1b a ha (hab ▸ hb)⟩)
          (by simp only [List.length_cons] at hlen; omega)
      subst a2
      have hndb2 := List.nodup_append.1 hndb.2
      have hg2 : m2.get g = _ := (a8.2 g (by
        simp only [List.mem_append, not_or]
        exact ⟨fun h => ngb (by simp [h]), ng1⟩)).trans hg1
      set m3 := m2.set g ⟨none, tl.ptr, none, B, none⟩ with hm3
      have hg3 : m3.get g = some ⟨none, tl.ptr, none, B, none⟩ := by rw [hm3, get_set, if_pos rfl]
      have g3 : ∀ z, z ≠ g → z ∉ ul → z ∉ s1.map Entry.id → m3.get z = m.get z := fun z h1 h2 h3 => by
        rw [hm3, get_set, if_neg h1, a8.2 z (by simp only [List.mem_append, not_or]; exact ⟨h2, h3⟩), g1 z h1]
      obtain ⟨m4, tr, ur, bin2, b1, b2, b3, b4, b5, b6, ⟨qr, b7, -⟩, b8⟩ :=
        ih s2 bin1 m3 (RTree.crossLists cfg s1 s2 (RTree.constructBounds s1) (RTree.constructBounds s2)
          (o.copy.sortOverlapping cfg (RTree.constructBounds s1)) (o.sortOverlapping cfg (RTree.constructBounds s2))).2 (by omega) hne2
          (fun n hn => by
            have hn' : n.id ∈ s2.map Entry.id := List.mem_map_of_mem hn
            obtain ⟨⟨par, h1⟩, h2⟩ := hL2 n hn
            exact ⟨⟨par, by rw [g3 _ (by rintro rfl; exact ng2 hn') (fun h => d2b _ hn' (by simp [h])) (fun h => d12 _ h hn'), h1]⟩, h2⟩)
          (fun a ha => by
            obtain ⟨b, h⟩ := hC0 a (by simp [ha])
            exact ⟨b, by rw [g3 _ (by rintro rfl; exact ngb (by simp [ha])) (fun h => hndb2.2.2 a h a ha rfl) (fun h => d1b _ h (by simp [ha])), h]⟩)
          (List.nodup_append.2 ⟨hnd2.2.1, hndb2.2.1, fun a ha b hb hab => d2b a ha (hab ▸ (by simp [hb]))⟩)
          (by simp only [List.length_cons, List.length_append] at hlen; omega)
      subst b2
      have hndb3 := List.nodup_append.1 hndb2.2.1
      have hg4 : m4.get g = _ := (b8.2 g (by
        simp only [List.mem_append, not_or]
        exact ⟨fun h => ngb (by simp [h]), ng2⟩)).trans hg3
      obtain ⟨x, hx⟩ := Option.isSome_iff_exists.1 a6
      obtain ⟨y, hy⟩ := Option.isSome_iff_exists.1 b6
      have hdisj : ∀ z ∈ tl.addrs, z ∉ ur ++ s2.map Entry.id := fun z hz h => by
        have hz := a5.mem_iff.1 hz
        simp only [List.mem_append] at hz h
        rcases hz with hz | hz <;> rcases h with h | h
        · exact hndb2.2.2 z hz z (by simp [h]) rfl
        · exact d2b z h (by simp [hz])
        · exact d1b z hz (by simp [h])
        · exact d12 z hz h
      have hdisj' : ∀ z ∈ tl.addrs, z ∉ tr.addrs := fun z hz h => hdisj z hz (b5.mem_iff.1 h)
      have hgl : ¬ (g ∈ tl.addrs) := fun h => by
        have := a5.mem_iff.1 h
        simp only [List.mem_append] at this
        rcases this with h | h
        · exact ngb (by simp [h])
        · exact ng1 h
      have hgr : ¬ (g ∈ tr.addrs) := fun h => by
        have := b5.mem_iff.1 h
        simp only [List.mem_append] at this
        rcases this with h | h
        · exact ngb (by simp [h])
        · exact ng2 h
      have hxl := ptr_mem_addrs hx
      have hyr := ptr_mem_addrs hy
      have nxg : x ≠ g := fun h => hgl (h ▸ hxl)
      have nyg : y ≠ g := fun h => hgr (h ▸ hyr)
      have nxy : x ≠ y := fun h => hdisj' x hxl (h ▸ hyr)
      have hndl : tl.addrs.Nodup := a5.nodup_iff.2 (List.nodup_append.2 ⟨hndb2.1, hnd2.1, fun a ha b hb hab => d1b b hb (hab ▸ (by simp [ha]))⟩)
      have hndr : tr.addrs.Nodup := b5.nodup_iff.2 (List.nodup_append.2 ⟨hndb3.1, hnd2.2.1, fun a ha b hb hab => d2b b hb (hab ▸ (by simp [ha]))⟩)
      set m5 := m4.set g ⟨none, tl.ptr, tr.ptr, B, none⟩ with hm5
      have g5 : ∀ z, z ≠ g → m5.get z = m4.get z := fun z hz => by rw [hm5, get_set, if_neg hz]
      have g43 : ∀ z ∈ tl.addrs, m4.get z = m2.get z := fun z hz => by
        rw [b8.2 z (hdisj z hz), hm3, get_set, if_neg (by rintro rfl; exact hgl hz)]
      obtain ⟨cx, hcx, -⟩ := rep_ptr_cell a7 hx
      obtain ⟨cy, hcy, -⟩ := rep_ptr_cell b7 hy
      have hx5 : m5.get x = some cx := by rw [g5 x nxg, g43 x hxl, hcx]
      set m6 := m5.set x { cx with parent := some g } with hm6
      have hy6 : m6.get y = some cy := by rw [hm6, get_set, if_neg nxy.symm, g5 y nyg, hcy]
      set m7 := m6.set y { cy with parent := some g } with hm7
      have g7 : ∀ z, z ≠ g → z ≠ x → z ≠ y → m7.get z = m4.get z := fun z h1 h2 h3 => by
        rw [hm7, get_set, if_neg h3, hm6, get_set, if_neg h2, g5 z h1]
      refine ⟨m7, .node g B tl tr, g :: (ul ++ ur), bin2, ?_, ?_, ?_, ?_, ?_, rfl, ⟨none, ⟨?_, ?_, ?_⟩, fun _ => ⟨rfl, rfl⟩⟩, ?_⟩
      · simp only [getNode, bind_run, pure_run, Outcome.bind_ok, modify_some hg]
        rw [← hm1, a1]
        simp only [Outcome.bind_ok, modify_some hg2]
        rw [← hm3, b1]
        simp only [Outcome.bind_ok, modify_some hg4]
        rw [← hm5, hx, setParent_run hx5]
        simp only [Outcome.bind_ok]
        rw [← hm6, hy, setParent_run hy6]
        simp only [Outcome.bind_ok]
        rw [← hm7]
        rfl
      · simp
      · simp only [List.length_cons, List.length_append]; omega
      · show RTree.Node.node B tl.shape tr.shape = _
        rw [a4, b4]
      · simp only [ATree.addrs, List.cons_append]
        refine List.Perm.cons _ ((a5.append b5).trans ?_)
        refine List.Perm.trans ?_ (hpid.symm.append_left _)
        rw [List.append_assoc, List.append_assoc]
        refine List.Perm.append_left _ ?_
        rw [← List.append_assoc, ← List.append_assoc]
        exact List.Perm.append_right _ List.perm_append_comm
      · rw [hm7, get_set, if_neg nyg.symm, hm6, get_set, if_neg nxg.symm, hm5, get_set, if_pos rfl]
      · refine rep_reparent a7 hx hndl ?_ ?_
        · rw [hm7, get_set, if_neg nxy, hm6, get_set, if_pos rfl, hcx]; rfl
        · intro z hz hzx
          rw [g7 z (by rintro rfl; exact hgl hz) hzx (by rintro rfl; exact hdisj' _ hz hyr), g43 z hz]
      · refine rep_reparent b7 hy hndr ?_ ?_
        · rw [hm7, get_set, if_pos rfl, hcy]; rfl
        · intro z hz hzy
          rw [g7 z (by rintro rfl; exact hgr hz) (by rintro rfl; exact hdisj' _ hxl hz) hzy]
      · refine ⟨?_, fun z hz => ?_⟩
        · show m4.destroyed = m.destroyed
          rw [b8.1]; show m2.destroyed = _; rw [a8.1]; rfl
        · have hz' : ¬ (z ∈ g :: (ul ++ ur) ++ (s1.map Entry.id ++ s2.map Entry.id)) := fun h => hz ((hpid.symm.append_left _).mem_iff.1 h)
          simp only [List.mem_append, List.mem_cons, not_or] at hz'
          obtain ⟨⟨z1, z2, z3⟩, z4, z5⟩ := hz'
          have zl : ¬ (z ∈ tl.addrs) := fun h => by
            have := a5.mem_iff.1 h
            simp only [List.mem_append] at this
            exact this.elim z2 z4
          have zr : ¬ (z ∈ tr.addrs) := fun h => by
            have := b5.mem_iff.1 h
            simp only [List.mem_append] at this
            exact this.elim z3 z5
          rw [g7 z z1 (by rintro rfl; exact zl hxl) (by rintro rfl; exact zr hyr),
            b8.2 z (by simp only [List.mem_append, not_or]; exact ⟨z3, z5⟩), g3 z z1 z2 z4]

theorem Full.count_bare {t : ATree K} (h : Full t) : t.leaves.length = t.bare.addrs.length + 1 := by
  induction t with
  | null => exact h.elim
  | leaf a b => rfl
  | node a b l r ihl ihr =>
    simp only [ATree.leaves, ATree.bare, ATree.addrs, List.length_append, List.length_cons, ihl h.1, ihr h.2]; omega

theorem FullRoot.count_bare {t : ATree K} (h : FullRoot t) : t.leaves.length ≤ t.bare.addrs.length + 1 := by
  cases t with
  | null => exact h.elim
  | leaf a b => exact h.elim
  | node a b l r =>
    simp only [ATree.leaves, ATree.bare, ATree.addrs, List.length_append, List.length_cons]
    rcases h.1 with rfl | hl <;> rcases h.2 with rfl | hr
    · simp [ATree.leaves]
    · have := hr.count_bare; simp [ATree.leaves]; omega
    · have := hl.count_bare; simp [ATree.leaves]; omega
    · have := hl.count_bare; have := hr.count_bare; omega

theorem Full.single {t : ATree K} (h : Full t) (h1 : t.leaves.length ≤ 1) : t.bare = .null := by
  cases t with
  | null => rfl
  | leaf a b => rfl
  | node a b l r =>
    have := h.1.count_bare; have := h.2.count_bare
    simp only [ATree.leaves, List.length_append] at h1; omega

theorem rep_leaf {val : Addr → Option V} {m : Mem K V} {par : Ptr} {t : ATree K} (hr : Rep val m par t) {e : Entry K Addr}
    (he : e ∈ t.shape.entries) : Loose val m e.id e.bounds := by
  induction t generalizing par with
  | null => simp [ATree.shape, RTree.Node.entries] at he
  | leaf a b =>
    simp only [ATree.shape, RTree.Node.entries, List.mem_singleton] at he
    subst he
    exact ⟨⟨par, hr.1⟩, hr.2⟩
  | node a b l r ihl ihr =>
    simp only [ATree.shape, RTree.Node.entries, List.mem_append] at he
    rcases he with he | he
    · exact ihl hr.2.1 he
    · exact ihr hr.2.2 he

theorem collide_match (cfg : Cfg K C) (pq : PQ (Ptr × C)) (al : Alloc K V) (fuel : Nat) (root : Addr)
    (upd : Addr → BoundingBox K → BoundingBox K) {m m1 m2 : Mem K V} {p : Ptr} {its : List Ptr} {nodes : List (Entry K Addr)}
    (h1 : begin fuel (some root) m = .ok (p, m)) (h2 : visit fuel (some root) fuel p m = .ok (its, m))
    (h3 : gather upd its m = .ok (nodes, m1)) (h4 : detach nodes m1 = .ok ((), m2)) :
    updateAndCollide cfg pq al fuel root upd m =
      relink cfg pq al fuel root nodes m2 := by
  simp only [updateAndCollide, bind_run, h1, h2, h3, h4, Outcome.bind_ok]

/-- The public `updateAndCollide`. -/
theorem updateAndCollide_holds [IsStrictOrderedRing K] (cfg : Cfg K C) (hfin : cfg.FiniteAreas) (pq : PQ (Ptr × C)) {al : Alloc K V} (hal : Sound al)
    {other : Addr → Option (Cell K V)} {val : Addr → Option V} {m : Mem K V}
    {t : ATree K} (H : Holds other val m t) (hg : RTree.GoodRoot t.shape) {root : Addr} (hroot : t.ptr = some root)
    (upd : Addr → BoundingBox K → BoundingBox K) :
    ∃ m' t', (∃ N, ∀ fuel, N < fuel → updateAndCollide cfg pq al fuel root upd m = .ok (root, m')) ∧
      Holds other val m' t' ∧ RTree.GoodRoot t'.shape ∧ t'.ptr = some root ∧
      t'.shape.entries.Perm (t.shape.entries.map (newBox upd)) ∧ m'.destroyed = m.destroyed := by
  have hfu := fullRoot_of_good hg
  obtain ⟨m1, e1, e2, e3⟩ := gather_tree upd H.rep H.nodup
  obtain ⟨b, l, r, rfl⟩ : ∃ b l r, t = .node root b l r := by
    cases t with
    | null => exact hfu.elim
    | leaf a b => exact hfu.elim
    | node a b l r =>
      obtain rfl : a = root := by simpa [ATree.ptr] using hroot
      exact ⟨b, l, r, rfl⟩
  have hnd1 : ((ATree.node root b l r).rebound upd).addrs.Nodup := by rw [rebound_addrs]; exact H.nodup
  obtain ⟨m2, d1, d2, d3⟩ := detach_root (a := root) (b := b) (l := l.rebound upd) (r := r.rebound upd) e2 hnd1
  change detach ((ATree.node root b l r).rebound upd).shape.entries m1 = _ at d1
  change Rep val m2 none ((ATree.node root b l r).rebound upd).bare at d2
  change Only ((ATree.node root b l r).rebound upd).bare.addrs m1 m2 at d3
  set t := ATree.node root b l r with ht
  rw [rebound_entries] at d1
  have hvis : ∀ fuel, t.count + t.leaves.length < fuel → begin fuel (some root) m = .ok (t.first, m) ∧
      visit fuel (some root) fuel t.first m = .ok (t.leaves.map some, m) := fun fuel hf => by
    rw [← hroot]
    exact ⟨begin_heap H.rep hfu (by omega), visit_root H.rep H.nodup hfu (by omega) (by omega)⟩
  have key : ∀ fuel, t.count + t.leaves.length < fuel → _ := fun fuel hf =>
    collide_match cfg pq al fuel root upd (hvis fuel hf).1 (hvis fuel hf).2 e1 d1
  -- what the memory holds after the leaves were detached
  have hsplit := addrs_split (t.rebound upd)
  rw [rebound_addrs, rebound_leaves] at hsplit
  have hnds := List.nodup_append.1 (hsplit.nodup_iff.1 H.nodup)
  have hkeep : ∀ z, z ∉ t.addrs → m2.get z = other z := fun z hz => by
    rw [d3.2 z (fun h => hz (by rw [← rebound_addrs upd]; exact bare_sub h)), e3.2 z hz, H.rest z hz]
  have hloose : ∀ n ∈ t.shape.entries.map (newBox upd), Loose val m2 n.id n.bounds := fun n hn => by
    have hn' := hn
    rw [← rebound_entries] at hn'
    obtain ⟨⟨par, h1⟩, h2⟩ := rep_leaf e2 hn'
    have hl : n.id ∈ t.leaves := by rw [← rebound_leaves upd, leaves_entries]; exact List.mem_map_of_mem hn'
    exact ⟨⟨par, by rw [d3.2 _ (fun h => hnds.2.2 _ h _ hl rfl), h1]⟩, h2⟩
  have hids : (t.shape.entries.map (newBox upd)).map Entry.id = t.leaves := by
    rw [leaves_entries, List.map_map]; rfl
  have hdes : m2.destroyed = m.destroyed := by rw [d3.1, e3.1]
  have hlenL : t.leaves.length = (t.shape.entries.map (newBox upd)).length := by rw [← hids, List.length_map]
  generalize hnn : t.shape.entries.map (newBox upd) = nodes at *
  match nodes, hnn with
  | [], hnn =>
    simp only [List.map_eq_nil_iff] at hnn
    have hlv : t.leaves = [] := List.length_eq_zero_iff.1 hlenL
    have hbn : t.rebound upd = t := by
      have : ∀ s : ATree K, s.leaves = [] → s.rebound upd = s := by
        intro s hs
        induction s with
        | null => rfl
        | leaf a b => simp [ATree.leaves] at hs
        | node a b l r ihl ihr =>
          simp only [ATree.leaves, List.append_eq_nil_iff] at hs
          simp [ATree.rebound, ihl hs.1, ihr hs.2]
      exact this t hlv
    have hbare : t.bare = t := by
      have : ∀ s : ATree K, s.leaves = [] → s.bare = s := by
        intro s hs
        induction s with
        | null => rfl
        | leaf a b => simp [ATree.leaves] at hs
        | node a b l r ihl ihr =>
          simp only [ATree.leaves, List.append_eq_nil_iff] at hs
          simp [ATree.bare, ihl hs.1, ihr hs.2]
      exact this t hlv
    rw [hbn, hbare] at d2
    exact ⟨m2, t, ⟨t.count + t.leaves.length, fun fuel hf => key fuel hf⟩, ⟨d2, H.nodup, hkeep, H.fresh⟩, hg, rfl, by simp [hnn], hdes⟩
  | [n], hnn =>
    have hlv : t.leaves.length = 1 := hlenL
    have hlx : t.leaves = [n.id] := by rw [← hids]; rfl
    have hb : (t.rebound upd).bare = .node root b .null .null := by
      have hlv' : l.leaves.length + r.leaves.length = 1 := by rw [← hlv, ht]; simp [ATree.leaves]
      have L : (l.rebound upd).bare = .null := by
        rcases hfu.1 with h | h
        · rw [h]; rfl
        · have : l.bare = .null := h.single (by omega)
          cases l <;> simp_all [ATree.bare, ATree.rebound]
      have R : (r.rebound upd).bare = .null := by
        rcases hfu.2 with h | h
        · rw [h]; rfl
        · have : r.bare = .null := h.single (by omega)
          cases r <;> simp_all [ATree.bare, ATree.rebound]
      rw [ht]; simp only [ATree.rebound, ATree.bare, L, R]
    rw [hb] at d2 hnds
    have hnx : ¬ (n.id ∈ (ATree.node root b .null .null : ATree K).addrs) := fun h => hnds.2.2 _ h n.id (by rw [hlx]; simp) rfl
    have hH : Holds (Function.update other n.id (m2.get n.id)) val m2 (.node root b .null .null) := by
      refine ⟨d2, hnds.1, fun a ha => ?_, fun a ha => ?_⟩
      · by_cases hax : a = n.id
        · subst hax; simp
        · rw [Function.update_of_ne hax]
          refine hkeep a fun h => ?_
          have := hsplit.mem_iff.1 h
          rw [hb, hlx] at this
          simp only [List.mem_append, List.mem_singleton] at this
          exact this.elim ha hax
      · rw [Function.update_of_ne (by rintro rfl; exact hnx ha)]
        exact H.fresh a (hsplit.mem_iff.2 (by rw [hb]; simp [ha]))
    obtain ⟨m', t', g1, g2, g3, g4, g5⟩ := insertNode_holds cfg hfin pq hal (b := n.bounds) hH rfl (hloose n (by simp)) hnx
      (H.fresh _ (hsplit.mem_iff.2 (by rw [hlx]; simp)))
      (fun T => RTree.GoodRoot T ∧ T.entries.Perm [n]) (by
        intro s path hs hz
        have hpath : path = [] ∧ s = .node b .null .null := by
          cases path with
          | nil => exact ⟨rfl, hz⟩
          | cons f fs =>
            exfalso
            have : ∀ (fs : List (RTree.Frame K Addr)) (f : RTree.Frame K Addr) (s : RTree.Node K Addr), s ≠ .null →
                RTree.zip s (f :: fs) ≠ .node b .null .null := by
              intro fs
              induction fs with
              | nil =>
                intro f s hs hz
                simp only [RTree.zip, RTree.Frame.close] at hz
                split at hz <;> simp at hz
                · exact hs hz.2.1
                · exact hs hz.2.2
              | cons f' fs ih =>
                intro f s hs hz
                exact ih f' (f.close s) (by simp only [RTree.Frame.close]; split <;> simp) hz
            exact this fs f s hs hz
        obtain ⟨rfl, rfl⟩ := hpath
        obtain ⟨T, k1, k2, k3⟩ := RTree.refit_spec cfg (.leaf n.bounds n.id) .null b [] (Or.inr trivial) (Or.inl rfl) trivial
        exact ⟨T, by simp [RTree.addLeafTo, k1], k2, by simpa [RTree.Node.entries, RTree.pathEntries] using k3⟩)
    refine ⟨m', t', ⟨t.count + t.leaves.length + (ATree.node root b .null .null : ATree K).count, fun fuel hf => ?_⟩, g2, g4.1, g3, g4.2, by rw [g5, hdes]⟩
    rw [key fuel (by omega)]
    have := g1 fuel (by omega)
    change insertNode cfg pq al fuel (some root) (some n.id) m2 = _ at this
    simp only [relink, bind_run, this, Outcome.bind_ok, pure_run]
  | n₁ :: n₂ :: ns, hnn =>
    obtain ⟨m3, r1, r2, r3⟩ := recycle_heap d2 hnds.1 (bare_bare _)
    have hbp : (t.rebound upd).bare.ptr = some root := rfl
    rw [hbp] at r1
    have hpp := post_perm (t.rebound upd).bare
    have hcb : (n₁ :: n₂ :: ns).length ≤ (t.rebound upd).bare.post.length + 1 := by
      rw [← hlenL, hpp.length_eq]
      have : FullRoot (t.rebound upd) := by
        have F : ∀ s : ATree K, Full s → Full (s.rebound upd) := by
          intro s hs
          induction s with
          | null => exact hs
          | leaf a b => trivial
          | node a b l r ihl ihr => exact ⟨ihl hs.1, ihr hs.2⟩
        exact ⟨hfu.1.imp (fun h => by rw [h]; rfl) (F l), hfu.2.imp (fun h => by rw [h]; rfl) (F r)⟩
      have := this.count_bare
      rwa [rebound_leaves] at this
    have hdl : ∀ z ∈ t.leaves, z ∉ (t.rebound upd).bare.addrs := fun z hz h => hnds.2.2 z h z hz rfl
    have hndp := hpp.nodup_iff.2 hnds.1
    obtain ⟨m4, t', used, bin', b1, b2, b3, b4, b5, b6, ⟨q, b7, b7'⟩, b8⟩ := rebuild_heap cfg al (val := val) _ (n₁ :: n₂ :: ns)
      (t.rebound upd).bare.post m3 ⟨[], 0⟩ le_rfl (by simp)
      (fun n hn => by
        obtain ⟨⟨par, h1⟩, h2⟩ := hloose n hn
        exact ⟨⟨par, by rw [r3.2 _ (hdl n.id (by rw [← hids]; exact List.mem_map_of_mem hn)), h1]⟩, h2⟩)
      (fun a ha => r2 a (hpp.mem_iff.1 ha))
      (by
        rw [hids]
        exact List.nodup_append.2 ⟨hnds.2.1, hndp, fun a ha b hb hab => hdl a ha (hpp.mem_iff.1 (hab ▸ hb))⟩) hcb
    obtain ⟨rfl, b7''⟩ := b7' (by simp)
    rw [b2] at hndp
    have hndu := List.nodup_append.1 hndp
    have hbin : ∀ z, z ∈ used ∨ z ∈ bin' ↔ z ∈ (t.rebound upd).bare.addrs := fun z => by
      rw [← hpp.mem_iff, b2, List.mem_append]
    rw [hids] at b5 b8
    have hbl : ∀ z ∈ bin', z ∉ used ++ t.leaves := fun z hz h => by
      rcases List.mem_append.1 h with h | h
      · exact hndu.2.2 z h z hz rfl
      · exact hdl z h ((hbin z).1 (Or.inr hz))
    obtain ⟨m5, c1, c2, c3⟩ := emptyBin_heap (m := m4) bin' (fun a ha => by
      obtain ⟨c, hc⟩ := r2 a ((hbin a).1 (Or.inr ha))
      exact ⟨c, by rw [b8.2 a (hbl a ha), hc]⟩) hndu.2.1
    have hroot' : t'.ptr = some root := b7''.trans rfl
    have hat : ∀ z ∈ t'.addrs, z ∉ bin' := fun z hz h => hbl z h (b5.mem_iff.1 hz)
    have hgood := RTree.rebuild_good cfg (n₁ :: n₂ :: ns) ⟨[], 0⟩ (by simp)
    refine ⟨m5, t', ⟨t.count + t.leaves.length + (t.rebound upd).bare.count, fun fuel hf => ?_⟩, ⟨?_, ?_, ?_, ?_⟩, ?_, hroot', ?_, ?_⟩
    · rw [key fuel (by omega)]
      have := r1 fuel [] (by omega)
      change recycleSubTree fuel root [] m2 = _ at this
      rw [List.append_nil] at this
      simp only [relink, bind_run, this, Outcome.bind_ok, b1, c1 fuel (by omega), hroot', pure_run]
    · exact rep_congr (fun z hz => by rw [c2, if_neg (hat z hz)]) b7
    · exact b5.nodup_iff.2 (List.nodup_append.2 ⟨hndu.1, hnds.2.1, fun a ha b hb hab => hdl b hb ((hbin b).1 (Or.inl (hab ▸ ha)))⟩)
    · intro z hz
      rw [c2]
      have hz' : ¬ (z ∈ used ++ t.leaves) := fun h => hz (b5.mem_iff.2 h)
      by_cases hzb : z ∈ bin'
      · rw [if_pos hzb, H.fresh z (hsplit.mem_iff.2 (List.mem_append_left _ ((hbin z).1 (Or.inr hzb))))]
      · rw [if_neg hzb, b8.2 z hz']
        simp only [List.mem_append, not_or] at hz'
        have hzbare : ¬ (z ∈ (t.rebound upd).bare.addrs) := fun h => ((hbin z).2 h).elim hz'.1 hzb
        rw [r3.2 z hzbare]
        refine hkeep z fun h => ?_
        rcases List.mem_append.1 (hsplit.mem_iff.1 h) with h | h
        · exact hzbare h
        · exact hz'.2 h
    · intro z hz
      refine H.fresh z (hsplit.mem_iff.2 ?_)
      rcases List.mem_append.1 (b5.mem_iff.1 hz) with h | h
      · exact List.mem_append_left _ ((hbin z).1 (Or.inl h))
      · exact List.mem_append_right _ h
    · rw [b4]; exact hgood.1.root (by rw [hgood.2.length_eq]; simp)
    · rw [b4]; exact hgood.2
    · rw [c3, b8.1, r3.1, hdes]

end Simu.RTreeHeap
