import Verif.Model.RTreeHeap
import Verif.Lemmas.RTree
import Verif.Lemmas.RTreeInsert
/-
The memory of an R-tree represents a tree: representation predicate and the effect of the pointer
operations on it.
-/
set_option linter.unusedSectionVars false
set_option linter.unusedSimpArgs false
namespace Simu.RTreeHeap
open Simu.RTree (Cfg PQ Entry OverlapList)
variable {K C V X Y : Type}

/-! ### Running programs -/

@[simp] theorem bind_run (p : Prog K V X) (f : X → Prog K V Y) (m : Mem K V) :
    (p >>= f) m = (p m).bind fun r => f r.1 r.2 := rfl
@[simp] theorem pure_run (x : X) (m : Mem K V) : (pure x : Prog K V X) m = .ok (x, m) := rfl

theorem ite_run (c : Prop) [Decidable c] (p q : Prog K V X) (m : Mem K V) :
    (if c then p else q) m = if c then p m else q m := by split <;> rfl

/-- Overwriting a node. -/
def Mem.set (m : Mem K V) (a : Addr) (c : Cell K V) : Mem K V := { m with cells := m.cells.insert a c }
/-- Forgetting a node. -/
def Mem.del (m : Mem K V) (a : Addr) (vs : List V) : Mem K V := ⟨m.cells.erase a, vs ++ m.destroyed⟩

theorem get_set (m : Mem K V) (a b : Addr) (c : Cell K V) :
    (m.set a c).get b = if b = a then some c else m.get b := by
  unfold Mem.set Mem.get
  by_cases h : b = a
  · subst h; simp
  · simp [h, Finmap.lookup_insert_of_ne _ h]

theorem get_del (m : Mem K V) (a b : Addr) (vs : List V) :
    (m.del a vs).get b = if b = a then none else m.get b := by
  unfold Mem.del Mem.get
  by_cases h : b = a
  · subst h; simp
  · simp [h, Finmap.lookup_erase_ne h]

@[simp] theorem set_destroyed (m : Mem K V) (a : Addr) (c : Cell K V) : (m.set a c).destroyed = m.destroyed := rfl
@[simp] theorem del_destroyed (m : Mem K V) (a : Addr) (vs : List V) : (m.del a vs).destroyed = vs ++ m.destroyed := rfl

theorem load_some {m : Mem K V} {a : Addr} {c : Cell K V} (h : m.get a = some c) :
    load (some a) m = .ok (c, m) := by simp [load, h]
theorem modify_some {m : Mem K V} {a : Addr} {c : Cell K V} (h : m.get a = some c) (f : Cell K V → Cell K V) :
    modify (some a) f m = .ok ((), m.set a (f c)) := by simp [modify, h, Mem.set]
theorem allocate_ok {m : Mem K V} {al : Alloc K V} (h : m.get (al m) = none) (c : Cell K V) :
    allocate al c m = .ok (some (al m), m.set (al m) c) := by simp [allocate, h, Mem.set]
theorem free_some {m : Mem K V} {a : Addr} {c : Cell K V} (h : m.get a = some c) :
    free a m = .ok ((), m.del a c.data.toList) := by simp [free, h, Mem.del]

/-! ### Trees with the addresses of their nodes -/

/-- A tree together with the addresses of its nodes. -/
inductive ATree (K : Type) where
  | null
  | leaf (a : Addr) (b : BoundingBox K)
  | node (a : Addr) (b : BoundingBox K) (l r : ATree K)

namespace ATree

/-- The address of the node at the top. -/
def ptr : ATree K → Ptr
  | null => none
  | leaf a _ => some a
  | node a _ _ _ => some a

/-- All the addresses. -/
def addrs : ATree K → List Addr
  | null => []
  | leaf a _ => [a]
  | node a _ l r => a :: (l.addrs ++ r.addrs)

/-- The tree without the addresses of its internal nodes; a leaf is identified by its address. -/
def shape : ATree K → RTree.Node K Addr
  | null => .null
  | leaf a b => .leaf b a
  | node _ b l r => .node b l.shape r.shape

/-- The addresses of the leaves. -/
def leaves : ATree K → List Addr
  | null => []
  | leaf a _ => [a]
  | node _ _ l r => l.leaves ++ r.leaves

end ATree

/-- One `parent` link. -/
structure AFrame (K : Type) where
  addr : Addr
  onLeft : Bool
  bounds : BoundingBox K
  other : ATree K

namespace AFrame

/-- The parent with the given child. -/
def close (f : AFrame K) (t : ATree K) : ATree K :=
  if f.onLeft then .node f.addr f.bounds t f.other else .node f.addr f.bounds f.other t

def shape (f : AFrame K) : RTree.Frame K Addr := ⟨f.onLeft, f.bounds, f.other.shape⟩

def addrs (f : AFrame K) : List Addr := f.addr :: f.other.addrs

end AFrame

/-- The whole tree. -/
def azip (t : ATree K) : List (AFrame K) → ATree K
  | [] => t
  | f :: fs => azip (f.close t) fs

/-- The parent pointer of what hangs at the end of a path. -/
def up : List (AFrame K) → Ptr
  | [] => none
  | f :: _ => some f.addr

def pathShape (path : List (AFrame K)) : List (RTree.Frame K Addr) := path.map AFrame.shape
def pathAddrs (path : List (AFrame K)) : List Addr := path.flatMap AFrame.addrs

/-- The memory holds the tree, its top pointing up to `par`; `val` gives the element of each leaf. -/
def Rep (val : Addr → Option V) (m : Mem K V) : Ptr → ATree K → Prop
  | _, .null => True
  | par, .leaf a b => m.get a = some ⟨par, none, none, b, val a⟩ ∧ (val a).isSome
  | par, .node a b l r => m.get a = some ⟨par, l.ptr, r.ptr, b, none⟩ ∧ Rep val m (some a) l ∧ Rep val m (some a) r

/-- The memory holds the ancestors of `p`. -/
def RepPath (val : Addr → Option V) (m : Mem K V) : Ptr → List (AFrame K) → Prop
  | _, [] => True
  | p, f :: fs =>
    m.get f.addr = some ⟨up fs, if f.onLeft then p else f.other.ptr, if f.onLeft then f.other.ptr else p, f.bounds, none⟩ ∧
    Rep val m (some f.addr) f.other ∧ RepPath val m (some f.addr) fs

theorem close_ptr (f : AFrame K) (t : ATree K) : (f.close t).ptr = some f.addr := by
  unfold AFrame.close; split <;> rfl

theorem rep_close (val : Addr → Option V) (m : Mem K V) (par : Ptr) (f : AFrame K) (t : ATree K) :
    Rep val m par (f.close t) ↔
      m.get f.addr = some ⟨par, if f.onLeft then t.ptr else f.other.ptr, if f.onLeft then f.other.ptr else t.ptr, f.bounds, none⟩ ∧
      Rep val m (some f.addr) t ∧ Rep val m (some f.addr) f.other := by
  unfold AFrame.close
  cases f.onLeft <;> simp [Rep] <;> tauto

theorem rep_azip (val : Addr → Option V) (m : Mem K V) (t : ATree K) (path : List (AFrame K)) :
    Rep val m none (azip t path) ↔ Rep val m (up path) t ∧ RepPath val m t.ptr path := by
  induction path generalizing t with
  | nil => simp [azip, up, RepPath]
  | cons f fs ih =>
    simp only [azip, ih, rep_close, RepPath, up, close_ptr]
    tauto

theorem close_shape (f : AFrame K) (t : ATree K) : (f.close t).shape = f.shape.close t.shape := by
  unfold AFrame.close RTree.Frame.close AFrame.shape; cases f.onLeft <;> rfl

theorem azip_shape (t : ATree K) (path : List (AFrame K)) :
    (azip t path).shape = RTree.zip t.shape (pathShape path) := by
  induction path generalizing t with
  | nil => rfl
  | cons f fs ih => simp only [azip, ih, close_shape, pathShape, List.map_cons, RTree.zip]

theorem close_addrs (f : AFrame K) (t : ATree K) : (f.close t).addrs.Perm (f.addrs ++ t.addrs) := by
  unfold AFrame.close AFrame.addrs
  cases f.onLeft
  · simp [ATree.addrs]
  · simpa [ATree.addrs] using List.perm_append_comm

theorem azip_addrs (t : ATree K) (path : List (AFrame K)) :
    (azip t path).addrs.Perm (t.addrs ++ pathAddrs path) := by
  induction path generalizing t with
  | nil => simp [azip, pathAddrs]
  | cons f fs ih =>
    simp only [azip, pathAddrs, List.flatMap_cons]
    refine (ih _).trans ?_
    refine ((close_addrs f t).append_right _).trans ?_
    rw [← List.append_assoc]
    exact List.perm_append_comm.append_right _

theorem rep_congr {val : Addr → Option V} {m m' : Mem K V} {par : Ptr} {t : ATree K}
    (h : ∀ a ∈ t.addrs, m'.get a = m.get a) (hr : Rep val m par t) : Rep val m' par t := by
  induction t generalizing par with
  | null => trivial
  | leaf a b => exact ⟨by rw [h a (by simp [ATree.addrs])]; exact hr.1, hr.2⟩
  | node a b l r ihl ihr =>
    refine ⟨by rw [h a (by simp [ATree.addrs])]; exact hr.1, ihl ?_ hr.2.1, ihr ?_ hr.2.2⟩
    · intro x hx; exact h x (by simp [ATree.addrs, hx])
    · intro x hx; exact h x (by simp [ATree.addrs, hx])

theorem repPath_congr {val : Addr → Option V} {m m' : Mem K V} {p : Ptr} {path : List (AFrame K)}
    (h : ∀ a ∈ pathAddrs path, m'.get a = m.get a) (hr : RepPath val m p path) : RepPath val m' p path := by
  induction path generalizing p with
  | nil => trivial
  | cons f fs ih =>
    have hf : ∀ x ∈ f.addrs, m'.get x = m.get x := fun x hx => h x (by simp [pathAddrs, hx])
    refine ⟨by rw [hf f.addr (by simp [AFrame.addrs])]; exact hr.1, rep_congr ?_ hr.2.1, ih ?_ hr.2.2⟩
    · intro x hx; exact hf x (by simp [AFrame.addrs, hx])
    · intro x hx; exact h x (by
        simp only [pathAddrs, List.flatMap_cons, List.mem_append]; exact Or.inr hx)

/-- The cell at the top of a tree. -/
def ATree.cell (val : Addr → Option V) (par : Ptr) : ATree K → Option (Cell K V)
  | .null => none
  | .leaf a b => some ⟨par, none, none, b, val a⟩
  | .node _ b l r => some ⟨par, l.ptr, r.ptr, b, none⟩

section
variable [Field K] [LinearOrder K]
theorem rep_cell {val : Addr → Option V} {m : Mem K V} {par : Ptr} {t : ATree K} {a : Addr}
    (h : Rep val m par t) (ha : t.ptr = some a) : m.get a = t.cell val par ∧ ∃ c, t.cell val par = some c ∧ c.parent = par ∧ c.bounds = t.shape.bounds := by
  cases t with
  | null => simp [ATree.ptr] at ha
  | leaf x b =>
    obtain rfl : x = a := by simpa [ATree.ptr] using ha
    exact ⟨h.1, _, rfl, rfl, rfl⟩
  | node x b l r =>
    obtain rfl : x = a := by simpa [ATree.ptr] using ha
    exact ⟨h.1, _, rfl, rfl, rfl⟩

end

theorem ptr_mem_addrs {t : ATree K} {a : Addr} (h : t.ptr = some a) : a ∈ t.addrs := by
  cases t <;> simp_all [ATree.ptr, ATree.addrs]

/-- Changing the parent pointer of the top of a tree. -/
theorem rep_reparent {val : Addr → Option V} {m m' : Mem K V} {par q : Ptr} {t : ATree K} {a : Addr}
    (h : Rep val m par t) (ha : t.ptr = some a) (hnd : t.addrs.Nodup)
    (htop : m'.get a = (m.get a).map fun c => { c with parent := q })
    (hrest : ∀ x ∈ t.addrs, x ≠ a → m'.get x = m.get x) : Rep val m' q t := by
  cases t with
  | null => trivial
  | leaf x b =>
    obtain rfl : x = a := by simpa [ATree.ptr] using ha
    exact ⟨by rw [htop, h.1]; rfl, h.2⟩
  | node x b l r =>
    obtain rfl : x = a := by simpa [ATree.ptr] using ha
    simp only [ATree.addrs, List.nodup_cons, List.mem_append, not_or] at hnd
    refine ⟨by rw [htop, h.1]; rfl, rep_congr ?_ h.2.1, rep_congr ?_ h.2.2⟩
    · intro y hy
      exact hrest y (by simp [ATree.addrs, hy]) (by rintro rfl; exact hnd.1.1 hy)
    · intro y hy
      exact hrest y (by simp [ATree.addrs, hy]) (by rintro rfl; exact hnd.1.2 hy)

/-- Two memories that differ at some addresses only. -/
def Only (S : List Addr) (m m' : Mem K V) : Prop :=
  m'.destroyed = m.destroyed ∧ ∀ x, x ∉ S → m'.get x = m.get x

theorem Only.refl (S : List Addr) (m : Mem K V) : Only S m m := ⟨rfl, fun _ _ => rfl⟩

theorem Only.trans {S : List Addr} {m₁ m₂ m₃ : Mem K V} (h₁ : Only S m₁ m₂) (h₂ : Only S m₂ m₃) : Only S m₁ m₃ :=
  ⟨h₂.1.trans h₁.1, fun x hx => (h₂.2 x hx).trans (h₁.2 x hx)⟩

theorem Only.mono {S T : List Addr} {m m' : Mem K V} (h : Only S m m') (hs : ∀ x ∈ S, x ∈ T) : Only T m m' :=
  ⟨h.1, fun x hx => h.2 x fun hx' => hx (hs x hx')⟩

theorem Only.set {S : List Addr} (m : Mem K V) {a : Addr} (c : Cell K V) (h : a ∈ S) : Only S m (m.set a c) :=
  ⟨rfl, fun x hx => by rw [get_set, if_neg (by rintro rfl; exact hx h)]⟩

theorem close_swap (p : Addr) (s : Bool) (b : BoundingBox K) (x y : ATree K) :
    (⟨p, s, b, y⟩ : AFrame K).close x = (⟨p, !s, b, x⟩ : AFrame K).close y := by
  cases s <;> rfl

/-! ### Rotations -/
section
variable [Field K] [LinearOrder K]

theorem swapNodes_run {m : Mem K V} {a u g p : Addr} {ca cu cg cp : Cell K V}
    (ha : m.get a = some ca) (hu : m.get u = some cu) (hg : m.get g = some cg) (hp : m.get p = some cp)
    (hap : ca.parent = some p) (hug : cu.parent = some g)
    (h1 : a ≠ u) (h2 : a ≠ g) (h3 : a ≠ p) (h4 : u ≠ g) (h5 : u ≠ p) (h6 : g ≠ p)
    (sa su : Bool) (hsa : decide (some a = cp.left) = sa) (hsu : decide (some u = cg.left) = su)
    (hva : (if sa then cp.left else cp.right) = some a) (hvu : (if su then cg.left else cg.right) = some u) :
    ∃ m', swapNodes (some a) (some u) m = .ok ((), m') ∧
      m'.get a = some { ca with parent := some g } ∧ m'.get u = some { cu with parent := some p } ∧
      m'.get g = some (if su then { cg with left := some a } else { cg with right := some a }) ∧
      m'.get p = some (if sa then { cp with left := some u } else { cp with right := some u }) ∧
      m'.destroyed = m.destroyed ∧
      ∀ x, x ≠ a → x ≠ u → x ≠ g → x ≠ p → m'.get x = m.get x := by
  simp only [swapNodes, handle, bind_run, load_some ha, load_some hu, Outcome.bind_ok, hap, hug, load_some hp,
    load_some hg, pure_run, Slot.read, hva, hvu, hsa, hsu, Slot.write, modify_some hp]
  set mp := m.set p (if sa then { cp with left := some u } else { cp with right := some u }) with hmp
  have hg1 : mp.get g = some cg := by rw [hmp, get_set, if_neg h6]; exact hg
  have ha1 : mp.get a = some ca := by rw [hmp, get_set, if_neg h3]; exact ha
  have hu1 : mp.get u = some cu := by rw [hmp, get_set, if_neg h5]; exact hu
  simp only [modify_some hg1, Outcome.bind_ok]
  set mg := mp.set g (if su then { cg with left := some a } else { cg with right := some a }) with hmg
  have ha2 : mg.get a = some ca := by rw [hmg, get_set, if_neg h2]; exact ha1
  have hu2 : mg.get u = some cu := by rw [hmg, get_set, if_neg h4]; exact hu1
  simp only [load_some ha2, load_some hu2, Outcome.bind_ok, modify_some ha2]
  set ma := mg.set a { ca with parent := cu.parent } with hma
  have hu3 : ma.get u = some cu := by rw [hma, get_set, if_neg h1.symm]; exact hu2
  rw [show ({ parent := some g, left := ca.left, right := ca.right, bounds := ca.bounds, data := ca.data } : Cell K V) =
    { ca with parent := cu.parent } by rw [hug]] at *
  rw [modify_some hu3]
  refine ⟨_, rfl, ?_, ?_, ?_, ?_, rfl, ?_⟩
  · simp only [hma, get_set, if_neg h1, if_true]
  · simp [get_set, hap]
  · simp only [hma, hmg, get_set, if_neg h4.symm, if_neg h2.symm, if_true]
  · simp only [hma, hmg, hmp, get_set, if_neg h5.symm, if_neg h3.symm, if_neg h6.symm, if_true]
  · intro x k1 k2 k3 k4
    simp only [hma, hmg, hmp, get_set, if_neg k1, if_neg k2, if_neg k3, if_neg k4]

theorem bounds_of_ptr {val : Addr → Option V} {m : Mem K V} {par : Ptr} {t : ATree K} {a : Addr}
    (h : Rep val m par t) (ha : t.ptr = some a) :
    ∃ c, m.get a = some c ∧ c.parent = par ∧ c.bounds = t.shape.bounds := by
  obtain ⟨h1, c, h2, h3, h4⟩ := rep_cell h ha
  exact ⟨c, h1.trans h2, h3, h4⟩

theorem shape_ne_null {t : ATree K} {a : Addr} (h : t.ptr = some a) : t.shape ≠ .null := by
  cases t <;> simp_all [ATree.ptr, ATree.shape]

theorem rotate_eq (cfg : Cfg K C) {α : Type} (u x y : RTree.Node K α) (pb : BoundingBox K) (hx : x ≠ .null)
    (hy : y ≠ .null) : RTree.rotate cfg u pb x y =
      if cfg.lt (cfg.area (y.bounds.combined u.bounds)) (cfg.area pb) then
        .ok (x, y.bounds.combined u.bounds, u) else .ok (u, pb, x) := by
  cases x <;> cases y <;> first | rfl | exact absurd rfl hx | exact absurd rfl hy

/-- A rotation between `U`, child of `g`, and `L`, child of the other child `p` of `g`. -/
theorem checkRotation_spec (cfg : Cfg K C) {val : Addr → Option V} {m : Mem K V} {par : Ptr} {g p u a y : Addr}
    {s s' : Bool} {gb pb : BoundingBox K} {U L S : ATree K}
    (hr : Rep val m par ((⟨g, s, gb, (⟨p, s', pb, S⟩ : AFrame K).close L⟩ : AFrame K).close U))
    (hnd : (g :: p :: (U.addrs ++ (L.addrs ++ S.addrs))).Nodup)
    (hU : U.ptr = some u) (hL : L.ptr = some a) (hS : S.ptr = some y) :
    ∃ m' U' L' pb', checkRotation cfg (some u) (some a) m = .ok ((), m') ∧
      RTree.rotate cfg U.shape pb L.shape S.shape = .ok (U'.shape, pb', L'.shape) ∧
      Rep val m' par ((⟨g, s, gb, (⟨p, s', pb', S⟩ : AFrame K).close L'⟩ : AFrame K).close U') ∧
      (U'.addrs ++ L'.addrs).Perm (U.addrs ++ L.addrs) ∧ U'.ptr.isSome ∧ L'.ptr.isSome ∧
      Only (g :: p :: (U.addrs ++ (L.addrs ++ S.addrs))) m m' := by
  obtain ⟨hg, hRU, hRP⟩ := (rep_close _ _ _ _ _).1 hr
  obtain ⟨hp, hRL, hRS⟩ := (rep_close _ _ _ _ _).1 hRP
  dsimp only at hg hp hRU hRL hRS
  rw [close_ptr] at hg
  dsimp only at hg
  rw [hU] at hg
  rw [hL, hS] at hp
  obtain ⟨ca, hca, hcap, hcab⟩ := bounds_of_ptr hRL hL
  obtain ⟨cu, hcu, hcup, hcub⟩ := bounds_of_ptr hRU hU
  obtain ⟨cy, hcy, hcyp, hcyb⟩ := bounds_of_ptr hRS hS
  have mu := ptr_mem_addrs hU
  have ma := ptr_mem_addrs hL
  have my := ptr_mem_addrs hS
  simp only [List.nodup_cons, List.mem_cons, List.mem_append, not_or, List.nodup_append] at hnd
  obtain ⟨⟨ngp, ngU, ngL, ngS⟩, ⟨npU, npL, npS⟩, ndU, ⟨ndL, ndS, dLS⟩, dU⟩ := hnd
  have au : a ≠ u := fun h => dU u mu a (Or.inl ma) h.symm
  have ay : a ≠ y := dLS a ma y my
  have ag : a ≠ g := fun h => ngL (h ▸ ma)
  have ap : a ≠ p := fun h => npL (h ▸ ma)
  have ug : u ≠ g := fun h => ngU (h ▸ mu)
  have up' : u ≠ p := fun h => npU (h ▸ mu)
  have gp : g ≠ p := ngp
  rw [rotate_eq cfg _ _ _ _ (shape_ne_null hL) (shape_ne_null hS)]
  have hsib : (sibling (some a)) m = .ok (⟨some p, !s'⟩, m) := by
    simp only [sibling, bind_run, load_some hca, Outcome.bind_ok, hcap, load_some hp, pure_run]
    congr 3
    cases s' <;> simp [ay]
  have hread : (Slot.read ⟨some p, !s'⟩) m = .ok (some y, m) := by
    simp only [Slot.read, bind_run, load_some hp, Outcome.bind_ok, pure_run]
    cases s' <;> simp
  simp only [checkRotation, bind_run, hsib, Outcome.bind_ok, hread, load_some hcy, load_some hcu, load_some hca, hcap,
    load_some hp, hcyb, hcub, ite_run]
  by_cases hlt : cfg.lt (cfg.area (S.shape.bounds.combined U.shape.bounds)) (cfg.area pb) = true
  · rw [if_pos hlt, if_pos hlt]
    simp only [bind_run, modify_some hp, Outcome.bind_ok]
    set m1 := m.set p (⟨some g, if s' = true then some a else some y, if s' = true then some y else some a, S.shape.bounds.combined U.shape.bounds, none⟩ : Cell K V) with hm1
    have k1 : m1.get a = some ca := by rw [hm1, get_set, if_neg ap]; exact hca
    have k2 : m1.get u = some cu := by rw [hm1, get_set, if_neg up']; exact hcu
    have k3 : m1.get g = _ := (show m1.get g = m.get g by rw [hm1, get_set, if_neg gp]).trans hg
    have k4 := show m1.get p = _ by rw [hm1, get_set, if_pos rfl]
    obtain ⟨m', e, e1, e2, e3, e4, e5, e6⟩ := swapNodes_run k1 k2 k3 k4 hcap hcup au ag ap ug up' gp s' s
      (by cases s' <;> simp [ay]) (by cases s <;> simp [up']) (by cases s' <;> simp) (by cases s <;> simp)
    refine ⟨m', L, U, _, e, rfl, ?_, List.perm_append_comm, by simp [hL], by simp [hU], ?_⟩
    · have q : ∀ x, x ≠ a → x ≠ u → x ≠ g → x ≠ p → m'.get x = m.get x := by
        intro x x1 x2 x3 x4
        rw [e6 x x1 x2 x3 x4, hm1, get_set, if_neg x4]
      rw [rep_close, rep_close]
      dsimp only
      refine ⟨?_, ?_, ?_, ?_, ?_⟩
      · rw [e3, close_ptr, hL]; cases s <;> rfl
      · refine rep_reparent hRL hL ndL (by rw [e1, hca]; rfl) fun x hx hxa => q x hxa ?_ ?_ ?_
        · rintro rfl; exact dU x mu x (Or.inl hx) rfl
        · rintro rfl; exact ngL hx
        · rintro rfl; exact npL hx
      · rw [e4, hU, hS]; cases s' <;> rfl
      · refine rep_reparent hRU hU ndU (by rw [e2, hcu]; rfl) fun x hx hxu => q x ?_ hxu ?_ ?_
        · rintro rfl; exact dU x hx x (Or.inl ma) rfl
        · rintro rfl; exact ngU hx
        · rintro rfl; exact npU hx
      · refine rep_congr (fun x hx => q x ?_ ?_ ?_ ?_) hRS
        · rintro rfl; exact dLS x ma x hx rfl
        · rintro rfl; exact dU x mu x (Or.inr hx) rfl
        · rintro rfl; exact ngS hx
        · rintro rfl; exact npS hx
    · refine ⟨by rw [e5, hm1]; rfl, fun x hx => ?_⟩
      simp only [List.mem_cons, List.mem_append, not_or] at hx
      obtain ⟨x1, x2, x3, x4, x5⟩ := hx
      rw [e6 x (by rintro rfl; exact x4 ma) (by rintro rfl; exact x3 mu) x1 x2, hm1, get_set, if_neg x2]
  · rw [if_neg hlt, if_neg hlt]
    exact ⟨m, U, L, pb, rfl, rfl, hr, List.Perm.refl _, by simp [hU], by simp [hL], Only.refl _ _⟩

theorem isSome_ptr {t : ATree K} (h : t.shape ≠ .null) : ∃ a, t.ptr = some a := by
  cases t <;> simp_all [ATree.ptr, ATree.shape]

theorem rotate_null (cfg : Cfg K C) {α : Type} {u x y : RTree.Node K α} {pb : BoundingBox K} {r}
    (h : RTree.rotate cfg u pb x y = .ok r) : x ≠ .null ∧ y ≠ .null := by
  constructor
  · rintro rfl; simp [RTree.rotate] at h
  · rintro rfl; cases x <;> simp [RTree.rotate] at h

theorem rotateBoth_spec_heap (cfg : Cfg K C) {val : Addr → Option V} {m : Mem K V} {par : Ptr} {g p : Addr}
    {s : Bool} {gb pb : BoundingBox K} {U x y : ATree K} {u' s' : RTree.Node K Addr}
    (hr : Rep val m par ((⟨g, s, gb, .node p pb x y⟩ : AFrame K).close U))
    (hnd : (g :: p :: (U.addrs ++ (x.addrs ++ y.addrs))).Nodup) (hU : U.ptr.isSome)
    (hf : RTree.rotateBoth cfg U.shape pb x.shape y.shape = .ok (u', s')) :
    ∃ m' U' P', rotationsOf cfg (some g) s m = .ok ((), m') ∧ U'.shape = u' ∧ P'.shape = s' ∧
      Rep val m' par ((⟨g, s, gb, P'⟩ : AFrame K).close U') ∧
      (U'.addrs ++ P'.addrs).Perm (U.addrs ++ p :: (x.addrs ++ y.addrs)) ∧ U'.ptr.isSome ∧ P'.ptr.isSome ∧
      Only (g :: p :: (U.addrs ++ (x.addrs ++ y.addrs))) m m' := by
  unfold RTree.rotateBoth at hf
  obtain ⟨⟨u1, pb1, x1⟩, f1, hf⟩ := RTree.Outcome.bind_eq_ok hf
  obtain ⟨⟨u2, pb2, y2⟩, f2, hf⟩ := RTree.Outcome.bind_eq_ok hf
  simp only [Outcome.ok.injEq, Prod.mk.injEq] at hf
  obtain ⟨nx, ny⟩ := rotate_null cfg f1
  obtain ⟨xa, hx⟩ := isSome_ptr nx
  obtain ⟨ya, hy⟩ := isSome_ptr ny
  obtain ⟨ua, hu⟩ := Option.isSome_iff_exists.1 hU
  -- first rotation
  have e0 : (.node p pb x y : ATree K) = (⟨p, true, pb, y⟩ : AFrame K).close x := rfl
  have hr0 := hr
  rw [e0] at hr
  obtain ⟨m1, U1, X1, pb1', r1, f1', h1, p1, su1, sx1, o1⟩ := checkRotation_spec cfg hr hnd hu hx hy
  rw [f1] at f1'
  simp only [Outcome.ok.injEq, Prod.mk.injEq] at f1'
  obtain ⟨rfl, rfl, rfl⟩ := f1'
  obtain ⟨ua1, hu1⟩ := Option.isSome_iff_exists.1 su1
  obtain ⟨xa1, hx1⟩ := Option.isSome_iff_exists.1 sx1
  have pp : (g :: p :: (U1.addrs ++ (y.addrs ++ X1.addrs))).Perm (g :: p :: (U.addrs ++ (x.addrs ++ y.addrs))) := by
    refine List.Perm.cons _ (List.Perm.cons _ ?_)
    calc U1.addrs ++ (y.addrs ++ X1.addrs) |>.Perm (U1.addrs ++ (X1.addrs ++ y.addrs)) :=
          List.Perm.append_left _ List.perm_append_comm
      _ = (U1.addrs ++ X1.addrs) ++ y.addrs := by simp
      _ |>.Perm ((U.addrs ++ x.addrs) ++ y.addrs) := p1.append_right _
      _ = _ := by simp
  -- second rotation
  have hr1 := h1
  rw [close_swap p] at h1
  obtain ⟨m2, U2, Y2, pb2', r2, f2', h2, p2, su2, sy2, o2⟩ := checkRotation_spec cfg h1 (pp.nodup_iff.2 hnd) hu1 hy hx1
  rw [f2] at f2'
  simp only [Outcome.ok.injEq, Prod.mk.injEq] at f2'
  obtain ⟨rfl, rfl, rfl⟩ := f2'
  rw [close_swap p] at h2
  refine ⟨m2, U2, (⟨p, !!true, pb2, Y2⟩ : AFrame K).close X1, ?_, hf.1, ?_, h2, ?_, su2, by rw [close_ptr]; rfl, ?_⟩
  · -- the program
    have c1 := (rep_close _ _ _ _ _).1 hr0
    have c2 := (rep_close _ _ _ _ _).1 hr1
    dsimp only at c1 c2
    rw [hu] at c1
    rw [hu1, close_ptr] at c2
    have d1 := c1.2.2.1
    have d2 := ((rep_close _ _ _ _ _).1 c2.2.2).1
    dsimp only at d2
    rw [hx1, hy] at d2
    rw [hx, hy] at d1
    have hs1 : (if s = true then (if s = true then (ATree.node p pb x y).ptr else some ua) else (if s = true then some ua else (ATree.node p pb x y).ptr)) = some p := by
      cases s <;> rfl
    have hs2 : (if s = true then (if s = true then some ua else (ATree.node p pb x y).ptr) else (if s = true then (ATree.node p pb x y).ptr else some ua)) = some ua := by
      cases s <;> rfl
    have hs3 : (if s = true then (if s = true then some p else some ua1) else (if s = true then some ua1 else some p)) = some p := by
      cases s <;> rfl
    have hs4 : (if s = true then (if s = true then some ua1 else some p) else (if s = true then some p else some ua1)) = some ua1 := by
      cases s <;> rfl
    simp only [rotationsOf, bind_run, load_some c1.1, Outcome.bind_ok, isLeaf, hs1, load_some d1, pure_run, ite_run,
      Option.isSome_none, Bool.not_false, if_true, hs2, r1, load_some c2.1, hs3, hs4, load_some d2, Bool.true_eq_false, if_false]
    exact r2
  · rw [close_shape, ← hf.2]; rfl
  · refine (List.Perm.append_left _ (close_addrs _ _)).trans ?_
    simp only [AFrame.addrs, List.cons_append]
    refine List.perm_middle.trans ?_
    refine List.Perm.trans ?_ List.perm_middle.symm
    refine List.Perm.cons _ ?_
    calc U2.addrs ++ (Y2.addrs ++ X1.addrs) = (U2.addrs ++ Y2.addrs) ++ X1.addrs := by simp
      _ |>.Perm ((U1.addrs ++ y.addrs) ++ X1.addrs) := p2.append_right _
      _ = U1.addrs ++ (y.addrs ++ X1.addrs) := by simp
      _ |>.Perm _ := by
        have := pp
        simpa using this
  · exact o1.trans (o2.mono fun x hx => pp.mem_iff.1 hx)

theorem rotationsOf_leaf (cfg : Cfg K C) {val : Addr → Option V} {m : Mem K V} {par : Ptr} {g p : Addr}
    {s : Bool} {gb pb : BoundingBox K} {U : ATree K}
    (hr : Rep val m par ((⟨g, s, gb, .leaf p pb⟩ : AFrame K).close U)) :
    rotationsOf cfg (some g) s m = .ok ((), m) := by
  have c1 := (rep_close _ _ _ _ _).1 hr
  dsimp only at c1
  have hs1 : (if s = true then (if s = true then (ATree.leaf p pb).ptr else U.ptr) else (if s = true then U.ptr else (ATree.leaf p pb).ptr)) = some p := by
    cases s <;> rfl
  obtain ⟨v, hv⟩ := Option.isSome_iff_exists.1 c1.2.2.2
  simp only [rotationsOf, bind_run, load_some c1.1, Outcome.bind_ok, isLeaf, hs1, load_some c1.2.2.1, pure_run, ite_run, hv,
    Option.isSome_some, Bool.not_true, Bool.false_eq_true, if_false]

/-- `checkRotations` at the node at address `g`. -/
theorem checkRotations_spec_heap (cfg : Cfg K C) {val : Addr → Option V} {m : Mem K V} {par : Ptr} {g : Addr}
    {gb : BoundingBox K} {l r : ATree K} {l' r' : RTree.Node K Addr}
    (hr : Rep val m par (.node g gb l r)) (hnd : (ATree.node g gb l r).addrs.Nodup)
    (hf : RTree.checkRotations cfg l.shape r.shape = .ok (l', r')) :
    ∃ m' L R, checkRotations cfg (some g) m = .ok ((), m') ∧ L.shape = l' ∧ R.shape = r' ∧
      Rep val m' par (.node g gb L R) ∧ (L.addrs ++ R.addrs).Perm (l.addrs ++ r.addrs) ∧
      Only (ATree.node g gb l r).addrs m m' := by
  have hload := load_some hr.1
  by_cases hnull : l.ptr.isNone || r.ptr.isNone
  · have e : RTree.checkRotations cfg l.shape r.shape = .ok (l.shape, r.shape) := by
      cases l <;> cases r <;> first | rfl | simp [ATree.ptr] at hnull
    rw [e] at hf
    simp only [Outcome.ok.injEq, Prod.mk.injEq] at hf
    refine ⟨m, l, r, ?_, hf.1, hf.2, hr, List.Perm.refl _, Only.refl _ _⟩
    simp only [checkRotations, bind_run, hload, Outcome.bind_ok, hnull, if_true, pure_run]
  · have hl : l.ptr.isSome := by cases l <;> simp_all [ATree.ptr]
    have hrr : r.ptr.isSome := by cases r <;> simp_all [ATree.ptr]
    have e : RTree.checkRotations cfg l.shape r.shape =
        (RTree.rotateRight cfg l.shape r.shape).bind fun q => RTree.rotateLeft cfg q.1 q.2 := by
      cases l <;> cases r <;> first | rfl | exact absurd hl Bool.false_ne_true | exact absurd hrr Bool.false_ne_true
    rw [e] at hf
    obtain ⟨⟨l1, r1⟩, f1, f2⟩ := RTree.Outcome.bind_eq_ok hf
    have hprog : checkRotations cfg (some g) m =
        (rotationsOf cfg (some g) true m).bind fun q => rotationsOf cfg (some g) false q.2 := by
      simp only [checkRotations, bind_run, hload, Outcome.bind_ok, hnull, Bool.false_eq_true, if_false]
    -- first half
    have first : ∃ m1 L R, rotationsOf cfg (some g) true m = .ok ((), m1) ∧ L.shape = l1 ∧ R.shape = r1 ∧
        Rep val m1 par (.node g gb L R) ∧ (L.addrs ++ R.addrs).Perm (l.addrs ++ r.addrs) ∧ L.ptr.isSome ∧ R.ptr.isSome ∧
        Only (ATree.node g gb l r).addrs m m1 := by
      cases r with
      | null => simp [ATree.ptr] at hrr
      | leaf p pb =>
        simp only [ATree.shape, RTree.rotateRight, Outcome.ok.injEq, Prod.mk.injEq] at f1
        have := rotationsOf_leaf cfg (s := true) hr
        exact ⟨m, l, .leaf p pb, this, f1.1, f1.2, hr, List.Perm.refl _, hl, hrr, Only.refl _ _⟩
      | node p pb x y =>
        have pp : (ATree.node g gb l (.node p pb x y)).addrs.Perm (g :: p :: (l.addrs ++ (x.addrs ++ y.addrs))) := by
          simp only [ATree.addrs]
          exact List.Perm.cons _ List.perm_middle
        obtain ⟨m1, U', P', a1, a2, a3, a4, a5, a6, a7, a8⟩ :=
          rotateBoth_spec_heap cfg (s := true) hr (pp.nodup_iff.1 hnd) hl f1
        exact ⟨m1, U', P', a1, a2, a3, a4, a5, a6, a7, a8.mono fun x hx => pp.mem_iff.2 hx⟩
    obtain ⟨m1, L1, R1, p1, rfl, rfl, h1, pe1, s1, t1, o1⟩ := first
    have pe1' : (ATree.node g gb L1 R1).addrs.Perm (ATree.node g gb l r).addrs := by
      simp only [ATree.addrs]; exact List.Perm.cons _ pe1
    have hnd1 := pe1'.nodup_iff.2 hnd
    have second : ∃ m2 L R, rotationsOf cfg (some g) false m1 = .ok ((), m2) ∧ L.shape = l' ∧ R.shape = r' ∧
        Rep val m2 par (.node g gb L R) ∧ (L.addrs ++ R.addrs).Perm (L1.addrs ++ R1.addrs) ∧
        Only (ATree.node g gb L1 R1).addrs m1 m2 := by
      cases L1 with
      | null => simp [ATree.ptr] at s1
      | leaf p pb =>
        simp only [ATree.shape, RTree.rotateLeft, Outcome.ok.injEq, Prod.mk.injEq] at f2
        have := rotationsOf_leaf cfg (s := false) (U := R1) h1
        exact ⟨m1, .leaf p pb, R1, this, f2.1, f2.2, h1, List.Perm.refl _, Only.refl _ _⟩
      | node p pb x y =>
        have pp : (ATree.node g gb (.node p pb x y) R1).addrs.Perm (g :: p :: (R1.addrs ++ (x.addrs ++ y.addrs))) := by
          simp only [ATree.addrs]
          exact List.Perm.cons _ (List.Perm.cons _ List.perm_append_comm)
        simp only [ATree.shape, RTree.rotateLeft] at f2
        obtain ⟨⟨u2, q2⟩, f3, f4⟩ := RTree.Outcome.bind_eq_ok f2
        simp only [Outcome.ok.injEq, Prod.mk.injEq] at f4
        obtain ⟨rfl, rfl⟩ := f4
        obtain ⟨m2, U', P', a1, a2, a3, a4, a5, a6, a7, a8⟩ :=
          rotateBoth_spec_heap cfg (s := false) (U := R1) h1 (pp.nodup_iff.1 hnd1) t1 f3
        refine ⟨m2, P', U', a1, a3, a2, a4, ?_, a8.mono fun x hx => pp.mem_iff.2 hx⟩
        exact (List.perm_append_comm.trans a5).trans List.perm_append_comm
    obtain ⟨m2, L2, R2, p2, q1, q2, h2, pe2, o2⟩ := second
    refine ⟨m2, L2, R2, ?_, q1, q2, h2, pe2.trans pe1, o1.trans (o2.mono fun x hx => pe1'.mem_iff.1 hx)⟩
    rw [hprog, p1]; exact p2

/-! ### Refitting -/

theorem boundsOf_run {val : Addr → Option V} {m : Mem K V} {par : Ptr} {t : ATree K} (h : Rep val m par t) :
    boundsOf t.ptr m = .ok (t.shape.bounds, m) := by
  cases t with
  | null => rfl
  | leaf a b => simp [ATree.ptr, boundsOf, load_some h.1, ATree.shape, RTree.Node.bounds]
  | node a b l r => simp [ATree.ptr, boundsOf, load_some h.1, ATree.shape, RTree.Node.bounds]

theorem refit_stop (cfg : Cfg K C) {val : Addr → Option V} {m : Mem K V} {par : Ptr} {a : Addr} {b : BoundingBox K}
    {l r : ATree K} (hr : Rep val m par (.node a b l r)) (hb : (l.shape.bounds.combined r.shape.bounds).beq b = true)
    (fuel : Nat) : refit cfg (fuel + 1) (some a) m = .ok ((), m) := by
  simp only [refit, bind_run, load_some hr.1, Outcome.bind_ok, boundsOf_run hr.2.1, boundsOf_run hr.2.2, hb, if_true, pure_run]

theorem refit_step (cfg : Cfg K C) {val : Addr → Option V} {m : Mem K V} {par : Ptr} {a : Addr} {b : BoundingBox K}
    {l r : ATree K} {l' r' : RTree.Node K Addr} (hr : Rep val m par (.node a b l r))
    (hnd : (ATree.node a b l r).addrs.Nodup) (hb : ¬ (l.shape.bounds.combined r.shape.bounds).beq b = true)
    (hf : RTree.checkRotations cfg l.shape r.shape = .ok (l', r')) :
    ∃ m' L R, (∀ fuel, refit cfg (fuel + 1) (some a) m = refit cfg fuel par m') ∧ L.shape = l' ∧ R.shape = r' ∧
      Rep val m' par (.node a (l.shape.bounds.combined r.shape.bounds) L R) ∧
      (L.addrs ++ R.addrs).Perm (l.addrs ++ r.addrs) ∧ Only (ATree.node a b l r).addrs m m' := by
  set nb := l.shape.bounds.combined r.shape.bounds with hnb
  set m1 := m.set a ⟨par, l.ptr, r.ptr, nb, none⟩ with hm1
  have hnd' := hnd
  simp only [ATree.addrs, List.nodup_cons, List.mem_append, not_or] at hnd'
  have h1 : Rep val m1 par (.node a nb l r) := by
    refine ⟨by rw [hm1, get_set, if_pos rfl], rep_congr ?_ hr.2.1, rep_congr ?_ hr.2.2⟩
    · intro x hx; rw [hm1, get_set, if_neg (by rintro rfl; exact hnd'.1.1 hx)]
    · intro x hx; rw [hm1, get_set, if_neg (by rintro rfl; exact hnd'.1.2 hx)]
  obtain ⟨m2, L, R, p2, e1, e2, h2, pe, o2⟩ := checkRotations_spec_heap cfg h1 hnd hf
  refine ⟨m2, L, R, fun fuel => ?_, e1, e2, h2, pe, ?_⟩
  · simp only [refit, bind_run, load_some hr.1, Outcome.bind_ok, boundsOf_run hr.2.1, boundsOf_run hr.2.2, ← hnb, hb,
      Bool.false_eq_true, if_false, modify_some hr.1, ← hm1, p2, load_some h2.1]
  · exact (Only.set m _ (by simp [ATree.addrs])).trans o2

theorem disjoint_azip {t : ATree K} {path : List (AFrame K)} (h : (azip t path).addrs.Nodup) :
    t.addrs.Nodup ∧ (pathAddrs path).Nodup ∧ ∀ x ∈ t.addrs, x ∉ pathAddrs path := by
  have h' := (azip_addrs t path).nodup_iff.1 h
  rw [List.nodup_append] at h'
  exact ⟨h'.1, h'.2.1, fun x hx hy => h'.2.2 x hx x hy rfl⟩

/-- What a change below a path leaves. -/
theorem rep_replace {val : Addr → Option V} {m m' : Mem K V} {t t' : ATree K} {path : List (AFrame K)} {S : List Addr}
    (hp : RepPath val m t.ptr path) (hptr : t'.ptr = t.ptr) (ho : Only S m m') (hd : ∀ x ∈ pathAddrs path, x ∉ S)
    (ht : Rep val m' (up path) t') : Rep val m' none (azip t' path) := by
  rw [rep_azip]
  refine ⟨ht, ?_⟩
  rw [hptr]
  exact repPath_congr (fun x hx => ho.2 x (hd x hx)) hp

theorem azip_ptr {t t' : ATree K} (path : List (AFrame K)) (h : t'.ptr = t.ptr) : (azip t' path).ptr = (azip t path).ptr := by
  induction path generalizing t t' with
  | nil => exact h
  | cons f fs ih => simp only [azip]; exact ih (by rw [close_ptr, close_ptr])

theorem azip_perm {t t' : ATree K} (path : List (AFrame K)) (h : t'.addrs.Perm t.addrs) :
    (azip t' path).addrs.Perm (azip t path).addrs :=
  (azip_addrs t' path).trans ((h.append_right _).trans (azip_addrs t path).symm)

theorem refit_spec_heap (cfg : Cfg K C) {val : Addr → Option V} {m : Mem K V} {a : Addr} {b : BoundingBox K}
    {l r : ATree K} {path : List (AFrame K)} {T : RTree.Node K Addr}
    (hr : Rep val m none (azip (.node a b l r) path)) (hnd : (azip (.node a b l r) path).addrs.Nodup)
    (hf : RTree.refit cfg l.shape r.shape b (pathShape path) = .ok T) :
    ∃ m' t', (∀ fuel, path.length < fuel → refit cfg fuel (some a) m = .ok ((), m')) ∧ t'.shape = T ∧
      Rep val m' none t' ∧ t'.addrs.Perm (azip (.node a b l r) path).addrs ∧
      t'.ptr = (azip (.node a b l r) path).ptr ∧ Only (azip (.node a b l r) path).addrs m m' := by
  induction path generalizing m a b l r with
  | nil =>
    simp only [azip] at hr hnd ⊢
    simp only [pathShape, List.map_nil, RTree.refit] at hf
    by_cases hb : (l.shape.bounds.combined r.shape.bounds).beq b = true
    · rw [if_pos hb] at hf
      simp only [Outcome.ok.injEq] at hf
      refine ⟨m, .node a b l r, ?_, hf, hr, List.Perm.refl _, rfl, Only.refl _ _⟩
      intro fuel hfuel
      obtain ⟨k, rfl⟩ := Nat.exists_eq_add_of_lt hfuel
      exact refit_stop cfg hr hb _
    · rw [if_neg hb] at hf
      obtain ⟨⟨l', r'⟩, f1, f2⟩ := RTree.Outcome.bind_eq_ok hf
      simp only [Outcome.ok.injEq] at f2
      obtain ⟨m', L, R, p, rfl, rfl, h, pe, o⟩ := refit_step cfg hr hnd hb f1
      refine ⟨m', .node a _ L R, ?_, f2, h, ?_, rfl, o⟩
      · intro fuel hfuel
        obtain ⟨k, rfl⟩ := Nat.exists_eq_add_of_lt hfuel
        rw [p]; simp [refit]
      · simp only [ATree.addrs]; exact List.Perm.cons _ pe
  | cons f fs ih =>
    simp only [pathShape, List.map_cons, RTree.refit] at hf
    have hz := (rep_azip _ _ _ _).1 hr
    have hd := disjoint_azip hnd
    by_cases hb : (l.shape.bounds.combined r.shape.bounds).beq b = true
    · rw [if_pos hb] at hf
      simp only [Outcome.ok.injEq] at hf
      refine ⟨m, azip (.node a b l r) (f :: fs), ?_, ?_, hr, List.Perm.refl _, rfl, Only.refl _ _⟩
      · intro fuel hfuel
        obtain ⟨k, rfl⟩ := Nat.exists_eq_add_of_lt hfuel
        exact refit_stop cfg hz.1 hb _
      · rw [azip_shape, ← hf]; rfl
    · rw [if_neg hb] at hf
      obtain ⟨⟨l', r'⟩, f1, f2⟩ := RTree.Outcome.bind_eq_ok hf
      dsimp only at f2
      obtain ⟨m1, L, R, p, rfl, rfl, h, pe, o⟩ := refit_step cfg hz.1 hd.1 hb f1
      set nb := l.shape.bounds.combined r.shape.bounds with hnb
      have hr1 : Rep val m1 none (azip (.node a nb L R) (f :: fs)) :=
        rep_replace (t := .node a b l r) hz.2 rfl o (fun x hx hx' => hd.2.2 x hx' hx) h
      have pe' : (ATree.node a nb L R).addrs.Perm (ATree.node a b l r).addrs := by
        simp only [ATree.addrs]; exact List.Perm.cons _ pe
      have pz := azip_perm (f :: fs) pe'
      have hnd1 := pz.nodup_iff.2 hnd
      have key : ∃ m' t', (∀ fuel, fs.length < fuel → refit cfg fuel (some f.addr) m1 = .ok ((), m')) ∧ t'.shape = T ∧
          Rep val m' none t' ∧ t'.addrs.Perm (azip (.node a nb L R) (f :: fs)).addrs ∧
          t'.ptr = (azip (.node a nb L R) (f :: fs)).ptr ∧ Only (azip (.node a nb L R) (f :: fs)).addrs m1 m' := by
        simp only [azip] at hr1 hnd1 ⊢
        cases hs : f.onLeft
        · have e : f.close (.node a nb L R) = .node f.addr f.bounds f.other (.node a nb L R) := by
            unfold AFrame.close; rw [hs]; rfl
          rw [e] at hr1 hnd1 ⊢
          refine ih hr1 hnd1 ?_
          simpa [AFrame.shape, hs, pathShape, ATree.shape] using f2
        · have e : f.close (.node a nb L R) = .node f.addr f.bounds (.node a nb L R) f.other := by
            unfold AFrame.close; rw [hs]; rfl
          rw [e] at hr1 hnd1 ⊢
          refine ih hr1 hnd1 ?_
          simpa [AFrame.shape, hs, pathShape, ATree.shape] using f2
      obtain ⟨m', t', q1, q2, q3, q4, q5, q6⟩ := key
      refine ⟨m', t', ?_, q2, q3, q4.trans pz, q5.trans (azip_ptr (f :: fs) rfl), ?_⟩
      · intro fuel hfuel
        obtain ⟨k, rfl⟩ := Nat.exists_eq_add_of_lt hfuel
        rw [p]
        refine q1 _ ?_
        simp only [List.length_cons]; omega
      · refine Only.trans (o.mono fun x hx => ?_) (q6.mono fun x hx => pz.mem_iff.1 hx)
        exact (azip_addrs _ _).mem_iff.2 (List.mem_append_left _ hx)

end

end Simu.RTreeHeap
