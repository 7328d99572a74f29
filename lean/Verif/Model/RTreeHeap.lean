import Verif.Model.RTree
import Mathlib.Data.Finmap
/-
Model of include/Simu/physics/RTree.hpp and RTree.inl.hpp at the level of memory: nodes live at
addresses, they point to each other, they are allocated, written through pointers and freed. Using an
address that does not hold a node is undefined behaviour.

Verif.Model.RTree models the same functions on trees; here every pointer assignment of the code is
kept. Simplifications: the element of a leaf (`Node::data`, allocated on its own by `makeLeaf`) is kept
in the leaf, its destruction is recorded in `destroyed`; allocations succeed; loops and recursions along
pointers take a number of rounds (`fuel`), running out of them is reported as `ub` (the theorems say that
some number is enough and that more does not change anything). The vectors of pointers used while the
tree is rebuilt carry the bounds of the leaves they point to, which do not change meanwhile.
-/
namespace Simu.RTreeHeap
open Simu.RTree (Cfg PQ Entry OverlapList)

abbrev Addr := Nat

/-- `Node*`; `none` is `nullptr`. -/
abbrev Ptr := Option Addr

/-- RTree.inl.hpp:33-82: the fields of `Node` (76-82). -/
structure Cell (K V : Type) where
  parent : Ptr
  left : Ptr
  right : Ptr
  bounds : BoundingBox K
  data : Option V

/-- The nodes that are allocated, and the elements whose destructor has been called, latest first. -/
structure Mem (K V : Type) where
  cells : Finmap fun _ : Addr => Cell K V
  destroyed : List V

variable {K C V : Type}

/-- The node at an address. -/
def Mem.get (m : Mem K V) (a : Addr) : Option (Cell K V) := m.cells.lookup a

/-- A piece of code acting on the memory. -/
def Prog (K V X : Type) := Mem K V → Outcome (X × Mem K V)

instance : Monad (Prog K V) where
  pure x := fun m => .ok (x, m)
  bind p f := fun m => (p m).bind fun r => f r.1 r.2

/-- `*p`, read. -/
def load (p : Ptr) : Prog K V (Cell K V) := fun m =>
  match p with
  | none => .ub
  | some a =>
    match m.get a with
    | none => .ub
    | some c => .ok (c, m)

/-- Assignments to fields of `*p`. -/
def modify (p : Ptr) (f : Cell K V → Cell K V) : Prog K V Unit := fun m =>
  match p with
  | none => .ub
  | some a =>
    match m.get a with
    | none => .ub
    | some c => .ok ((), { m with cells := m.cells.insert a (f c) })

/-- The address given by the allocator for one more node (`NodeAllocTraits::allocate`, RTree.hpp:268, see
Memory.hpp): it may depend on anything. -/
abbrev Alloc (K V : Type) := Mem K V → Addr

/-- `allocate` followed by `construct`. An allocator giving an address which is in use would be a broken
allocator. -/
def allocate (al : Alloc K V) (c : Cell K V) : Prog K V Ptr := fun m =>
  match m.get (al m) with
  | some _ => .ub
  | none => .ok (some (al m), { m with cells := m.cells.insert (al m) c })

/-- `destroy` followed by `deallocate`, for the node (RTree.hpp:305-306) and its element (299-303). Freeing
what is not allocated is undefined. -/
def free (a : Addr) : Prog K V Unit := fun m =>
  match m.get a with
  | none => .ub
  | some c => .ok ((), ⟨m.cells.erase a, c.data.toList ++ m.destroyed⟩)

/-! ### Node (RTree.inl.hpp:33-82) -/

/-- RTree.inl.hpp:40. -/
def isRoot (p : Ptr) : Prog K V Bool := do return (← load p).parent.isNone
/-- RTree.inl.hpp:41. -/
def isLeaf (p : Ptr) : Prog K V Bool := do return (← load p).data.isSome
/-- RTree.inl.hpp:43. -/
def isLeft (p : Ptr) : Prog K V Bool := do
  let c ← load p
  if c.parent.isNone then return false
  return decide ((← load c.parent).left = p)
/-- RTree.inl.hpp:44. -/
def isRight (p : Ptr) : Prog K V Bool := do
  let c ← load p
  if c.parent.isNone then return false
  return decide ((← load c.parent).right = p)

/-- RTree.inl.hpp:46-50. -/
def setLeft (p node : Ptr) : Prog K V Unit := do
  modify p fun c => { c with left := node }
  modify node fun c => { c with parent := p }
/-- RTree.inl.hpp:51-55. -/
def setRight (p node : Ptr) : Prog K V Unit := do
  modify p fun c => { c with right := node }
  modify node fun c => { c with parent := p }

/-- A `Node*&` (RTree.inl.hpp:66-74): which child of which node. -/
structure Slot where
  owner : Ptr
  onLeft : Bool

/-- RTree.inl.hpp:66, 73: `childHandle(child)` of the parent. -/
def handle (p : Ptr) : Prog K V Slot := do
  let c ← load p
  let q ← load c.parent
  return ⟨c.parent, decide (p = q.left)⟩
/-- RTree.inl.hpp:68-71, 74: `otherChildHandle(child)` of the parent. -/
def sibling (p : Ptr) : Prog K V Slot := do
  let c ← load p
  let q ← load c.parent
  return ⟨c.parent, decide (p ≠ q.left)⟩

/-- Reading through a `Node*&`. -/
def Slot.read (s : Slot) : Prog K V Ptr := do
  let c ← load s.owner
  return if s.onLeft then c.left else c.right
/-- Writing through a `Node*&`. -/
def Slot.write (s : Slot) (v : Ptr) : Prog K V Unit :=
  modify s.owner fun c => if s.onLeft then { c with left := v } else { c with right := v }

/-- RTree.inl.hpp:56-64 `replaceBy(replacement)`, with `replaceChild`. -/
def replaceBy (p replacement : Ptr) : Prog K V Unit := do
  let c ← load p
  let s ← handle p
  s.write replacement
  modify replacement fun d => { d with parent := c.parent }

/-! ### Nodes of a tree (RTree.hpp:266-313) -/

/-- RTree.hpp:266-272. -/
def makeNode (al : Alloc K V) (b : BoundingBox K) : Prog K V Ptr :=
  allocate al ⟨none, none, none, b, none⟩

/-- RTree.hpp:274-284. -/
def makeLeaf (al : Alloc K V) (b : BoundingBox K) (v : V) : Prog K V Ptr := do
  let node ← makeNode al b
  modify node fun c => { c with data := some v }
  return node

/-- RTree.hpp:286-307. -/
def deleteNode : Nat → Ptr → Prog K V Unit
  | _, none => pure ()
  | 0, some _ => fun _ => .ub
  | fuel + 1, some a => do
    deleteNode fuel (← load (some a)).left
    deleteNode fuel (← load (some a)).right
    free a

/-- RTree.hpp:309-313. -/
def swapNodes (first second : Ptr) : Prog K V Unit := do
  let h₁ ← handle first
  let h₂ ← handle second
  let v₁ ← h₁.read
  let v₂ ← h₂.read
  h₁.write v₂
  h₂.write v₁
  let p₁ := (← load first).parent
  let p₂ := (← load second).parent
  modify first fun c => { c with parent := p₂ }
  modify second fun c => { c with parent := p₁ }

/-! ### Insertion and removal -/
section
variable [Field K] [LinearOrder K]

/-- RTree.hpp:333-341. -/
def checkRotation (cfg : Cfg K C) (upper lower : Ptr) : Prog K V Unit := do
  let s ← (← sibling lower).read
  let newBounds := (← load s).bounds.combined (← load upper).bounds
  let p := (← load lower).parent
  if cfg.lt (cfg.area newBounds) (cfg.area (← load p).bounds) then do
    modify p fun c => { c with bounds := newBounds }
    swapNodes lower upper

/-- RTree.hpp:321-325 and 326-330: the rotations between the child of `gp` on one side and the
grandchildren on the other side, which is not a leaf. -/
def rotationsOf (cfg : Cfg K C) (gp : Ptr) (upperLeft : Bool) : Prog K V Unit := do
  let g ← load gp
  let side := if upperLeft then g.right else g.left
  if !(← isLeaf side) then do
    checkRotation cfg (if upperLeft then g.left else g.right) (← load side).left
    -- everything is read again: the first rotation changes it
    let g ← load gp
    let side := if upperLeft then g.right else g.left
    checkRotation cfg (if upperLeft then g.left else g.right) (← load side).right

/-- RTree.hpp:315-331. -/
def checkRotations (cfg : Cfg K C) (gp : Ptr) : Prog K V Unit := do
  let g ← load gp
  if g.left.isNone || g.right.isNone then return ()
  rotationsOf cfg gp true
  rotationsOf cfg gp false

/-- RTree.hpp:404-410. -/
def boundsOf (p : Ptr) : Prog K V (BoundingBox K) :=
  match p with
  | none => pure BoundingBox.invalid
  | some a => do return (← load (some a)).bounds

/-- RTree.hpp:343-360. -/
def refit (cfg : Cfg K C) : Nat → Ptr → Prog K V Unit
  | _, none => pure ()
  | 0, some _ => fun _ => .ub
  | fuel + 1, some a => do
    let c ← load (some a)
    let newBounds := (← boundsOf c.left).combined (← boundsOf c.right)
    if newBounds.beq c.bounds then return ()
    modify (some a) fun c => { c with bounds := newBounds }
    checkRotations cfg (some a)
    refit cfg fuel (← load (some a)).parent

/-- RTree.hpp:363-392. -/
def addLeafTo (cfg : Cfg K C) (al : Alloc K V) (fuel : Nat) (node leaf : Ptr) : Prog K V Unit := do
  if ← isLeaf node then do
    let parent ← makeNode al ((← load node).bounds.combined (← load leaf).bounds)
    replaceBy node parent
    setLeft parent node
    setRight parent leaf
    refit cfg fuel (← load parent).parent
  else do
    let c ← load node
    if c.left.isNone then setLeft node leaf
    else if c.right.isNone then setRight node leaf
    else do
      let merged ← makeNode al c.bounds
      setLeft merged c.left
      setRight merged c.right
      setLeft node merged
      setRight node leaf
    refit cfg fuel node

/-- RTree.hpp:433-457: the search loop of `insert`; `queue` holds nodes with their induced costs. -/
def searchLoop (cfg : Cfg K C) (pq : PQ (Ptr × C)) (box : BoundingBox K) :
    Nat → List (Ptr × C) → Ptr → C → Prog K V Ptr
  | 0, _, _, _ => fun _ => .ub
  | fuel + 1, q, best, bestCost =>
    if h : q = [] then pure best
    else
      let cur := (pq.pop q h).1
      let rest := (pq.pop q h).2
      if cfg.ge (cfg.add cur.2 (cfg.area box)) bestCost then pure best
      else do
        let c ← load cur.1
        let directCost := cfg.area (c.bounds.combined box)
        let totalCost := cfg.add cur.2 directCost
        let better := cfg.lt totalCost bestCost
        let best' := if better then cur.1 else best
        let bestCost' := if better then totalCost else bestCost
        let inducedCost := cfg.sub totalCost (cfg.area c.bounds)
        if cfg.lt (cfg.add inducedCost (cfg.area box)) bestCost' then
          let q := if c.left.isSome then (c.left, inducedCost) :: rest else rest
          let q := if c.right.isSome then (c.right, inducedCost) :: q else q
          searchLoop cfg pq box fuel q best' bestCost'
        else searchLoop cfg pq box fuel rest best' bestCost'

/-- RTree.hpp:412-461 `insert(Node*)`. -/
def insertNode (cfg : Cfg K C) (pq : PQ (Ptr × C)) (al : Alloc K V) (fuel : Nat) (root node : Ptr) :
    Prog K V Unit := do
  let best ← searchLoop cfg pq (← load node).bounds fuel [(root, cfg.zero)] none cfg.inf
  addLeafTo cfg al fuel best node

/-- RTree.hpp:468: `!sibling || sibling->isLeaf()`. -/
def leafLike : Ptr → Prog K V Bool
  | none => pure true
  | some s => isLeaf (some s)

/-- RTree.hpp:463-497. -/
def extract (cfg : Cfg K C) (fuel : Nat) (node : Ptr) : Prog K V Unit := do
  let sib ← (← sibling node).read
  let parent := (← load node).parent
  if ← isRoot parent then do
    if ← leafLike sib then do
      (← handle node).write none
      refit cfg fuel parent
    else do
      replaceBy node (← load sib).left
      replaceBy sib (← load sib).right
      refit cfg fuel (← load node).parent
      modify sib fun c => { c with left := none }
      modify sib fun c => { c with right := none }
      deleteNode fuel sib
  else do
    (← handle sib).write none
    replaceBy (← load node).parent sib
    refit cfg fuel (← load (← load node).parent).parent
    (← handle node).write none
    deleteNode fuel (← load node).parent

/-- RTree.hpp:499 `erase(Node*)`. -/
def eraseNode (cfg : Cfg K C) (fuel : Nat) (node : Ptr) : Prog K V Unit := do
  extract cfg fuel node
  deleteNode fuel node

/-- RTree.hpp:744-749 `update(Node*, newBounds)` and the public one, 193-197. -/
def update (cfg : Cfg K C) (pq : PQ (Ptr × C)) (al : Alloc K V) (fuel : Nat) (root node : Ptr)
    (newBounds : BoundingBox K) : Prog K V Unit := do
  extract cfg fuel node
  modify node fun c => { c with bounds := newBounds }
  insertNode cfg pq al fuel root node

/-- RTree.hpp:175-184 `insert`, `emplace`: the iterator returned holds the address of the new leaf. -/
def insert (cfg : Cfg K C) (pq : PQ (Ptr × C)) (al : Alloc K V) (fuel : Nat) (root : Ptr)
    (b : BoundingBox K) (v : V) : Prog K V Ptr := do
  let leaf ← makeLeaf al b v
  insertNode cfg pq al fuel root leaf
  return leaf

/-! ### Iterators (RTree.inl.hpp:85-185) -/

/-- RTree.inl.hpp:171-182. -/
def goLeft : Nat → Ptr → Prog K V Ptr
  | 0, _ => fun _ => .ub
  | fuel + 1, p => do
    let c ← load p
    if c.data.isSome then return p
    if c.left.isSome then goLeft fuel c.left
    else if c.right.isSome then goLeft fuel c.right
    else return p

/-- RTree.hpp:168 `begin()`. `end()` (169) is `root_` itself. -/
def begin (fuel : Nat) (root : Ptr) : Prog K V Ptr := goLeft fuel root

/-- RTree.inl.hpp:118-137 `operator++`. -/
def next : Nat → Ptr → Prog K V Ptr
  | 0, _ => fun _ => .ub
  | fuel + 1, p => do
    if ← isLeft p then do
      let parent := (← load p).parent
      let r := (← load parent).right
      if r.isNone then return parent
      goLeft fuel r
    else if ← isRight p then next fuel (← load p).parent
    else return p

/-- RTree.hpp:186-191 `erase(it)`: the iterator to the following element is returned. -/
def erase (cfg : Cfg K C) (fuel : Nat) (it : Ptr) : Prog K V Ptr := do
  let nxt ← next fuel it
  eraseNode cfg fuel it
  return nxt

/-- `for (it = begin(); it != end(); ++it)` (RTree.hpp:135): the addresses visited, at most `n`. -/
def visit (fuel : Nat) (root : Ptr) : Nat → Ptr → Prog K V (List Ptr)
  | 0, it => if it = root then pure [] else fun _ => .ub
  | n + 1, it =>
    if it = root then pure []
    else do return it :: (← visit fuel root n (← next fuel it))

/-! ### Rebuilding (RTree.hpp:127-166, 220-264, 638-742) -/

/-- RTree.hpp:232-240, 242-248 `recycleSubTree`, `recycle`. The vector `bin_` is kept from its back to its
front. -/
def recycleSubTree : Nat → Addr → List Addr → Prog K V (List Addr)
  | 0, _, _ => fun _ => .ub
  | fuel + 1, a, bin => do
    let bin ← (match (← load (some a)).left with
      | none => pure bin
      | some l => recycleSubTree fuel l bin)
    let bin ← (match (← load (some a)).right with
      | none => pure bin
      | some r => recycleSubTree fuel r bin)
    modify (some a) fun c => { c with parent := none, left := none, right := none }
    return a :: bin

/-- RTree.hpp:250-260 `getNode`. -/
def getNode (al : Alloc K V) : List Addr → Prog K V (Ptr × List Addr)
  | a :: bin => pure (some a, bin)
  | [] => do return (← makeNode al BoundingBox.invalid, [])

/-- RTree.hpp:226-230: the destructor of the bin. -/
def emptyBin (fuel : Nat) : List Addr → Prog K V Unit
  | [] => pure ()
  | a :: bin => do
    emptyBin fuel bin
    deleteNode fuel (some a)

/-- RTree.hpp:738-741: `child->parent = subRoot` if there is a child. -/
def setParent (child parent : Ptr) : Prog K V Unit :=
  match child with
  | none => pure ()
  | some a => modify (some a) fun c => { c with parent := parent }

/-- RTree.hpp:638-742: the recursive `updateAndCollide`: the address of the subtree built and the bin left.
`onCollision` is called for the pairs given by `RTree.rebuild`; here it returns. -/
def rebuild (cfg : Cfg K C) (al : Alloc K V) (nodes : List (Entry K Addr)) (bin : List Addr) :
    Prog K V (Ptr × List Addr) :=
  match nodes with
  | [] => pure (none, bin)
  | [n] => pure (some n.id, bin)
  | n₁ :: n₂ :: ns => do
    let (subRoot, bin) ← getNode al bin
    let s := RTree.splitNodes cfg (n₁ :: n₂ :: ns)
    let leftBounds := RTree.constructBounds s.1
    let rightBounds := RTree.constructBounds s.2
    modify subRoot fun c => { c with bounds := leftBounds.combined rightBounds }
    let (l, bin) ← rebuild cfg al s.1 bin
    modify subRoot fun c => { c with left := l }
    let (r, bin) ← rebuild cfg al s.2 bin
    modify subRoot fun c => { c with right := r }
    setParent l subRoot
    setParent r subRoot
    return (subRoot, bin)
termination_by nodes.length
decreasing_by
  · exact (RTree.splitNodes_length cfg (n₁ :: n₂ :: ns) (by simp)).1
  · exact (RTree.splitNodes_length cfg (n₁ :: n₂ :: ns) (by simp)).2

/-- RTree.hpp:134-139: the new bounds are stored while iterating. -/
def gather (upd : Addr → BoundingBox K → BoundingBox K) : List Ptr → Prog K V (List (Entry K Addr))
  | [] => pure []
  | p :: ps => do
    let c ← load p
    match p with
    | none => fun _ => .ub
    | some a => do
      modify p fun c => { c with bounds := upd a c.bounds }
      return ⟨a, upd a c.bounds⟩ :: (← gather upd ps)

/-- RTree.hpp:141-142: `node->handle() = nullptr` for each leaf. -/
def detach : List (Entry K Addr) → Prog K V Unit
  | [] => pure ()
  | n :: ns => do
    (← handle (some n.id)).write none
    detach ns

/-- RTree.hpp:144-165: the leaves, detached, are put together again. Result: `root_`. -/
def relink (cfg : Cfg K C) (pq : PQ (Ptr × C)) (al : Alloc K V) (fuel : Nat) (root : Addr) :
    List (Entry K Addr) → Prog K V Addr
  | [] => return root
  | [n] => do
    insertNode cfg pq al fuel (some root) (some n.id)
    return root
  | nodes => do
    let bin ← recycleSubTree fuel root []
    let (r, bin) ← rebuild cfg al nodes bin
    emptyBin fuel bin
    match r with
    | none => fun _ => .ub
    | some r => return r

/-- RTree.hpp:127-166: the public `updateAndCollide`, whose callbacks return normally. The new bounds are
stored after the iteration instead of during it: they are not read by it. Result: `root_`. -/
def updateAndCollide (cfg : Cfg K C) (pq : PQ (Ptr × C)) (al : Alloc K V) (fuel : Nat) (root : Addr)
    (upd : Addr → BoundingBox K → BoundingBox K) : Prog K V Addr := do
  let its ← visit fuel (some root) fuel (← begin fuel (some root))
  let nodes ← gather upd its
  detach nodes
  relink cfg pq al fuel root nodes

/-! ### The tree object (RTree.hpp:69-85, 199, 262-264) -/

/-- RTree.hpp:262-264: `root_`; `none` when it was never given a value (the move constructor does not
initialise it). -/
structure Tree where
  root : Option Addr

/-- RTree.hpp:69-72. -/
def construct (al : Alloc K V) : Prog K V Tree := do
  return ⟨← makeNode al BoundingBox.invalid⟩

/-- RTree.hpp:74. Reading a pointer without a value is undefined. -/
def destroy (fuel : Nat) (t : Tree) : Prog K V Unit :=
  match t.root with
  | none => fun _ => .ub
  | some a => deleteNode fuel (some a)

/-- RTree.hpp:80-86 `operator=(RTree&&)`: the two trees afterwards. -/
def moveAssign (this other : Tree) : Tree × Tree := (other, this)

/-- RTree.hpp:79 `RTree(RTree&&)`: the new tree, whose `root_` has no value yet, is assigned to. -/
def moveConstruct (other : Tree) : Tree × Tree := moveAssign ⟨none⟩ other

/-- RTree.hpp:199 `clear()`: `*this = RTree{}`, then the temporary is destroyed. -/
def clear (al : Alloc K V) (fuel : Nat) (t : Tree) : Prog K V Tree := do
  let tmp ← construct al
  let r := moveAssign t tmp
  destroy fuel r.2
  return r.1

end
end Simu.RTreeHeap
