import Verif.Model.BoundingBox
import Verif.Model.Algo
import Mathlib.Algebra.BigOperators.Group.List.Basic
/-
Model of include/Simu/physics/RTree.hpp and RTree.inl.hpp.

Simplifications. Nodes are values instead of heap cells: a `Node` is the tree hanging from a pointer,
a pointer into the tree is a path of `Frame`s (the chain of `parent` pointers) together with the
subtree it points to. Leaves carry an `id`, the identity of the heap cell an iterator points to;
internal nodes have no identity (no iterator to them is handed out, except `end()` which is the
root). Allocation and deletion of nodes are implicit.
-/
namespace Simu.RTree

/-- RTree.inl.hpp:33-82. `null` is `nullptr`, `leaf` a node with `data != nullptr` (made by `makeLeaf`,
RTree.hpp:280-289, never given children), `node` one with `data == nullptr` (made by `makeNode`). -/
inductive Node (K α : Type*) where
  | null
  | leaf (bounds : BoundingBox K) (id : α)
  | node (bounds : BoundingBox K) (left right : Node K α)
deriving DecidableEq, Repr

/-- An element of the tree: what an iterator gives access to. -/
structure Entry (K α : Type*) where
  id : α
  bounds : BoundingBox K
deriving DecidableEq, Repr

/-- The numeric ingredients of the tree: the `float` costs of `insert` and of the rotations, the
overlap test and the "goes left" decision of the bulk rebuild. Keeping them abstract makes the
structural theorems independent of rounding, overflow and NaN in these computations.
`exactCfg` below gives their meaning in exact arithmetic. -/
structure Cfg (K C : Type*) where
  /-- `area`, RTree.hpp:395-402 -/
  area : BoundingBox K → C
  /-- `0.f` -/
  zero : C
  /-- `INFINITY` -/
  inf : C
  add : C → C → C
  sub : C → C → C
  /-- `<` on costs -/
  lt : C → C → Bool
  /-- `>=` on costs (not the negation of `<` when NaN is involved) -/
  ge : C → C → Bool
  /-- `a.overlaps(b)` -/
  ovl : BoundingBox K → BoundingBox K → Bool
  /-- RTree.hpp:662-679: given the bounds of all the nodes, does this one go left? -/
  goesLeft : List (BoundingBox K) → BoundingBox K → Bool

variable {K C α : Type*}

section exact
variable [Field K] [LinearOrder K]

/-- RTree.hpp:395-402. -/
def area (b : BoundingBox K) : K :=
  if !b.isValid then 0
  else
    let stretch := b.max - b.min
    stretch.x * stretch.y

/-- RTree.hpp:662-667 `centerBounds`. -/
def centerBounds (bs : List (BoundingBox K)) : BoundingBox K :=
  bs.foldl (fun acc b => acc.combined ⟨b.center, b.center⟩) BoundingBox.invalid

/-- RTree.hpp:669-679: split axis, split position and the predicate given to `booleanSort`. -/
def goesLeft (bs : List (BoundingBox K)) (b : BoundingBox K) : Bool :=
  let cb := centerBounds bs
  let dim := cb.max - cb.min
  if dim.x > dim.y then decide (b.center.x < cb.center.x) else decide (b.center.y < cb.center.y)

/-- The tree's numeric ingredients in exact arithmetic. `INFINITY` is `⊤`; the differences computed by
`insert` never involve `⊤` in exact arithmetic (areas are finite). -/
def exactCfg : Cfg K (WithTop K) where
  area b := ((area b : K) : WithTop K)
  zero := ((0 : K) : WithTop K)
  inf := ⊤
  add
    | some a, some b => some (a + b)
    | _, _ => ⊤
  sub
    | some a, some b => some (a - b)
    | _, _ => ⊤
  lt a b := decide (a < b)
  ge a b := decide (b ≤ a)
  ovl := BoundingBox.overlaps
  goesLeft := goesLeft

end exact

variable [Field K] [LinearOrder K]

/-- RTree.hpp:404-410 `bounds(Node*)`. -/
def Node.bounds : Node K α → BoundingBox K
  | .null => BoundingBox.invalid
  | .leaf b _ => b
  | .node b _ _ => b

/-- `node == nullptr`. -/
def Node.isNull : Node K α → Bool
  | .null => true
  | _ => false

/-- The elements of a subtree from left to right. -/
def Node.entries : Node K α → List (Entry K α)
  | .null => []
  | .leaf b a => [⟨a, b⟩]
  | .node _ l r => l.entries ++ r.entries

/-- Number of nodes; only used as a termination measure. -/
def Node.count : Node K α → Nat
  | .null => 0
  | .leaf _ _ => 1
  | .node _ l r => 1 + l.count + r.count

/-- One `parent` link: the parent's bounds, on which side of the parent we are, and the other child. -/
structure Frame (K α : Type*) where
  onLeft : Bool
  bounds : BoundingBox K
  other : Node K α

/-- The parent node with the given subtree put back in its place (RTree.inl.hpp:56-74 `handle`). -/
def Frame.close (f : Frame K α) (t : Node K α) : Node K α :=
  if f.onLeft then .node f.bounds t f.other else .node f.bounds f.other t

/-- The whole tree seen from the root. -/
def zip (t : Node K α) : List (Frame K α) → Node K α
  | [] => t
  | f :: fs => zip (f.close t) fs

/-- RTree.hpp:69-72: an empty tree, `makeNode(BoundingBox{})`. -/
def empty : Node K α := .node BoundingBox.invalid .null .null

/-- RTree.hpp:333-341 `checkRotation(upper, lower)` with `upper = gp->left` and
`lower = gp->right->left`. Arguments: `upper`, bounds of `lower->parent`, `lower`, its sibling.
Result: new `gp->left`, bounds, left and right child of `gp->right`. A null `lower` or sibling is
dereferenced (`lower->sibling()->bounds`). -/
def rotate (cfg : Cfg K C) (upper : Node K α) (parentBounds : BoundingBox K)
    (lower sibling : Node K α) : Outcome (Node K α × BoundingBox K × Node K α) :=
  match lower, sibling with
  | .null, _ => .ub
  | _, .null => .ub
  | _, _ =>
    let newBounds := sibling.bounds.combined upper.bounds
    if cfg.lt (cfg.area newBounds) (cfg.area parentBounds) then .ok (lower, newBounds, upper)
    else .ok (upper, parentBounds, lower)

/-- RTree.hpp:321-325 / 326-330: both rotations between `upper` and the children of its sibling
`node pb x y`. The second one looks at the children left by the first. Result: the new upper node and
the new sibling. -/
def rotateBoth (cfg : Cfg K C) (upper : Node K α) (pb : BoundingBox K) (x y : Node K α) :
    Outcome (Node K α × Node K α) :=
  (rotate cfg upper pb x y).bind fun (upper₁, pb₁, x₁) =>
  (rotate cfg upper₁ pb₁ y x₁).bind fun (upper₂, pb₂, y₂) =>
  .ok (upper₂, .node pb₂ x₁ y₂)

/-- RTree.hpp:321-325, first half of `checkRotations`: `gp->right` is not a leaf. -/
def rotateRight (cfg : Cfg K C) (l r : Node K α) : Outcome (Node K α × Node K α) :=
  match r with
  | .node rb rl rr => rotateBoth cfg l rb rl rr
  | _ => .ok (l, r)

/-- RTree.hpp:326-330, second half of `checkRotations`: `gp->left` is not a leaf. -/
def rotateLeft (cfg : Cfg K C) (l r : Node K α) : Outcome (Node K α × Node K α) :=
  match l with
  | .node lb ll lr => (rotateBoth cfg r lb ll lr).bind fun (r', l') => .ok (l', r')
  | _ => .ok (l, r)

/-- RTree.hpp:315-331 `checkRotations(grandParent)`, given and returning its two children. -/
def checkRotations (cfg : Cfg K C) (l r : Node K α) : Outcome (Node K α × Node K α) :=
  match l, r with
  | .null, _ => .ok (l, r)
  | _, .null => .ok (l, r)
  | _, _ => (rotateRight cfg l r).bind fun (l₁, r₁) => rotateLeft cfg l₁ r₁

/-- RTree.hpp:343-360 `refit(node)` for the node with children `l`, `r`, bounds `b`, whose ancestors are
`path`. Result: the whole tree. -/
def refit (cfg : Cfg K C) (l r : Node K α) (b : BoundingBox K) :
    List (Frame K α) → Outcome (Node K α)
  | [] =>
    let nb := l.bounds.combined r.bounds
    if nb.beq b then .ok (.node b l r)
    else (checkRotations cfg l r).bind fun (l', r') => .ok (.node nb l' r')
  | f :: fs =>
    let nb := l.bounds.combined r.bounds
    if nb.beq b then .ok (zip (.node b l r) (f :: fs))
    else (checkRotations cfg l r).bind fun (l', r') =>
      if f.onLeft then refit cfg (.node nb l' r') f.other f.bounds fs
      else refit cfg f.other (.node nb l' r') f.bounds fs

/-- `refit(node->parent)` where `t` hangs at the end of a non-empty path. -/
def refitParent (cfg : Cfg K C) (t : Node K α) (f : Frame K α) (fs : List (Frame K α)) :
    Outcome (Node K α) :=
  if f.onLeft then refit cfg t f.other f.bounds fs else refit cfg f.other t f.bounds fs

/-- RTree.hpp:363-392 `addLeafTo(node, leaf)`; `path` leads to `n`. A null node, or a leaf without
parent, is dereferenced. -/
def addLeafTo (cfg : Cfg K C) (path : List (Frame K α)) (n : Node K α) (lb : BoundingBox K) (id : α) :
    Outcome (Node K α) :=
  match n with
  | .null => .ub
  | .leaf b a =>
    match path with
    | [] => .ub
    | f :: fs => refitParent cfg (.node (b.combined lb) (.leaf b a) (.leaf lb id)) f fs
  | .node b l r =>
    match l, r with
    | .null, _ => refit cfg (.leaf lb id) r b path
    | _, .null => refit cfg l (.leaf lb id) b path
    | _, _ => refit cfg (.node b l r) (.leaf lb id) b path

/-- An element of the priority queue of `insert` (RTree.hpp:420 `NodeCost`): where the node is, the
node, and its induced cost. -/
structure Cand (K C α : Type*) where
  path : List (Frame K α)
  sub : Node K α
  cost : C

/-- `std::priority_queue` (RTree.hpp:430): `top` followed by `pop` takes some element out of a
non-empty queue. Which one is taken among equal costs is up to the library; that the element is a
cheapest one is a separate hypothesis (`PQ.Cheapest`). -/
structure PQ (E : Type*) where
  pop : (q : List E) → q ≠ [] → E × List E
  perm : ∀ q h, ((pop q h).1 :: (pop q h).2).Perm q

/-- The popped element is a cheapest one. -/
def PQ.Cheapest (pq : PQ (Cand K C α)) (cfg : Cfg K C) : Prop :=
  ∀ q h, ∀ e ∈ (pq.pop q h).2, cfg.lt e.cost (pq.pop q h).1.cost = false

/-- Total number of nodes reachable from the queue (termination measure). -/
def queueCount (q : List (Cand K C α)) : Nat := (q.map fun e => e.sub.count).sum

/-- RTree.hpp:451-455: the children that exist are queued. -/
def pushChildren (e : Cand K C α) (cost : C) (q : List (Cand K C α)) : List (Cand K C α) :=
  match e.sub with
  | .node b l r =>
    let q := match l with
      | .null => q
      | _ => ⟨⟨true, b, r⟩ :: e.path, l, cost⟩ :: q
    match r with
      | .null => q
      | _ => ⟨⟨false, b, l⟩ :: e.path, r, cost⟩ :: q
  | _ => q

omit [Field K] [LinearOrder K] in
theorem queueCount_pushChildren (e : Cand K C α) (cost : C) (q : List (Cand K C α)) :
    queueCount (pushChildren e cost q) < queueCount q + e.sub.count ∨ e.sub = .null := by
  obtain ⟨path, sub, c⟩ := e
  cases sub with
  | null => exact Or.inr rfl
  | leaf b a => left; simp [pushChildren, Node.count]
  | node b l r =>
    left
    cases l <;> cases r <;> simp [pushChildren, queueCount, Node.count] <;> omega

/-- RTree.hpp:433-457: the search loop of `insert`. `best` is `{nullptr, INFINITY}` at first. A null
node in the queue would be dereferenced; none is ever pushed. -/
def searchLoop (cfg : Cfg K C) (pq : PQ (Cand K C α)) (box : BoundingBox K)
    (q : List (Cand K C α)) (best : Option (List (Frame K α) × Node K α)) (bestCost : C) :
    Outcome (Option (List (Frame K α) × Node K α)) :=
  if h : q = [] then .ok best
  else
    let cur := (pq.pop q h).1
    let rest := (pq.pop q h).2
    if cfg.ge (cfg.add cur.cost (cfg.area box)) bestCost then .ok best
    else if hn : cur.sub.isNull then .ub
    else
      let directCost := cfg.area (cur.sub.bounds.combined box)
      let totalCost := cfg.add cur.cost directCost
      let better := cfg.lt totalCost bestCost
      let best' := if better then some (cur.path, cur.sub) else best
      let bestCost' := if better then totalCost else bestCost
      let inducedCost := cfg.sub totalCost (cfg.area cur.sub.bounds)
      if cfg.lt (cfg.add inducedCost (cfg.area box)) bestCost' then
        searchLoop cfg pq box (pushChildren cur inducedCost rest) best' bestCost'
      else searchLoop cfg pq box rest best' bestCost'
termination_by (queueCount q, q.length)
decreasing_by
  · rename_i h _ hn _
    have h1 := queueCount_pushChildren (pq.pop q h).1
      (cfg.sub (cfg.add (pq.pop q h).1.cost (cfg.area ((pq.pop q h).1.sub.bounds.combined box)))
        (cfg.area (pq.pop q h).1.sub.bounds)) (pq.pop q h).2
    have h2 : queueCount q = (pq.pop q h).1.sub.count + queueCount (pq.pop q h).2 := by
      have := ((pq.perm q h).map fun e => e.sub.count).sum_eq
      simpa [queueCount] using this.symm
    apply Prod.Lex.left
    rcases h1 with h1 | h1
    · omega
    · exact absurd (by simp only [cur, h1]; rfl) hn
  · rename_i h _ _ _
    have h2 : queueCount q = (pq.pop q h).1.sub.count + queueCount (pq.pop q h).2 := by
      have := ((pq.perm q h).map fun e => e.sub.count).sum_eq
      simpa [queueCount] using this.symm
    have h3 := (pq.perm q h).length_eq
    simp only [List.length_cons] at h3
    by_cases h4 : (pq.pop q h).1.sub.count = 0
    · rw [h2, h4, Nat.zero_add]
      apply Prod.Lex.right; omega
    · apply Prod.Lex.left; omega

/-- RTree.hpp:412-461 `insert(Node*)` (and `insert`/`emplace`, 175-184) of a detached leaf. If no
candidate was found, `addLeafTo(nullptr, ...)` is undefined. -/
def insert (cfg : Cfg K C) (pq : PQ (Cand K C α)) (root : Node K α) (lb : BoundingBox K) (id : α) :
    Outcome (Node K α) :=
  (searchLoop cfg pq lb [⟨[], root, cfg.zero⟩] none cfg.inf).bind fun
    | none => .ub
    | some (path, n) => addLeafTo cfg path n lb id

/-- Finds where the leaf with a given identity is. The C++ iterator holds the address directly; an
identity which is not in the tree is a dangling iterator. -/
def locate [DecidableEq α] (id : α) : Node K α → List (Frame K α) → Option (List (Frame K α) × BoundingBox K)
  | .null, _ => none
  | .leaf b a, path => if a = id then some (path, b) else none
  | .node b l r, path =>
    match locate id l (⟨true, b, r⟩ :: path) with
    | some res => some res
    | none => locate id r (⟨false, b, l⟩ :: path)

/-- RTree.hpp:463-497 `extract(node)`, for the node at the end of `path`. Result: the tree without it. -/
def extract (cfg : Cfg K C) : List (Frame K α) → Outcome (Node K α)
  | [] => .ub
  | [f] =>
    match f.other with
    | .node _ sl sr =>
      match sl, sr with
      | .null, _ => .ub
      | _, .null => .ub
      | _, _ => if f.onLeft then refit cfg sl sr f.bounds [] else refit cfg sr sl f.bounds []
    | o => if f.onLeft then refit cfg .null o f.bounds [] else refit cfg o .null f.bounds []
  | f :: g :: rest =>
    match f.other with
    | .null => .ub
    | sibling => refitParent cfg sibling g rest

/-- RTree.hpp:499 `erase(Node*)` (public `erase`, 186-191). -/
def erase [DecidableEq α] (cfg : Cfg K C) (root : Node K α) (id : α) : Outcome (Node K α) :=
  match locate id root [] with
  | none => .ub
  | some (path, _) => extract cfg path

/-- RTree.hpp:744-749 `update(Node*, newBounds)` (public `update`, 193-197). -/
def update [DecidableEq α] (cfg : Cfg K C) (pq : PQ (Cand K C α)) (root : Node K α) (id : α)
    (newBounds : BoundingBox K) : Outcome (Node K α) :=
  match locate id root [] with
  | none => .ub
  | some (path, _) => (extract cfg path).bind fun root' => insert cfg pq root' newBounds id

/-- RTree.hpp:509-517 `size`. -/
def size : Node K α → Nat
  | .null => 0
  | .leaf _ _ => 1
  | .node _ l r => size l + size r

/-- RTree.hpp:501-507 `height(subRoot)`; the public `height()` (210) subtracts one. -/
def height : Node K α → Nat
  | .null => 0
  | .leaf _ _ => 1 + max 0 0
  | .node _ l r => 1 + max (height l) (height r)

/-- RTree.hpp:200-203 `isEmpty`: both children of the root are null. -/
def isEmpty : Node K α → Bool
  | .node _ .null .null => true
  | _ => false

/-- RTree.hpp:519-535 `forEachIn(box, func, node)`: the elements `func` is called with, in order. -/
def forEachIn (cfg : Cfg K C) (box : BoundingBox K) : Node K α → List (Entry K α)
  | .null => []
  | .leaf b a => if cfg.ovl box b then [⟨a, b⟩] else []
  | .node b l r => if cfg.ovl box b then forEachIn cfg box l ++ forEachIn cfg box r else []

/-- RTree.hpp:94-98 `forEachAt(point, func)`. -/
def forEachAt (cfg : Cfg K C) (p : Vec2 K) (root : Node K α) : List (Entry K α) :=
  forEachIn cfg ⟨p, p⟩ root

/-- RTree.hpp:537-550 `forEachOverlapping(node, func)`: siblings of the ancestors, bottom up. -/
def forEachOverlappingPath (cfg : Cfg K C) (box : BoundingBox K) : List (Frame K α) → List (Entry K α)
  | [] => []
  | f :: fs => forEachIn cfg box f.other ++ forEachOverlappingPath cfg box fs

/-- RTree.hpp:100-104 `forEachOverlapping(it, func)`. -/
def forEachOverlapping [DecidableEq α] (cfg : Cfg K C) (root : Node K α) (id : α) :
    Outcome (List (Entry K α)) :=
  match locate id root [] with
  | none => .ub
  | some (path, b) => .ok (forEachOverlappingPath cfg b path)

/-- RTree.hpp:552-613 `OverlapList`: `nodes_` and `middle_`. -/
structure OverlapList (K α : Type*) where
  nodes : List (Entry K α)
  middle : Nat

namespace OverlapList

/-- RTree.hpp:597-604 -/
def overlapping (o : OverlapList K α) : List (Entry K α) := o.nodes.take o.middle

/-- RTree.hpp:570-577 copy constructor: only the overlapping nodes are copied. -/
def copy (o : OverlapList K α) : OverlapList K α := ⟨o.overlapping, o.overlapping.length⟩

/-- RTree.hpp:581-584. -/
def addOverlapping (o : OverlapList K α) (n : Entry K α) : OverlapList K α :=
  ⟨o.nodes.take o.middle ++ [n] ++ o.nodes.drop o.middle, o.middle + 1⟩

/-- RTree.hpp:586-595. -/
def sortOverlapping (cfg : Cfg K C) (o : OverlapList K α) (box : BoundingBox K) : OverlapList K α :=
  let s := Algo.booleanSort (fun n : Entry K α => cfg.ovl n.bounds box) (o.nodes.take o.middle)
  ⟨s.1 ++ s.2.1 ++ o.nodes.drop o.middle, s.1.length⟩

/-- RTree.hpp:606. -/
def setMiddle (o : OverlapList K α) (m : Nat) : OverlapList K α := ⟨o.nodes, m⟩

end OverlapList

/-- RTree.hpp:615-636: `forEachOverlapping(subRoot, list, func)`: the pairs `func` is called with, and
the list as it is left (it is passed by reference). Null children of an internal node are
dereferenced. -/
def forEachOverlappingList (cfg : Cfg K C) : Node K α → OverlapList K α →
    Outcome (List (Entry K α × Entry K α) × OverlapList K α)
  | .null, _ => .ub
  | .leaf b a, list => .ok (list.overlapping.map fun it => (⟨a, b⟩, it), list)
  | .node _ l r, list =>
    match l, r with
    | .null, _ => .ub
    | _, .null => .ub
    | l, r =>
      (forEachOverlappingList cfg l (list.sortOverlapping cfg l.bounds)).bind fun (calls₁, list₁) =>
      (forEachOverlappingList cfg r ((list₁.setMiddle list.middle).sortOverlapping cfg r.bounds)).bind
        fun (calls₂, list₂) => .ok (calls₁ ++ calls₂, list₂)

/-- RTree.hpp:106-125: `forEachOverlapping(iterators, func)` for a range of elements of the tree. -/
def forEachOverlappingRange (cfg : Cfg K C) (root : Node K α) (its : List (Entry K α)) :
    Outcome (List (Entry K α × Entry K α)) :=
  match root with
  | .node _ l r =>
    let list : OverlapList K α := ⟨its, its.length⟩
    (match l with
      | .null => Outcome.ok ([], list)
      | l => forEachOverlappingList cfg l (list.sortOverlapping cfg l.bounds)).bind fun (calls₁, list₁) =>
    (match r with
      | .null => Outcome.ok ([], list₁)
      | r => forEachOverlappingList cfg r
          ((list₁.setMiddle list.middle).sortOverlapping cfg r.bounds)).bind fun (calls₂, _) =>
    .ok (calls₁ ++ calls₂)
  | _ => .ub

/-- RTree.hpp:694-700 `constructBounds`. -/
def constructBounds (ns : List (Entry K α)) : BoundingBox K :=
  ns.foldl (fun b n => b.combined n.bounds) BoundingBox.invalid

/-- RTree.hpp:682-689: where the partitioned range is cut, as a number of nodes on the left. -/
def cutAt (count middle : Nat) : Nat :=
  let minNodes := max (count / 16) 1
  if middle < minNodes then minNodes
  else if count - middle < minNodes then count - minNodes
  else middle

theorem cutAt_pos (count middle : Nat) (h : 2 ≤ count) : 0 < cutAt count middle := by
  unfold cutAt; simp only; split <;> [skip; split] <;> omega

theorem cutAt_lt (count middle : Nat) (h : 2 ≤ count) : cutAt count middle < count := by
  unfold cutAt; simp only; split <;> [skip; split] <;> omega

/-- RTree.hpp:677-692: the two halves `left` and `right`. -/
def splitNodes (cfg : Cfg K C) (nodes : List (Entry K α)) : List (Entry K α) × List (Entry K α) :=
  let s := Algo.booleanSort (fun n : Entry K α => cfg.goesLeft (nodes.map (·.bounds)) n.bounds) nodes
  let range := s.1 ++ s.2.1
  let cut := cutAt nodes.length s.1.length
  (range.take cut, range.drop cut)

theorem booleanSortLoop_length {β : Type*} (p : β → Bool) (left mid right calls : List β) :
    (Algo.booleanSortLoop p left mid right calls).1.length +
      (Algo.booleanSortLoop p left mid right calls).2.1.length =
    left.length + mid.length + right.length := by
  fun_induction Algo.booleanSortLoop p left mid right calls with
  | case1 => simp
  | case2 left right calls a rest h ih => rw [ih]; simp; omega
  | case3 left right calls a rest h ih => rw [ih, Algo.length_afterSwap]; simp; omega

omit [Field K] [LinearOrder K] in
theorem splitNodes_length (cfg : Cfg K C) (nodes : List (Entry K α)) (h : 2 ≤ nodes.length) :
    (splitNodes cfg nodes).1.length < nodes.length ∧ (splitNodes cfg nodes).2.length < nodes.length := by
  have hl := booleanSortLoop_length
    (fun n : Entry K α => cfg.goesLeft (nodes.map (·.bounds)) n.bounds) [] nodes [] []
  have h1 := cutAt_pos nodes.length (Algo.booleanSort
    (fun n : Entry K α => cfg.goesLeft (nodes.map (·.bounds)) n.bounds) nodes).1.length h
  have h2 := cutAt_lt nodes.length (Algo.booleanSort
    (fun n : Entry K α => cfg.goesLeft (nodes.map (·.bounds)) n.bounds) nodes).1.length h
  simp only [splitNodes, List.length_take, List.length_drop, List.length_append]
  simp only [Algo.booleanSort] at *
  simp at hl
  constructor <;> omega

/-- RTree.hpp:712-726: the lists given to the two halves, after the cross pairs were added to one of
them. -/
def crossLists (cfg : Cfg K C) (left right : List (Entry K α)) (leftBounds rightBounds : BoundingBox K)
    (lc rc : OverlapList K α) : OverlapList K α × OverlapList K α :=
  if cfg.ovl leftBounds rightBounds then
    if left.length < right.length then
      (lc, left.foldl (fun rc n => if cfg.ovl rightBounds n.bounds then rc.addOverlapping n else rc) rc)
    else
      (right.foldl (fun lc n => if cfg.ovl leftBounds n.bounds then lc.addOverlapping n else lc) lc, rc)
  else (lc, rc)

/-- RTree.hpp:638-742: the recursive `updateAndCollide`: the subtree built and the pairs reported. -/
def rebuild (cfg : Cfg K C) (nodes : List (Entry K α)) (collisions : OverlapList K α) :
    Node K α × List (Entry K α × Entry K α) :=
  match nodes with
  | [] => (.null, [])
  | [n] => (.leaf n.bounds n.id, collisions.overlapping.map fun m => (n, m))
  | n₁ :: n₂ :: ns =>
    let s := splitNodes cfg (n₁ :: n₂ :: ns)
    let leftBounds := constructBounds s.1
    let rightBounds := constructBounds s.2
    let lc := collisions.copy.sortOverlapping cfg leftBounds
    let rc := collisions.sortOverlapping cfg rightBounds
    let lists := crossLists cfg s.1 s.2 leftBounds rightBounds lc rc
    let l := rebuild cfg s.1 lists.1
    let r := rebuild cfg s.2 lists.2
    (.node (leftBounds.combined rightBounds) l.1 r.1, l.2 ++ r.2)
termination_by nodes.length
decreasing_by
  · exact (splitNodes_length cfg (n₁ :: n₂ :: ns) (by simp)).1
  · exact (splitNodes_length cfg (n₁ :: n₂ :: ns) (by simp)).2

/-- RTree.hpp:127-166: the public `updateAndCollide(update, onCollision)`. `upd` gives the new bounds of
each element; it is called once per element in iteration order. Result: the tree and the calls of
`onCollision`. With a single element the (now childless) root keeps its old bounds until `insert`. -/
def updateAndCollide (cfg : Cfg K C) (pq : PQ (Cand K C α)) (root : Node K α)
    (upd : Entry K α → BoundingBox K) : Outcome (Node K α × List (Entry K α × Entry K α)) :=
  let nodes := root.entries.map fun e => (⟨e.id, upd e⟩ : Entry K α)
  match nodes with
  | [] => .ok (root, [])
  | [n] => (insert cfg pq (.node root.bounds .null .null) n.bounds n.id).bind fun t => .ok (t, [])
  | _ => .ok (rebuild cfg nodes ⟨[], 0⟩)

/-! ### Iterators (RTree.inl.hpp:85-185) -/

/-- RTree.inl.hpp:171-182 `goLeft`: from a node, the place of the leftmost leaf (or of a childless
node). -/
def goLeft : Node K α → List (Frame K α) → Node K α × List (Frame K α)
  | .null, path => (.null, path)
  | .leaf b a, path => (.leaf b a, path)
  | .node b l r, path =>
    match l, r with
    | .null, .null => (.node b .null .null, path)
    | .null, r => goLeft r (⟨false, b, .null⟩ :: path)
    | l, r => goLeft l (⟨true, b, r⟩ :: path)

/-- RTree.inl.hpp:118-137 `operator++` on the node `n` at the end of `path`. -/
def next : Node K α → List (Frame K α) → Node K α × List (Frame K α)
  | n, [] => (n, [])
  | n, f :: fs =>
    if f.onLeft then
      match f.other with
      | .null => (f.close n, fs)
      | r => goLeft r (⟨false, f.bounds, n⟩ :: fs)
    else next (f.close n) fs

/-- The `for (it = begin(); it != end(); ++it)` loop (e.g. RTree.hpp:135): the elements visited by at most
`fuel` steps from the given place. `end()` is the root, i.e. the empty path. Dereferencing a node
without data is undefined. -/
def iterate : Nat → Node K α → List (Frame K α) → Outcome (List (Entry K α))
  | _, _, [] => .ok []
  | 0, _, _ :: _ => .throw
  | fuel + 1, n, f :: fs =>
    match n with
    | .leaf b a =>
      let s := next n (f :: fs)
      (iterate fuel s.1 s.2).bind fun rest => .ok (⟨a, b⟩ :: rest)
    | _ => .ub

end Simu.RTree
