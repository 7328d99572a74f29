/-
Model of `include/Simu/utility/Memory.hpp` (class `Block`, class `FreeListAllocator`).

Addresses are natural numbers. `std::list<FreeBlock>` is a `List`. The block's
bytes themselves are not modelled, only the bookkeeping.
-/
namespace Simu.Memory

/-- Number of values of `std::size_t` on a 64 bit target. -/
def wordSize : Nat := 2 ^ 64

/-- `n * sizeof(T)` computed in `std::size_t` (Memory.hpp:230, 262, 333): wraps modulo 2^64. -/
def byteCount (n size : Nat) : Nat := (n * size) % wordSize

/-- Memory.hpp:152-159, struct `FreeBlock` (`end` is called `stop` here). -/
structure FreeBlock where
  start : Nat
  stop : Nat
deriving DecidableEq, Repr

/-- Memory.hpp:155 `FreeBlock::size`. -/
def FreeBlock.size (f : FreeBlock) : Nat := f.stop - f.start

/-- Memory.hpp:120-165, class `Block`: `data_`, `sz`, `freeList_`. -/
structure Block where
  data : Nat
  sz : Nat
  free : List FreeBlock
deriving DecidableEq, Repr

/-- Memory.hpp:124-130, `Block(std::size_t)`. The address returned by `new Byte[size]` is the
parameter `base`; allocation failure (`std::bad_alloc`) is not modelled. -/
def Block.mk' (base size : Nat) : Block :=
  { data := base, sz := size, free := [⟨base, base + size⟩] }

/-- The address computed by `std::align` (Memory.hpp:237): next multiple of `align`. -/
def alignUp (align p : Nat) : Nat := (p + align - 1) / align * align

/-- Memory.hpp:232-252: the loop of `Block::allocate` over the free list.
`std::align` succeeds iff the aligned range fits in the free block. Returns the address and
the updated free list. -/
def allocLoop (align minSize : Nat) : List FreeBlock → Option (Nat × List FreeBlock)
  | [] => none
  | it :: rest =>
    let alignedStart := alignUp align it.start
    if alignedStart + minSize ≤ it.stop then
      let alignedEnd := alignedStart + minSize
      let tail := if alignedEnd ≠ it.stop then ⟨alignedEnd, it.stop⟩ :: rest else rest
      let list := if alignedStart ≠ it.start then ⟨it.start, alignedStart⟩ :: tail else tail
      some (alignedStart, list)
    else
      (allocLoop align minSize rest).map fun r => (r.1, it :: r.2)

/-- Memory.hpp:224-253, `Block::allocate<T>(n)` with `size = sizeof(T)`, `align = alignof(T)`.
`none` stands for `nullptr`. -/
def Block.allocate (b : Block) (n size align : Nat) : Option (Nat × Block) :=
  if n = 0 then none
  else (allocLoop align (byteCount n size) b.free).map fun r => (r.1, { b with free := r.2 })

/-- Memory.hpp:272-286: merge the freed range with its neighbours. `pre` is the part of the
free list before `next` in reverse order (so its head is `std::prev(next)`), `post` starts at
`next`. -/
def mergeFree (start stop : Nat) (pre post : List FreeBlock) : List FreeBlock :=
  match post, pre with
  | nx :: post', pv :: pre' =>
    if stop = nx.start ∧ pv.stop = start then pre'.reverse ++ ⟨pv.start, nx.stop⟩ :: post'
    else if stop = nx.start then (pv :: pre').reverse ++ ⟨start, nx.stop⟩ :: post'
    else if pv.stop = start then pre'.reverse ++ ⟨pv.start, stop⟩ :: nx :: post'
    else (pv :: pre').reverse ++ ⟨start, stop⟩ :: nx :: post'
  | nx :: post', [] =>
    if stop = nx.start then ⟨start, nx.stop⟩ :: post' else ⟨start, stop⟩ :: nx :: post'
  | [], pv :: pre' =>
    if pv.stop = start then pre'.reverse ++ [⟨pv.start, stop⟩]
    else (pv :: pre').reverse ++ [⟨start, stop⟩]
  | [], [] => [⟨start, stop⟩]

/-- Memory.hpp:265-270: walk to the first free block that starts after `start`; `pre`
accumulates the blocks passed, in reverse order. -/
def findNext (start stop : Nat) (pre : List FreeBlock) : List FreeBlock → List FreeBlock
  | [] => mergeFree start stop pre []
  | it :: rest =>
    if start < it.start then mergeFree start stop pre (it :: rest)
    else findNext start stop (it :: pre) rest

/-- Memory.hpp:255-289, `Block::deallocate<T>(p, n)`; the Boolean is `false` when the pointer is
not in the block. -/
def Block.deallocate (b : Block) (p n size : Nat) : Bool × Block :=
  if p < b.data ∨ b.data + b.sz ≤ p then (false, b)
  else (true, { b with free := findNext p (p + byteCount n size) [] b.free })

/-- Memory.hpp:143-146, `Block::isEmpty`. -/
def Block.isEmpty (b : Block) : Bool :=
  match b.free with
  | [f] => f.size == b.sz
  | _ => false

/-- Memory.hpp:326-331: try each owned block in order. -/
def tryBlocks (n size align : Nat) : List Block → Option (Nat × List Block)
  | [] => none
  | b :: rest =>
    match b.allocate n size align with
    | some (p, b') => some (p, b' :: rest)
    | none => (tryBlocks n size align rest).map fun r => (r.1, b :: r.2)

/-- Memory.hpp:319-337, `FreeListAllocator<T, sz>::allocate(n)`. `blockSize` is the template
parameter `sz`, `base` the address returned by the system if a block has to be created. The
first component is the returned pointer (`none` = `nullptr`). -/
def allocate (blockSize : Nat) (blocks : List Block) (n size align base : Nat) :
    Option Nat × List Block :=
  if n = 0 then (none, blocks)
  else
    match tryBlocks n size align blocks with
    | some (p, bs) => (some p, bs)
    | none =>
      let allocSize := (byteCount n size + align - 1) % wordSize
      let b := Block.mk' base (max blockSize allocSize)
      match b.allocate n size align with
      | some (p, b') => (some p, blocks ++ [b'])
      | none => (none, blocks ++ [b])

/-- Memory.hpp:339-353, `FreeListAllocator::deallocate(p, n)`. -/
def deallocate : List Block → (p n size : Nat) → List Block
  | [], _, _, _ => []
  | b :: rest, p, n, size =>
    match b.deallocate p n size with
    | (true, b') => if b'.isEmpty then rest else b' :: rest
    | (false, _) => b :: deallocate rest p n size

end Simu.Memory
