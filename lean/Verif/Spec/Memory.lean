import Verif.Model.Memory
/-
Specification side of the allocator: histories of client calls, the client's own record of
live allocations, and what it means for them to be sound. Nothing here refers to the free
list or to how blocks are searched.
-/
namespace Simu.Memory

/-- A live allocation as its client knows it: address, bytes and requested alignment. -/
structure Live where
  ptr : Nat
  bytes : Nat
  align : Nat
deriving DecidableEq, Repr

/-- A client call. In `alloc`, `base` is the address the system would return if the allocator
asks for a new block. `free` gives back the live allocation found at position `idx` of the
client's record, so double frees and wrong sizes cannot be expressed. -/
inductive Call where
  | alloc (n size align base : Nat)
  | free (idx : Nat) (n size : Nat)
deriving DecidableEq, Repr

/-- Allocator state together with the client's record. -/
structure Sys where
  blocks : List Block
  live : List Live
deriving DecidableEq, Repr

def Sys.init : Sys := ⟨[], []⟩

/-- Perform a call and update the record of the client. -/
def Sys.call (blockSize : Nat) (s : Sys) : Call → Sys
  | .alloc n size align base =>
    let r := allocate blockSize s.blocks n size align base
    match r.1 with
    | some p => ⟨r.2, ⟨p, n * size, align⟩ :: s.live⟩
    | none => ⟨r.2, s.live⟩
  | .free idx n size =>
    match s.live[idx]? with
    | some l => ⟨deallocate s.blocks l.ptr n size, s.live.eraseIdx idx⟩
    | none => s

/-- The memory `[a, a+n)` and `[b, b+m)` have no byte in common. -/
def DisjointRange (a n b m : Nat) : Prop := a + n ≤ b ∨ b + m ≤ a

instance (a n b m : Nat) : Decidable (DisjointRange a n b m) :=
  inferInstanceAs (Decidable (_ ∨ _))

/-- Legal calls: real types have positive size and alignment, the byte count fits in
`size_t`, the system returns memory that is not already in use, and frees name a live
allocation with its own size. -/
def Sys.legal (blockSize : Nat) (s : Sys) : Call → Prop
  | .alloc n size align base =>
    0 < size ∧ 0 < align ∧ n * size + align ≤ wordSize ∧
    ∀ b ∈ s.blocks, DisjointRange base (max blockSize (n * size + align - 1)) b.data b.sz
  | .free idx n size => ∃ l, s.live[idx]? = some l ∧ l.bytes = n * size

/-- States reachable by legal calls. -/
inductive Reachable (blockSize : Nat) : Sys → Prop
  | init : Reachable blockSize Sys.init
  | call {s c} : Reachable blockSize s → s.legal blockSize c →
      Reachable blockSize (s.call blockSize c)

/-- Number of free ranges (over all blocks) containing address `x`. -/
def freeAt (bs : List Block) (x : Nat) : Nat :=
  (bs.map fun b => b.free.countP fun f => decide (f.start ≤ x ∧ x < f.stop)).sum

/-- Number of live allocations containing address `x`. -/
def liveAt (ls : List Live) (x : Nat) : Nat :=
  ls.countP fun l => decide (l.ptr ≤ x ∧ x < l.ptr + l.bytes)

/-- Number of owned blocks containing address `x`. -/
def ownedAt (bs : List Block) (x : Nat) : Nat :=
  bs.countP fun b => decide (b.data ≤ x ∧ x < b.data + b.sz)

end Simu.Memory
