import Verif.Model.Memory
import Verif.Model.Base
/-
Model of include/Simu/utility/Memory.hpp:37-66 and 170-218, 291-309: allocators that share their blocks, and the objects made in them by `makeUnique`.

A list of blocks is shared by all allocators copied from each other and by the deleters of the pointers made with them (`std::shared_ptr`, Memory.hpp:217): it ends with the last of them.
Pointers that hold nothing are not represented, and moving a pointer to another variable changes nothing. Objects do not use the pools themselves.
-/
namespace Simu.Memory

/-- A class: its number, and `sizeof` and `alignof`. -/
structure ObjType where
  num : Nat
  size : Nat
  align : Nat
deriving DecidableEq, Repr

/-- An object that exists: its number in the order of construction, its address and its class. -/
structure Object where
  id : Nat
  addr : Nat
  type : ObjType
deriving DecidableEq, Repr

/-- Memory.hpp:45-46 `UniquePtr`: the address it holds and its deleter (Memory.hpp:56-60), which has a copy of the allocator (the shared blocks `heap`) and casts to the class the pointer was made
for (`type`). `obj` is the object it was made for: no code reads it. -/
structure Ptr where
  addr : Nat
  heap : Nat
  type : ObjType
  obj : Nat
deriving DecidableEq, Repr

/-- The shared lists of blocks that exist and the number of those made so far; the allocators, by the list they share; the pointers that hold an object; the objects that exist, the number
of those constructed so far and the numbers of those destroyed so far. -/
structure Pools where
  heap : Nat → Option (List Block)
  made : Nat
  allocs : List Nat
  ptrs : List Ptr
  objects : List Object
  born : Nat
  destroyed : List Nat

namespace Pools

/-- At the start. -/
def init : Pools := ⟨fun _ => none, 0, [], [], [], 0, []⟩

/-- What a program does. `base` is the address the system would return if a new block is needed. -/
inductive Op where
  | newAlloc
  | copyAlloc (i : Nat)
  | assignAlloc (i j : Nat)
  | endAlloc (i : Nat)
  | make (i : Nat) (t : ObjType) (base : Nat) (throws : Bool)
  | toBase (i : Nat) (offset : Nat)
  | reset (i : Nat)
deriving DecidableEq, Repr

/-- Memory.hpp:217: a shared list of blocks ends with the last allocator or deleter that has it. -/
def release (s : Pools) : Pools := { s with heap := fun h => if s.allocs.contains h || s.ptrs.any (fun p => p.heap == h) then s.heap h else none }

/-- Memory.hpp:291-295 `FreeListAllocator::FreeListAllocator`. -/
def newAlloc (s : Pools) : Pools := { s with heap := Function.update s.heap s.made (some []), made := s.made + 1, allocs := s.made :: s.allocs }

/-- Memory.hpp:50-66 `makeUnique` with the allocator `a`. If the constructor throws (the flag), the pointer is not made and the memory is not given back. -/
def make (blockSize : Nat) (s : Pools) (a : Nat) (t : ObjType) (base : Nat) (throws : Bool) : Outcome Pools :=
  match s.heap a with
  | none => .ub
  | some blocks =>
    match allocate blockSize blocks 1 t.size t.align base with
    | (none, _) => .ub
    | (some p, blocks) =>
      let s := { s with heap := Function.update s.heap a (some blocks) }
      if throws then .ok s
      else .ok { s with ptrs := ⟨p, a, t, s.born⟩ :: s.ptrs, objects := ⟨s.born, p, t⟩ :: s.objects, born := s.born + 1 }

/-- Memory.hpp:56-60: the deleter of pointer `p`. Destroying something that is not an object of the class is undefined behaviour. -/
def delete (s : Pools) (p : Ptr) : Outcome Pools :=
  match s.objects.find? (fun o => o.addr == p.addr) with
  | none => .ub
  | some o =>
    if o.type = p.type then
      match s.heap p.heap with
      | none => .ub
      | some blocks => .ok { s with objects := s.objects.erase o, destroyed := o.id :: s.destroyed, heap := Function.update s.heap p.heap (some (deallocate blocks p.addr 1 p.type.size)) }
    else .ub

/-- One operation. Those that name an allocator or a pointer that does not exist do nothing. `reset i` is any way the pointer can give up its object: `reset`, the assignment of another pointer, or its end.
`toBase` is the conversion of a pointer to a class into one to a base class that begins `offset` bytes after it: the deleter stays the same (Memory.hpp:41-43). Copies and assignments of allocators share the blocks (Memory.hpp:297-309). -/
def step (blockSize : Nat) (s : Pools) : Op → Outcome Pools
  | .newAlloc => .ok s.newAlloc
  | .copyAlloc i =>
    match s.allocs[i]? with
    | none => .ok s
    | some h => .ok { s with allocs := h :: s.allocs }
  | .assignAlloc i j =>
    match s.allocs[j]? with
    | none => .ok s
    | some h => .ok { s with allocs := s.allocs.set i h }.release
  | .endAlloc i => .ok { s with allocs := s.allocs.eraseIdx i }.release
  | .make i t base throws =>
    match s.allocs[i]? with
    | none => .ok s
    | some a => s.make blockSize a t base throws
  | .toBase i offset =>
    match s.ptrs[i]? with
    | none => .ok s
    | some p => .ok { s with ptrs := s.ptrs.set i { p with addr := p.addr + offset } }
  | .reset i =>
    match s.ptrs[i]? with
    | none => .ok s
    | some p => (s.delete p).bind fun s => .ok { s with ptrs := s.ptrs.eraseIdx i }.release

/-- A history. -/
def run (blockSize : Nat) : List Op → Pools → Outcome Pools
  | [], s => .ok s
  | o :: ops, s => (s.step blockSize o).bind (run blockSize ops)

end Pools
end Simu.Memory
