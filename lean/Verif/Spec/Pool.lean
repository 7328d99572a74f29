import Verif.Model.Pool
import Verif.Spec.Memory
/-
What C100 means.
-/
namespace Simu.Memory.Pools

/-- What the program and the system have to respect: classes have a positive size and alignment that fit the address space, the system gives memory that is not in use, and (`first`) pointers are only converted to
base classes that begin where the object begins. -/
def Legal (blockSize : Nat) (s : Pools) : Op → Prop
  | .make _ t base _ => 0 < t.size ∧ 0 < t.align ∧ t.size + t.align ≤ wordSize ∧
      ∀ h bs, s.heap h = some bs → ∀ b ∈ bs, DisjointRange base (max blockSize (t.size + t.align - 1)) b.data b.sz
  | .toBase _ offset => offset = 0
  | _ => True

/-- A history is legal if each of its operations is when it happens. -/
def LegalRun (blockSize : Nat) : List Op → Pools → Prop
  | [], _ => True
  | o :: ops, s => s.Legal blockSize o ∧ ∀ s', s.step blockSize o = .ok s' → LegalRun blockSize ops s'

/-- No constructor throws. -/
def NoThrow : Op → Prop
  | .make _ _ _ throws => throws = false
  | _ => True

/-- Every object that was constructed either exists or was destroyed, once. -/
def OnceEach (s : Pools) : Prop := (s.objects.map (·.id) ++ s.destroyed).Perm (List.range s.born)

/-- The objects that exist are those the pointers were made for, one for each pointer, and pointers hold their addresses. -/
def Owned (s : Pools) : Prop := s.objects.Perm (s.ptrs.map fun p => ⟨p.obj, p.addr, p.type⟩)

/-- Objects that exist are aligned and have their memory for themselves. -/
def Apart (s : Pools) : Prop :=
  (∀ o ∈ s.objects, o.type.align ∣ o.addr) ∧ s.objects.Pairwise fun a b => DisjointRange a.addr a.type.size b.addr b.type.size

/-- Pointers have their memory in blocks that exist, whatever allocators are left. -/
def Backed (s : Pools) : Prop :=
  ∀ p ∈ s.ptrs, ∃ bs, s.heap p.heap = some bs ∧ ∃ b ∈ bs, b.data ≤ p.addr ∧ p.addr + p.type.size ≤ b.data + b.sz

/-- Blocks exist only for allocators and pointers. -/
def Needed (s : Pools) : Prop := ∀ h bs, s.heap h = some bs → h ∈ s.allocs ∨ ∃ p ∈ s.ptrs, p.heap = h

end Simu.Memory.Pools
