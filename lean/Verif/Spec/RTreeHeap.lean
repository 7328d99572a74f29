import Verif.Model.BoundingBox
/-
What a client of the R-tree does and may rely on: elements are known by the number of their insertion.
Nothing here mentions nodes, addresses or how the tree works.
-/
namespace Simu.RTreeHeap.Spec
variable {K V : Type}

/-- What a client can do; elements are named by the number of their insertion, from zero. -/
inductive Op (K V : Type) where
  | insert (box : BoundingBox K) (v : V)
  | erase (k : Nat)
  | update (k : Nat) (box : BoundingBox K)
  | updateAll (f : V → BoundingBox K → BoundingBox K)
  | clear

/-- The elements inserted so far; those that were removed are `none`. -/
abbrev Contents (K V : Type) := List (Option (BoundingBox K × V))

/-- Only iterators to elements that are still in the tree may be used. -/
def legal (c : Contents K V) : Op K V → Prop
  | .erase k => ∃ e, c[k]? = some (some e)
  | .update k _ => ∃ e, c[k]? = some (some e)
  | _ => True

def apply (c : Contents K V) : Op K V → Contents K V
  | .insert b v => c ++ [some (b, v)]
  | .erase k => c.set k none
  | .update k b => c.modify k (Option.map fun e => (b, e.2))
  | .updateAll f => c.map (Option.map fun e => (f e.2 e.1, e.2))
  | .clear => c.map fun _ => none

/-- The elements in the tree. -/
def living (c : Contents K V) : List (BoundingBox K × V) := c.filterMap id

/-- The elements removed by an operation. -/
def lost (c : Contents K V) : Op K V → List V
  | .erase k => ((c[k]?.getD none).map Prod.snd).toList
  | .clear => (living c).map Prod.snd
  | _ => []

def legalHistory : Contents K V → List (Op K V) → Prop
  | _, [] => True
  | c, op :: ops => legal c op ∧ legalHistory (apply c op) ops

def run (c : Contents K V) (ops : List (Op K V)) : Contents K V := ops.foldl apply c

/-- The elements removed by a history. -/
def lostBy : Contents K V → List (Op K V) → List V
  | _, [] => []
  | c, op :: ops => lost c op ++ lostBy (apply c op) ops

/-- The elements inserted by a history. -/
def inserted (ops : List (Op K V)) : List V :=
  ops.filterMap fun | .insert _ v => some v | _ => none

end Simu.RTreeHeap.Spec
