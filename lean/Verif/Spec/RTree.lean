import Verif.Model.RTree
import Verif.Spec.BoundingBox
/-
Specification of a spatial container: a finite map from element identities to boxes, its operations,
and the meaning of the queries. Nothing here mentions how the tree works.
-/
namespace Simu.RTree.Spec
open Simu.Spec
variable {K α : Type*} [LinearOrder K]

/-- What a caller can do. -/
inductive Op (K α : Type*) where
  | insert (id : α) (box : BoundingBox K)
  | erase (id : α)
  | update (id : α) (box : BoundingBox K)
  | updateAll (f : α → BoundingBox K → BoundingBox K)
  | clear

/-- The abstract container. -/
abbrev Contents (K α : Type*) := α → Option (BoundingBox K)

/-- The caller's obligations: identities are fresh on insertion, and iterators are live. -/
def legal (m : Contents K α) : Op K α → Prop
  | .insert id _ => m id = none
  | .erase id => m id ≠ none
  | .update id _ => m id ≠ none
  | .updateAll _ => True
  | .clear => True

/-- Effect of an operation. -/
def apply [DecidableEq α] (m : Contents K α) : Op K α → Contents K α
  | .insert id box => fun a => if a = id then some box else m a
  | .erase id => fun a => if a = id then none else m a
  | .update id box => fun a => if a = id then some box else m a
  | .updateAll f => fun a => (m a).map (f a)
  | .clear => fun _ => none

/-- A history is legal when each operation is, in the state it is applied to. -/
def legalHistory [DecidableEq α] : Contents K α → List (Op K α) → Prop
  | _, [] => True
  | m, op :: ops => legal m op ∧ legalHistory (apply m op) ops

/-- State after a history. -/
def run [DecidableEq α] (m : Contents K α) (ops : List (Op K α)) : Contents K α := ops.foldl apply m

/-- A list of elements lists the container: each element once. -/
def Lists (es : List (Entry K α)) (m : Contents K α) : Prop :=
  (es.map (·.id)).Nodup ∧ ∀ id b, (⟨id, b⟩ : Entry K α) ∈ es ↔ m id = some b

/-- The box is the smallest one containing all the elements: same points lie in every box containing
the box and in every box containing all the elements. -/
def TightBox (b : BoundingBox K) (es : List (Entry K α)) : Prop :=
  ∀ c, subBox b c ↔ ∀ e ∈ es, subBox e.bounds c

end Simu.RTree.Spec

namespace Simu.RTree.Spec
variable {K α : Type*} [Field K] [LinearOrder K]

/-- Area of a set of points given by its corners, zero when empty. -/
def boxArea (b : BoundingBox K) : K :=
  if b.min.x ≤ b.max.x ∧ b.min.y ≤ b.max.y then (b.max.x - b.min.x) * (b.max.y - b.min.y) else 0

/-- Sum of the areas of the internal nodes. -/
def totalArea : Node K α → K
  | .null => 0
  | .leaf _ _ => 0
  | .node b l r => boxArea b + totalArea l + totalArea r

/-- The tree obtained by pairing the subtree `n`, found at the end of `path`, with a new leaf under a
new node, and enlarging the ancestors. -/
def pairedWith (path : List (Frame K α)) (n : Node K α) (box : BoundingBox K) (id : α) : Node K α :=
  zip (.node (n.bounds.combined box) n (.leaf box id))
    (path.map fun f => { f with bounds := f.bounds.combined box })

end Simu.RTree.Spec
