import Verif.Spec.Island
import Mathlib.Algebra.BigOperators.Group.Finset.Basic
/-
Quantities that constraints exchange between their bodies, and groups of bodies with nothing outside.
-/
namespace Simu.Island
open Finset
variable {P V S M : Type*} [AddCommGroup M]

/-- A fact on the internal states of constraints that solving keeps. -/
structure Steady (N : Net P V S) (good : S → Prop) : Prop where
  act : ∀ ph l i0 i1 s ps vs s' ps' vs', good s → N.act ph l i0 i1 s ps vs = .ok (s', ps', vs') → good s'
  isActive : ∀ l s p q, good s → good (N.isActive l s p q).1

/-- The constraint is between two bodies, and what one gets of `qv` (an amount given by its velocity) and of `qp` (given by its position) the other loses. -/
structure Exchanges (N : Net P V S) (good : S → Prop) (qv : Nat → V → M) (qp : Nat → P → M) (l : Link) : Prop where
  two : (N.ends l).1 ≠ (N.ends l).2
  act : ∀ ph i0 i1 s ps vs s' ps' vs', i0 ≠ i1 → good s → N.act ph l i0 i1 s ps vs = .ok (s', ps', vs') →
    qv (N.ends l).1 (vs' i0) + qv (N.ends l).2 (vs' i1) = qv (N.ends l).1 (vs i0) + qv (N.ends l).2 (vs i1) ∧
    qp (N.ends l).1 (ps' i0) + qp (N.ends l).2 (ps' i1) = qp (N.ends l).1 (ps i0) + qp (N.ends l).2 (ps i1)

/-- The active constraints of the group are between its own bodies. -/
def Isolated (N : Net P V S) (A : Link → Bool) (group : Finset Nat) : Prop :=
  ∀ b ∈ group, ∀ l ∈ linksOf N b, A l = true → (N.ends l).1 ∈ group ∧ (N.ends l).2 ∈ group

end Simu.Island
