import Verif.Spec.Island
/-
When the constraints of a network can be solved.
-/
namespace Simu.Island
variable {P V S : Type*}

/-- The constraints `T` can be solved: from states that are `good`, `initSolve` succeeds and makes the constraint `ready`, and the other calls succeed
once it is; all of them keep this. Their answers to `isActive` are `A`. -/
structure Sound (N : Net P V S) (T : Link → Prop) (A : Link → Bool) (good : S → Prop) (ready : Link → S → Prop) : Prop where
  act : ∀ ph l i0 i1 s ps vs, T l → good s → (ph ≠ .initSolve → ready l s) → ∃ s' ps' vs', N.act ph l i0 i1 s ps vs = .ok (s', ps', vs') ∧
    good s' ∧ ready l s' ∧ ∀ l', ready l' s → ready l' s'
  isActive : ∀ l s p q, T l → good s → good (N.isActive l s p q).1 ∧ (N.isActive l s p q).2 = A l

end Simu.Island
