import Verif.Spec.IslandMomentum
import Mathlib.Algebra.Order.Group.Defs
/-
Constraints that spend energy.
-/
namespace Simu.Island
variable {P V S K : Type*} [AddCommGroup K] [LinearOrder K] [IsOrderedAddMonoid K]

/-- The constraint `l`, between two bodies, takes energy `en` from its bodies (whose velocities are `ok`) or keeps it in a `store` of its own, which starts empty with `initSolve` and
is never overdrawn. `ready l i0 i1` is what `initSolve` establishes when the bodies have the indices `i0` and `i1`. Positions are corrected without touching velocities. -/
structure Spends (N : Net P V S) (good : S → Prop) (ready : Link → Nat → Nat → S → Prop) (en : Nat → V → K) (store : Link → S → K) (ok : Nat → V → Prop)
    (l : Link) : Prop where
  two : (N.ends l).1 ≠ (N.ends l).2
  nonneg : ∀ i0 i1 s, good s → ready l i0 i1 s → 0 ≤ store l s
  init : ∀ i0 i1 s ps vs s' ps' vs', i0 ≠ i1 → good s → N.act .initSolve l i0 i1 s ps vs = .ok (s', ps', vs') →
    vs' i0 = vs i0 ∧ vs' i1 = vs i1 ∧ ready l i0 i1 s' ∧ store l s' = 0
  velocities : ∀ i0 i1 s ps vs s' ps' vs', i0 ≠ i1 → good s → ready l i0 i1 s → ok (N.ends l).1 (vs i0) → ok (N.ends l).2 (vs i1) →
    N.act .solveVelocities l i0 i1 s ps vs = .ok (s', ps', vs') →
    ready l i0 i1 s' ∧ ok (N.ends l).1 (vs' i0) ∧ ok (N.ends l).2 (vs' i1) ∧
      en (N.ends l).1 (vs' i0) + en (N.ends l).2 (vs' i1) + store l s' ≤ en (N.ends l).1 (vs i0) + en (N.ends l).2 (vs i1) + store l s
  positions : ∀ i0 i1 s ps vs s' ps' vs', i0 ≠ i1 → good s → N.act .solvePositions l i0 i1 s ps vs = .ok (s', ps', vs') → vs' i0 = vs i0 ∧ vs' i1 = vs i1
  others : ∀ ph i0 i1 s ps vs s' ps' vs', N.act ph l i0 i1 s ps vs = .ok (s', ps', vs') → ∀ l', l' ≠ l →
    store l' s' = store l' s ∧ ∀ j0 j1, ready l' j0 j1 s → ready l' j0 j1 s'

end Simu.Island
