import Verif.Spec.IslandMomentum
/-
Constraints with nothing to do.
-/
namespace Simu.Island
variable {P V S : Type*}

/-- With its two bodies at the positions `pos` and velocities `vel`, the constraint `l` changes neither. `idle l` is what must be known of its internal state before it is first
called in a step, `primed l` what `initSolve` makes of it. -/
structure Rests (N : Net P V S) (idle primed : Link → S → Prop) (pos : Nat → P) (vel : Nat → V) (l : Link) : Prop where
  weaken : ∀ s, primed l s → idle l s
  init : ∀ i0 i1 s ps vs s' ps' vs', idle l s → ps i0 = pos (N.ends l).1 → ps i1 = pos (N.ends l).2 → vs i0 = vel (N.ends l).1 → vs i1 = vel (N.ends l).2 →
    N.act .initSolve l i0 i1 s ps vs = .ok (s', ps', vs') → primed l s' ∧ ps' i0 = ps i0 ∧ ps' i1 = ps i1 ∧ vs' i0 = vs i0 ∧ vs' i1 = vs i1
  calls : ∀ ph i0 i1 s ps vs s' ps' vs', primed l s → ps i0 = pos (N.ends l).1 → ps i1 = pos (N.ends l).2 → vs i0 = vel (N.ends l).1 → vs i1 = vel (N.ends l).2 →
    N.act ph l i0 i1 s ps vs = .ok (s', ps', vs') → ph ≠ .initSolve → primed l s' ∧ ps' i0 = ps i0 ∧ ps' i1 = ps i1 ∧ vs' i0 = vs i0 ∧ vs' i1 = vs i1

/-- Constraints do not touch the internal states of each other, and asking whether they are active does not make them busy. -/
structure Apart (N : Net P V S) (idle primed : Link → S → Prop) : Prop where
  act : ∀ ph l i0 i1 s ps vs s' ps' vs', N.act ph l i0 i1 s ps vs = .ok (s', ps', vs') → ∀ l', l' ≠ l → (idle l' s → idle l' s') ∧ (primed l' s → primed l' s')
  isActive : ∀ l l' s p q, idle l' s → idle l' (N.isActive l s p q).1

end Simu.Island
