import Verif.Spec.Island
import Mathlib.Data.Finset.Basic
/-
A group of bodies seen in two worlds.
-/
namespace Simu.Island
variable {P V S S' : Type*}

/-- A constraint between two bodies of the group, listed by one that is not fixed. -/
def Inner (N : Net P V S) (st : St P V S) (group : Finset Nat) (l : Link) : Prop :=
  (∃ b ∈ group, ¬ Fixed N st b ∧ l ∈ linksOf N b) ∧ (N.ends l).1 ∈ group ∧ (N.ends l).2 ∈ group

/-- No active constraint leads out of the group, except by bodies that are fixed (a ground for example). -/
def Enclosed (N : Net P V S) (A : Link → Bool) (st : St P V S) (group : Finset Nat) : Prop :=
  ∀ b ∈ group, ¬ Fixed N st b → ∀ l ∈ linksOf N b, A l = true → (N.ends l).1 ∈ group ∧ (N.ends l).2 ∈ group

/-- The constraints of a world touch neither the internal states nor, through them, the behaviour of each other: what is known of the state of a constraint (by comparison with a state of
another world) is not changed by calls to the others. -/
structure Private (N : Net P V S) (agree : Link → S → S' → Prop) : Prop where
  act : ∀ ph l i0 i1 s ps vs s' ps' vs', N.act ph l i0 i1 s ps vs = .ok (s', ps', vs') → ∀ l' t, l' ≠ l → agree l' s t → agree l' s' t
  isActive : ∀ l l' s p q t, l' ≠ l → agree l' s t → agree l' (N.isActive l s p q).1 t

/-- The constraint `l` does the same in two worlds where its internal state and the positions and velocities of its two bodies are the same, whatever those of the other bodies. -/
structure Alike (N : Net P V S) (N' : Net P V S') (agree : Link → S → S' → Prop) (l : Link) : Prop where
  ends : N'.ends l = N.ends l
  isActive : ∀ s t p q, agree l s t → agree l (N.isActive l s p q).1 (N'.isActive l t p q).1 ∧ (N.isActive l s p q).2 = (N'.isActive l t p q).2
  act : ∀ ph i0 i1 s ps vs s' ps' vs' t qs ws t' qs' ws', agree l s t → ps i0 = qs i0 → ps i1 = qs i1 → vs i0 = ws i0 → vs i1 = ws i1 →
    N.act ph l i0 i1 s ps vs = .ok (s', ps', vs') → N'.act ph l i0 i1 t qs ws = .ok (t', qs', ws') →
    agree l s' t' ∧ ps' i0 = qs' i0 ∧ ps' i1 = qs' i1 ∧ vs' i0 = ws' i0 ∧ vs' i1 = ws' i1

/-- The same group in two worlds, of which the rest may differ: its bodies are visited in the same order, the same of them are fixed, and those that are not list the same constraints between bodies of
the group, in the same order. -/
structure SameGroup (N : Net P V S) (N' : Net P V S') (agree : Link → S → S' → Prop) (world world' : List Nat) (st : St P V S) (st' : St P V S') (group : Finset Nat) : Prop where
  order : world.filter (· ∈ group) = world'.filter (· ∈ group)
  fixed : ∀ b ∈ group, Fixed N st b ↔ Fixed N' st' b
  links : ∀ b ∈ group, ¬ Fixed N st b → (linksOf N b).filter (fun l => (N.ends l).1 ∈ group ∧ (N.ends l).2 ∈ group) =
    (linksOf N' b).filter (fun l => (N'.ends l).1 ∈ group ∧ (N'.ends l).2 ∈ group)
  alike : ∀ l, Inner N st group l → Alike N N' agree l
  advance : N.advance = N'.advance

/-- The bodies of the group and its constraints are in the same state in both worlds. -/
structure SameState (N : Net P V S) (agree : Link → S → S' → Prop) (st : St P V S) (group : Finset Nat) (now : St P V S) (now' : St P V S') : Prop where
  bodies : ∀ b ∈ group, (now.body b).pos = (now'.body b).pos ∧ (now.body b).vel = (now'.body b).vel
  links : ∀ l, Inner N st group l → agree l now.s now'.s

end Simu.Island
