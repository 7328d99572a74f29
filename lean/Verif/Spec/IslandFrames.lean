import Verif.Spec.IslandTwin
/-
A group of bodies seen in two worlds from two frames of reference.
-/
namespace Simu.Island
variable {P V S S' : Type*}

/-- How the positions and velocities of one world correspond to those of another: positions before and after the bodies are moved by their velocities, and velocities. -/
structure Frames (P V : Type*) where
  before : P → P → Prop
  after : P → P → Prop
  vel : V → V → Prop

/-- A constraint whose internal states correspond (`known`) in two worlds, with bodies that correspond, does what corresponds. -/
def ActsAlike (N : Net P V S) (N' : Net P V S') (known : Link → S → S' → Prop) (pos : P → P → Prop) (vel : V → V → Prop) (ph : Phase) (l : Link) : Prop :=
  ∀ i0 i1 s ps vs s' ps' vs' t qs ws t' qs' ws', known l s t → pos (ps i0) (qs i0) → pos (ps i1) (qs i1) → vel (vs i0) (ws i0) → vel (vs i1) (ws i1) →
    N.act ph l i0 i1 s ps vs = .ok (s', ps', vs') → N'.act ph l i0 i1 t qs ws = .ok (t', qs', ws') →
    known l s' t' ∧ pos (ps' i0) (qs' i0) ∧ pos (ps' i1) (qs' i1) ∧ vel (vs' i0) (ws' i0) ∧ vel (vs' i1) (ws' i1)

/-- The constraint `l` does what corresponds in two worlds. Between steps its internal states correspond by `known`; once it has been asked whether it is active, and until the bodies are moved,
by `asked`, which may tell more. -/
structure Matched (N : Net P V S) (N' : Net P V S') (F : Frames P V) (known asked : Link → S → S' → Prop) (l : Link) : Prop where
  ends : N'.ends l = N.ends l
  isActive : ∀ s t p q p' q', known l s t → F.before p p' → F.before q q' → asked l (N.isActive l s p q).1 (N'.isActive l t p' q').1 ∧ (N.isActive l s p q).2 = (N'.isActive l t p' q').2
  weaken : ∀ s t, asked l s t → known l s t
  velocities : ∀ ph, ph ≠ .solvePositions → ActsAlike N N' asked F.before F.vel ph l
  positions : ActsAlike N N' known F.after F.vel .solvePositions l

/-- The same group in two worlds, seen from two frames: its bodies are visited in the same order, the same of them are fixed, those that are not list the same constraints between bodies of the group, in
the same order, and these do what corresponds. If the frames are displaced while bodies are moved then all bodies of the group are in the world, none is fixed, and all these constraints are active. -/
structure Mirrored (N : Net P V S) (N' : Net P V S') (F : Frames P V) (known asked : Link → S → S' → Prop) (A A' : Link → Bool) (world world' : List Nat) (st : St P V S) (st' : St P V S')
    (group : Finset Nat) : Prop where
  order : world.filter (· ∈ group) = world'.filter (· ∈ group)
  fixed : ∀ b ∈ group, Fixed N st b ↔ Fixed N' st' b
  links : ∀ b ∈ group, ¬ Fixed N st b → (linksOf N b).filter (fun l => (N.ends l).1 ∈ group ∧ (N.ends l).2 ∈ group) =
    (linksOf N' b).filter (fun l => (N'.ends l).1 ∈ group ∧ (N'.ends l).2 ∈ group)
  matched : ∀ l, Inner N st group l → Matched N N' F known asked l
  advance : ∀ p q v w, F.before p q → F.vel v w → F.after (N.advance p v) (N'.advance q w)
  displaced : F.before = F.after ∨ ((∀ b ∈ group, b ∈ world ∧ ¬ Fixed N st b) ∧ ∀ l, Inner N st group l → A l = true)

/-- The bodies of the group and its constraints correspond in both worlds. -/
structure Corresponds (N : Net P V S) (pos : P → P → Prop) (vel : V → V → Prop) (known : Link → S → S' → Prop) (st : St P V S) (group : Finset Nat) (now : St P V S) (now' : St P V S') : Prop where
  bodies : ∀ b ∈ group, pos (now.body b).pos (now'.body b).pos ∧ vel (now.body b).vel (now'.body b).vel
  links : ∀ l, Inner N st group l → known l now.s now'.s

end Simu.Island
