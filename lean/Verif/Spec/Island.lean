import Verif.Model.Island
import Mathlib.Logic.Relation
/-
What the islands of a step should be, in terms of the graph of bodies and constraints only.
-/
namespace Simu.Island
variable {P V S : Type*}

/-- The body is at rest and all its constraints consider it structural: nothing can move it. -/
def Fixed (N : Net P V S) (st : St P V S) (b : Nat) : Prop :=
  N.isRest (st.body b).vel = true ∧ ∀ l ∈ linksOf N b, N.structuralIn l b = true

/-- An active constraint of `x` joins it to `y`. -/
def Joined (N : Net P V S) (A : Link → Bool) (x y : Nat) : Prop :=
  ∃ l ∈ linksOf N x, A l = true ∧ (N.ends l = (x, y) ∨ N.ends l = (y, x))

/-- Joined by a chain of active constraints through bodies that are not fixed. -/
def Connected (N : Net P V S) (A : Link → Bool) (st : St P V S) : Nat → Nat → Prop :=
  Relation.ReflTransGen fun x y => ¬ Fixed N st x ∧ ¬ Fixed N st y ∧ Joined N A x y

/-- No active constraint may change the body. -/
def Unconstrained (N : Net P V S) (A : Link → Bool) (b : Nat) : Prop := ∀ l ∈ linksOf N b, A l = true → N.structuralIn l b = true

/-- The graph of the world: the constraints listed by the bodies of the world are between bodies of the world which both list them, and they
do not consider both structural (World.hpp:209-225, World.cpp:109-123, ConstraintInterfaces.hpp:68-83). -/
structure WellFormed (N : Net P V S) (world : List Nat) : Prop where
  own : ∀ b ∈ world, ∀ l ∈ linksOf N b, b = (N.ends l).1 ∨ b = (N.ends l).2
  ends : ∀ b ∈ world, ∀ l ∈ linksOf N b, (N.ends l).1 ∈ world ∧ (N.ends l).2 ∈ world
  listed : ∀ b ∈ world, ∀ l ∈ linksOf N b, l ∈ linksOf N (N.ends l).1 ∧ l ∈ linksOf N (N.ends l).2
  oneMoves : ∀ b ∈ world, ∀ l ∈ linksOf N b, N.structuralIn l (N.ends l).1 = false ∨ N.structuralIn l (N.ends l).2 = false

/-- What every constraint of the library does: it only changes bodies that are not structural in it (their inverse masses are zero, see
Model/Constraint.lean and Model/Contact.lean). A body at rest does not move. -/
structure WellBehaved (N : Net P V S) : Prop where
  act : ∀ ph l i0 i1 s ps vs s' ps' vs', N.act ph l i0 i1 s ps vs = .ok (s', ps', vs') →
    ∀ i, (i = i0 → N.structuralIn l (N.ends l).1 = true) → (i = i1 → N.structuralIn l (N.ends l).2 = true) → ps' i = ps i ∧ vs' i = vs i
  rest : ∀ p v, N.isRest v = true → N.advance p v = p

/-- A state between two steps: no solve is in progress. -/
def Ready (st : St P V S) : Prop := (∀ b, (st.body b).index = none) ∧ ∀ l, st.proxies l = none

/-- `solveIslands` ran on the bodies `world` of a well-formed graph, from `st` to `st'`, with the islands `log`; whenever a constraint was asked
if it is active it gave the answer `A`. -/
structure Solved (N : Net P V S) (A : Link → Bool) (world : List Nat) (st st' : St P V S) (log : List Record) : Prop where
  behaved : WellBehaved N
  graph : WellFormed N world
  ready : Ready st
  ran : ∃ cfg fuel p v, solveIslands N cfg fuel p v world st = some (.ok (st', log))
  stable : ∀ e ∈ st'.evals, e.2 = A e.1

end Simu.Island
