import Verif.Spec.LibraryStill
import Verif.Spec.Motion
import Verif.Props.Converged
/-
Structures in equilibrium: the impulses that the constraints remember of the last step balance the forces of the next one.
-/
namespace Simu
open Island Mat
variable {K : Type*} [Field K] [LinearOrder K] [Trig K]

/-- A joint or a contact between bodies of inverse masses `m` at rest at the positions `p` and `q`, with nothing to correct, that forces acting during the step would bring to the velocities `v`
and `w`, and which remembers impulses that change the momenta by `P`. Joints: the function is zero, nothing limits the multipliers, what is damped bears nothing. Contacts: not deeper than what
is corrected, the impulses push and those of friction are in the cone; they do not bounce for velocities that small (or have no restitution). Other constraints are not considered. -/
def Kind.Carrying (c : CallCfg K) (m : InvMasses K) (p q : Position K) (v w : Velocity K) (P : Six K) : (k : Kind K) → k.State → Prop
  | .equality _ f, e => f.Undriven ∧ f.HasValue m p q Mat.zero ∧ (∀ l, f.clampLambda l c.dt = l) ∧
    (∃ J, (∀ i0 i1 s, s.pos i0 = p → s.pos i1 = q → f.jacobian ⟨i0, i1, m⟩ s = J) ∧ P = pull J (e : EqualitySolver _ _).base.lambda.toV) ∧
    ∀ r, 0 ≤ (e : EqualitySolver _ _).base.damping.at_ r ∧ (e : EqualitySolver _ _).base.damping.at_ r * (e : EqualitySolver _ _).base.lambda.at_ r = 0
  | .contact, e =>
    let f := (e : Contact _).manifold.frame ![p.toWorldSpace, q.toWorldSpace]
    (f.nContacts = 1 ∨ f.nContacts = 2) ∧ Solvable f ⟨0, 1, m⟩ ∧ f.tangent ≠ 0 ∧ 0 ≤ (e : Contact _).friction ∧ (∀ i, 0 ≤ (e : Contact _).normalLambda.at_ i) ∧
    (∀ i : Fin 2, i.val < f.nContacts → |(e : Contact _).tangentLambda.at_ i| ≤ (e : Contact _).friction * (e : Contact _).normalLambda.at_ i) ∧
    0 < (e : Contact _).manifold.minPen ∧
    (∀ i : Fin 2, i.val < f.nContacts → -3 * (e : Contact _).manifold.minPen < Vec2.dot f.normal (f.contacts 0 i - f.contacts 1 i)) ∧
    (∀ i : Fin 2, i.val < f.nContacts → (e : Contact _).restitution = 0 ∨ -1 < relativeSpeed f.normal (f.contacts 0 i) (f.contacts 1 i) p.centroid q.centroid v w) ∧
    P = f.impulse ⟨0, 1, m⟩ (fun i => if i = 0 then p else q) (e : Contact _).normalLambda.toV (e : Contact _).tangentLambda.toV
  | _, _ => False

/-- The contact points of a contact are those of its manifold, for bodies at `p` and `q`. -/
def Kind.Fresh (p q : Position K) : (k : Kind K) → k.State → Prop
  | .contact, e => (e : Contact _).frame = (e : Contact _).manifold.frame ![p.toWorldSpace, q.toWorldSpace]
  | _, _ => True

/-- The constraint `l` carries, between bodies at the positions `pos` which forces bring to the velocities `vel`. -/
def Library.Carrying (L : Library K) (c : CallCfg K) (pos : Nat → Pose K) (vel : Nat → Velocity K) (P : Link → Six K) (s : (l : Link) → (L.kind l).State) (l : Link) : Prop :=
  (L.bodies l).masses.Nonneg ∧ (L.bodies l).i0 ≠ (L.bodies l).i1 ∧ (L.kind l).Fresh (pos (L.bodies l).i0).1 (pos (L.bodies l).i1).1 (s l) ∧
    (L.kind l).Carrying c (L.bodies l).masses (pos (L.bodies l).i0).1 (pos (L.bodies l).i1).1 (vel (L.bodies l).i0) (vel (L.bodies l).i1) (P l) (s l)

/-- What the impulse `P` of the constraint `l` adds to the velocity of the body `b`. -/
def Library.share (L : Library K) (l : Link) (P : Six K) (b : Nat) : Velocity K := kick ⟨(L.bodies l).i0, (L.bodies l).i1, (L.bodies l).masses⟩ P b

/-- A body at rest that no constraint moves. -/
def Library.Propped (L : Library K) (c : CallCfg K) (vel : Nat → Velocity K) (b : Nat) : Prop :=
  vel b = ⟨0, 0⟩ ∧ ∀ l ∈ linksOf (L.net c) b, (L.net c).structuralIn l b = true

/-- The group does not move, and its active constraints carry it against forces which bring it to the velocities `vel` in one step. -/
structure Standing {L : Library K} (c : CallCfg K) (A : Link → Bool) (group : Finset Nat) (vel : Nat → Velocity K) (P : Link → Six K) (m : Motion L) : Prop where
  velocity : ∀ b ∈ group, (m.body b).velocity = 0 ∧ (m.body b).angular = 0
  orient : ∀ b ∈ group, (m.body b).position.orient.WF
  carrying : ∀ b ∈ group, ¬ L.Propped c vel b → ∀ l ∈ linksOf (L.net c) b, A l = true → L.Carrying c (fun b => Pose.of (m.body b).position) vel P m.s l

/-- In this step the forces bring the group to the velocities `vel`, and the impulses `P` of its active constraints cancel them for every body. Bodies that carry the group, like the ground,
may carry others too. -/
structure Supported [IsStrictOrderedRing K] {L : Library K} (c : CallCfg K) (fields : List (ForceField K)) (tree : List (Nat × Collider K)) (world : List Nat) (A : Link → Bool) (group : Finset Nat)
    (vel : Nat → Velocity K) (P : Link → Six K) (m : Motion L) : Prop where
  sqrt : ∀ x, 0 ≤ x → c.sqrt x * c.sqrt x = x
  epsilon : 0 ≤ c.epsilon
  fuel : 1 ≤ c.fuel
  wellFormed : WellFormed (L.net c) world
  made : L.MadeFor m.body
  inside : ∀ b ∈ group, b ∈ world
  enclosed : ∀ b ∈ group, ¬ L.Propped c vel b → ∀ l ∈ linksOf (L.net c) b, A l = true → (L.bodies l).i0 ∈ group ∧ (L.bodies l).i1 ∈ group
  forces : ∀ body, applyForces fields c.dt tree m.body = .ok body → ∀ b ∈ group, (⟨(body b).velocity, (body b).angular⟩ : Velocity K) = vel b
  balance : ∀ b ∈ group, ¬ L.Propped c vel b → vel b + ∑ l ∈ (linksOf (L.net c) b).toFinset with A l = true, L.share l (P l) b = 0

/-- `n` steps with warm starting under the same forces, between which nothing happens to the group and its constraints. Everything else may change. -/
inductive Borne [IsStrictOrderedRing K] {L : Library K} (c : CallCfg K) (A : Link → Bool) (group : Finset Nat) (vel : Nat → Velocity K) (P : Link → Six K) : Nat → Motion L → Motion L → Prop
  | start (m : Motion L) : Borne c A group vel P 0 m m
  | step {n : Nat} {m0 m1 : Motion L} (before : Borne c A group vel P n m0 m1) {m m' : Motion L} {cfg : Island.Settings} {sl : Sleep.Settings K}
      {fields : List (ForceField K)} {tree : List (Nat × Collider K)} {world : List Nat} {fuel : Nat} {log : List Record} {evals : List (Link × Bool)}
      (warm : cfg.enableWarmstarting = true) (same : ∀ b ∈ group, m.body b = m1.body b)
      (states : ∀ b ∈ group, ∀ l ∈ linksOf (L.net c) b, m.s l = m1.s l) (supported : Supported c fields tree world A group vel P m)
      (stepped : m.step c cfg sl fields tree world fuel = some (.ok (m', log, evals))) (active : ∀ e ∈ evals, e.2 = A e.1) : Borne c A group vel P (n + 1) m0 m'

end Simu
