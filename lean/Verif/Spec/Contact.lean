import Verif.Model.Contact
import Verif.Spec.Constraint
/-
Vocabulary for stating the properties of contacts.
-/
namespace Simu
section
variable {K : Type*} [Field K]

/-- Velocity of the point at `r` from the centroid of a body. -/
def pointVelocity (v : Velocity K) (r : Vec2 K) : Vec2 K := v.linear + v.angular • (⟨-r.y, r.x⟩ : Vec2 K)

/-- Speed, along `dir`, of the point `p0` of the first body away from the point `p1` of the second body. -/
def relativeSpeed (dir p0 p1 c0 c1 : Vec2 K) (v0 v1 : Velocity K) : K :=
  Vec2.dot dir (pointVelocity v0 (p0 - c0) - pointVelocity v1 (p1 - c1))

variable [Trig K]

/-- Speed at which the points of contact `c` of the bodies of `p` separate (along the normal of `f`), for the positions and
velocities in `s`. -/
def Frame.separationSpeed (f : Frame K) (p : Proxies K) (pos : Nat → Position K) (vel : Nat → Velocity K) (c : Fin 2) : K :=
  relativeSpeed f.normal (f.contacts 0 c) (f.contacts 1 c) (pos p.i0).centroid (pos p.i1).centroid (vel p.i0) (vel p.i1)

/-- Sliding speed of the points of contact `c`. -/
def Frame.slidingSpeed (f : Frame K) (p : Proxies K) (pos : Nat → Position K) (vel : Nat → Velocity K) (c : Fin 2) : K :=
  relativeSpeed f.tangent (f.contacts 0 c) (f.contacts 1 c) (pos p.i0).centroid (pos p.i1).centroid (vel p.i0) (vel p.i1)

/-- Impulse of force `dir * l` applied at `p0` on the first body and opposite at `p1` on the second. -/
def pairImpulse (dir p0 p1 c0 c1 : Vec2 K) (l : K) : Six K :=
  fun i => l * ![dir.x, dir.y, Vec2.cross (p0 - c0) dir, -dir.x, -dir.y, -Vec2.cross (p1 - c1) dir] i

/-- The generalised impulse of normal and tangential forces at the contacts of `f`. -/
def Frame.impulse (f : Frame K) (p : Proxies K) (pos : Nat → Position K) (normal tangent : Fin 2 → K) : Six K := fun i =>
  ∑ c : Fin 2, if c.val < f.nContacts then
    pairImpulse f.normal (f.contacts 0 c) (f.contacts 1 c) (pos p.i0).centroid (pos p.i1).centroid (normal c) i +
    pairImpulse f.tangent (f.contacts 0 c) (f.contacts 1 c) (pos p.i0).centroid (pos p.i1).centroid (tangent c) i
  else 0

/-- Twice the kinetic energy of the bodies `i0` and `i1` of masses and inertias `m0, I0, m1, I1`. -/
def energy2 (m0 I0 m1 I1 : K) (v0 v1 : Velocity K) : K :=
  m0 * v0.linear.normSquared + I0 * (v0.angular * v0.angular) +
    (m1 * v1.linear.normSquared + I1 * (v1.angular * v1.angular))

/-- A body of mass `m` and inertia `I` with velocity `v` that impulses act on with the inverses of its mass and inertia, or that is at
rest and cannot be moved. -/
def Movable (m I invMass invInertia : K) (v : Velocity K) : Prop :=
  (m * invMass = 1 ∧ I * invInertia = 1) ∨ (invMass = 0 ∧ invInertia = 0 ∧ v = 0)

variable [LinearOrder K]

/-- A contact right after a solve has been started with the bodies in the state `s`. -/
def Contact.prepared (e : Contact K) (p : Proxies K) (s : SolveState K) : Contact K := (e.isActive p s).1.initSolve p s

omit [Trig K] in
/-- A contact going through events. -/
def Contact.runEvents (p : Proxies K) :
    List (SolveEvent K) → Contact K × SolveState K → Outcome (Contact K × SolveState K)
  | [], es => .ok es
  | .warmstart :: l, es => Contact.runEvents p l (es.1.warmstart p es.2)
  | .solve :: l, es => (es.1.solveVelocities p es.2).bind (Contact.runEvents p l)
  | .other c :: l, es => Contact.runEvents p l (es.1, es.2.change c)

end

section
variable {K : Type*} [Field K] [LinearOrder K] [IsStrictOrderedRing K] [Trig K]

/-- Everything that can happen to a contact over any number of steps, with arbitrary states of the bodies: the contact that
results. Calls that throw end the history. -/
inductive Contact.Reachable (sqrt : K → K) (penetration : List (Vec2 K) → List (Vec2 K) → Vec2 K → Outcome (Vec2 K))
    (first second : Material K) : Contact K → Prop
  | make {e} (sides) : Contact.make sqrt penetration first second sides = .ok e →
      Contact.Reachable sqrt penetration first second e
  | preStep {e e'} (sides) : Contact.Reachable sqrt penetration first second e →
      e.updateContacts sqrt penetration sides = .ok e' → Contact.Reachable sqrt penetration first second e'
  | isActive {e} (p s) : Contact.Reachable sqrt penetration first second e →
      Contact.Reachable sqrt penetration first second (e.isActive p s).1
  | initSolve {e} (p s) : Contact.Reachable sqrt penetration first second e →
      Contact.Reachable sqrt penetration first second (e.initSolve p s)
  | warmstart {e} (p s) : Contact.Reachable sqrt penetration first second e →
      Contact.Reachable sqrt penetration first second (e.warmstart p s).1
  | solveVelocities {e e' s'} (p s) : Contact.Reachable sqrt penetration first second e →
      e.solveVelocities p s = .ok (e', s') → Contact.Reachable sqrt penetration first second e'
  | solvePositions {e e' s'} (p s) : Contact.Reachable sqrt penetration first second e →
      e.solvePositions p s = .ok (e', s') → Contact.Reachable sqrt penetration first second e'

end
end Simu
