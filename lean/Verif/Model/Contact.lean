import Verif.Model.Manifold
import Verif.Model.Constraint
/-
Model of `ContactConstraint` (include/Simu/physics/Constraint.hpp:170-596).

`ref` is 1 and `inc` is 0 throughout (Constraint.hpp:588-589). Loops over the contacts run over both places of the arrays and
skip those at or after the number of contacts, which is at most two (theorem `C52_manifold`). Members that C++ leaves
uninitialised are zero.
-/
namespace Simu
open Mat

/-- Constraint.hpp:571-575: the anonymous union. -/
inductive NormalSolver (K : Type*) where
  | unset
  | inverse (invK11 : K)
  | lcp (solver : LcpSolver K)

namespace NormalSolver
variable {K : Type*}

/-- Reading `invNormalK11_`: undefined unless it is the active member. -/
def getInverse : NormalSolver K → Outcome K
  | .inverse k => .ok k
  | _ => .ub

/-- Reading `normalKSolver_`: undefined unless it is the active member. -/
def getLcp : NormalSolver K → Outcome (LcpSolver K)
  | .lcp s => .ok s
  | _ => .ub

end NormalSolver

/-- Constraint.hpp:558-585: members, without the colliders and the bodies. -/
structure Contact (K : Type*) where
  manifold : Manifold K
  frame : Frame K
  Jf : Fin 2 → Mat K 1 6
  Jn : Mat K 2 6
  invTangentKs : MVec K 2
  normalSolver : NormalSolver K
  tangentLambda : MVec K 2
  previousTangentLambda : MVec K 2
  normalLambda : MVec K 2
  previousNormalLambda : MVec K 2
  bounce : MVec K 2
  restitution : K
  friction : K

/-- Matrix.hpp:311-320 `elementWiseMul`. -/
def elementWiseMul {K : Type*} [Mul K] {n : Nat} (a b : MVec K n) : MVec K n := Mat.ofFn fun i => a.at_ i * b.at_ i

namespace Contact
section
variable {K : Type*} [Field K]

/-- Constraint.hpp:525-538: one row of a Jacobian, for the direction `v` and the two lever arms. -/
def setRow {m : Nat} (J : Mat K m 6) (row : Fin m) (v rInc rRef : Vec2 K) : Mat K m 6 :=
  let J := J.set row 0 v.x
  let J := J.set row 1 v.y
  let J := J.set row 2 (Vec2.cross rInc v)
  let J := J.set row 3 (-v.x)
  let J := J.set row 4 (-v.y)
  J.set row 5 (-(Vec2.cross rRef v))

/-- Constraint.hpp:542-545 `normalJacobian`. -/
def normalJacobian (e : Contact K) (contact : Fin 2) : Mat K 1 6 := ⟨fun i => e.Jn.get contact ⟨i.val, by simpa using i.isLt⟩⟩

/-- Constraint.hpp:547-556 `relativePosition`. -/
def relativePosition (e : Contact K) (c : Fin 2) : Vec2 K := e.frame.contacts 0 c - e.frame.contacts 1 c

/-- Constraint.hpp:235-244 `warmstart`. -/
def warmstart (e : Contact K) (p : Proxies K) (s : SolveState K) : Contact K × SolveState K :=
  let P := ((e.Jf 0).transpose.smul (e.previousTangentLambda.at_ 0)).add
    ((e.Jf 1).transpose.smul (e.previousTangentLambda.at_ 1))
  let P := P.add (e.Jn.transpose.mul e.previousNormalLambda)
  ({ e with normalLambda := e.previousNormalLambda, tangentLambda := e.previousTangentLambda }, p.applyImpulse P s)

variable [Trig K]

/-- Constraint.hpp:501-540 `computeJacobians`. -/
def computeJacobians (e : Contact K) (p : Proxies K) (s : SolveState K) (computeFriction : Bool) : Contact K :=
  let n := e.frame.nContacts
  let r : Fin 2 → Fin 2 → Vec2 K := fun b c =>
    if c.val < n then e.frame.contacts b c - (s.pos (if b = 0 then p.i0 else p.i1)).centroid else 0
  { e with
    Jf := fun c => if c.val < n ∧ computeFriction then setRow Mat.zero 0 e.frame.tangent (r 0 c) (r 1 c) else Mat.zero
    Jn := forFin 2 (fun c J => if c.val < n then setRow J c e.frame.normal (r 0 c) (r 1 c) else J) Mat.zero }

variable [LinearOrder K]

omit [Trig K] in
/-- Constraint.hpp:438-483 `computeKs`. -/
def computeKs (e : Contact K) (p : Proxies K) (computeFrictionK : Bool) : Contact K :=
  let invMass := p.invMassVec
  let refMass := invMass.at_ 3
  let incMass := invMass.at_ 0
  let refInertia := invMass.at_ 5
  let incInertia := invMass.at_ 2
  let linearMass := refMass + incMass
  let normalMass := linearMass * e.frame.normal.normSquared
  let e := if computeFrictionK then
      { e with invTangentKs := forFin 2 (fun c t => if c.val < e.frame.nContacts then
          t.setAt c (1 / (linearMass * e.frame.tangent.normSquared
            + refInertia * ((e.Jf c).get 0 5 * (e.Jf c).get 0 5) + incInertia * ((e.Jf c).get 0 2 * (e.Jf c).get 0 2)))
        else t) e.invTangentKs }
    else e
  let diag : Fin 2 → K := fun c =>
    normalMass + refInertia * (e.Jn.get c 5 * e.Jn.get c 5) + incInertia * (e.Jn.get c 2 * e.Jn.get c 2)
  if e.manifold.nContacts = 1 then { e with normalSolver := .inverse (1 / diag 0) }
  else if e.manifold.nContacts = 2 then
    let off := normalMass + refInertia * e.Jn.get 0 5 * e.Jn.get 1 5 + incInertia * e.Jn.get 0 2 * e.Jn.get 1 2
    { e with normalSolver := .lcp (LcpSolver.mk' ⟨![diag 0, off, off, diag 1]⟩) }
  else e

omit [Trig K] in
/-- Constraint.hpp:485-496 `computeBounce`; 592 `restitutionTreshold`. -/
def computeBounce (e : Contact K) (p : Proxies K) (s : SolveState K) : Contact K :=
  let bounce := e.Jn.mul (p.velocity s)
  let bounce := forFin 2 (fun c b => if c.val < e.manifold.nContacts then
    if -1 < b.at_ c then b.setAt c 0 else b else b) bounce
  { e with bounce := bounce.smul e.restitution }

/-- Constraint.hpp:217-233 `initSolve`. -/
def initSolve (e : Contact K) (p : Proxies K) (s : SolveState K) : Contact K :=
  let e := e.computeJacobians p s true
  let e := e.computeKs p true
  let e := e.computeBounce p s
  { e with
    previousTangentLambda := e.tangentLambda
    previousNormalLambda := e.normalLambda
    tangentLambda := Mat.zero
    normalLambda := Mat.zero }

/-- Constraint.hpp:211-215 `isActive`. -/
def isActive (e : Contact K) (p : Proxies K) (s : SolveState K) : Contact K × Bool :=
  let frame := e.manifold.frame ![(s.pos p.i0).toWorldSpace, (s.pos p.i1).toWorldSpace]
  ({ e with frame := frame }, decide (frame.nContacts ≠ 0))

omit [Trig K] in
/-- Constraint.hpp:253-264: friction at one contact; the state is the tangent multipliers and the velocity. -/
def frictionStep (e : Contact K) (p : Proxies K) (c : Fin 2) (st : MVec K 2 × MVec K 6) : MVec K 2 × MVec K 6 :=
  let J := e.Jf c
  let tangentVel := (J.mul st.2).at_ 0
  let dTangentLambda := -tangentVel * e.invTangentKs.at_ c
  let bound := e.friction * e.normalLambda.at_ c
  let tangentLambda := Algo.clamp (st.1.at_ c + dTangentLambda) (-bound) bound
  let dTangentLambda := tangentLambda - st.1.at_ c
  (st.1.setAt c tangentLambda, st.2.add (elementWiseMul p.invMassVec (J.transpose.smul dTangentLambda)))

omit [Trig K] in
/-- Constraint.hpp:251-265: friction at all contacts. -/
def frictionLoop (e : Contact K) (p : Proxies K) (velocity : MVec K 6) : MVec K 2 × MVec K 6 :=
  forFin 2 (fun c st => if c.val < e.frame.nContacts then frictionStep e p c st else st) (e.tangentLambda, velocity)

omit [Trig K] in
/-- Constraint.hpp:267-308: the normal multipliers and the velocity they give. -/
def solveNormal (e : Contact K) (p : Proxies K) (velocity : MVec K 6) : Outcome (MVec K 2 × MVec K 6) :=
  if e.frame.nContacts = 1 then
    e.normalSolver.getInverse.bind fun invNormalK11 =>
      let J := e.normalJacobian 0
      let normalVel := (J.mul velocity).at_ 0
      let dNormalLambda := -(normalVel + e.bounce.at_ 0) * invNormalK11
      let oldNormalLambda := e.normalLambda.at_ 0
      let l := e.normalLambda.setAt 0 (e.normalLambda.at_ 0 + dNormalLambda)
      let l := l.setAt 0 (if 0 < l.at_ 0 then l.at_ 0 else 0)
      let dNormalLambda := l.at_ 0 - oldNormalLambda
      .ok (l, velocity.add (elementWiseMul p.invMassVec (J.transpose.smul dNormalLambda)))
  else if e.frame.nContacts = 2 then
    e.normalSolver.getLcp.bind fun solver =>
      let err := e.Jn.mul velocity
      let alreadyComputed := solver.solver.A.mul e.normalLambda
      let b := ((err.sub alreadyComputed).add e.bounce).neg
      (solver.solve b).bind fun l =>
        let dNormalLambda := l.sub e.normalLambda
        .ok (l, velocity.add (elementWiseMul p.invMassVec (e.Jn.transpose.mul dNormalLambda)))
  else .ok (e.normalLambda, velocity)

omit [Trig K] in
/-- Constraint.hpp:246-312 `solveVelocities`. -/
def solveVelocities (e : Contact K) (p : Proxies K) (s : SolveState K) : Outcome (Contact K × SolveState K) :=
  let (tangentLambda, velocity) := e.frictionLoop p (p.velocity s)
  (e.solveNormal p velocity).bind fun (normalLambda, velocity) =>
    let s := s.setVel p.i0 ⟨velocity.at_ 0, velocity.at_ 1⟩ (velocity.at_ 2)
    let s := s.setVel p.i1 ⟨velocity.at_ 3, velocity.at_ 4⟩ (velocity.at_ 5)
    .ok ({ e with tangentLambda := tangentLambda, normalLambda := normalLambda }, s)

/-- Constraint.hpp:314-368 `solvePositions`; 176 `sinkTolerance`, 594-595 the correction constants. -/
def solvePositions (e : Contact K) (p : Proxies K) (s : SolveState K) : Outcome (Contact K × SolveState K) :=
  let e := { e with frame := e.manifold.frame ![(s.pos p.i0).toWorldSpace, (s.pos p.i1).toWorldSpace] }
  let e := e.computeJacobians p s false
  let e := e.computeKs p false
  let C : MVec K 2 := forFin 2 (fun c C => if c.val < e.frame.nContacts then
    C.setAt c (Vec2.dot e.frame.normal (e.relativePosition c)) else C) Mat.zero
  if ∀ c, -3 * e.manifold.minPen < C.at_ c then .ok (e, s)
  else
    let error : MVec K 2 := Mat.ofFn fun c => Algo.clamp (1 / 5 * (C.at_ c + e.manifold.minPen)) (-(1 / 5)) 0
    if e.frame.nContacts = 1 then
      e.normalSolver.getInverse.bind fun invNormalK11 =>
        let posLambda := -error.at_ 0 * invNormalK11
        let posLambda := if posLambda < 0 then 0 else posLambda
        .ok (e, p.applyPositionCorrection ((e.normalJacobian 0).transpose.smul posLambda) s)
    else if e.frame.nContacts = 2 then
      e.normalSolver.getLcp.bind fun solver =>
        (solver.solve error.neg).bind fun posLambda =>
          .ok (e, p.applyPositionCorrection (e.Jn.transpose.mul posLambda) s)
    else .ok (e, s)

end

section
variable {K : Type*} [Field K] [LinearOrder K] [IsStrictOrderedRing K] [Trig K]

omit [IsStrictOrderedRing K] in
/-- Constraint.hpp:378-415: whether a new manifold is needed. -/
def needsNewManifold (e : Contact K) (verts : Fin 2 → List (Vec2 K)) : Outcome Bool :=
  if e.frame.nContacts = 0 then .ok true
  else
    let distTolerance := e.manifold.minPen
    let contacts := (List.finRange 2).filter fun c => c.val < e.frame.nContacts
    let tangentDist (c : Fin 2) := Vec2.dot (e.relativePosition c) e.frame.tangent
    let tangentDistanceExceeded := contacts.any fun c => decide (distTolerance * distTolerance < tangentDist c * tangentDist c)
    let roseTooHigh := contacts.any fun c => decide (distTolerance < Vec2.dot (e.relativePosition c) e.frame.normal)
    let incident := e.manifold.incIndex
    let refN := if incident = 1 then -e.frame.normal else e.frame.normal
    (furthestVertexInDirection (verts incident) (-refN)).bind fun nearestIncident =>
      let hasNewCandidate := decide (e.frame.contacts incident 0 ≠ nearestIncident)
      let hasNewCandidate := if e.frame.nContacts = 2 then
          hasNewCandidate && decide (e.frame.contacts incident 1 ≠ nearestIncident)
        else hasNewCandidate
      .ok (tangentDistanceExceeded || roseTooHigh || hasNewCandidate)

omit [IsStrictOrderedRing K] [LinearOrder K] [Trig K] in
/-- Constraint.hpp:426-434: the normal multipliers kept when the number of contacts goes from `before` to `after`. -/
def carryOver (before after : Nat) (l : MVec K 2) : MVec K 2 :=
  if before = 0 then Mat.zero
  else if before = 1 ∧ after = 2 then Mat.ofFn ![l.at_ 0 / 2, l.at_ 0 / 2]
  else if before = 2 ∧ after = 1 then (l.setAt 0 (l.at_ 0 + l.at_ 1)).setAt 1 0
  else l

/-- Constraint.hpp:374-436 `updateContacts`, called by `preStep` (209). -/
def updateContacts (sqrt : K → K) (penetration : List (Vec2 K) → List (Vec2 K) → Vec2 K → Outcome (Vec2 K))
    (e : Contact K) (sides : Fin 2 → Side K) : Outcome (Contact K) :=
  let Ts : Fin 2 → Transform K := fun i => (sides i).position.toWorldSpace
  let e := { e with frame := e.manifold.frame Ts }
  (e.needsNewManifold fun i => (sides i).geom.transformed).bind fun needsNewManifold =>
    if needsNewManifold then
      let nPreviousContacts := e.frame.nContacts
      (e.manifold.update sqrt penetration sides).bind fun manifold =>
        let frame := manifold.frame Ts
        .ok { e with
          manifold := manifold
          frame := frame
          tangentLambda := Mat.zero
          normalLambda := carryOver nPreviousContacts frame.nContacts e.normalLambda }
    else .ok e

/-- Constraint.hpp:178-187: the constructor. -/
def make (sqrt : K → K) (penetration : List (Vec2 K) → List (Vec2 K) → Vec2 K → Outcome (Vec2 K))
    (first second : Material K) (sides : Fin 2 → Side K) : Outcome (Contact K) :=
  (Manifold.make sqrt penetration first second sides).bind fun manifold =>
    .ok { manifold := manifold
          frame := manifold.frame fun i => (sides i).position.toWorldSpace
          Jf := fun _ => Mat.zero
          Jn := Mat.zero
          invTangentKs := Mat.zero
          normalSolver := .unset
          tangentLambda := Mat.zero
          previousTangentLambda := Mat.zero
          normalLambda := Mat.zero
          previousNormalLambda := Mat.zero
          bounce := Mat.zero
          restitution := (CombinableProperty.combine first.bounciness second.bounciness).value
          friction := (CombinableProperty.combine first.friction second.friction).value }

/-- Constraint.hpp:160-167, 194-207 `contactInfo`. -/
def contactInfo (e : Contact K) : Nat × (Fin 2 → Vec2 K) × (Fin 2 → Vec2 K) × Vec2 K :=
  (e.manifold.nContacts, e.frame.contacts 1, e.frame.contacts 0, e.frame.normal)

end
end Contact
end Simu
