import Verif.Model.Body
/-
Mechanics of a collection of rigid pieces, independently of how it is computed.
-/
namespace Simu
variable {K : Type*} [Field K]

/-- Total mass of the pieces. -/
def totalMass (L : List (MassProperties K)) : K := (L.map fun p => p.m).sum
/-- First moments of mass of the pieces. -/
def firstMomentX (L : List (MassProperties K)) : K := (L.map fun p => p.m * p.centroid.x).sum
/-- First moments of mass of the pieces. -/
def firstMomentY (L : List (MassProperties K)) : K := (L.map fun p => p.m * p.centroid.y).sum
/-- Moment of inertia of the pieces about the point `q`: each piece contributes its own moment and its mass times
the squared distance of its centroid to `q`. -/
def inertiaAbout (q : Vec2 K) (L : List (MassProperties K)) : K :=
  (L.map fun p => p.I + p.m * ((p.centroid.x - q.x) ^ 2 + (p.centroid.y - q.y) ^ 2)).sum

/-- `p` has the mass of all the pieces, their mass-weighted mean position and their inertia about it. -/
structure IsCombination (p : MassProperties K) (L : List (MassProperties K)) : Prop where
  mass : p.m = totalMass L
  momentX : p.m * p.centroid.x = firstMomentX L
  momentY : p.m * p.centroid.y = firstMomentY L
  inertia : p.I = inertiaAbout p.centroid L

/-- The velocity, of the point of a rigid body that is at `x`, when the body has linear velocity `v` at `center`
and angular velocity `w`. -/
def velocityAt (v : Vec2 K) (w : K) (center x : Vec2 K) : Vec2 K :=
  ⟨v.x - w * (x.y - center.y), v.y + w * (x.x - center.x)⟩

variable [LinearOrder K] [IsStrictOrderedRing K]

/-- A collider that can be added: a polygon with a surface and a positive density. -/
def ValidDescriptor (polygon : List (Vec2 K)) (material : Material K) : Prop :=
  0 < material.density ∧
  ∃ vs P, Polygon.mk' vs = .ok P ∧ P.properties.isDegenerate = false ∧ polygon = P.vertices

/-- One modification of a set of colliders. -/
inductive ColliderOp (K : Type*)
  | add (id : Nat) (polygon : List (Vec2 K)) (material : Material K)
  | remove (id : Nat)

/-- The operation adds only valid colliders. -/
def ColliderOp.Valid : ColliderOp K → Prop
  | .add _ polygon material => ValidDescriptor polygon material
  | .remove _ => True

end Simu
