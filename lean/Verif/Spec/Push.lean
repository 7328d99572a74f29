import Verif.Model.Body
import Mathlib.Algebra.BigOperators.Group.List.Basic
/-
What pushing a body does in mechanics.
-/
namespace Simu
variable {K : Type*} [Field K] [LinearOrder K] [Trig K]

/-- A push: an impulse, at a point relative to the centroid, or a force for some time. -/
inductive Push (K : Type*) where
  | impulse (p whereFromCentroid : Vec2 K)
  | force (f : Vec2 K) (dt : K) (whereFromCentroid : Vec2 K)

namespace Push

/-- The impulse of a push. -/
def total : Push K → Vec2 K
  | impulse p _ => p
  | force f dt _ => dt • f

/-- Where it acts, relative to the centroid. -/
def point : Push K → Vec2 K
  | impulse _ r => r
  | force _ _ r => r

/-- The calls of `applyImpulse` and `applyForce`. -/
def give (b : Body K) : Push K → Body K
  | impulse p r => b.applyImpulse p r
  | force f dt r => b.applyForce f dt r

end Push

/-- The velocity of the point of the body at `r` from its centroid. -/
def Body.velocityAt (b : Body K) (r : Vec2 K) : Vec2 K := b.velocity + b.angular • Vec2.perp r

/-- The angular momentum about the point `o`. -/
def Body.angularMomentum (b : Body K) (o : Vec2 K) : K := b.inertia * b.angular + Vec2.cross (b.centroid - o) (b.mass • b.velocity)

/-- The kinetic energy. -/
def Body.kinetic (b : Body K) : K := (b.mass * Vec2.dot b.velocity b.velocity + b.inertia * b.angular ^ 2) / 2

end Simu
