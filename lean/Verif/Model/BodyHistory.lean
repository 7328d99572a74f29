import Verif.Model.Body
/-
What happens to a body during its life: the calls of the program (include/Simu/physics/Body.hpp, src/Simu/physics/Body.cpp) and the steps of the world
(include/Simu/physics/Island.hpp), seen from the body.
-/
namespace Simu
namespace Body
variable {K : Type*} [Field K] [LinearOrder K] [IsStrictOrderedRing K] [Trig K]

/-- Calls and steps. In a step the body is displaced by what the solvers and the integration say. -/
inductive Event (K : Type*) where
  | addCollider (id : Nat) (polygon : List (Vec2 K)) (material : Material K)
  | removeCollider (id : Nat)
  | setVelocity (v : Vec2 K)
  | setAngularVelocity (w : K)
  | applyImpulse (impulse whereFromCentroid : Vec2 K)
  | step (displacements : List (Vec2 K × K)) (v : Vec2 K) (w : K)

/-- Body.hpp:222-280, Body.cpp:44-83. For `step`, Bodies.hpp:63-69 and Island.hpp:143-152: the position is advanced, any number of times, and Island.hpp:164-172 `endSolve`:
the results are copied to the body and its colliders are updated. -/
def happen (b : Body K) : Event K → Body K × Outcome Unit
  | .addCollider id polygon material => b.addCollider id polygon material
  | .removeCollider id => b.removeCollider id
  | .setVelocity v => (b.setVelocity v, .ok ())
  | .setAngularVelocity w => (b.setAngularVelocity w, .ok ())
  | .applyImpulse p r => (b.applyImpulse p r, .ok ())
  | .step ds v w => ({ b with position := ds.foldl (fun (p : Position K) (d : Vec2 K × K) => p.advance d.1 d.2) b.position, velocity := v, angular := w }.update, .ok ())

/-- A history (calls may throw: the program goes on), Body.hpp:222-280. -/
def live (b : Body K) (events : List (Event K)) : Body K := events.foldl (fun b e => (b.happen e).1) b

/-- World.hpp:190-203: a body made by a world. -/
def born (position : Vec2 K) (orientation dominance : K) : Body K := { make position orientation dominance with attached := true }

end Body
end Simu
