import Verif.Model.Constraint
/-
Model of how bodies, their colliders and the constraints between them are put together: `World::makeBody`, `Body::addCollider`, `Body::removeCollider`, `World::makeConstraint`
(include/Simu/physics/World.hpp, Body.hpp, Bodies.hpp, ConstraintInterfaces.hpp), and of the impulses that constraints apply during the steps in between.

Bodies are numbered in the order of their creation, so are constraints. Nothing is removed but colliders.
-/
namespace Simu
open Mat

/-- A world as it is put together: `count` bodies, and the constraints, of which only `bodies_` matters here (ConstraintInterfaces.hpp:120). -/
structure Assembly (K : Type*) where
  bodies : Nat → Body K
  count : Nat
  joints : List (Bodies K)

namespace Assembly
variable {K : Type*} [Field K] [LinearOrder K] [IsStrictOrderedRing K] [Trig K]

/-- World.hpp:185-203 `makeBody`: the body is told its world. -/
def makeBody (a : Assembly K) (position : Vec2 K) (orientation dominance : K) : Assembly K :=
  { a with bodies := Function.update a.bodies a.count { Body.make position orientation dominance with attached := true }, count := a.count + 1 }

/-- Body.cpp:44-63, of body `i`. -/
def addCollider (a : Assembly K) (i id : Nat) (polygon : List (Vec2 K)) (material : Material K) : Assembly K × Outcome Unit :=
  let r := (a.bodies i).addCollider id polygon material
  ({ a with bodies := Function.update a.bodies i r.1 }, r.2)

/-- Body.cpp:65-83, of body `i`. -/
def removeCollider (a : Assembly K) (i id : Nat) : Assembly K × Outcome Unit :=
  let r := (a.bodies i).removeCollider id
  ({ a with bodies := Function.update a.bodies i r.1 }, r.2)

/-- World.hpp:205-217 `makeConstraint`, ConstraintInterfaces.hpp:68-83, Bodies.inl.hpp:74-95. The inverse masses of a body without mass are infinite, which is not represented here:
the outcome is `ub`, as for bodies that do not exist. -/
def makeConstraint (a : Assembly K) (i0 i1 : Nat) (dominances : Option (Vec2 K)) : Assembly K × Outcome Unit :=
  if a.count ≤ i0 ∨ a.count ≤ i1 then (a, .ub)
  else if (a.bodies i0).mass = 0 ∨ (a.bodies i0).inertia = 0 ∨ (a.bodies i1).mass = 0 ∨ (a.bodies i1).inertia = 0 then (a, .ub)
  else
    let b := Bodies.make a.bodies i0 i1 dominances
    match b.checkConstraint with
    | .ok () => ({ a with joints := a.joints ++ [b] }, .ok ())
    | e => (a, e)

/-- During a step constraint `k` applies the impulse `P` (Bodies.inl.hpp:40-46) to the velocities of its bodies. -/
def push (a : Assembly K) (k : Nat) (P : MVec K 6) : Assembly K × Outcome Unit :=
  match a.joints[k]? with
  | none => (a, .ub)
  | some j =>
    let s := j.proxies.applyImpulse P ⟨fun i => (a.bodies i).position, fun i => ⟨(a.bodies i).velocity, (a.bodies i).angular⟩⟩
    ({ a with bodies := fun i => { a.bodies i with velocity := (s.vel i).linear, angular := (s.vel i).angular } }, .ok ())

/-- What may happen. `move` is any change of the position and the velocity of a body, by the program (Body.hpp:243-280) or by a step. -/
inductive Op (K : Type*) where
  | makeBody (position : Vec2 K) (orientation dominance : K)
  | addCollider (i id : Nat) (polygon : List (Vec2 K)) (material : Material K)
  | removeCollider (i id : Nat)
  | makeConstraint (i0 i1 : Nat) (dominances : Option (Vec2 K))
  | push (k : Nat) (P : MVec K 6)
  | move (i : Nat) (position : Position K) (velocity : Vec2 K) (angular : K)

/-- The functions above; operations on bodies that do not exist are undefined. For `move`: Body.hpp:231-297. -/
def apply (a : Assembly K) : Op K → Assembly K × Outcome Unit
  | .makeBody p o d => (a.makeBody p o d, .ok ())
  | .addCollider i id polygon material => if a.count ≤ i then (a, .ub) else a.addCollider i id polygon material
  | .removeCollider i id => if a.count ≤ i then (a, .ub) else a.removeCollider i id
  | .makeConstraint i0 i1 d => a.makeConstraint i0 i1 d
  | .push k P => a.push k P
  | .move i p v w => if a.count ≤ i then (a, .ub) else ({ a with bodies := Function.update a.bodies i { a.bodies i with position := p, velocity := v, angular := w } }, .ok ())

/-- A history, whose calls may throw: the program goes on (World.hpp:185-217). -/
def run (a : Assembly K) (ops : List (Op K)) : Assembly K := ops.foldl (fun a op => (a.apply op).1) a

/-- A new world (World.hpp:95). -/
def init : Assembly K := ⟨fun _ => .make 0 0 1, 0, []⟩

end Assembly
end Simu
