import Verif.Model.World
/-
Model of the tool that grabs bodies with the mouse: include/Simu/app/Tool.hpp (72-96) and src/Simu/app/Tool.cpp (39-88), acting on the world of its scene.
-/
namespace Simu.World

/-- Tool.hpp:94-95: `mc_`, with the world of `scene_`. `made` lists the constraints made so far (it is not in the code). -/
@[ext] structure Grab where
  w : World
  mc : Option Nat
  made : List Nat

namespace Grab

/-- Tool.cpp:49-50, 61-63: `if (mc_ != nullptr) mc_->kill();`. -/
def killHeld (g : Grab) : Grab × Outcome Unit :=
  match g.mc with
  | none => (g, .ok ())
  | some n => ({ g with w := (g.w.killJoint n).1 }, (g.w.killJoint n).2)

/-- Tool.cpp:46-54: the function called for a body under the mouse. Tool.cpp:83-88: a `MouseConstraint` has one body. -/
def grab (g : Grab) (b : Nat) : Grab × Outcome Unit :=
  match g.w.body b with
  | none => (g, .ub)
  | some r =>
    if r.structural then (g, .ok ())
    else
      match g.killHeld with
      | (g, .ok ()) =>
        match g.w.makeConstraint b b false false with
        | (w, .ok ()) => (⟨w, some g.w.next, g.made ++ [g.w.next]⟩, .ok ())
        | (w, o) => ({ g with w := w }, o)
      | r => r

/-- Tool.cpp:44-55: the left button is pressed, with the bodies of the colliders that `forEachAt` finds (World.hpp:317-323). -/
def press : List Nat → Grab → Grab × Outcome Unit
  | [], g => (g, .ok ())
  | b :: bs, g =>
    match g.grab b with
    | (g, .ok ()) => press bs g
    | r => r

/-- Tool.cpp:57-64: the left button is released. -/
def release (g : Grab) : Grab × Outcome Unit :=
  match g.killHeld with
  | (g, .ok ()) => ({ g with mc := none }, .ok ())
  | r => r

/-- Tool.cpp:73-81 `onMouseMove`: `mc_` is written to. -/
def move (g : Grab) : Grab × Outcome Unit :=
  match g.mc with
  | none => (g, .ok ())
  | some n => if (g.w.joint n).isSome then (g, .ok ()) else (g, .ub)

/-- The world changes. -/
def apply (cfg : Cfg) (g : Grab) (o : Op) : Grab × Outcome Unit := ({ g with w := (g.w.apply cfg o).1 }, (g.w.apply cfg o).2)

end Grab

end Simu.World
