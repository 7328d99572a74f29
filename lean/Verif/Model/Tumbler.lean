import Verif.Model.Demos
/-
Model of the demonstration `Tumbler` (demos/Tumbler.cpp, demos/Demos.hpp:104-122): the drum, and the boxes that the scene makes after each step.

Colours, gravity, the motor of the drum and the settings of the renderer are left out.
-/
namespace Simu
namespace Tumbler

/-- Tumbler.cpp:67-80: the colliders of the drum are added one after the other, to the body `b`; they get the addresses `id`, `id + 1`, ... -/
noncomputable def addWalls (id : Nat) (b : Body ℝ) : List (Vec2 ℝ × Vec2 ℝ) → Outcome (Body ℝ)
  | [] => .ok b
  | w :: ws => (Polygon.box w.1 w.2).bind fun P =>
    let r := b.addCollider id P.vertices (Demos.material 5 (8 / 10) 0)
    r.2.bind fun _ => addWalls (id + 1) r.1 ws

/-- Tumbler.cpp:53-54, 61-80: dimensions and centres of the walls. -/
noncomputable def walls : List (Vec2 ℝ × Vec2 ℝ) :=
  let size : ℝ := 20
  let thickness : ℝ := 1
  let horizontalDim : Vec2 ℝ := ⟨size, thickness⟩
  let verticalDim : Vec2 ℝ := ⟨thickness, size⟩
  let xOffset : Vec2 ℝ := ⟨size / 2, 0⟩
  let yOffset : Vec2 ℝ := ⟨0, size / 2⟩
  [(horizontalDim, yOffset), (horizontalDim, -yOffset), (verticalDim, xOffset), (verticalDim, -xOffset)]

/-- Tumbler.cpp:56-80: the drum. -/
noncomputable def drum : Outcome (Body ℝ) := addWalls 0 (Body.born 0 0 0) walls

/-- Tumbler.cpp:94-105: a box. -/
noncomputable def box : Demos.Piece where
  polygon := Polygon.box ⟨1 / 4, 1 / 4⟩ 0
  material := Demos.material 1 (1 / 2) 0

/-- Demos.hpp:104-122 with the flag of Scene.hpp:199 and the bodies made, as they were when they were made. -/
structure State where
  drum : Option (Body ℝ) := none
  boxes : List (Body ℝ) := []
  count : Int := 0
  maxCount : Int := 1500
  isPaused : Bool := false

/-- Tumbler.cpp:41-85 `init`, after `World::clear` (Scene.hpp:67-71). -/
noncomputable def State.reset (s : State) : Outcome State := Tumbler.drum.bind fun d => .ok { s with drum := some d, boxes := [], count := 0 }

/-- Tumbler.cpp:87-107 `postStep`. -/
noncomputable def State.postStep (s : State) : Outcome State :=
  if s.isPaused then .ok s
  else if s.count < s.maxCount then (box.make (4 + s.boxes.length)).bind fun b => .ok { s with boxes := s.boxes ++ [b], count := s.count + 1 }
  else .ok s

/-- What happens to the scene: Scene.hpp:67-71, 81-82, 85-100 and Tumbler.cpp:109. Values typed into a slider may be out of its range. -/
inductive Act
  | reset
  | step
  | limit (n : Int)
  | pause (on : Bool)

/-- Scene.hpp:67-100, Tumbler.cpp:109: an act. -/
noncomputable def State.act (s : State) : Act → Outcome State
  | .reset => s.reset
  | .step => s.postStep
  | .limit n => .ok { s with maxCount := n }
  | .pause on => .ok { s with isPaused := on }

/-- Scene.hpp:67-100: acts one after the other. -/
noncomputable def State.run (s : State) : List Act → Outcome State
  | [] => .ok s
  | a :: as => (s.act a).bind fun s => s.run as

end Tumbler
end Simu
