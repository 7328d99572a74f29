import Verif.Model.BodyHistory
import Mathlib.Analysis.SpecialFunctions.Trigonometric.Basic
/-
Model of class `BoxSpawner` (include/Simu/app/Tool.hpp:100-131, src/Simu/app/Tool.cpp:90-147), the tool that makes boxes.
-/
namespace Simu
variable {K : Type*}

/-- Tool.hpp:119-127: the settings of the tool. The channels of the colour are whole numbers. -/
structure Spawner (K : Type*) where
  orientation : K
  dominance : K
  dims : Vec2 K
  density : K
  friction : K
  bounciness : K
  color : Fin 4 → ℤ

/-- Event.hpp:37-42 `Action`; `repeated` is for `repeat`. -/
inductive MouseAction | release | press | repeated
deriving DecidableEq
/-- Event.hpp:231-246 `Button`: the left button is the first of eight; the others are not told apart beyond the third. -/
inductive MouseButton | left | right | middle | other
deriving DecidableEq

namespace Spawner

/-- Tool.hpp:119-127: the initial settings. -/
def init [Field K] : Spawner K := ⟨0, 1, ⟨2, 2⟩, 1, 1 / 2, 0, ![225, 150, 240, 255]⟩

section
variable [Field K] [LinearOrder K] [IsStrictOrderedRing K] [Trig K]

/-- Tool.cpp:134-137, Material.hpp:37-85: the material of the boxes. -/
def material (s : Spawner K) : Material K :=
  ⟨s.density, ⟨.average, s.bounciness⟩, ⟨.average, s.friction⟩, ⟨.average, 1 / 200⟩⟩

/-- Tool.cpp:126-144 `makeBox`, in a world with bodies `world`; the new collider has the address `id`. The body is in the world before the polygon is made and given to it (World.hpp:190-203). -/
def makeBox (s : Spawner K) (pos : Vec2 K) (dimensions : Option (Vec2 K)) (id : Nat) (world : List (Body K)) : List (Body K) × Outcome Unit :=
  let b := Body.born pos s.orientation s.dominance
  match Polygon.box (dimensions.getD s.dims) 0 with
  | .ok polygon =>
    let r := b.addCollider id polygon.vertices s.material
    (world ++ [r.1], r.2)
  | .throw => (world ++ [b], .throw)
  | .ub => (world ++ [b], .ub)

/-- Tool.cpp:115-124 `onMousePress`: whether the event was used. -/
def onMousePress (s : Spawner K) (action : MouseAction) (button : MouseButton) (pos : Vec2 K) (id : Nat) (world : List (Body K)) : List (Body K) × Outcome Bool :=
  if action = .press ∧ button = .left then
    let r := s.makeBox pos none id world
    (r.1, r.2.bind fun _ => .ok true)
  else (world, .ok false)

end

/-- What the user does with the window of the tool during a frame: the values they give to the widgets. Two floats are edited at once by `SliderFloat2`, three by `ColorEdit3` (between 0 and 1). -/
structure Edit where
  dims : Option (Vec2 ℝ) := none
  density : Option ℝ := none
  friction : Option ℝ := none
  bounciness : Option ℝ := none
  degrees : Option ℤ := none
  rgb : Option (Fin 3 → ℝ) := none

/-- `static_cast<int>`, Tool.cpp:105: rounds towards zero. -/
noncomputable def truncate (x : ℝ) : ℤ := if 0 ≤ x then ⌊x⌋ else ⌈x⌉

/-- Tool.cpp:110-112: a channel of the colour is scaled, edited if it is not the last one, and scaled back. -/
noncomputable def channel (c : ℤ) (edit : Option (Fin 3 → ℝ)) (i : Fin 4) : ℤ :=
  truncate ((if h : i.val < 3 then (edit.map fun e => e ⟨i.val, h⟩).getD (c / 255) else (c / 255 : ℝ)) * 255)

/-- Tool.cpp:102-105: the number of degrees shown. -/
noncomputable def degreesShown (s : Spawner ℝ) : ℤ :=
  let ratio := s.orientation / (2 * Real.pi)
  let orientation := s.orientation - ⌊ratio⌋ * Real.pi
  truncate (180 * orientation / Real.pi)

/-- Tool.cpp:94-113 `doGui`. -/
noncomputable def doGui (s : Spawner ℝ) (e : Edit) : Spawner ℝ :=
  { s with
    dims := e.dims.getD s.dims
    density := e.density.getD s.density
    friction := e.friction.getD s.friction
    bounciness := e.bounciness.getD s.bounciness
    orientation := (e.degrees.getD s.degreesShown : ℤ) * Real.pi / 180
    color := fun i => channel (s.color i) e.rgb i }

end Spawner
end Simu
