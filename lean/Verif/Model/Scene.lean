import Verif.Model.Camera
/-
Model of include/Simu/app/Scene.hpp and src/Simu/app/Scene.cpp, of `Application::changeScene` and of the pause button of
`Application::doGui` (src/Simu/app/Application.cpp).

The world of the scene is represented by the list of the durations it was asked to step by (latest first); whether a step of the
world throws is a parameter. The virtual functions `init`, `preStep` and `postStep` are those of the base class (no effect on the scene). `sqrt` is a parameter.
-/
namespace Simu

/-- Event.hpp: the keys the base scene reacts to; `other` stands for any other key. -/
inductive Key where
  | S | P | R | minus | equal | escape | other (code : Nat)
  deriving DecidableEq

/-- Event.hpp: `Keyboard::Action`. -/
inductive KeyAction where
  | press | release | repeat
  deriving DecidableEq

/-- Scene.hpp:189-200: members. `attached` is `app_ != nullptr` (then `renderer_ != nullptr` too: both are set and reset together, Scene.cpp:120-121 and
Application.cpp:266-267). `tools` are the names of the registered tools and `tool` is the index of the current one. `closing`: the application was
told to close. -/
structure Scene (K : Type*) where
  camera : Camera K
  steps : List K
  attached : Bool
  playSpeed : K
  paused : Bool
  isInit : Bool
  tools : List String
  tool : Nat
  closing : Bool

namespace Scene
section
variable {K : Type*} [Field K] [LinearOrder K]

/-- Scene.hpp:48-62, 189-200: a new scene; Tool.hpp: the name of `NoTool`. -/
def init : Scene K := ⟨.init, [], false, 1, false, false, ["No Tool"], 0, false⟩

/-- Scene.hpp:74-78 `setPlaySpeed`. -/
def setPlaySpeed (s : Scene K) (speed : K) : Scene K := if 0 < speed then { s with playSpeed := speed } else s

/-- Scene.hpp:81 `resume`. -/
def resume (s : Scene K) : Scene K := { s with paused := false }

/-- Scene.hpp:82 `pause`. -/
def pause (s : Scene K) : Scene K := { s with paused := true }

/-- Scene.hpp:67-71 `reset`: dereferences `renderer_`. -/
def reset (s : Scene K) : Scene K × Outcome Unit := if s.attached then ({ s with steps := [] }, .ok ()) else ({ s with steps := [] }, .ub)

/-- Matrix.inl.hpp `normalized`, for a vector that is not zero. -/
def normalize (sqrt : K → K) (v : Vec2 K) : Vec2 K := Vec2.sdiv v (sqrt v.normSquared)

/-- Scene.cpp:39-47: the direction given by the arrow keys (left, right, up, down). -/
def panDir (keys : Bool × Bool × Bool × Bool) : Vec2 K :=
  let d : Vec2 K := 0
  let d := if keys.1 then d + ⟨-1, 0⟩ else d
  let d := if keys.2.1 then d + ⟨1, 0⟩ else d
  let d := if keys.2.2.1 then d + ⟨0, 1⟩ else d
  if keys.2.2.2 then d + ⟨0, -1⟩ else d

/-- Scene.cpp:31-51 `moveCamera`. -/
def moveCamera (sqrt : K → K) (s : Scene K) (keys : Bool × Bool × Bool × Bool) (dt : K) : Scene K :=
  if !s.attached then s
  else
    let panSpeed := 500 * s.camera.pixelSize / s.camera.zoom
    let d := panDir keys
    if d.x ≠ 0 ∨ d.y ≠ 0 then { s with camera := s.camera.pan (dt • panSpeed • normalize sqrt d) } else s

/-- Scene.hpp:85-100 `step`; `fails` tells whether the step of the world throws. -/
def step (sqrt : K → K) (s : Scene K) (keys : Bool × Bool × Bool × Bool) (dt : K) (fails : Bool) : Scene K × Outcome Unit :=
  let dt := min dt (1 / 60)
  let s := s.moveCamera sqrt keys dt
  if !s.attached then (s, .ub)
  else
    let dt := dt * (s.playSpeed * (if s.paused then 0 else 1))
    let s := { s with steps := dt :: s.steps }
    if fails then (s, .throw) else (s, .ok ())

/-- Scene.cpp:53-108 `onKeypress`: tells whether the key was used. `keys` are the arrow keys held down meanwhile. -/
def onKeypress (sqrt : K → K) (s : Scene K) (keys : Bool × Bool × Bool × Bool) (key : Key) (action : KeyAction) (fails : Bool) :
    Scene K × Outcome Bool :=
  if action = .release then (s, .ok false)
  else if key = .S then
    if s.paused then
      match (s.resume).step sqrt keys (1 / 60) fails with
      | (s, .ok ()) => (s.pause, .ok true)
      | (s, .throw) => (s, .throw)
      | (s, .ub) => (s, .ub)
    else
      match s.step sqrt keys (1 / 60) fails with
      | (s, .ok ()) => (s, .ok true)
      | (s, .throw) => (s, .throw)
      | (s, .ub) => (s, .ub)
  else if action = .press then
    match key with
    | .escape => ((if s.attached then { s with closing := true } else s), .ok true)
    | .P => ((if s.paused then s.resume else s.pause), .ok true)
    | .minus => (s.setPlaySpeed (s.playSpeed / 2), .ok true)
    | .equal => (s.setPlaySpeed (s.playSpeed * 2), .ok true)
    | .R => ((s.reset).1, (s.reset).2.bind fun _ => .ok true)
    | .S => (s, .ok false)
    | .other _ => (s, .ok false)
  else (s, .ok true)

/-- Scene.cpp:110-115 `onMouseScroll`. -/
def onMouseScroll (s : Scene K) (scroll : Vec2 K) : Scene K :=
  let zoomRatio : K := if scroll.y < 0 then 4 / 5 else 5 / 4
  { s with camera := s.camera.setZoom (s.camera.zoom * |scroll.y| * zoomRatio) }

/-- Scene.cpp:118-126 `init`, called by the application. -/
def attach (s : Scene K) : Scene K := { s with attached := true, steps := [], isInit := true }

/-- Application.cpp:264-268: the scene is no longer the current one. -/
def detach (s : Scene K) : Scene K := { s with attached := false }

/-- Scene.cpp:128-131 `keypress`: the tool may use the key. -/
def keypress (sqrt : K → K) (s : Scene K) (toolUses : Bool) (keys : Bool × Bool × Bool × Bool) (key : Key) (action : KeyAction) (fails : Bool) :
    Scene K × Outcome Unit :=
  if toolUses then (s, .ok ())
  else ((s.onKeypress sqrt keys key action fails).1, (s.onKeypress sqrt keys key action fails).2.bind fun _ => .ok ())

/-- Scene.cpp:143-146 `mouseScroll`. -/
def mouseScroll (s : Scene K) (toolUses : Bool) (scroll : Vec2 K) : Scene K := if toolUses then s else s.onMouseScroll scroll

/-- Scene.hpp:143-148 `registerTool`. -/
def registerTool (s : Scene K) (name : String) : Scene K := { s with tools := s.tools ++ [name] }

/-- Scene.hpp:162-175 `useTool`. -/
def useTool (s : Scene K) (name : String) : Scene K × Outcome Nat :=
  match s.tools.findIdx? (· == name) with
  | some i => ({ s with tool := i }, .ok i)
  | none => (s, .throw)

end

/-- What may happen to a scene. -/
inductive Op (K : Type*) where
  | setPlaySpeed (speed : K)
  | pause
  | resume
  | reset
  | step (keys : Bool × Bool × Bool × Bool) (dt : K) (fails : Bool)
  | key (toolUses : Bool) (keys : Bool × Bool × Bool × Bool) (key : Key) (action : KeyAction) (fails : Bool)
  | scroll (toolUses : Bool) (amount : Vec2 K)
  | camera (op : Camera.Op K)
  | attach
  | detach
  | registerTool (name : String)
  | useTool (name : String)

/-- Effect of an operation: the functions above. -/
def apply {K : Type*} [Field K] [LinearOrder K] (sqrt : K → K) (s : Scene K) : Op K → Scene K × Outcome Unit
  | .setPlaySpeed v => (s.setPlaySpeed v, .ok ())
  | .pause => (s.pause, .ok ())
  | .resume => (s.resume, .ok ())
  | .reset => s.reset
  | .step keys dt fails => s.step sqrt keys dt fails
  | .key toolUses keys key action fails => s.keypress sqrt toolUses keys key action fails
  | .scroll toolUses amount => (s.mouseScroll toolUses amount, .ok ())
  | .camera op => ({ s with camera := s.camera.apply op }, .ok ())
  | .attach => (s.attach, .ok ())
  | .detach => (s.detach, .ok ())
  | .registerTool name => (s.registerTool name, .ok ())
  | .useTool name => ((s.useTool name).1, (s.useTool name).2.bind fun _ => .ok ())

end Scene

/-- Application.cpp:292, 305, 462-469: the pause button: `pauseToggle` of the (static) menu and `isPaused` of the current scene. -/
structure PauseButton where
  toggle : Bool
  paused : Bool
  deriving DecidableEq

namespace PauseButton

/-- Application.cpp:292: initially. -/
def init : PauseButton := ⟨false, false⟩

/-- Application.cpp:462: the label: `true` for "Play", `false` for "Pause". -/
def saysPlay (b : PauseButton) : Bool := b.toggle

/-- Application.cpp:462-469: the button is clicked. -/
def click (b : PauseButton) : PauseButton :=
  let toggle := !b.toggle
  ⟨toggle, if toggle then true else false⟩

/-- Scene.cpp:84-88: the P key. -/
def keyP (b : PauseButton) : PauseButton := { b with paused := !b.paused }

/-- Application.cpp:257-280: another scene, which may be paused, becomes the current one. -/
def changeScene (b : PauseButton) (paused : Bool) : PauseButton := { b with paused := paused }

end PauseButton
end Simu
