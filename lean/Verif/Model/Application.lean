import Verif.Model.Scene
import Verif.Model.Sleep
import Verif.Model.Island
/-
Model of include/Simu/app/Application.hpp and src/Simu/app/Application.cpp: the scenes of an application, which of them is the current one, the events
sent to it and the windows of the user interface that act on it.

Scenes are numbered in the order of their construction. The world of a scene is represented as in `Scene` (the durations it was asked to step by since it was last cleared)
and by its settings. What belongs to the user of the library is a parameter: whether the scene's own `init` throws, whether a step of the world throws. The window system is
represented by the size of the window and by what the user does. Drawing and the profiler window are not represented.
-/
namespace Simu

/-- World.hpp:262-287 `World::Settings`: those of the solver and those of sleeping. -/
structure WorldSettings (K : Type*) where
  solver : Island.Settings
  sleep : Sleep.Settings K

/-- World.hpp:267-286: default values. -/
def WorldSettings.default {K : Type*} [Field K] : WorldSettings K := ⟨⟨8, 2, true⟩, ⟨false, 1 / 1000, 1 / 1000, 1⟩⟩

/-- Conversion of an `int` to `Uint32` (Application.cpp:437-438). -/
def toUint32 (i : Int) : Nat := (i % 4294967296).toNat

/-- Application.hpp:90-94 and Application.cpp:284-305: the members of the application and the static variables of `doGui`. `made` is the number of scenes constructed, `scene i`
and `settings i` are the `i`-th scene and the settings of its world. `scenes` is the map from names to scenes: its keys are the addresses of the names. `window` is the size of the window.
`shared` is the static `s`, `showSettings`, `showControls` and `pauseToggle` are members of the static `menu`. -/
structure App (K : Type*) where
  made : Nat
  scene : Nat → Scene K
  settings : Nat → WorldSettings K
  scenes : List (Nat × Nat)
  current : Option Nat
  window : Int × Int
  shared : WorldSettings K
  showSettings : Bool
  showControls : Bool
  pauseToggle : Bool

namespace App
section
variable {K : Type*} [Field K] [LinearOrder K]

/-- Application.cpp:149-201 and Application.hpp:90-94: a new application, with a window of 640 by 480 (Application.cpp:156). -/
def init : App K := ⟨0, fun _ => .init, fun _ => .default, [], none, (640, 480), .default, false, false, false⟩

/-- Changes scene number `i`. -/
def put (a : App K) (i : Nat) (s : Scene K) : App K := { a with scene := Function.update a.scene i s }

/-- Application.cpp:551-564 `windowResizeCallback`, for a window of size `(w, h)`. -/
def resizeCallback (a : App K) (w h : Int) : App K :=
  match a.current with
  | none => a
  | some i => a.put i { a.scene i with camera := (a.scene i).camera.setDimensionsFromScreenCoordinates ⟨(w : K), (h : K)⟩ }

/-- Application.cpp:264-268: the scene that was the current one is told that it is not anymore. -/
def leave (a : App K) : App K :=
  match a.current with
  | none => a
  | some i => a.put i (a.scene i).detach

/-- Application.cpp:257-280 `changeScene` (never called with a null pointer). `initFails` tells whether `init` of the scene throws; then `isInit_` is left
as it is (Scene.cpp:123-125). That `app_` of the new scene is not this application is `!attached`: there is one application. -/
def changeScene (a : App K) (next : Nat) (initFails : Bool) : App K × Outcome Unit :=
  if a.current = some next then (a, .ok ())
  else
    let a := { a.leave with current := some next }
    let s := a.scene next
    if !s.isInit || !s.attached then
      if initFails then (a.put next { s.attach with isInit := s.isInit }, .throw)
      else ((a.put next s.attach).resizeCallback a.window.1 a.window.2, .ok ())
    else (a.resizeCallback a.window.1 a.window.2, .ok ())

/-- `scenes_[name] = scene` of a `std::unordered_map` (Application.hpp:50). -/
def assign (key i : Nat) : List (Nat × Nat) → List (Nat × Nat)
  | [] => [(key, i)]
  | (k, j) :: l => if k = key then (k, i) :: l else (k, j) :: assign key i l

/-- Application.hpp:47-54 `registerScene`: `key` is the address of the name. -/
def registerScene (a : App K) (key : Nat) (initFails : Bool) : App K × Outcome Unit :=
  let i := a.made
  let a := { a with made := i + 1, scenes := assign key i a.scenes }
  if a.current = none then a.changeScene i initFails else (a, .ok ())

/-- The user changes the size of the window; the window system calls Application.cpp:551-564. -/
def resize (a : App K) (w h : Int) : App K := { a with window := (w, h) }.resizeCallback w h

/-- Application.cpp:355-364: the user selects a scene of the list, by its name. -/
def select (a : App K) (key : Nat) (initFails : Bool) : App K × Outcome Unit :=
  match a.scenes.lookup key with
  | none => (a, .ok ())
  | some i => a.changeScene i initFails

/-- Application.cpp:424-446: the window of the engine settings is shown; the user leaves its controls with the values `vIter`, `pIter` and `warm`. World.hpp:293-300 `updateSettings`
(waking the bodies is not represented). `hasScene` is computed earlier (Application.cpp:308). -/
def settingsWindow (a : App K) (hasScene : Bool) (vIter pIter : Int) (warm : Bool) : App K × Outcome Unit :=
  let shared : WorldSettings K := ⟨⟨toUint32 vIter, toUint32 pIter, warm⟩, a.shared.sleep⟩
  let a := { a with shared := shared }
  if hasScene then
    match a.current with
    | none => (a, .ub)
    | some i => ({ a with settings := Function.update a.settings i shared }, .ok ())
  else (a, .ok ())

/-- What the user may do in the window of the scene controls. -/
inductive Control where
  | slower | faster | pauseButton | restart

/-- Application.cpp:448-481: the window of the scene controls. -/
def control (a : App K) : Control → App K × Outcome Unit
  | c =>
    match a.current with
    | none => (a, .ub)
    | some i =>
      let s := a.scene i
      match c with
      | .slower => (a.put i (s.setPlaySpeed (s.playSpeed / 2)), .ok ())
      | .faster => (a.put i (s.setPlaySpeed (s.playSpeed * 2)), .ok ())
      | .pauseButton =>
        let toggle := !a.pauseToggle
        ({ a with pauseToggle := toggle }.put i (if toggle then s.pause else s.resume), .ok ())
      | .restart => (a.put i s.reset.1, s.reset.2)

/-- What happens during a frame: the scene the user selects, if any, with whether its `init` throws; the values the controls of the settings window are left with; the button
pressed in the window of the controls; the name of the tool selected; the arrow keys held down; the time since the last frame; whether the step throws. -/
structure Frame (K : Type*) where
  pick : Option (Nat × Bool)
  vIter : Int
  pIter : Int
  warm : Bool
  control : Option Control
  tool : Option String
  keys : Bool × Bool × Bool × Bool
  dt : K
  stepFails : Bool

/-- Goes on if no exception was thrown. -/
def andThen (r : App K × Outcome Unit) (f : App K → App K × Outcome Unit) : App K × Outcome Unit :=
  match r.2 with
  | .ok () => f r.1
  | .throw => (r.1, .throw)
  | .ub => (r.1, .ub)

/-- Application.cpp:493-513: the user selects a tool of the list. -/
def pickTool (a : App K) (name : String) : App K × Outcome Unit :=
  match a.current with
  | none => (a, .ub)
  | some i => (a.put i ((a.scene i).useTool name).1, ((a.scene i).useTool name).2.bind fun _ => .ok ())

/-- Application.cpp:233-234: the current scene, if any, is stepped. -/
def stepScene (sqrt : K → K) (a : App K) (f : Frame K) : App K × Outcome Unit :=
  match a.current with
  | none => (a, .ok ())
  | some i => (a.put i ((a.scene i).step sqrt f.keys f.dt f.stepFails).1, ((a.scene i).step sqrt f.keys f.dt f.stepFails).2)

/-- Application.cpp:217-234, 282-528: a frame: `doGui`, then the step of the current scene. `hasScene` is computed before a scene is selected. -/
def frame (sqrt : K → K) (a : App K) (f : Frame K) : App K × Outcome Unit :=
  let hasScene := a.current.isSome
  andThen (match f.pick with | none => (a, .ok ()) | some p => a.select p.1 p.2) fun a =>
  andThen (if a.showSettings then a.settingsWindow hasScene f.vIter f.pIter f.warm else (a, .ok ())) fun a =>
  andThen (match f.control with | none => (a, .ok ()) | some c => if hasScene && a.showControls then a.control c else (a, .ok ())) fun a =>
  andThen (match f.tool with | none => (a, .ok ()) | some n => if hasScene then a.pickTool n else (a, .ok ())) fun a =>
  a.stepScene sqrt f

/-- Application.cpp:566-578 `keypressCallback`; `captured` is `WantCaptureKeyboard`. -/
def key (sqrt : K → K) (a : App K) (captured toolUses : Bool) (keys : Bool × Bool × Bool × Bool) (key : Key) (action : KeyAction) (fails : Bool) :
    App K × Outcome Unit :=
  match a.current with
  | none => (a, .ok ())
  | some i =>
    if captured then (a, .ok ())
    else (a.put i ((a.scene i).keypress sqrt toolUses keys key action fails).1, ((a.scene i).keypress sqrt toolUses keys key action fails).2)

/-- Application.cpp:632-638 `mouseScrollCallback`; `captured` is `WantCaptureMouse`. -/
def scroll (a : App K) (captured toolUses : Bool) (amount : Vec2 K) : App K :=
  match a.current with
  | none => a
  | some i => if captured then a else a.put i ((a.scene i).mouseScroll toolUses amount)

/-- World.hpp:293-300: the program sets the settings of the world of a scene (`scene.world().updateSettings(settings)`). -/
def updateSettings (a : App K) (i : Nat) (s : WorldSettings K) : App K := { a with settings := Function.update a.settings i s }

end

/-- What may happen to an application. -/
inductive Op (K : Type*) where
  | registerScene (key : Nat) (initFails : Bool)
  | resize (w h : Int)
  | frame (f : Frame K)
  | key (captured toolUses : Bool) (keys : Bool × Bool × Bool × Bool) (key : Key) (action : KeyAction) (fails : Bool)
  | scroll (captured toolUses : Bool) (amount : Vec2 K)
  | menuSettings (shown : Bool)
  | menuControls (shown : Bool)
  | updateSettings (i : Nat) (s : WorldSettings K)

/-- Effect of what may happen: the functions above; Application.cpp:325, 339: the menu items show or hide the windows. -/
def apply {K : Type*} [Field K] [LinearOrder K] (sqrt : K → K) (a : App K) : Op K → App K × Outcome Unit
  | .registerScene key fails => a.registerScene key fails
  | .resize w h => (a.resize w h, .ok ())
  | .frame f => a.frame sqrt f
  | .key captured toolUses keys k action fails => a.key sqrt captured toolUses keys k action fails
  | .scroll captured toolUses amount => (a.scroll captured toolUses amount, .ok ())
  | .menuSettings shown => ({ a with showSettings := shown }, .ok ())
  | .menuControls shown => ({ a with showControls := shown }, .ok ())
  | .updateSettings i s => (a.updateSettings i s, .ok ())

end App
end Simu
