import Verif.Model.Application
/-
Vocabulary for the properties of an application: histories, and what a user sees of it.
-/
namespace Simu

/-- A scene whose world is as new, shown in a window of the given size, and that is otherwise as it was. -/
def Scene.restartedIn {K : Type*} [Field K] [LinearOrder K] (s : Scene K) (window : Int × Int) : Scene K :=
  let view := s.camera.setDimensionsFromScreenCoordinates ⟨(window.1 : K), (window.2 : K)⟩
  { s with steps := [], isInit := true, camera := view }

namespace App
variable {K : Type*} [Field K] [LinearOrder K]

/-- The application after a history. A history may go on after an exception. -/
def after (sqrt : K → K) (a : App K) (ops : List (Op K)) : App K := ops.foldl (fun a op => (a.apply sqrt op).1) a

/-- An application obtained by any history. -/
def Reachable (sqrt : K → K) (a : App K) : Prop := ∃ ops, a = init.after sqrt ops

/-- The `init` of a scene throws. -/
def InitFails : Op K → Prop
  | .registerScene _ fails => fails = true
  | .frame f => ∃ key, f.pick = some (key, true)
  | _ => False

/-- The program gives settings to the world of scene `j`. -/
def GivesSettings (j : Nat) : Op K → Prop
  | .updateSettings i _ => i = j
  | _ => False

/-- Scene `j` is not the current one at the beginning, at the end, and in between. -/
def Away (sqrt : K → K) (j : Nat) : App K → List (Op K) → Prop
  | a, [] => a.current ≠ some j
  | a, op :: ops => a.current ≠ some j ∧ Away sqrt j (a.apply sqrt op).1 ops

end App
end Simu
