import Verif.Spec.Application
/-
Vocabulary for the window of the scene controls.
-/
namespace Simu
namespace App
variable {K : Type*} [Field K] [LinearOrder K]

/-- From `a` to `b`, scene `i` became `s` and nothing else changed. -/
def Becomes (a b : App K) (i : Nat) (s : Scene K) : Prop := b.scene i = s ∧ (∀ j, j ≠ i → b.scene j = a.scene j) ∧ { b with scene := a.scene } = a

/-- What leaves the pause of the current scene to the button: anything but another scene being selected, the P key being pressed and a single step that fails
(keys taken by the user interface or by the tool do nothing). -/
def LeavesPause : Op K → Prop
  | .frame f => f.pick = none
  | .key captured toolUses _ key action fails => captured = false → toolUses = false → ¬(key = .P ∧ action = .press) ∧ ¬(key = .S ∧ fails = true)
  | _ => True

/-- What the user sees and what is the case: the label of the pause button, and whether scene `i` is paused. -/
def button (a : App K) (i : Nat) : PauseButton := ⟨a.pauseToggle, (a.scene i).paused⟩

/-- The button "-" is clicked `false`, or the button "+" is clicked `true`. -/
def clickSpeed (a : App K) (up : Bool) : App K := (a.control (if up then .faster else .slower)).1

end App
end Simu
