import Verif.Model.Graphics
/-
What C99 means.
-/
namespace Simu.Graphics

/-- The driver gives new objects names that no object of their kind has. -/
def Driver.Sound (d : Driver) : Prop := ∀ k l, (⟨k, d.fresh k l⟩ : Obj) ∉ l

/-- Every call of the driver succeeds. -/
def Driver.Works (d : Driver) : Prop := d.initOk = true ∧ d.windowOk = true ∧ d.vertexOk = true ∧ d.fragmentOk = true ∧ d.linkOk = true

/-- Nothing is held of the window system, nor of the graphics driver (whose objects all belong to windows). -/
def System.Clean (s : System) : Prop := s.isInit = false ∧ (∀ w, s.window w = none) ∧ s.current = none

/-- A program that makes, runs and ends applications one after the other, each with its own driver, address and frames: the results. -/
def lives : List (Driver × Nat × List Frame) → System → System × List (Outcome Bool)
  | [], s => (s, [])
  | (d, this, frames) :: l, s =>
    let (s, o) := life d this frames s
    let (s, os) := lives l s
    (s, o :: os)

end Simu.Graphics
