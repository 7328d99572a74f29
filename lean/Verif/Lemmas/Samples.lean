import Verif.Spec.Constraint
/-
Concrete bodies and states used to show that the hypotheses of the theorems about constraints can be met.
-/
namespace Simu

/-- A body of mass 2 and inertia 3 at `(i, 0)`, whose centroid is off its origin. -/
noncomputable def sampleBody (i : Nat) : Body ℝ :=
  ⟨.make ⟨i, 0⟩ 1 ⟨0, 1⟩, 0, 0, ⟨[], ⟨2, 3, ⟨0, 1⟩⟩⟩, 1, false, true⟩

/-- Body 0 moves and turns, the others do not. -/
noncomputable def sampleState : SolveState ℝ :=
  ⟨fun i => (sampleBody i).position, fun i => if i = 0 then ⟨⟨1, 2⟩, 3⟩ else 0⟩

/-- The bodies 0 and 1 with their own dominance. -/
noncomputable def sampleBodies : Bodies ℝ := Bodies.make sampleBody 0 1 none

/-- A freshly made equality solver. -/
noncomputable def sampleSolver (d : Nat) : EqualitySolver ℝ d := ⟨.init, ⟨false, fun _ => .throw⟩⟩

theorem sampleBodies_masses : sampleBodies.masses = ⟨1 / 2, 1 / 3, 1 / 2, 1 / 3⟩ := by
  simp [sampleBodies, Bodies.make, Body.invMass, Body.invInertia, Body.mass, Body.inertia, sampleBody]

end Simu
