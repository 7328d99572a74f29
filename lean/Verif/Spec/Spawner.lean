import Verif.Model.Spawner
import Verif.Spec.Transform
/-
Vocabulary for boxes.
-/
namespace Simu
variable {K : Type*} [Field K]

/-- The corners of a box of the given dimensions whose centre is at `pos`, turned about it by an angle of cosine `a` and sine `b`. -/
def IsBox (vertices : List (Vec2 K)) (pos dims : Vec2 K) (a b : K) : Prop :=
  vertices.length = 4 ∧ ∀ v, v ∈ vertices ↔ ∃ σ τ : K, (σ = 1 ∨ σ = -1) ∧ (τ = 1 ∨ τ = -1) ∧ v = rotateAbout a b pos ⟨pos.x + σ * (dims.x / 2), pos.y + τ * (dims.y / 2)⟩

/-- The values the sliders can give, Tool.cpp:94-113. -/
def Spawner.Edit.Ranges (e : Spawner.Edit) : Prop :=
  (∀ d, e.dims = some d → 1 / 10 ≤ d.x ∧ d.x ≤ 50 ∧ 1 / 10 ≤ d.y ∧ d.y ≤ 50) ∧ (∀ d, e.density = some d → 1 / 10 ≤ d ∧ d ≤ 100) ∧ (∀ f, e.friction = some f → 0 ≤ f ∧ f ≤ 1) ∧
  (∀ f, e.bounciness = some f → 0 ≤ f ∧ f ≤ 1) ∧ (∀ d, e.degrees = some d → -180 ≤ d ∧ d ≤ 180) ∧ ∀ c, e.rgb = some c → ∀ i, 0 ≤ c i ∧ c i ≤ 1

/-- The settings are in the ranges of the sliders. -/
def Spawner.InRange (s : Spawner ℝ) : Prop :=
  (1 / 10 ≤ s.dims.x ∧ s.dims.x ≤ 50 ∧ 1 / 10 ≤ s.dims.y ∧ s.dims.y ≤ 50) ∧ (1 / 10 ≤ s.density ∧ s.density ≤ 100) ∧ (0 ≤ s.friction ∧ s.friction ≤ 1) ∧ (0 ≤ s.bounciness ∧ s.bounciness ≤ 1) ∧
  ∀ i, 0 ≤ s.color i ∧ s.color i ≤ 255

/-- The user does something: a frame with the window open, or a mouse button on the scene. -/
inductive Spawner.Use where
  | frame (e : Spawner.Edit)
  | mouse (action : MouseAction) (button : MouseButton) (pos : Vec2 ℝ) (id : Nat)

/-- The tool, the bodies of the world, whether all calls succeeded. -/
noncomputable def Spawner.uses (s : Spawner ℝ) (world : List (Body ℝ)) : List Spawner.Use → Spawner ℝ × List (Body ℝ) × Prop
  | [] => (s, world, True)
  | .frame e :: rest => (s.doGui e).uses world rest
  | .mouse a b pos id :: rest =>
    let r := s.onMousePress a b pos id world
    let q := s.uses r.1 rest
    (q.1, q.2.1, (∃ used, r.2 = .ok used) ∧ q.2.2)

/-- How many times the left button was pressed. -/
def Spawner.clicks : List Spawner.Use → Nat
  | [] => 0
  | .mouse .press .left _ _ :: rest => clicks rest + 1
  | _ :: rest => clicks rest

end Simu
