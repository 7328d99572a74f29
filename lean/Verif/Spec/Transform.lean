import Verif.Model.Transform
import Mathlib.Analysis.SpecialFunctions.Trigonometric.Basic
/-
What is required of `cos` and `sin`, and what a rigid map is.
-/
namespace Simu

/-- Laws of the trigonometric functions. -/
class LawfulTrig (K : Type*) [Field K] [Trig K] : Prop where
  cos_zero : Trig.cos (0 : K) = 1
  sin_zero : Trig.sin (0 : K) = 0
  cos_add : ∀ a b : K, Trig.cos (a + b) = Trig.cos a * Trig.cos b - Trig.sin a * Trig.sin b
  sin_add : ∀ a b : K, Trig.sin (a + b) = Trig.sin a * Trig.cos b + Trig.cos a * Trig.sin b
  cos_neg : ∀ a : K, Trig.cos (-a) = Trig.cos a
  sin_neg : ∀ a : K, Trig.sin (-a) = -Trig.sin a
  sq_add_sq : ∀ a : K, Trig.cos a * Trig.cos a + Trig.sin a * Trig.sin a = 1

noncomputable instance : Trig ℝ := ⟨Real.cos, Real.sin⟩

instance : LawfulTrig ℝ where
  cos_zero := Real.cos_zero
  sin_zero := Real.sin_zero
  cos_add := Real.cos_add
  sin_add := Real.sin_add
  cos_neg := Real.cos_neg
  sin_neg := Real.sin_neg
  sq_add_sq a := by have := Real.cos_sq_add_sin_sq a; simpa [Trig.cos, Trig.sin, sq] using this

variable {K : Type*} [Field K]

/-- A map of the plane that preserves distances and orientation. -/
def IsRigid (f : Vec2 K → Vec2 K) : Prop :=
  (∀ p q, Vec2.normSquared (f p - f q) = Vec2.normSquared (p - q)) ∧
  (∀ p q r, Vec2.cross (f q - f p) (f r - f p) = Vec2.cross (q - p) (r - p))

/-- Rotation of the plane about `c` by an angle of cosine `a` and sine `b`. -/
def rotateAbout (a b : K) (c p : Vec2 K) : Vec2 K :=
  ⟨c.x + (a * (p.x - c.x) - b * (p.y - c.y)), c.y + (b * (p.x - c.x) + a * (p.y - c.y))⟩

/-- The stored cosine and sine are those of the stored angle. -/
def Rotation.WF [Trig K] (r : Rotation K) : Prop := r.cosine = Trig.cos r.theta ∧ r.sine = Trig.sin r.theta

/-- Rotations a user can obtain: the constructor taking cosine and sine is private. -/
inductive Rotation.Reachable [Trig K] : Rotation K → Prop
  | ofAngle (a : K) : Reachable (.ofAngle a)
  | inverse {r} : Reachable r → Reachable r.inverse
  | mul {r s} : Reachable r → Reachable s → Reachable (r.mul s)

end Simu
