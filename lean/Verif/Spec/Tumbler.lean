import Verif.Model.Tumbler
import Verif.Spec.Geometry
/-
Vocabulary for the demonstration `Tumbler`.
-/
namespace Simu
namespace Tumbler

/-- How often the scene is stepped while it is not paused, and the limits in force then. -/
def running : Bool → Int → List Act → List Int
  | _, _, [] => []
  | paused, m, .step :: as => if paused then running paused m as else m :: running paused m as
  | paused, _, .limit n :: as => running paused n as
  | _, m, .pause on :: as => running on m as
  | paused, m, .reset :: as => running paused m as

/-- A point of the walls of a square drum around the origin: four rectangles, 20 long and 1 thick, whose middles are 10 away from the origin. -/
def OnWall (x : Vec2 ℝ) : Prop :=
  (|x.x| ≤ 10 ∧ |x.y - 10| ≤ 1 / 2) ∨ (|x.x| ≤ 10 ∧ |x.y + 10| ≤ 1 / 2) ∨ (|x.x - 10| ≤ 1 / 2 ∧ |x.y| ≤ 10) ∨ (|x.x + 10| ≤ 1 / 2 ∧ |x.y| ≤ 10)

/-- The body covers the point. -/
def Covers (b : Body ℝ) (x : Vec2 ℝ) : Prop := ∃ c ∈ b.colliders.list, Hull c.geom.transformed x

/-- A box of side 1/4 around the origin that does not move, of mass 1/16. -/
def FreshBox (b : Body ℝ) : Prop :=
  b.mass = 1 / 16 ∧ b.centroid = 0 ∧ b.velocity = 0 ∧ b.angular = 0 ∧ b.dominance = 1 ∧ ∃ c, b.colliders.list = [c] ∧ ∀ p : Vec2 ℝ, Hull c.geom.transformed p ↔ |p.x| ≤ 1 / 8 ∧ |p.y| ≤ 1 / 8

end Tumbler
end Simu
