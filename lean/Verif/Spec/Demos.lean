import Verif.Model.Body
import Verif.Spec.Gjk
/-
Vocabulary for scenes.
-/
namespace Simu
variable {K : Type*} [Field K] [LinearOrder K]

/-- The bodies do not overlap: between any collider of the one and any of the other there is a line. -/
def NoOverlap (b b' : Body K) : Prop := ∀ c ∈ b.colliders.list, ∀ c' ∈ b'.colliders.list, Gjk.Cleared c.geom.transformed c'.geom.transformed 0

/-- The body lies in the rectangle `[l, r] × [d, u]`. -/
def LiesIn (b : Body K) (l r d u : K) : Prop := ∀ c ∈ b.colliders.list, ∀ v ∈ c.geom.transformed, (l ≤ v.x ∧ v.x ≤ r) ∧ d ≤ v.y ∧ v.y ≤ u

end Simu
