import Verif.Model.WorldTree
import Verif.Spec.World
import Verif.Spec.BoundingBox
/-
Histories of a world with its tree, and what its contacts should be.
-/
namespace Simu.World
open World RTree Simu.Spec
variable {K C : Type*} [Field K] [LinearOrder K]

/-- Two boxes have a point in common. -/
def BoxesMeet (a b : BoundingBox K) : Prop := ∃ p, inBox a p ∧ inBox b p

/-- What a caller must ensure: the objects exist, and the boxes of two structural bodies do not meet in a step. -/
def EngineOp.Allowed (w : World) : EngineOp K → Prop
  | .quiet o _ => o.Allowed w
  | .addCollider b _ => b ∈ w.bodies
  | .removeCollider k => k ∈ w.tree
  | .step _ boxes _ => ∀ k0 ∈ w.tree, ∀ k1 ∈ w.tree, BoxesMeet (boxes k0) (boxes k1) → w.owner k0 ≠ w.owner k1 →
      ¬((w.body (w.owner k0)).any (·.structural) ∧ (w.body (w.owner k1)).any (·.structural))
  | .clear => True

/-- An operation only destroys bodies whose destructor is defined. -/
def EngineOp.DestroysSafely (cfg : Cfg) (w : World) : EngineOp K → Prop
  | .step _ _ _ => ∀ b, DeadBody w b → Destructible cfg w b
  | .clear => ∀ b ∈ w.bodies, Destructible cfg w b
  | _ => True

/-- What can be reached by allowed operations that destroy safely. -/
inductive EngineReachable (cfg : Cfg) (tc : RTree.Cfg K C) (pq : PQ (Cand K C Nat)) : Engine K → Prop
  | init : EngineReachable cfg tc pq Engine.init
  | op {e : Engine K} (h : EngineReachable cfg tc pq e) (o : EngineOp K) (ha : o.Allowed e.world) (hd : o.DestroysSafely cfg e.world) :
      EngineReachable cfg tc pq (e.apply cfg tc pq o).1

/-- Two colliders should be in contact: they are in the world, their bodies are different ones, their boxes meet, and no constraint disables contacts between
the bodies. -/
def ShouldTouch (w : World) (boxes : Nat → BoundingBox K) (a b : Nat) : Prop :=
  a ∈ w.tree ∧ b ∈ w.tree ∧ BoxesMeet (boxes a) (boxes b) ∧ w.owner a ≠ w.owner b ∧ ¬Forbidden w (w.owner a) (w.owner b)

end Simu.World
