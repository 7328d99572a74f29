import Verif.Model.BodyHistory
import Verif.Spec.Body
/-
Vocabulary for the life of a body.
-/
namespace Simu
namespace Body
variable {K : Type*} [Field K] [LinearOrder K] [IsStrictOrderedRing K] [Trig K]

/-- No call threw. -/
def Quiet (b : Body K) : List (Event K) → Prop
  | [] => True
  | e :: events => (b.happen e).2 = .ok () ∧ Quiet (b.happen e).1 events

/-- Only valid colliders are added. -/
def Event.Valid : Event K → Prop
  | .addCollider _ polygon material => ValidDescriptor polygon material
  | _ => True

end Body
end Simu
