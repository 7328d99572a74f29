import Verif.Model.Gjk
/-
Model of the query of the penetration of two colliders (include/Simu/physics/ContactManifold.hpp:71-72): a `Gjk` is constructed, then asked for the penetration.
-/
namespace Simu

/-- ContactManifold.hpp:71-72: the penetration that `Gjk` computes in at most so many iterations (Gjk.inl.hpp:173-200, 238-270). A loop that has not ended counts as undefined. -/
def boundedPenetration {K : Type*} [Field K] [LinearOrder K] (fuel : Nat) (first second : List (Vec2 K)) (dir : Vec2 K) : Outcome (Vec2 K) :=
  match Gjk.make fuel first second dir with
  | some (.ok (s, c)) => (Gjk.penetration fuel first second s c).getD .ub
  | some .throw => .throw
  | _ => .ub

end Simu
