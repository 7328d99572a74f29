import Verif.Spec.Unique
/-
Constraints that are solved one at a time.
-/
namespace Simu
open Mat Island
variable {K : Type*} [Field K] [LinearOrder K]

/-- A constraint that can be solved by itself. If both its ends are at one body, it does not depend on the second end. An inequality has one row and no damping. -/
def Kind.Tame (p : Proxies K) (s0 : SolveState K) : (k : Kind K) → k.State → Prop
  | .equality _ f, _ => p.i0 ≠ p.i1 ∨ FirstOnly (f.jacobian p s0)
  | .mouse f, _ => p.i0 ≠ p.i1 ∨ FirstOnly (f.jacobian p s0)
  | .inequality d f, e => (p.i0 ≠ p.i1 ∨ FirstOnly (f.jacobian p s0)) ∧ d = 1 ∧ ∀ r, (e : InequalitySolver _ _).base.damping.at_ r = 0
  | .limits f, _ => p.i0 ≠ p.i1 ∨ FirstOnly (f.jacobian p s0)
  | .contact, _ => True

end Simu
