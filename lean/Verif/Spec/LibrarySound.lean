import Verif.Spec.Library
import Verif.Props.ContactSolve
/-
Constraints of the library that can always be solved.
-/
namespace Simu
open Island Mat
variable {K : Type*} [Field K] [LinearOrder K] [Trig K]

/-- No multiplier but zero is without effect on bodies of these inverse masses, wherever they are. -/
def Effective {d : Nat} (m : InvMasses K) (f : CFun K d) : Prop :=
  ∀ i0 i1 s (x : MVec K d), (∀ c, (⟨i0, i1, m⟩ : Proxies K).invMassVec.at_ c * pull (f.jacobian ⟨i0, i1, m⟩ s) x.toV c = 0) → x = Mat.zero

/-- Inverse masses are not negative. -/
structure InvMasses.Nonneg (m : InvMasses K) : Prop where
  m0 : 0 ≤ m.m0
  I0 : 0 ≤ m.I0
  m1 : 0 ≤ m.m1
  I1 : 0 ≤ m.I1

/-- Constraints that can be solved wherever their bodies are: equality constraints (and the mouse) that are effective, without negative damping; contacts at one
point, and those at two points which can be solved wherever the bodies are. -/
def Kind.Firm (m : InvMasses K) : (k : Kind K) → k.State → Prop
  | .equality _ f, e => Effective m f ∧ ∀ r, 0 ≤ (e : EqualitySolver _ _).base.damping.at_ r
  | .mouse f, e => Effective m f ∧ ∀ r, 0 ≤ (e : EqualitySolver _ _).base.damping.at_ r
  | .contact, e =>
    (∃ P0 P1 : Pose K, (e : Contact _).frame = (e : Contact _).manifold.frame ![P0.1.toWorldSpace, P1.1.toWorldSpace]) ∧
      ((e : Contact _).manifold.nContacts = 2 → ∀ P0 P1 : Pose K,
        Solvable ((e : Contact _).manifold.frame ![P0.1.toWorldSpace, P1.1.toWorldSpace]) ⟨0, 1, m⟩)
  | .inequality _ _, _ => False
  | .limits _, _ => False

/-- Whether such a constraint is active. -/
def Kind.answer : (k : Kind K) → k.State → Bool
  | .contact, e => decide ((e : Contact _).manifold.nContacts ≠ 0)
  | .equality _ _, _ => true
  | .inequality _ _, _ => true
  | .limits _, _ => true
  | .mouse _, _ => true

/-- The constraints of the bodies `world` can be solved wherever the bodies are. -/
def Library.Firm (L : Library K) (c : CallCfg K) (world : List Nat) (s : (l : Link) → (L.kind l).State) : Prop :=
  ∀ b ∈ world, ∀ l ∈ linksOf (L.net c) b, (L.bodies l).masses.Nonneg ∧ (L.kind l).Firm (L.bodies l).masses (s l)

end Simu
