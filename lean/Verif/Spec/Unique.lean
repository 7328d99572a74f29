import Verif.Spec.Converged
/-
Islands that differ only in what their solvers remember.
-/
namespace Simu
open Mat Island
variable {K : Type*} [Field K]

/-- Two states of a constraint that differ only in what the solver computes. -/
def Kind.Same : (k : Kind K) → k.State → k.State → Prop
  | .equality _ _, e, e' => (e' : EqualitySolver _ _).base.damping = (e : EqualitySolver _ _).base.damping ∧
      (e' : EqualitySolver _ _).base.restitution = (e : EqualitySolver _ _).base.restitution
  | .mouse _, e, e' => (e' : EqualitySolver _ _).base.damping = (e : EqualitySolver _ _).base.damping ∧
      (e' : EqualitySolver _ _).base.restitution = (e : EqualitySolver _ _).base.restitution
  | .inequality _ _, e, e' => (e' : InequalitySolver _ _).base.restitution = (e : InequalitySolver _ _).base.restitution
  | .limits _, e, e' => (e' : LimitsSolver _).L = (e : LimitsSolver _).L ∧ (e' : LimitsSolver _).U = (e : LimitsSolver _).U ∧
      (e' : LimitsSolver _).base.damping = (e : LimitsSolver _).base.damping ∧
      (e' : LimitsSolver _).base.restitution = (e : LimitsSolver _).base.restitution
  | .contact, e, e' => (e' : Contact _).manifold = (e : Contact _).manifold ∧ (e' : Contact _).restitution = (e : Contact _).restitution ∧
      (e' : Contact _).friction = (e : Contact _).friction

/-- What the values of a constraint may depend on: the bias and the position error depend on the positions only; damping is not negative; there is no friction. -/
def Kind.Plain [LinearOrder K] (p : Proxies K) : (k : Kind K) → k.State → Prop
  | .equality _ f, _ => ∀ s s' : SolveState K, s.pos = s'.pos → f.eval p s = f.eval p s' ∧ f.bias p s = f.bias p s'
  | .mouse f, _ => ∀ s s' : SolveState K, s.pos = s'.pos → f.eval p s = f.eval p s' ∧ f.bias p s = f.bias p s'
  | .inequality _ f, _ => ∀ s s' : SolveState K, s.pos = s'.pos → f.eval p s = f.eval p s' ∧ f.bias p s = f.bias p s'
  | .limits f, e => (∀ s s' : SolveState K, s.pos = s'.pos → f.eval p s = f.eval p s' ∧ f.bias p s = f.bias p s') ∧
      0 ≤ (e : LimitsSolver _).base.damping.at_ 0
  | .contact, e => (e : Contact _).friction = 0

/-- Two islands with the same bodies and constraints, which may remember different impulses of the last step. -/
structure Island.SameIsland [Trig K] (L : Library K) (links : List Link)
    (x y : St (Pose K) (Velocity K) ((l : Link) → (L.kind l).State) × Isl (Pose K) (Velocity K)) : Prop where
  proxies : y.1.proxies = x.1.proxies
  bodies : y.2.view = x.2.view
  same : ∀ l ∈ links, (L.kind l).Same (x.1.s l) (y.1.s l)

/-- `M i` are the inverse mass and the inverse inertia of the `i`th body for all constraints: none uses dominance. -/
def Island.OwnMasses [Trig K] (L : Library K) (links : List Link) (st : St (Pose K) (Velocity K) ((l : Link) → (L.kind l).State)) (M : Nat → K × K) : Prop :=
  ∀ l ∈ links, ∀ ends, st.proxies l = some ends → (L.bodies l).masses = ⟨(M ends.1).1, (M ends.1).2, (M ends.2).1, (M ends.2).2⟩

end Simu
