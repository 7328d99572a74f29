import Verif.Spec.LibrarySound
import Verif.Props.Limits
/-
The laws of mechanics that the constraints of the library stand for, in terms of the velocities of the bodies and of the multipliers
(impulses) of the constraints.
-/
namespace Simu
open Island Mat
variable {K : Type*} [Field K] [LinearOrder K]

/-- Of the impulses in `A`, `l` is the one that leaves nothing to do about the velocity `u` (positive along the impulse): no other impulse of `A`
acts against `u`. -/
def Best (A : Set K) (l u : K) : Prop := l ∈ A ∧ ∀ m ∈ A, 0 ≤ u * (m - l)

/-- The multipliers that row `r` of a constraint may have. -/
def CFun.allowed {d : Nat} (f : CFun K d) (dt : K) (r : Fin d) : Set K := { x | ∃ l, (f.clampLambda l dt).at_ r = x }

/-- The multipliers of the rows are limited one by one, each to the nearest allowed value. -/
def CFun.RowWise {d : Nat} (f : CFun K d) (dt : K) : Prop :=
  ∃ P : Fin d → K → K, (∀ r, IsProjection (P r)) ∧ ∀ l r, (f.clampLambda l dt).at_ r = P r (l.at_ r)

/-- Velocity error of row `r`: relative velocity, bias, and the fraction of the position error to be corrected. -/
def rowError {d : Nat} (c : CallCfg K) (p : Proxies K) (f : CFun K d) (restitution : MVec K d) (s0 s : SolveState K) (r : Fin d) : K :=
  push (f.jacobian p s0) (p.velocity s).toV r + (f.bias p s).at_ r + restitution.at_ r * (f.eval p s).at_ r / c.dt

variable [Trig K]

/-- The law of a constraint whose solve was started with the bodies in the state `s0`, now that they are in the state `s`. -/
def Kind.Law (c : CallCfg K) (p : Proxies K) (s0 s : SolveState K) : (k : Kind K) → k.State → Prop
  | .equality _ f, e => ∀ r, Best (f.allowed c.dt r) ((e : EqualitySolver _ _).base.lambda.at_ r)
      (rowError c p f (e : EqualitySolver _ _).base.restitution s0 s r +
        (e : EqualitySolver _ _).base.damping.at_ r * (e : EqualitySolver _ _).base.lambda.at_ r)
  | .mouse f, e => ∀ r, Best (f.allowed c.dt r) ((e : EqualitySolver _ _).base.lambda.at_ r)
      (rowError c p f (e : EqualitySolver _ _).base.restitution s0 s r +
        (e : EqualitySolver _ _).base.damping.at_ r * (e : EqualitySolver _ _).base.lambda.at_ r)
  | .inequality _ f, e => ∀ r, Best (f.allowed c.dt r) ((e : InequalitySolver _ _).base.lambda.at_ r)
      (rowError c p f (e : InequalitySolver _ _).base.restitution s0 s r)
  | .limits f, e =>
    let err := fun limit => velocityError p f (f.jacobian p s0) ((e : LimitsSolver _).base.restitution.at_ 0) c.dt limit s
    let D := (e : LimitsSolver _).base.damping.at_ 0
    let x := (e : LimitsSolver _).base.lambda.at_ 0
    match (e : LimitsSolver _).nextFunc p f s0 with
    | .equality => err (match (e : LimitsSolver _).L with | some l => l.at_ 0 | none => 0) + D * x = 0
    | .lower => ∃ l, (e : LimitsSolver _).L = some l ∧ Best {m | 0 ≤ m} x (err (l.at_ 0) + D * x)
    | .upper => ∃ u, (e : LimitsSolver _).U = some u ∧ Best {m | m ≤ 0} (-x) (err (u.at_ 0) + D * -x)
    | .off => True
  | .contact, e =>
    let f := (e : Contact _).manifold.frame ![(s0.pos p.i0).toWorldSpace, (s0.pos p.i1).toWorldSpace]
    ∀ i : Fin 2, i.val < f.nContacts →
      let n := (e : Contact _).normalLambda.at_ i
      Best {m | 0 ≤ m} n (f.separationSpeed p s0.pos s.vel i - requested (e : Contact _).restitution (f.separationSpeed p s0.pos s0.vel i)) ∧
      Best {m | |m| ≤ (e : Contact _).friction * n} ((e : Contact _).tangentLambda.at_ i) (f.slidingSpeed p s0.pos s.vel i)

/-- What the solvers rely on, when a solve is started with the bodies in the state `s0`. -/
def Kind.Regular (c : CallCfg K) (p : Proxies K) (s0 : SolveState K) : (k : Kind K) → k.State → Prop
  | .equality d f, e => (∀ r, 0 ≤ (e : EqualitySolver _ _).base.damping.at_ r) ∧ f.RowWise c.dt ∧
      ((∀ l, f.clampLambda l c.dt = l) ∨
        ∀ r r' : Fin d, r ≠ r' → (effectiveMass p (f.jacobian p s0) (e : EqualitySolver _ _).base.damping).get r r' = 0)
  | .mouse f, e => (∀ r, 0 ≤ (e : EqualitySolver _ _).base.damping.at_ r) ∧ ∀ l, f.clampLambda l c.dt = l
  | .inequality _ f, e => f.RowWise c.dt ∧
      SPD (effectiveMass p (f.jacobian p s0) (e : InequalitySolver _ _).base.damping).toM
  | .limits f, e => (∀ l, f.clampLambda l c.dt = l) ∧ 0 < (effectiveMass p (f.jacobian p s0) (e : LimitsSolver _).base.damping).get 0 0
  | .contact, e =>
    let f := (e : Contact _).manifold.frame ![(s0.pos p.i0).toWorldSpace, (s0.pos p.i1).toWorldSpace]
    (e : Contact _).frame = f ∧ p.i0 ≠ p.i1 ∧ (f.nContacts = 1 ∨ f.nContacts = 2) ∧ Solvable f p ∧ f.tangent ≠ 0 ∧
      0 ≤ (e : Contact _).friction ∧ ∀ i, 0 ≤ (e : Contact _).normalLambda.at_ i

/-- The bodies of an island, as the constraints see them. -/
def Island.Isl.view (i : Isl (Pose K) (Velocity K)) : SolveState K := ⟨fun b => (i.ps b).1, i.vs⟩

/-- The proxies of a constraint in an island. -/
def Library.proxies (L : Library K) (l : Link) (ends : Nat × Nat) : Proxies K := ⟨ends.1, ends.2, (L.bodies l).masses⟩

/-- All constraints `ls` have proxies, and `R` holds of them. -/
def AllLinks (L : Library K) (st : St (Pose K) (Velocity K) ((l : Link) → (L.kind l).State)) (ls : List Link)
    (R : (l : Link) → Proxies K → (L.kind l).State → Prop) : Prop :=
  ∀ l ∈ ls, ∃ ends, st.proxies l = some ends ∧ R l (L.proxies l ends) (st.s l)

end Simu
