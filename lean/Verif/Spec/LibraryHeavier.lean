import Verif.Spec.LibraryMoved
/-
The same group of bodies in two worlds, in one of them with all masses multiplied by the same factor.
-/
namespace Simu
open Island

section
variable {K : Type*} [Field K]

/-- The inverse masses of bodies `κ` times as heavy. -/
def InvMasses.heavier (m : InvMasses K) (κ : K) : InvMasses K := ⟨m.m0 / κ, m.I0 / κ, m.m1 / κ, m.I1 / κ⟩

/-- The same for the bodies of a constraint while solving. -/
def Proxies.heavier (p : Proxies K) (κ : K) : Proxies K := ⟨p.i0, p.i1, p.masses.heavier κ⟩

/-- The same for the bodies of a constraint. -/
def Bodies.heavier (b : Bodies K) (κ : K) : Bodies K := ⟨b.i0, b.i1, b.masses.heavier κ⟩

/-- The material, `κ` times as dense. -/
def Material.heavier (m : Material K) (κ : K) : Material K := { m with density := κ * m.density }

/-- The mass and the inertia, `κ` times as large. -/
def MassProperties.heavier (p : MassProperties K) (κ : K) : MassProperties K := ⟨κ * p.m, κ * p.I, p.centroid⟩

/-- The collider, of the denser material. -/
def Collider.heavier (c : Collider K) (κ : K) : Collider K := { c with material := c.material.heavier κ }

/-- The body, `κ` times as heavy and otherwise the same. -/
def Body.heavier (b : Body K) (κ : K) : Body K := { b with colliders := ⟨b.colliders.list.map (·.heavier κ), b.colliders.properties.heavier κ⟩ }

/-- The force field that pulls heavier bodies as much: a force has to be larger, an acceleration stays the same. -/
def ForceField.heavier (f : ForceField K) (κ : K) : ForceField K :=
  match f with
  | .linear force region => .linear (κ • force) region
  | .gravity a => .gravity a

/-- The state of a constraint between heavier bodies: impulses are larger. Damping is an inverse mass. -/
def SolverBase.heavier {n : Nat} (b : SolverBase K n) (κ : K) : SolverBase K n :=
  { b with lambda := b.lambda.smul κ, previousLambda := b.previousLambda.smul κ, damping := b.damping.sdiv κ }

/-- The solver of a matrix divided by `κ`. -/
def KSolver.heavier {n : Nat} (s : KSolver K n) (κ : K) : KSolver K n := ⟨s.isValid, fun b => (s.solve b).bind fun x => .ok (x.smul κ)⟩

/-- The state of an equality between heavier bodies. -/
def EqualitySolver.heavier {n : Nat} (e : EqualitySolver K n) (κ : K) : EqualitySolver K n := ⟨e.base.heavier κ, e.solver.heavier κ⟩

/-- The state of an inequality between heavier bodies. -/
def InequalitySolver.heavier {n : Nat} (e : InequalitySolver K n) (κ : K) : InequalitySolver K n := ⟨e.base.heavier κ, e.effectiveMass.sdiv κ⟩

/-- The members of the union, for heavier bodies. -/
def LimitsUnion.heavier (d : LimitsUnion K) (κ : K) : LimitsUnion K :=
  match d with
  | .effectiveMass M => .effectiveMass (M.sdiv κ)
  | .solver s => .solver (s.heavier κ)

/-- The state of a constraint with limits between heavier bodies. -/
def LimitsSolver.heavier (e : LimitsSolver K) (κ : K) : LimitsSolver K := { e with base := e.base.heavier κ, data := e.data.heavier κ }

/-- The solver of the matrix divided by `κ`. -/
def LcpSolver.heavier (s : LcpSolver K) (κ : K) : LcpSolver K := ⟨⟨s.solver.A.sdiv κ, s.solver.invDet * κ ^ 2, s.solver.isValid⟩, s.invA11 * κ, s.invA22 * κ⟩

/-- The members of the union, for heavier bodies. -/
def NormalSolver.heavier (d : NormalSolver K) (κ : K) : NormalSolver K :=
  match d with
  | .unset => .unset
  | .inverse k => .inverse (k * κ)
  | .lcp s => .lcp (s.heavier κ)

/-- The state of a contact between heavier bodies: impulses are larger. -/
def Contact.heavier (e : Contact K) (κ : K) : Contact K :=
  { e with invTangentKs := e.invTangentKs.smul κ, normalSolver := e.normalSolver.heavier κ, tangentLambda := e.tangentLambda.smul κ, previousTangentLambda := e.previousTangentLambda.smul κ, normalLambda := e.normalLambda.smul κ, previousNormalLambda := e.previousNormalLambda.smul κ }

/-- Two constraint functions of which the second one has the same values for heavier bodies, and bounds larger impulses (a motor has to be stronger). -/
structure CFun.Heavier {n : Nat} (κ : K) (f f' : CFun K n) : Prop where
  eval : ∀ p s t, SeesSame p s t → f'.eval (p.heavier κ) t = f.eval p s
  bias : ∀ p s t, SeesSame p s t → f'.bias (p.heavier κ) t = f.bias p s
  jacobian : ∀ p s t, SeesSame p s t → f'.jacobian (p.heavier κ) t = f.jacobian p s
  clampLambda : ∀ l dt, f'.clampLambda (l.smul κ) dt = (f.clampLambda l dt).smul κ
  clampPositionLambda : ∀ l, f'.clampPositionLambda (l.smul κ) = (f.clampPositionLambda l).smul κ

/-- The two constraints are of the same class with such functions, and in the same state but for the size of the impulses. Inequalities have one dimension: with more of them the number of iterations depends on the
size of the impulses (`C94_inequalities_disagreement`). A new `MouseConstraint` always has damping 1, so that it is not in this relation with another one (`C94_mouse_disagreement`). -/
inductive Kind.Heavier (κ : K) : (Σ k : Kind K, k.State) → (Σ k : Kind K, k.State) → Prop
  | equality {n : Nat} {f f' : CFun K n} (h : f.Heavier κ f') (e : EqualitySolver K n) : Kind.Heavier κ ⟨.equality n f, e⟩ ⟨.equality n f', e.heavier κ⟩
  | inequality {f f' : CFun K 1} (h : f.Heavier κ f') (e : InequalitySolver K 1) : Kind.Heavier κ ⟨.inequality 1 f, e⟩ ⟨.inequality 1 f', e.heavier κ⟩
  | limits {f f' : CFun K 1} (h : f.Heavier κ f') (e : LimitsSolver K) : Kind.Heavier κ ⟨.limits f, e⟩ ⟨.limits f', e.heavier κ⟩
  | mouse {f f' : CFun K 2} (h : f.Heavier κ f') (e : EqualitySolver K 2) : Kind.Heavier κ ⟨.mouse f, e⟩ ⟨.mouse f', e.heavier κ⟩
  | contact (e : Contact K) : Kind.Heavier κ ⟨.contact, e⟩ ⟨.contact, e.heavier κ⟩

end

section
variable {K : Type*} [Field K] [LinearOrder K] [IsStrictOrderedRing K] [Trig K]

/-- A group and its constraints are in the same state in two worlds, but for the masses and the impulses. -/
structure AsHeavy (κ : K) (group : Finset Nat) (own : Link → Prop) (S S' : Snapshot K) : Prop where
  bodies : ∀ b ∈ group, S'.body b = (S.body b).heavier κ
  clocks : ∀ b ∈ group, S'.timeImmobile b = S.timeImmobile b
  links : ∀ l, own l → Kind.Heavier κ (S.link l) (S'.link l)

/-- Before a step the same group of bodies, awake, is in two worlds, of which the rest may differ. Its bodies come in the same order and their colliders in the trees too; those that are not anchored list the same
constraints between bodies of the group, in the same order, and no active constraint (as `A` and `A'` tell) to other bodies. -/
structure Weighed {L L' : Library K} (κ : K) (c : CallCfg K) (A A' : Link → Bool) (tree tree' : List (Nat × Collider K)) (world world' : List Nat) (group : Finset Nat) (m : Motion L)
    (m' : Motion L') : Prop where
  wellFormed : WellFormed (L.net c) world
  wellFormed' : WellFormed (L'.net c) world'
  made : L.MadeFor m.body
  made' : L'.MadeFor m'.body
  inside : ∀ b ∈ group, b ∈ world ∧ b ∈ world'
  awake : ∀ b ∈ group, (m.body b).asleep = false
  order : world.filter (· ∈ group) = world'.filter (· ∈ group)
  colliders : tree'.filter (·.1 ∈ group) = (tree.filter (·.1 ∈ group)).map fun e => (e.1, e.2.heavier κ)
  solid : ∀ b ∈ group, (∀ l ∈ linksOf (L.net c) b, (L.net c).structuralIn l b = true) ↔ ∀ l ∈ linksOf (L'.net c) b, (L'.net c).structuralIn l b = true
  enclosed : ∀ b ∈ group, ¬ Anchored c m b → ∀ l ∈ linksOf (L.net c) b, A l = true → (L.bodies l).i0 ∈ group ∧ (L.bodies l).i1 ∈ group
  enclosed' : ∀ b ∈ group, ¬ Anchored c m' b → ∀ l ∈ linksOf (L'.net c) b, A' l = true → (L'.bodies l).i0 ∈ group ∧ (L'.bodies l).i1 ∈ group
  links : ∀ b ∈ group, ¬ Anchored c m b → (linksOf (L.net c) b).filter (fun l => (L.bodies l).i0 ∈ group ∧ (L.bodies l).i1 ∈ group) =
    (linksOf (L'.net c) b).filter (fun l => (L'.bodies l).i0 ∈ group ∧ (L'.bodies l).i1 ∈ group)
  masses : ∀ l, L.Own group l → L'.bodies l = (L.bodies l).heavier κ

/-- How a constraint gets into its state before a step, in both worlds: it is left as it was (`o`), or given in corresponding states, or is a contact between colliders at the same places of the same bodies of the
group that is made anew (World.cpp:109-123) or updated (Constraint.hpp:209). -/
inductive ReadiedHeavier (sqrt : K → K) (penetration : List (Vec2 K) → List (Vec2 K) → Vec2 K → Outcome (Vec2 K)) (κ : K) (group : Finset Nat) (B B' : Nat → Body K) :
    Option ((Σ k : Kind K, k.State) × Σ k : Kind K, k.State) → (Σ k : Kind K, k.State) → (Σ k : Kind K, k.State) → Prop
  | kept (x y : Σ k : Kind K, k.State) : ReadiedHeavier sqrt penetration κ group B B' (some (x, y)) x y
  | given (o : Option ((Σ k : Kind K, k.State) × Σ k : Kind K, k.State)) {x y : Σ k : Kind K, k.State} (h : Kind.Heavier κ x y) : ReadiedHeavier sqrt penetration κ group B B' o x y
  | made (o : Option ((Σ k : Kind K, k.State) × Σ k : Kind K, k.State)) (bodies cols : Fin 2 → Nat) {colliders colliders' : Fin 2 → Collider K} (inGroup : ∀ i, bodies i ∈ group)
      (collider : ∀ i, (B (bodies i)).colliders.list[cols i]? = some (colliders i)) (collider' : ∀ i, (B' (bodies i)).colliders.list[cols i]? = some (colliders' i)) {e e' : Contact K}
      (h : Contact.make sqrt penetration (colliders 0).material (colliders 1).material (fun i => ⟨(colliders i).geom, (B (bodies i)).position⟩) = .ok e)
      (h' : Contact.make sqrt penetration (colliders' 0).material (colliders' 1).material (fun i => ⟨(colliders' i).geom, (B' (bodies i)).position⟩) = .ok e') :
      ReadiedHeavier sqrt penetration κ group B B' o ⟨.contact, e⟩ ⟨.contact, e'⟩
  | updated {e e' e1 e1' : Contact K} (bodies cols : Fin 2 → Nat) {sides sides' : Fin 2 → Side K} (inGroup : ∀ i, bodies i ∈ group)
      (side : ∀ i, (B (bodies i)).side (cols i) = some (sides i)) (side' : ∀ i, (B' (bodies i)).side (cols i) = some (sides' i))
      (h : e.updateContacts sqrt penetration sides = .ok e1) (h' : e'.updateContacts sqrt penetration sides' = .ok e1') :
      ReadiedHeavier sqrt penetration κ group B B' (some (⟨.contact, e⟩, ⟨.contact, e'⟩)) ⟨.contact, e1⟩ ⟨.contact, e1'⟩

/-- `n` steps of two worlds with the same settings, from the snapshots `S0`, `S0'` to `S`, `S'`: before each step the bodies of the group are as the last step left them and its constraints are readied; the force
fields of the second world pull as much. Everything else may be changed at will between the steps. -/
inductive InStep (sqrt : K → K) (penetration : List (Vec2 K) → List (Vec2 K) → Vec2 K → Outcome (Vec2 K)) (κ : K) (group : Finset Nat) :
    Nat → (Link → Prop) → Snapshot K → Snapshot K → (Link → Prop) → Snapshot K → Snapshot K → Prop
  | start (own : Link → Prop) (S S' : Snapshot K) : InStep sqrt penetration κ group 0 own S S' own S S'
  | step {n : Nat} {own0 own : Link → Prop} {S0 S0' S S' : Snapshot K} (before : InStep sqrt penetration κ group n own0 S0 S0' own S S') {L L' : Library K} {m m1 : Motion L}
      {m' m1' : Motion L'} {c : CallCfg K} {cfg : Island.Settings} {sl : Sleep.Settings K} {fields : List (ForceField K)} {tree tree' : List (Nat × Collider K)} {world world' : List Nat}
      {fuel fuel' : Nat} {A A' : Link → Bool} {log log' : List Record} {evals evals' : List (Link × Bool)} (lawful : ∀ x, 0 ≤ x → c.sqrt x * c.sqrt x = x)
      (kept : ∀ b ∈ group, m.body b = S.body b ∧ m.timeImmobile b = S.timeImmobile b) (kept' : ∀ b ∈ group, m'.body b = S'.body b ∧ m'.timeImmobile b = S'.timeImmobile b)
      (readied : ∀ l, L.Own group l → ∃ o, (∀ x, o = some x → own l ∧ x = (S.link l, S'.link l)) ∧
        ReadiedHeavier sqrt penetration κ group m.body m'.body o (m.snapshot.link l) (m'.snapshot.link l))
      (weighed : Weighed κ c A A' tree tree' world world' group m m')
      (stepped : m.step c cfg sl fields tree world fuel = some (.ok (m1, log, evals)))
      (stepped' : m'.step c cfg sl (fields.map (·.heavier κ)) tree' world' fuel' = some (.ok (m1', log', evals')))
      (active : ∀ e ∈ evals, e.2 = A e.1) (active' : ∀ e ∈ evals', e.2 = A' e.1) :
      InStep sqrt penetration κ group (n + 1) own0 S0 S0' (L.Own group) m1.snapshot m1'.snapshot

end

end Simu
