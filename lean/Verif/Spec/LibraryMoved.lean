import Verif.Spec.LibraryTwin
/-
The same group of bodies in two worlds, in one of them at another place and with another uniform motion.
-/
namespace Simu
open Island

section
variable {K : Type*} [Field K]

/-- The position, moved by `d`. -/
def Position.shift (p : Position K) (d : Vec2 K) : Position K := { p with pos := ⟨p.pos.offset + d⟩ }

/-- The velocity, with `u` added. -/
def Velocity.boost (v : Velocity K) (u : Vec2 K) : Velocity K := ⟨v.linear + u, v.angular⟩

/-- The box, moved by `d`. -/
def BoundingBox.shift (b : BoundingBox K) (d : Vec2 K) : BoundingBox K := ⟨b.min + d, b.max + d⟩

/-- The geometry of a collider, moved by `d` with its body. -/
def ColliderGeom.shift (g : ColliderGeom K) (d : Vec2 K) : ColliderGeom K :=
  ⟨g.localVerts, g.transformed.map (· + d), g.box.bind fun b => .ok (b.shift d)⟩

/-- The collider, moved by `d` with its body. -/
def Collider.shift (c : Collider K) (d : Vec2 K) : Collider K := { c with geom := c.geom.shift d }

/-- The body, moved by `d` with its colliders and with `u` added to its velocity. -/
def Body.carried (b : Body K) (d u : Vec2 K) : Body K :=
  { b with position := b.position.shift d, velocity := b.velocity + u, colliders := { b.colliders with list := b.colliders.list.map (·.shift d) } }

/-- The force field, its region moved by `d`. -/
def ForceField.shift (f : ForceField K) (d : Vec2 K) : ForceField K :=
  match f with
  | .linear force region => .linear force (region.map (·.shift d))
  | .gravity a => .gravity a

/-- The points of contact, moved by `d`. -/
def Frame.shift (fr : Frame K) (d : Vec2 K) : Frame K := { fr with contacts := fun b c => if c.val < fr.nContacts then fr.contacts b c + d else fr.contacts b c }

/-- The bodies of a constraint are moved by `d` in the second state. -/
structure PosMoved (d : Vec2 K) (p : Proxies K) (s t : SolveState K) : Prop where
  pos0 : t.pos p.i0 = (s.pos p.i0).shift d
  pos1 : t.pos p.i1 = (s.pos p.i1).shift d

/-- They also have `u` added to their velocities. -/
structure SeesMoved (d u : Vec2 K) (p : Proxies K) (s t : SolveState K) : Prop extends PosMoved d p s t where
  vel0 : t.vel p.i0 = (s.vel p.i0).boost u
  vel1 : t.vel p.i1 = (s.vel p.i1).boost u

/-- Two constraint functions that give the same values when the bodies of the second one are moved by `d`, and further by multiples of `u`. -/
structure CFun.Carries {n : Nat} (d u : Vec2 K) (f f' : CFun K n) : Prop where
  eval : ∀ (τ : K) p s t, PosMoved (d + τ • u) p s t → f'.eval p t = f.eval p s
  bias : ∀ (τ : K) p s t, PosMoved (d + τ • u) p s t → f'.bias p t = f.bias p s
  jacobian : ∀ (τ : K) p s t, PosMoved (d + τ • u) p s t → f'.jacobian p t = f.jacobian p s
  clampLambda : f'.clampLambda = f.clampLambda
  clampPositionLambda : f'.clampPositionLambda = f.clampPositionLambda

/-- The two constraints are of the same class with functions that give the same values, and in the same state; contacts may differ in the world coordinates of their points, which are computed anew in every
step. -/
inductive Kind.Carries (d u : Vec2 K) : (Σ k : Kind K, k.State) → (Σ k : Kind K, k.State) → Prop
  | equality {n : Nat} {f f' : CFun K n} (h : f.Carries d u f') (e : EqualitySolver K n) : Kind.Carries d u ⟨.equality n f, e⟩ ⟨.equality n f', e⟩
  | inequality {n : Nat} {f f' : CFun K n} (h : f.Carries d u f') (e : InequalitySolver K n) : Kind.Carries d u ⟨.inequality n f, e⟩ ⟨.inequality n f', e⟩
  | limits {f f' : CFun K 1} (h : f.Carries d u f') (e : LimitsSolver K) : Kind.Carries d u ⟨.limits f, e⟩ ⟨.limits f', e⟩
  | mouse {f f' : CFun K 2} (h : f.Carries d u f') (e : EqualitySolver K 2) : Kind.Carries d u ⟨.mouse f, e⟩ ⟨.mouse f', e⟩
  | contact (e : Contact K) (fr : Frame K) : Kind.Carries d u ⟨.contact, e⟩ ⟨.contact, { e with frame := fr }⟩

end

section
variable {K : Type*} [Field K] [LinearOrder K] [IsStrictOrderedRing K] [Trig K]

/-- A constraint is in the same state in two worlds, up to the displacement `d` and the velocity `u`. With a velocity, it has to be a constraint between two bodies: neither motors nor the mouse hold one relative
to the world. -/
def LinkMoves (d u : Vec2 K) (x y : Σ k : Kind K, k.State) : Prop := Kind.Carries d u x y ∧ (u = 0 ∨ x.1.Opposite ∧ x.1.Fit x.2)

/-- A group and its constraints are in the same state in two worlds, up to the displacement `d` and the velocity `u`. Without velocity its bodies are also awake or asleep in both, for the same time. -/
structure Elsewhere (d u : Vec2 K) (group : Finset Nat) (own : Link → Prop) (S S' : Snapshot K) : Prop where
  bodies : ∀ b ∈ group, S'.body b = { (S.body b).carried d u with asleep := (S'.body b).asleep }
  clocks : u = 0 → ∀ b ∈ group, (S'.body b).asleep = (S.body b).asleep ∧ S'.timeImmobile b = S.timeImmobile b
  links : ∀ l, own l → LinkMoves d u (S.link l) (S'.link l)

/-- Before a step the same group of bodies, awake, is in two worlds, of which the rest may differ. Its bodies come in the same order and their colliders in the trees too; those that are not anchored list the same
constraints between bodies of the group, in the same order, and no active constraint (as `A` and `A'` tell) to other bodies. If the group has another velocity in the second world then the constraints of the
group are active, and each of its bodies is moved by one of them: nothing holds it to its world. -/
structure Accompanied {L L' : Library K} (d u : Vec2 K) (c : CallCfg K) (A A' : Link → Bool) (tree tree' : List (Nat × Collider K)) (world world' : List Nat) (group : Finset Nat) (m : Motion L)
    (m' : Motion L') : Prop where
  wellFormed : WellFormed (L.net c) world
  wellFormed' : WellFormed (L'.net c) world'
  made : L.MadeFor m.body
  made' : L'.MadeFor m'.body
  inside : ∀ b ∈ group, b ∈ world ∧ b ∈ world'
  awake : ∀ b ∈ group, (m.body b).asleep = false ∧ (m'.body b).asleep = false
  order : world.filter (· ∈ group) = world'.filter (· ∈ group)
  colliders : tree'.filter (·.1 ∈ group) = (tree.filter (·.1 ∈ group)).map fun e => (e.1, e.2.shift d)
  solid : ∀ b ∈ group, (∀ l ∈ linksOf (L.net c) b, (L.net c).structuralIn l b = true) ↔ ∀ l ∈ linksOf (L'.net c) b, (L'.net c).structuralIn l b = true
  enclosed : ∀ b ∈ group, ¬ Anchored c m b → ∀ l ∈ linksOf (L.net c) b, A l = true → (L.bodies l).i0 ∈ group ∧ (L.bodies l).i1 ∈ group
  enclosed' : ∀ b ∈ group, ¬ Anchored c m' b → ∀ l ∈ linksOf (L'.net c) b, A' l = true → (L'.bodies l).i0 ∈ group ∧ (L'.bodies l).i1 ∈ group
  links : ∀ b ∈ group, ¬ Anchored c m b → (linksOf (L.net c) b).filter (fun l => (L.bodies l).i0 ∈ group ∧ (L.bodies l).i1 ∈ group) =
    (linksOf (L'.net c) b).filter (fun l => (L'.bodies l).i0 ∈ group ∧ (L'.bodies l).i1 ∈ group)
  same : ∀ l, L.Own group l → L'.bodies l = L.bodies l
  free : u = 0 ∨ (∀ b ∈ group, ∃ l ∈ linksOf (L.net c) b, (L.net c).structuralIn l b = false) ∧ ∀ l, L.Own group l → A l = true

/-- The collider at place `c` of the body, with the position of the body. -/
def Body.side (b : Body K) (c : Nat) : Option (Side K) := b.colliders.list[c]?.map fun x => ⟨x.geom, b.position⟩

/-- The collider and its body, moved by `d`. -/
def Side.shift (s : Side K) (d : Vec2 K) : Side K := ⟨s.geom.shift d, s.position.shift d⟩

/-- A computation of the penetration that only depends on where the geometries are relative to each other. -/
def Relative (penetration : List (Vec2 K) → List (Vec2 K) → Vec2 K → Outcome (Vec2 K)) : Prop :=
  ∀ d f s dir, penetration (f.map (· + d)) (s.map (· + d)) dir = penetration f s dir

/-- How a constraint gets into its state before a step, in both worlds: it is left as it was (`o`), or given in corresponding states, or is a contact between colliders at the same places of the same bodies of the
group that is made anew (World.cpp:109-123) or updated (Constraint.hpp:209). -/
inductive Readied (sqrt : K → K) (penetration : List (Vec2 K) → List (Vec2 K) → Vec2 K → Outcome (Vec2 K)) (d u : Vec2 K) (group : Finset Nat) (B B' : Nat → Body K) :
    Option ((Σ k : Kind K, k.State) × Σ k : Kind K, k.State) → (Σ k : Kind K, k.State) → (Σ k : Kind K, k.State) → Prop
  | kept (x y : Σ k : Kind K, k.State) : Readied sqrt penetration d u group B B' (some (x, y)) x y
  | given (o : Option ((Σ k : Kind K, k.State) × Σ k : Kind K, k.State)) {x y : Σ k : Kind K, k.State} (h : LinkMoves d u x y) : Readied sqrt penetration d u group B B' o x y
  | made (o : Option ((Σ k : Kind K, k.State) × Σ k : Kind K, k.State)) (bodies cols : Fin 2 → Nat) {sides sides' : Fin 2 → Side K} (inGroup : ∀ i, bodies i ∈ group)
      (side : ∀ i, (B (bodies i)).side (cols i) = some (sides i)) (side' : ∀ i, (B' (bodies i)).side (cols i) = some (sides' i)) (first second : Material K) {e e' : Contact K}
      (h : Contact.make sqrt penetration first second sides = .ok e) (h' : Contact.make sqrt penetration first second sides' = .ok e') :
      Readied sqrt penetration d u group B B' o ⟨.contact, e⟩ ⟨.contact, e'⟩
  | updated {e e' e1 e1' : Contact K} (bodies cols : Fin 2 → Nat) {sides sides' : Fin 2 → Side K} (inGroup : ∀ i, bodies i ∈ group)
      (side : ∀ i, (B (bodies i)).side (cols i) = some (sides i)) (side' : ∀ i, (B' (bodies i)).side (cols i) = some (sides' i))
      (h : e.updateContacts sqrt penetration sides = .ok e1) (h' : e'.updateContacts sqrt penetration sides' = .ok e1') :
      Readied sqrt penetration d u group B B' (some (⟨.contact, e⟩, ⟨.contact, e'⟩)) ⟨.contact, e1⟩ ⟨.contact, e1'⟩

/-- `n` steps of two worlds, lasting `T`, from the snapshots `S0`, `S0'` to `S`, `S'`: before each step the bodies of the group are as the last step left them and its constraints are readied; the force fields of the
second world are those of the first one, moved as far as the group is by then. Everything else may be changed at will between the steps. -/
inductive Apart (sqrt : K → K) (penetration : List (Vec2 K) → List (Vec2 K) → Vec2 K → Outcome (Vec2 K)) (d u : Vec2 K) (group : Finset Nat) :
    Nat → K → (Link → Prop) → Snapshot K → Snapshot K → (Link → Prop) → Snapshot K → Snapshot K → Prop
  | start (own : Link → Prop) (S S' : Snapshot K) : Apart sqrt penetration d u group 0 0 own S S' own S S'
  | step {n : Nat} {T : K} {own0 own : Link → Prop} {S0 S0' S S' : Snapshot K} (before : Apart sqrt penetration d u group n T own0 S0 S0' own S S') {L L' : Library K} {m m1 : Motion L}
      {m' m1' : Motion L'} {c : CallCfg K} {cfg : Island.Settings} {sl : Sleep.Settings K} {fields : List (ForceField K)} {tree tree' : List (Nat × Collider K)} {world world' : List Nat}
      {fuel fuel' : Nat} {A A' : Link → Bool} {log log' : List Record} {evals evals' : List (Link × Bool)}
      (kept : ∀ b ∈ group, m.body b = S.body b ∧ m.timeImmobile b = S.timeImmobile b) (kept' : ∀ b ∈ group, m'.body b = S'.body b ∧ m'.timeImmobile b = S'.timeImmobile b)
      (readied : ∀ l, L.Own group l → ∃ o, (∀ x, o = some x → own l ∧ x = (S.link l, S'.link l)) ∧
        Readied sqrt penetration (d + T • u) u group m.body m'.body o (m.snapshot.link l) (m'.snapshot.link l))
      (accompanied : Accompanied (d + T • u) u c A A' tree tree' world world' group m m')
      (stepped : m.step c cfg sl fields tree world fuel = some (.ok (m1, log, evals)))
      (stepped' : m'.step c cfg sl (fields.map (·.shift (d + T • u))) tree' world' fuel' = some (.ok (m1', log', evals')))
      (active : ∀ e ∈ evals, e.2 = A e.1) (active' : ∀ e ∈ evals', e.2 = A' e.1) :
      Apart sqrt penetration d u group (n + 1) (T + c.dt) own0 S0 S0' (L.Own group) m1.snapshot m1'.snapshot

end

end Simu
