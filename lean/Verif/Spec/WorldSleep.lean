import Verif.Model.WorldSleep
import Verif.Spec.World
/-
What bodies are held by, and who may sleep.
-/
namespace Simu.World
variable {K : Type*} [Field K] [LinearOrder K]

/-- The body exists and sleeps. -/
def RestWorld.Asleep (s : RestWorld K) (b : Nat) : Prop := (s.world.body b).isSome = true ∧ (s.clock b).asleep = true

/-- The body is in the same constraints and contacts and has the same colliders in both worlds. -/
structure SameHold (w w' : World) (b : Nat) : Prop where
  joints : ∀ n, (∃ J, w'.joint n = some J ∧ (J.b0 = b ∨ J.b1 = b)) ↔ ∃ J, w.joint n = some J ∧ (J.b0 = b ∨ J.b1 = b)
  contacts : ∀ n, (∃ C, w'.contact n = some C ∧ (C.b0 = b ∨ C.b1 = b)) ↔ ∃ C, w.contact n = some C ∧ (C.b0 = b ∨ C.b1 = b)
  colliders : (w'.body b).map (·.colliders) = (w.body b).map (·.colliders)

/-- The operation as it is seen by the objects of the world; waking a body is none. -/
def RestOp.plain : RestOp K → Option Op
  | .makeBody s => some (.makeBody s)
  | .makeConstraint b0 b1 d r => some (.makeConstraint b0 b1 d r)
  | .makeForce _ => some .makeForce
  | .addCollider b v => some (.addCollider b v)
  | .removeCollider k => some (.removeCollider k)
  | .killBody b => some (.killBody b)
  | .killJoint n => some (.killJoint n)
  | .killContact n => some (.killContact n)
  | .killForce n => some (.killForce n)
  | .step dt c f _ => some (.step (decide (0 < dt)) c f)
  | .clear => some .clear
  | .setContactFactory => some .setContactFactory
  | .touch _ => none
  | .updateSettings _ => none

/-- What users may do (Spec/World); a body must exist to be woken. -/
def RestOp.Allowed (s : RestWorld K) (o : RestOp K) : Prop :=
  match o with
  | .touch b => b ∈ s.world.bodies
  | o => ∀ p, o.plain = some p → p.Allowed s.world

/-- Only bodies whose destructor is defined are destroyed (Spec/World). -/
def RestOp.DestroysSafely (cfg : Cfg) (s : RestWorld K) (o : RestOp K) : Prop := ∀ p, o.plain = some p → p.DestroysSafely cfg s.world

/-- The worlds obtained by a history of allowed operations, as in Spec/World. -/
inductive RestReachable (cfg : Cfg) : RestWorld K → Prop
  | init : RestReachable cfg .init
  | op {s : RestWorld K} (h : RestReachable cfg s) (o : RestOp K) (ha : o.Allowed s) (hd : o.DestroysSafely cfg s) : RestReachable cfg (s.apply cfg o).1

/-- The operation is not a step; and if it changes the colliders of a body, then without an exception, and does not remove the last one. -/
def RestOp.Ordinary (cfg : Cfg) (s : RestWorld K) : RestOp K → Prop
  | .step _ _ _ _ => False
  | .addCollider b v => (s.apply cfg (.addCollider b v)).2 = .ok ()
  | .removeCollider k => (s.apply cfg (.removeCollider k)).2 = .ok () ∧ ∃ r, s.world.body (s.world.owner k) = some r ∧ ∃ k' ∈ r.colliders, k' ≠ k
  | _ => True

/-- A history during which `b` gets no forces because it sleeps: it sleeps whenever a step applies forces, and at the end; `s` is where the history begins and `t` where it ends. -/
inductive Sleeps (cfg : Cfg) (b : Nat) : RestWorld K → RestWorld K → Prop
  | refl {s : RestWorld K} (h : s.Asleep b) : Sleeps cfg b s s
  | call {s t : RestWorld K} (h : Sleeps cfg b s t) (o : RestOp K) (ha : o.Allowed t) (hd : o.DestroysSafely cfg t) (ho : o.Ordinary cfg t) (he : (t.apply cfg o).1.Asleep b) :
      Sleeps cfg b s (t.apply cfg o).1
  | step {s t u : RestWorld K} (h : Sleeps cfg b s t) {dt : K} {c : List Nat → List (Nat × Nat)} {f : Option World.Stage} {v : RestWorld K → List Nat × (Nat → K × K × K)}
      (ha : (RestOp.step dt c f v).Allowed t) (hd : (RestOp.step dt c f v).DestroysSafely cfg t) (hu : t.cleanup cfg = .ok u) (hs : u.Asleep b)
      (he : (t.step cfg dt c f v).1.Asleep b) : Sleeps cfg b s (t.step cfg dt c f v).1

end Simu.World
