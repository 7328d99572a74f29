import Verif.Model.World
/-
What it means for the objects of a world to be in order, in terms of the objects only.
-/
namespace Simu.World

/-- No pointer dangles: whatever a body lists exists and has the body among its own; the bodies of a constraint or contact exist and list it once; the
colliders in the tree exist, and so do those of the contacts that are not killed. -/
structure NoDangling (w : World) : Prop where
  joints_of_body : ∀ b r, w.body b = some r → ∀ n ∈ r.joints, ∃ J, w.joint n = some J ∧ (J.b0 = b ∨ J.b1 = b)
  contacts_of_body : ∀ b r, w.body b = some r → ∀ n ∈ r.contacts, ∃ C, w.contact n = some C ∧ (C.b0 = b ∨ C.b1 = b)
  bodies_of_joint : ∀ n J, w.joint n = some J → ∀ b, b = J.b0 ∨ b = J.b1 → ∃ r, w.body b = some r ∧ r.joints.count n = 1
  bodies_of_contact : ∀ n C, w.contact n = some C → ∀ b, b = C.b0 ∨ b = C.b1 → ∃ r, w.body b = some r ∧ r.contacts.count n = 1
  tree : ∀ k ∈ w.tree, ∃ r, w.body (w.owner k) = some r ∧ k ∈ r.colliders
  colliders_of_contact : ∀ n C, w.contact n = some C → C.killed = false → ∀ k, k = C.key.1 ∨ k = C.key.2 →
    ∃ r, w.body (w.owner k) = some r ∧ k ∈ r.colliders

/-- Two pairs are the same, in either order. -/
def SamePair (p q : Nat × Nat) : Prop := p = q ∨ p = (q.2, q.1)

/-- A constraint of the world forbids contacts between two bodies. -/
def Forbidden (w : World) (b0 b1 : Nat) : Prop := ∃ n J, w.joint n = some J ∧ J.disables = true ∧ SamePair (J.b0, J.b1) (b0, b1)

/-- There is a contact between two colliders that was not killed. -/
def InContact (w : World) (p : Nat × Nat) : Prop := ∃ n C, w.contact n = some C ∧ C.killed = false ∧ SamePair C.key p

/-- A body is dead: it was killed. -/
def DeadBody (w : World) (b : Nat) : Prop := ∃ r, w.body b = some r ∧ r.killed = true

/-- The pairs reported by the tree: only overlapping pairs of its elements, and all of them. -/
def Reports (ov : Nat → Nat → Prop) (collide : List Nat → List (Nat × Nat)) : Prop :=
  ∀ l : List Nat, l.Nodup → (∀ p ∈ collide l, p.1 ∈ l ∧ p.2 ∈ l ∧ p.1 ≠ p.2 ∧ ov p.1 p.2) ∧
    ∀ a ∈ l, ∀ b ∈ l, a ≠ b → ov a b → (a, b) ∈ collide l ∨ (b, a) ∈ collide l

/-- What a caller must ensure: the objects exist (they were not freed), and no two structural bodies overlap. Changing the contact factory is only allowed while
there is no contact. -/
def Op.Allowed (w : World) : Op → Prop
  | .makeBody _ => True
  | .makeConstraint b0 b1 _ _ => b0 ∈ w.bodies ∧ b1 ∈ w.bodies
  | .makeForce => True
  | .addCollider b _ => b ∈ w.bodies
  | .removeCollider k => k ∈ w.tree
  | .killBody b => b ∈ w.bodies
  | .killJoint n => n ∈ w.joints
  | .killContact n => n ∈ w.contacts
  | .killForce n => n ∈ w.forces.map (·.1)
  | .step _ collide _ => ∃ ov, Reports ov collide ∧ ∀ k0 ∈ w.tree, ∀ k1 ∈ w.tree, ov k0 k1 → w.owner k0 ≠ w.owner k1 →
      ¬((w.body (w.owner k0)).any (·.structural) ∧ (w.body (w.owner k1)).any (·.structural))
  | .clear => True
  | .setContactFactory => w.contacts = []

/-- The destructor of a body is defined: the body has no collider; or the destructor is repaired and none of its colliders was refused. -/
def Destructible (cfg : Cfg) (w : World) (b : Nat) : Prop :=
  ∀ r, w.body b = some r → r.colliders = [] ∨ (cfg.repairedDestructor = true ∧ ∀ k ∈ r.colliders, k ∈ w.tree)

/-- An operation only destroys bodies whose destructor is defined. -/
def Op.DestroysSafely (cfg : Cfg) (w : World) : Op → Prop
  | .step _ _ _ => ∀ b, DeadBody w b → Destructible cfg w b
  | .clear => ∀ b ∈ w.bodies, Destructible cfg w b
  | _ => True

/-- The worlds obtained by a history of allowed operations that only destroy bodies whose destructor is defined. A history goes on after an exception. -/
inductive Reachable (cfg : Cfg) : World → Prop
  | init : Reachable cfg init
  | op {w : World} (h : Reachable cfg w) (o : Op) (ha : o.Allowed w) (hd : o.DestroysSafely cfg w) : Reachable cfg (w.apply cfg o).1

end Simu.World
