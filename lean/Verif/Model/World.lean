import Verif.Model.Base
import Mathlib.Logic.Function.Basic
/-
Model of the objects owned by a world and of the pointers between them: include/Simu/physics/World.hpp, src/Simu/physics/World.cpp,
include/Simu/physics/PhysicsObject.hpp, and `addCollider`, `removeCollider` and the destructor of src/Simu/physics/Body.cpp and
include/Simu/physics/Body.hpp.

Addresses are numbers that are never used twice. An object that was freed has no record any more; reading it is undefined (`ub`). Positions,
velocities and sleeping are left out (see Model/Body.lean, Model/Island.lean and Model/Sleep.lean). Virtual functions that users may
override are those of the library's base classes; a user's `shouldDie` amounts to `kill`.
-/
namespace Simu.World

/-- Body.hpp:415-430, PhysicsObject.hpp:143: the members used. `structural` is `dominance() == 0.f`. -/
structure BodyRec where
  structural : Bool
  killed : Bool
  colliders : List Nat
  joints : List Nat
  contacts : List Nat
  deriving DecidableEq

/-- ConstraintInterfaces.hpp:115-116, PhysicsObject.hpp:143: the members used of a `Constraint`. -/
structure JointRec where
  b0 : Nat
  b1 : Nat
  disables : Bool
  killed : Bool
  deriving DecidableEq

/-- World.hpp:381-386, Constraint.hpp:178-192: an element of `contacts_`: its key, the bodies of the contact, whether it is killed, and `hit`.
`existingContact` is never null: World.cpp:309-310 evaluates the right side first. -/
structure ContactRec where
  key : Nat × Nat
  b0 : Nat
  b1 : Nat
  killed : Bool
  hit : Bool
  deriving DecidableEq

/-- The objects of a world. -/
inductive Obj where
  | body (n : Nat)
  | joint (n : Nat)
  | contact (n : Nat)
  | force (n : Nat)
  deriving DecidableEq

/-- What is recorded: `onConstruction` was called, `onDestruction` was called, the object was destroyed. -/
inductive Event where
  | constructed (o : Obj)
  | notified (o : Obj)
  | freed (o : Obj)
  deriving DecidableEq

/-- World.hpp:361-432: members. `tree` are the colliders in `colliderTree_`; `broken`: an exception left `colliderTree_.root_` pointing to a freed
node. `owner` is `Collider::body_`. `contacts_` has no order; here it is listed in the order of insertion. -/
@[ext] structure World where
  bodies : List Nat
  body : Nat → Option BodyRec
  joints : List Nat
  joint : Nat → Option JointRec
  contacts : List Nat
  contact : Nat → Option ContactRec
  forces : List (Nat × Bool)
  tree : List Nat
  broken : Bool
  owner : Nat → Nat
  next : Nat
  log : List Event

/-- How the destructor of `Body` is understood. `false`: as it is written (Body.hpp:217-221): the range-based `for` increments an iterator to
an erased element. `true`: as it was meant, the loop visits every collider. -/
structure Cfg where
  repairedDestructor : Bool

/-- World.cpp:32: a new world. -/
def init : World := ⟨[], fun _ => none, [], fun _ => none, [], fun _ => none, [], [], false, fun _ => 0, 0, []⟩

namespace World

/-- Changes a body that exists. -/
def setBody (w : World) (b : Nat) (r : BodyRec) : World := { w with body := Function.update w.body b (some r) }

/-- Changes a contact that exists. -/
def setContact (w : World) (n : Nat) (c : ContactRec) : World := { w with contact := Function.update w.contact n (some c) }

/-- `body->isDead()` (PhysicsObject.hpp:66). -/
def bodyDead (w : World) (b : Nat) : Outcome Bool := match w.body b with | none => .ub | some r => .ok r.killed

/-- ConstraintInterfaces.hpp:102-109 `shouldDie`; Bodies.hpp:210-213: a body is visited once if both are the same. -/
def anyDead (w : World) (b0 b1 : Nat) : Outcome Bool :=
  (w.bodyDead b0).bind fun d => if d then .ok true else if b0 = b1 then .ok false else w.bodyDead b1

/-- `isDead` of a contact. -/
def contactDead (w : World) (n : Nat) : Outcome Bool :=
  match w.contact n with
  | none => .ub
  | some c => if c.killed then .ok true else w.anyDead c.b0 c.b1

/-- `isDead` of a constraint. -/
def jointDead (w : World) (n : Nat) : Outcome Bool :=
  match w.joint n with
  | none => .ub
  | some j => if j.killed then .ok true else w.anyDead j.b0 j.b1

/-- World.cpp:233 `std::erase(b->contacts_, contact)`. -/
def unlistContact (w : World) (n b : Nat) : Outcome World :=
  match w.body b with
  | none => .ub
  | some r => .ok (w.setBody b { r with contacts := r.contacts.filter (· ≠ n) })

/-- World.cpp:256 `std::erase(body->constraints_, c->get())`. -/
def unlistJoint (w : World) (n b : Nat) : Outcome World :=
  match w.body b with
  | none => .ub
  | some r => .ok (w.setBody b { r with joints := r.joints.filter (· ≠ n) })

/-- World.cpp:226-243: the loop over the contacts. -/
def cleanContacts : List Nat → World → Outcome World
  | [], w => .ok w
  | n :: ns, w =>
    (w.contactDead n).bind fun dead =>
      if dead then
        match w.contact n with
        | none => .ub
        | some c =>
          (w.unlistContact n c.b0).bind fun w =>
          (if c.b0 = c.b1 then .ok w else w.unlistContact n c.b1).bind fun w =>
            cleanContacts ns
              { w with
                contacts := w.contacts.filter (· ≠ n)
                contact := Function.update w.contact n none
                log := w.log ++ [.freed (.contact n)] }
      else cleanContacts ns w

/-- World.cpp:248 `deadObjects(constraints_)`. -/
def deadJoints (w : World) : List Nat → Outcome (List Nat)
  | [] => .ok []
  | n :: ns => (w.jointDead n).bind fun dead => (deadJoints w ns).bind fun l => .ok (if dead then n :: l else l)

/-- World.cpp:252-259. -/
def unlistJoints : List Nat → World → Outcome World
  | [], w => .ok w
  | n :: ns, w =>
    match w.joint n with
    | none => .ub
    | some j =>
      (w.unlistJoint n j.b0).bind fun w =>
      (if j.b0 = j.b1 then .ok w else w.unlistJoint n j.b1).bind fun w => unlistJoints ns w

/-- World.cpp:217-221: kills the contacts of a collider among those of its body. -/
def killContactsOf (k : Nat) : List Nat → World → Outcome World
  | [], w => .ok w
  | n :: ns, w =>
    match w.contact n with
    | none => .ub
    | some c => killContactsOf k ns (if c.key.1 = k ∨ c.key.2 = k then w.setContact n { c with killed := true } else w)

/-- World.cpp:212-222 `World::removeCollider`. A collider that is not in the tree has no valid `treeLocation_`. -/
def untree (w : World) (k : Nat) : Outcome World :=
  if w.broken ∨ k ∉ w.tree then .ub
  else
    let w := { w with tree := w.tree.filter (· ≠ k) }
    match w.body (w.owner k) with
    | none => .ub
    | some r => killContactsOf k r.contacts w

/-- Removes a collider from the list of its body (Collider.hpp:229-236). -/
def unlistCollider (w : World) (k : Nat) : Outcome World :=
  match w.body (w.owner k) with
  | none => .ub
  | some r => .ok (w.setBody (w.owner k) { r with colliders := r.colliders.filter (· ≠ k) })

/-- Body.cpp:65-83 `Body::removeCollider`, called on the body of the collider. The mass properties are computed again: this throws if
a collider that was refused (and hence is not in the tree) is still there. -/
def removeCollider (w : World) (k : Nat) : World × Outcome Unit :=
  match (w.untree k).bind fun w => w.unlistCollider k with
  | .ok w' =>
    match w'.body (w'.owner k) with
    | none => (w', .ub)
    | some r => (w', if r.colliders.all (· ∈ w'.tree) then .ok () else .throw)
  | .throw => (w, .throw)
  | .ub => (w, .ub)

/-- Body.hpp:219-220: the loop of the destructor, if it visits every collider. An exception in a destructor ends the program. -/
def removeColliders : List Nat → World → Outcome World
  | [], w => .ok w
  | k :: ks, w =>
    match w.removeCollider k with
    | (w, .ok ()) => removeColliders ks w
    | _ => .ub

/-- World.cpp:267, Body.hpp:217-221: destroys one body. -/
def destroyBody (cfg : Cfg) (w : World) (b : Nat) : Outcome World :=
  match w.body b with
  | none => .ub
  | some r =>
    (if r.colliders = [] then .ok w else if cfg.repairedDestructor then removeColliders r.colliders w else .ub).bind fun w =>
      .ok { w with
            bodies := w.bodies.filter (· ≠ b)
            body := Function.update w.body b none
            log := w.log ++ [.freed (.body b)] }

/-- World.cpp:267 (and `bodies_.clear()`). -/
def destroyBodies (cfg : Cfg) : List Nat → World → Outcome World
  | [], w => .ok w
  | b :: bs, w => (w.destroyBody cfg b).bind (destroyBodies cfg bs)

/-- World.cpp:224-268 `cleanup`. -/
def cleanup (cfg : Cfg) (w : World) : Outcome World :=
  (cleanContacts w.contacts w).bind fun w =>
  (w.deadJoints w.joints).bind fun dj =>
    let df := (w.forces.filter (·.2)).map (·.1)
    let db := w.bodies.filter fun b => (w.body b).any (·.killed)
    (unlistJoints dj w).bind fun w =>
      let w : World :=
        { w with
          joints := w.joints.filter (· ∉ dj)
          joint := fun n => if n ∈ dj then none else w.joint n
          forces := w.forces.filter fun f => !f.2
          log := w.log ++ (dj.map (.notified <| .joint ·) ++ df.map (.notified <| .force ·) ++ db.map (.notified <| .body ·)) ++
            (dj.map (.freed <| .joint ·) ++ df.map (.freed <| .force ·)) }
      destroyBodies cfg db w

/-- `colliders[i]` still is a collider. -/
def colliderAlive (w : World) (k : Nat) : Bool := (w.body (w.owner k)).any fun r => decide (k ∈ r.colliders)

/-- World.cpp:70-72: the colliders of every contact are read. -/
def contactsReadable (w : World) : Bool :=
  w.contacts.all fun n => (w.contact n).any fun c => w.colliderAlive c.key.1 && w.colliderAlive c.key.2

/-- World.cpp:152-157, 318-320: the colliders in the tree are read. -/
def treeReadable (w : World) : Bool := !w.broken && w.tree.all w.colliderAlive

/-- Island.hpp, Body.cpp:36-39: the constraints and contacts listed by each body are read, and their bodies. -/
def graphReadable (w : World) : Bool :=
  w.bodies.all fun b => (w.body b).any fun r =>
    (r.joints.all fun n => (w.joint n).any fun j => (w.body j.b0).isSome && (w.body j.b1).isSome) &&
    (r.contacts.all fun n => (w.contact n).any fun c => (w.body c.b0).isSome && (w.body c.b1).isSome)

/-- World.cpp:296-304: is there a constraint of `b0` (among those left) that disables contacts with `b1`. -/
def disabled (w : World) (b1 : Nat) : List Nat → Outcome Bool
  | [] => .ok false
  | n :: ns =>
    match w.joint n with
    | none => .ub
    | some j => if j.disables && (j.b0 == b1 || j.b1 == b1) then .ok true else disabled w b1 ns

/-- World.hpp:412-421 `inContacts`. -/
def inContacts (w : World) (k0 k1 : Nat) : Option Nat :=
  match w.contacts.find? fun n => (w.contact n).any fun c => decide (c.key = (k0, k1)) with
  | some n => some n
  | none => w.contacts.find? fun n => (w.contact n).any fun c => decide (c.key = (k1, k0))

/-- World.cpp:118 `body->contacts_.emplace_back(c.get())`. -/
def listContact (w : World) (n b : Nat) : Outcome World :=
  match w.body b with
  | none => .ub
  | some r => .ok (w.setBody b { r with contacts := r.contacts ++ [n] })

/-- World.cpp:109-123, 309-310: makes a contact, which throws for two structural bodies (ConstraintInterfaces.hpp:71-80). -/
def makeContact (w : World) (k0 k1 : Nat) : Outcome World :=
  match w.body (w.owner k0), w.body (w.owner k1) with
  | some r0, some r1 =>
    if r0.structural && r1.structural then .throw
    else
      let n := w.next
      (({ w with log := w.log ++ [.constructed (.contact n)] } : World).listContact n (w.owner k0)).bind fun w =>
      (w.listContact n (w.owner k1)).bind fun w =>
        .ok { w with
              next := n + 1
              contacts := w.contacts ++ [n]
              contact := Function.update w.contact n (some ⟨(k0, k1), w.owner k0, w.owner k1, false, true⟩) }
  | _, _ => .ub

/-- World.cpp:288-313 `registerContact`. -/
def registerContact (w : World) (k0 k1 : Nat) : Outcome World :=
  if w.owner k0 = w.owner k1 then .ok w
  else
    match w.body (w.owner k0) with
    | none => .ub
    | some r0 =>
      (w.disabled (w.owner k1) r0.joints).bind fun d =>
        if d then .ok w
        else
          match w.inContacts k0 k1 with
          | none => w.makeContact k0 k1
          | some n =>
            match w.contact n with
            | none => .ub
            | some c => .ok (w.setContact n { c with hit := true })

/-- The calls of `registerContact` by the tree; what was done before an exception stays. -/
def registerAll : List (Nat × Nat) → World → World × Outcome Unit
  | [], w => (w, .ok ())
  | p :: ps, w =>
    match w.registerContact p.1 p.2 with
    | .ok w => registerAll ps w
    | .throw => (w, .throw)
    | .ub => (w, .ub)

/-- World.cpp:325-334: contacts that were not hit are killed, and the flags are reset. -/
def settle (w : World) : World :=
  { w with contact := fun n => if n ∈ w.contacts then (w.contact n).map fun c => { c with killed := c.killed || !c.hit, hit := false } else w.contact n }

/-- Where a step may fail: in a `preStep`, or while solving. -/
inductive Stage where
  | preStep
  | solve
  deriving DecidableEq

/-- World.cpp:36-103 `step`. `positive` is `dt > 0.f`. `collide` gives the calls of `registerContact` made by `colliderTree_.updateAndCollide`. If one of
them throws, the tree is left with a root that points to a recycled node (RTree.hpp:154-164). -/
def step (cfg : Cfg) (w : World) (positive : Bool) (collide : List Nat → List (Nat × Nat)) (fail : Option Stage) : World × Outcome Unit :=
  match w.cleanup cfg with
  | .ub => (w, .ub)
  | .throw => (w, .throw)
  | .ok w =>
    if !w.contactsReadable then (w, .ub)
    else if fail = some .preStep then (w, .throw)
    else if !positive then (w, .ok ())
    else if !w.treeReadable || !w.graphReadable then (w, .ub)
    else if fail = some .solve then (w, .throw)
    else
      match registerAll (collide w.tree) w with
      | (w, .ok ()) => (w.settle, .ok ())
      | (w, .throw) => ({ w with broken := true }, .throw)
      | (w, .ub) => (w, .ub)

/-- World.hpp:189-203 `makeBody`. -/
def makeBody (w : World) (structural : Bool) : World :=
  { w with
    bodies := w.bodies ++ [w.next]
    body := Function.update w.body w.next (some ⟨structural, false, [], [], []⟩)
    next := w.next + 1
    log := w.log ++ [.constructed (.body w.next)] }

/-- World.hpp:220 `body->constraints_.emplace_back(c)`. -/
def listJoint (w : World) (n b : Nat) : Outcome World :=
  match w.body b with
  | none => .ub
  | some r => .ok (w.setBody b { r with joints := r.joints ++ [n] })

/-- World.hpp:209-225 `makeConstraint`; `refused`: the constructor of the constraint throws. -/
def makeConstraint (w : World) (b0 b1 : Nat) (disables refused : Bool) : World × Outcome Unit :=
  if (w.body b0).isNone ∨ (w.body b1).isNone then (w, .ub)
  else if refused then (w, .throw)
  else
    let n := w.next
    let w' : World :=
      { w with
        next := n + 1
        joints := w.joints ++ [n]
        joint := Function.update w.joint n (some ⟨b0, b1, disables, false⟩)
        log := w.log ++ [.constructed (.joint n)] }
    match (w'.listJoint n b0).bind fun w => if b0 = b1 then .ok w else w.listJoint n b1 with
    | .ok w => (w, .ok ())
    | .throw => (w, .throw)
    | .ub => (w, .ub)

/-- World.hpp:232-251 `makeForceField`. -/
def makeForce (w : World) : World :=
  { w with
    forces := w.forces ++ [(w.next, false)]
    next := w.next + 1
    log := w.log ++ [.constructed (.force w.next)] }

/-- Body.cpp:44-63 `Body::addCollider`, Collider.hpp:217-225; `valid`: its mass properties can be computed. Otherwise this throws after the collider was
put in the list of the body. -/
def addCollider (w : World) (b : Nat) (valid : Bool) : World × Outcome Unit :=
  match w.body b with
  | none => (w, .ub)
  | some r =>
    let k := w.next
    let w := { w.setBody b { r with colliders := r.colliders ++ [k] } with next := k + 1, owner := Function.update w.owner k b }
    if !valid then (w, .throw)
    else if w.broken then (w, .ub)
    else ({ w with tree := w.tree ++ [k] }, .ok ())

/-- PhysicsObject.hpp:67-71 `kill`, on a body. -/
def killBody (w : World) (b : Nat) : World × Outcome Unit :=
  match w.body b with
  | none => (w, .ub)
  | some r => (w.setBody b { r with killed := true }, .ok ())

/-- PhysicsObject.hpp:67-71 `kill`, on a constraint. -/
def killJoint (w : World) (n : Nat) : World × Outcome Unit :=
  match w.joint n with
  | none => (w, .ub)
  | some j => ({ w with joint := Function.update w.joint n (some { j with killed := true }) }, .ok ())

/-- PhysicsObject.hpp:67-71 `kill`, on a contact. -/
def killContact (w : World) (n : Nat) : World × Outcome Unit :=
  match w.contact n with
  | none => (w, .ub)
  | some c => (w.setContact n { c with killed := true }, .ok ())

/-- PhysicsObject.hpp:67-71 `kill`, on a force field. -/
def killForce (w : World) (n : Nat) : World × Outcome Unit :=
  if n ∈ w.forces.map (·.1) then ({ w with forces := w.forces.map fun f => if f.1 = n then (n, true) else f }, .ok ()) else (w, .ub)

/-- World.hpp:130-137 `clear`. `colliderTree_.clear()` reads the root. -/
def clear (cfg : Cfg) (w : World) : World × Outcome Unit :=
  match destroyBodies cfg w.bodies w with
  | .ok w =>
    if w.broken then (w, .ub)
    else
      ({ w with
         forces := []
         contacts := []
         contact := fun _ => none
         joints := []
         joint := fun _ => none
         tree := []
         log := w.log ++ (w.forces.map (.freed <| .force ·.1) ++ w.contacts.map (.freed <| .contact ·) ++ w.joints.map (.freed <| .joint ·)) },
       .ok ())
  | .throw => (w, .throw)
  | .ub => (w, .ub)

/-- World.hpp:139-143 `setContactFactory`. -/
def setContactFactory (w : World) : World :=
  { w with
    contacts := []
    contact := fun _ => none
    log := w.log ++ w.contacts.map (.freed <| .contact ·) }

end World

/-- The operations of users. -/
inductive Op where
  | makeBody (structural : Bool)
  | makeConstraint (b0 b1 : Nat) (disables refused : Bool)
  | makeForce
  | addCollider (b : Nat) (valid : Bool)
  | removeCollider (k : Nat)
  | killBody (b : Nat)
  | killJoint (n : Nat)
  | killContact (n : Nat)
  | killForce (n : Nat)
  | step (positive : Bool) (collide : List Nat → List (Nat × Nat)) (fail : Option World.Stage)
  | clear
  | setContactFactory

/-- Effect of an operation: the functions above. -/
def World.apply (cfg : Cfg) (w : World) : Op → World × Outcome Unit
  | .makeBody s => (w.makeBody s, .ok ())
  | .makeConstraint b0 b1 d r => w.makeConstraint b0 b1 d r
  | .makeForce => (w.makeForce, .ok ())
  | .addCollider b v => w.addCollider b v
  | .removeCollider k => w.removeCollider k
  | .killBody b => w.killBody b
  | .killJoint n => w.killJoint n
  | .killContact n => w.killContact n
  | .killForce n => w.killForce n
  | .step p c f => w.step cfg p c f
  | .clear => w.clear cfg
  | .setContactFactory => (w.setContactFactory, .ok ())

end Simu.World
