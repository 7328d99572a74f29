import Verif.Model.World
import Verif.Model.Sleep
/-
Model of who is woken by whom: the functions of Model/World.lean with the calls of `wake` and `sleep` that they make
(include/Simu/physics/World.hpp, src/Simu/physics/World.cpp, src/Simu/physics/Body.cpp, include/Simu/physics/Motors.hpp).
What each function does to the objects of the world is what the function of the same name in Model/World.lean does (`Lemmas/WorldSleep`).
-/
namespace Simu.World
variable {K : Type*} [Field K] [LinearOrder K]

/-- A world with the members of its bodies that concern sleeping (Body.hpp:421-422) and the settings in force (World.hpp:283-286). -/
structure RestWorld (K : Type*) where
  world : World
  clock : Nat → Sleep.Clock K
  settings : Sleep.Settings K

namespace RestWorld

/-- `body->wake()` (Body.hpp:351). -/
def wake (s : RestWorld K) (b : Nat) : RestWorld K := { s with clock := Function.update s.clock b (Sleep.wake (s.clock b)) }

/-- Wakes some bodies. -/
def wakeAll (s : RestWorld K) (bs : List Nat) : RestWorld K := bs.foldl wake s

/-- World.hpp:283-286, 429, World.cpp:32-34: a new world, whose settings are the default ones (with the delay and thresholds 1, 1/1000, 1/1000). -/
def init : RestWorld K := ⟨World.init, fun _ => .new, ⟨false, 1 / 1000, 1 / 1000, 1⟩⟩

/-- World.cpp:226-243: the loop over the contacts; both bodies of a dead contact are woken. -/
def cleanContacts : List Nat → RestWorld K → Outcome (RestWorld K)
  | [], s => .ok s
  | n :: ns, s =>
    (s.world.contactDead n).bind fun dead =>
      if dead then
        match s.world.contact n with
        | none => .ub
        | some c =>
          (s.world.unlistContact n c.b0).bind fun w =>
            let s := ({ s with world := w } : RestWorld K).wake c.b0
            (if c.b0 = c.b1 then .ok s else (s.world.unlistContact n c.b1).bind fun w => .ok (({ s with world := w } : RestWorld K).wake c.b1)).bind fun s =>
              cleanContacts ns { s with world :=
                { s.world with
                  contacts := s.world.contacts.filter (· ≠ n)
                  contact := Function.update s.world.contact n none
                  log := s.world.log ++ [.freed (.contact n)] } }
      else cleanContacts ns s

/-- World.cpp:252-259: both bodies of a dead constraint are woken. -/
def unlistJoints : List Nat → RestWorld K → Outcome (RestWorld K)
  | [], s => .ok s
  | n :: ns, s =>
    match s.world.joint n with
    | none => .ub
    | some j =>
      (s.world.unlistJoint n j.b0).bind fun w =>
        let s := ({ s with world := w } : RestWorld K).wake j.b0
        (if j.b0 = j.b1 then .ok s else (s.world.unlistJoint n j.b1).bind fun w => .ok (({ s with world := w } : RestWorld K).wake j.b1)).bind fun s => unlistJoints ns s

/-- Body.cpp:65-83 `Body::removeCollider`: `setVelocity` wakes the body, unless it has no collider left or an exception comes first. -/
def removeCollider (s : RestWorld K) (k : Nat) : RestWorld K × Outcome Unit :=
  match s.world.removeCollider k with
  | (w, .ok ()) =>
    if (w.body (w.owner k)).any fun r => r.colliders.isEmpty then ({ s with world := w }, .ok ())
    else (({ s with world := w } : RestWorld K).wake (w.owner k), .ok ())
  | (w, r) => ({ s with world := w }, r)

/-- Body.hpp:219-220: the loop of the destructor, if it visits every collider. -/
def removeColliders : List Nat → RestWorld K → Outcome (RestWorld K)
  | [], s => .ok s
  | k :: ks, s =>
    match s.removeCollider k with
    | (s, .ok ()) => removeColliders ks s
    | _ => .ub

/-- World.cpp:267, Body.hpp:217-221: destroys one body. -/
def destroyBody (cfg : Cfg) (s : RestWorld K) (b : Nat) : Outcome (RestWorld K) :=
  match s.world.body b with
  | none => .ub
  | some r =>
    (if r.colliders = [] then .ok s else if cfg.repairedDestructor then removeColliders r.colliders s else .ub).bind fun s =>
      .ok { s with world :=
            { s.world with
              bodies := s.world.bodies.filter (· ≠ b)
              body := Function.update s.world.body b none
              log := s.world.log ++ [.freed (.body b)] } }

/-- World.cpp:267 (and `bodies_.clear()`). -/
def destroyBodies (cfg : Cfg) : List Nat → RestWorld K → Outcome (RestWorld K)
  | [], s => .ok s
  | b :: bs, s => (s.destroyBody cfg b).bind (destroyBodies cfg bs)

/-- World.cpp:224-268 `cleanup`. -/
def cleanup (cfg : Cfg) (s : RestWorld K) : Outcome (RestWorld K) :=
  (cleanContacts s.world.contacts s).bind fun s =>
  (s.world.deadJoints s.world.joints).bind fun dj =>
    let df := (s.world.forces.filter (·.2)).map (·.1)
    let db := s.world.bodies.filter fun b => (s.world.body b).any (·.killed)
    (unlistJoints dj s).bind fun s =>
      let w : World :=
        { s.world with
          joints := s.world.joints.filter (· ∉ dj)
          joint := fun n => if n ∈ dj then none else s.world.joint n
          forces := s.world.forces.filter fun f => !f.2
          log := s.world.log ++ (dj.map (.notified <| .joint ·) ++ df.map (.notified <| .force ·) ++ db.map (.notified <| .body ·)) ++
            (dj.map (.freed <| .joint ·) ++ df.map (.freed <| .force ·)) }
      destroyBodies cfg db { s with world := w }

/-- World.cpp:109-123, 309-310: the bodies of a new contact are woken. -/
def makeContact (s : RestWorld K) (k0 k1 : Nat) : Outcome (RestWorld K) :=
  (s.world.makeContact k0 k1).bind fun w => .ok ((({ s with world := w } : RestWorld K).wake (w.owner k0)).wake (w.owner k1))

/-- World.cpp:288-313 `registerContact`. -/
def registerContact (s : RestWorld K) (k0 k1 : Nat) : Outcome (RestWorld K) :=
  if s.world.owner k0 = s.world.owner k1 then .ok s
  else
    match s.world.body (s.world.owner k0) with
    | none => .ub
    | some r0 =>
      (s.world.disabled (s.world.owner k1) r0.joints).bind fun d =>
        if d then .ok s
        else
          match s.world.inContacts k0 k1 with
          | none => s.makeContact k0 k1
          | some n =>
            match s.world.contact n with
            | none => .ub
            | some c => .ok { s with world := s.world.setContact n { c with hit := true } }

/-- The calls of `registerContact` by the tree; what was done before an exception stays. -/
def registerAll : List (Nat × Nat) → RestWorld K → RestWorld K × Outcome Unit
  | [], s => (s, .ok ())
  | p :: ps, s =>
    match s.registerContact p.1 p.2 with
    | .ok s => registerAll ps s
    | .throw => (s, .throw)
    | .ub => (s, .ub)

/-- World.cpp:137: forces are applied to the colliders of this body. -/
def receivesForces (s : RestWorld K) (b : Nat) : Bool := (s.world.body b).any fun r => !(s.clock b).asleep && !r.structural

/-- World.cpp:272-284: the clocks advance and bodies fall asleep; `v` are the velocities after solving. -/
def doze (s : RestWorld K) (dt : K) (v : Nat → K × K × K) : RestWorld K :=
  { s with clock := fun b => if b ∈ s.world.bodies then Sleep.update s.settings dt (v b).1 (v b).2.1 (v b).2.2 (s.clock b) else s.clock b }

/-- World.cpp:36-103 `step`. `solve` gives the bodies that `solveIslands` wakes (Island.hpp:289-293; up to the failure if it fails) and the velocities that it leaves. -/
def step (cfg : Cfg) (s : RestWorld K) (dt : K) (collide : List Nat → List (Nat × Nat)) (fail : Option World.Stage)
    (solve : RestWorld K → List Nat × (Nat → K × K × K)) : RestWorld K × Outcome Unit :=
  match s.cleanup cfg with
  | .ub => (s, .ub)
  | .throw => (s, .throw)
  | .ok s =>
    if !s.world.contactsReadable then (s, .ub)
    else if fail = some .preStep then (s, .throw)
    else if !decide (0 < dt) then (s, .ok ())
    else if !s.world.treeReadable || !s.world.graphReadable then (s, .ub)
    else if fail = some .solve then (s.wakeAll (solve s).1, .throw)
    else
      match registerAll (collide s.world.tree) ((s.wakeAll (solve s).1).doze dt (solve s).2) with
      | (s, .ok ()) => ({ s with world := s.world.settle }, .ok ())
      | (s, .throw) => ({ s with world := { s.world with broken := true } }, .throw)
      | (s, .ub) => (s, .ub)

/-- World.hpp:189-203 `makeBody`: a new body is awake. -/
def makeBody (s : RestWorld K) (structural : Bool) : RestWorld K :=
  { s with world := s.world.makeBody structural, clock := Function.update s.clock s.world.next .new }

/-- World.hpp:209-225 `makeConstraint`: the bodies of the constraint are woken. -/
def makeConstraint (s : RestWorld K) (b0 b1 : Nat) (disables refused : Bool) : RestWorld K × Outcome Unit :=
  match s.world.makeConstraint b0 b1 disables refused with
  | (w, .ok ()) => ((({ s with world := w } : RestWorld K).wake b0).wake b1, .ok ())
  | (w, r) => ({ s with world := w }, r)

/-- World.hpp:232-251 `makeForceField`: the bodies of its domain are woken; `domain` are the colliders that touch its region, `none` for a global one. -/
def makeForce (s : RestWorld K) (domain : Option (Nat → Bool)) : RestWorld K :=
  let s : RestWorld K := { s with world := s.world.makeForce }
  match domain with
  | none => s.wakeAll s.world.bodies
  | some d => s.wakeAll ((s.world.tree.filter d).map s.world.owner)

/-- Body.cpp:44-63 `Body::addCollider`: `setVelocity` wakes the body, unless an exception comes first. -/
def addCollider (s : RestWorld K) (b : Nat) (valid : Bool) : RestWorld K × Outcome Unit :=
  match s.world.addCollider b valid with
  | (w, .ok ()) => (({ s with world := w } : RestWorld K).wake b, .ok ())
  | (w, .throw) => ({ s with world := w }, .throw)
  | (w, .ub) => (({ s with world := w } : RestWorld K).wake b, .ub)

/-- World.hpp:293-300 `updateSettings`. -/
def updateSettings (s : RestWorld K) (settings : Sleep.Settings K) : RestWorld K :=
  { (if !settings.enableSleeping && s.settings.enableSleeping then s.wakeAll s.world.bodies else s) with settings := settings }

/-- World.hpp:130-137 `clear`. -/
def clear (cfg : Cfg) (s : RestWorld K) : RestWorld K × Outcome Unit :=
  match destroyBodies cfg s.world.bodies s with
  | .ok s' => ({ s' with world := (s.world.clear cfg).1 }, (s.world.clear cfg).2)
  | .throw => (s, .throw)
  | .ub => (s, .ub)

end RestWorld

/-- The operations of users. `touch` is any call that wakes a body: `wake`, `setVelocity`, `setAngularVelocity`, `applyImpulse` (Body.hpp:243-281), and the
throttle and direction of motors (Motors.hpp:204-217, 282-295). -/
inductive RestOp (K : Type*) where
  | makeBody (structural : Bool)
  | makeConstraint (b0 b1 : Nat) (disables refused : Bool)
  | makeForce (domain : Option (Nat → Bool))
  | addCollider (b : Nat) (valid : Bool)
  | removeCollider (k : Nat)
  | killBody (b : Nat)
  | killJoint (n : Nat)
  | killContact (n : Nat)
  | killForce (n : Nat)
  | step (dt : K) (collide : List Nat → List (Nat × Nat)) (fail : Option World.Stage) (solve : RestWorld K → List Nat × (Nat → K × K × K))
  | clear
  | setContactFactory
  | touch (b : Nat)
  | updateSettings (s : Sleep.Settings K)

/-- Effect of an operation: the functions above; killing an object wakes nobody yet (PhysicsObject.hpp:67-71). -/
def RestWorld.apply (cfg : Cfg) (s : RestWorld K) : RestOp K → RestWorld K × Outcome Unit
  | .makeBody b => (s.makeBody b, .ok ())
  | .makeConstraint b0 b1 d r => s.makeConstraint b0 b1 d r
  | .makeForce d => (s.makeForce d, .ok ())
  | .addCollider b v => s.addCollider b v
  | .removeCollider k => s.removeCollider k
  | .killBody b => ({ s with world := (s.world.killBody b).1 }, (s.world.killBody b).2)
  | .killJoint n => ({ s with world := (s.world.killJoint n).1 }, (s.world.killJoint n).2)
  | .killContact n => ({ s with world := (s.world.killContact n).1 }, (s.world.killContact n).2)
  | .killForce n => ({ s with world := (s.world.killForce n).1 }, (s.world.killForce n).2)
  | .step dt c f v => s.step cfg dt c f v
  | .clear => s.clear cfg
  | .setContactFactory => ({ s with world := s.world.setContactFactory }, .ok ())
  | .touch b => if (s.world.body b).isNone then (s, .ub) else (s.wake b, .ok ())
  | .updateSettings t => (s.updateSettings t, .ok ())

end Simu.World
