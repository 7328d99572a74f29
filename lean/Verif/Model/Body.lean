import Verif.Model.Transform
import Verif.Model.Geometry
import Verif.Model.Collider
/-
Model of include/Simu/physics/{CombinableProperty,Material,Collider,Body,ForceField}.hpp, of
src/Simu/physics/Body.cpp and of World::applyForces (src/Simu/physics/World.cpp:125-160).
-/
namespace Simu

/-! ### Surface properties -/

/-- CombinableProperty.hpp:50-56 `Mode`. -/
inductive Mode | average | minimum | multiply | maximum
deriving DecidableEq, Repr

/-- The values of the enumerators, CombinableProperty.hpp:52-55. -/
def Mode.val : Mode → Nat
  | .average => 0
  | .minimum => 1
  | .multiply => 2
  | .maximum => 3

/-- CombinableProperty.hpp:43-84. -/
@[ext] structure CombinableProperty (K : Type*) where
  mode : Mode
  value : K
deriving DecidableEq, Repr

section
variable {K : Type*} [Field K] [LinearOrder K]

/-- CombinableProperty.hpp:69-79 `combine`; `std::min(a, b) = (b < a) ? b : a`, `std::max(a, b) = (a < b) ? b : a`. -/
def CombinableProperty.combineValues (mode : Mode) (first second : K) : K :=
  match mode with
  | .average => (first + second) / 2
  | .minimum => if second < first then second else first
  | .multiply => first * second
  | .maximum => if first < second then second else first

/-- CombinableProperty.hpp:63-67: the constructor from two properties. -/
def CombinableProperty.combine (first second : CombinableProperty K) : CombinableProperty K :=
  let mode := if first.mode.val < second.mode.val then second.mode else first.mode
  ⟨mode, combineValues mode first.value second.value⟩

/-- Material.hpp:37-85. -/
structure Material (K : Type*) where
  density : K
  bounciness : CombinableProperty K
  friction : CombinableProperty K
  penetration : CombinableProperty K

/-! ### Mass -/

/-- Collider.hpp:38-81 `MassProperties`. -/
@[ext] structure MassProperties (K : Type*) where
  m : K
  I : K
  centroid : Vec2 K
deriving DecidableEq

/-- Collider.hpp:40, 78-80: `MassProperties{}`. -/
instance : Zero (MassProperties K) := ⟨⟨0, 0, 0⟩⟩

/-- Collider.hpp:43-56: mass properties of a geometry of given density. -/
def MassProperties.ofGeometry [IsStrictOrderedRing K] (geometry : List (Vec2 K)) (density : K) : Outcome (MassProperties K) :=
  (Outcome.check (decide (0 < density))).bind fun _ =>
    (GeometricProperties.of geometry).bind fun properties =>
      (Outcome.check (!properties.isDegenerate)).bind fun _ =>
        .ok ⟨properties.area * density, properties.momentOfArea * density, properties.centroid⟩

/-- Collider.hpp:58-76 `operator+`. -/
def MassProperties.combine (lhs rhs : MassProperties K) : MassProperties K :=
  let m := lhs.m + rhs.m
  if m = 0 then ⟨m, 0, 0⟩
  else
    let centroid := Vec2.sdiv (lhs.m • lhs.centroid + rhs.m • rhs.centroid) m
    let inertiaAtOrigin := lhs.I + lhs.m * Vec2.normSquared lhs.centroid
    let inertiaAtOrigin := inertiaAtOrigin + (rhs.I + rhs.m * Vec2.normSquared rhs.centroid)
    ⟨m, inertiaAtOrigin - m * Vec2.normSquared centroid, centroid⟩

/-! ### Colliders -/

/-- Collider.hpp:115-193 `Collider`; `id` stands for its address. -/
structure Collider (K : Type*) where
  id : Nat
  geom : ColliderGeom K
  material : Material K

variable [IsStrictOrderedRing K]

/-- Collider.hpp:138-141 `properties`. -/
def Collider.properties (c : Collider K) : Outcome (MassProperties K) :=
  MassProperties.ofGeometry c.geom.localVerts c.material.density

/-- Collider.hpp:196-256 `Colliders`. -/
structure Colliders (K : Type*) where
  list : List (Collider K)
  properties : MassProperties K

namespace Colliders

/-- Collider.hpp:200 default constructor. -/
def empty : Colliders K := ⟨[], 0⟩

/-- Collider.hpp:217-225 `add`: the state left behind and how the call ended. The collider is in the list before
its mass properties are computed, which may throw. -/
def add (cs : Colliders K) (id : Nat) (polygon : List (Vec2 K)) (material : Material K) : Colliders K × Outcome Unit :=
  let c : Collider K := ⟨id, .make polygon, material⟩
  let cs : Colliders K := { cs with list := cs.list ++ [c] }
  match c.properties with
  | .ok p => ({ cs with properties := cs.properties.combine p }, .ok ())
  | .throw => (cs, .throw)
  | .ub => (cs, .ub)

/-- Collider.hpp:229-236: erases the first collider at the given address. -/
def eraseId (id : Nat) : List (Collider K) → List (Collider K)
  | [] => []
  | c :: l => if c.id = id then l else c :: eraseId id l

/-- Collider.hpp:238-240: the recomputation of the mass properties from the value `acc`. -/
def recompute (acc : MassProperties K) : List (Collider K) → MassProperties K × Outcome Unit
  | [] => (acc, .ok ())
  | c :: l =>
    match c.properties with
    | .ok p => recompute (acc.combine p) l
    | .throw => (acc, .throw)
    | .ub => (acc, .ub)

/-- Collider.hpp:227-241 `remove`. -/
def remove (cs : Colliders K) (id : Nat) : Colliders K × Outcome Unit :=
  let list := eraseId id cs.list
  let r := recompute 0 list
  (⟨list, r.1⟩, r.2)

/-- Collider.hpp:243-247 `update`. -/
def update (cs : Colliders K) (transform : Vec2 K → Vec2 K) : Colliders K :=
  { cs with list := cs.list.map fun c => { c with geom := c.geom.update transform } }

end Colliders

/-! ### Bodies -/

variable [Trig K]

/-- Body.hpp:196-430 `Body`. Constraints and contacts are left out here. `attached` tells whether `world_` is set. -/
structure Body (K : Type*) where
  position : Position K
  velocity : Vec2 K
  angular : K
  colliders : Colliders K
  dominance : K
  asleep : Bool
  attached : Bool

namespace Body

/-- Body.hpp:318 `centroid`. -/
def centroid (b : Body K) : Vec2 K := b.position.centroid

/-- Body.hpp:390 `update`. -/
def update (b : Body K) : Body K := { b with colliders := b.colliders.update b.position.toWorldSpace.app }

/-- Body.hpp:208-213: the constructor; `Velocity velocity_{}` is zero. `World::makeBody` sets `world_`. -/
def make (position : Vec2 K) (orientation dominance : K) : Body K :=
  update ⟨.make position orientation 0, 0, 0, .empty, dominance, false, false⟩

/-- Body.hpp:266-270 `setVelocity`. -/
def setVelocity (b : Body K) (v : Vec2 K) : Body K := { b with velocity := v, asleep := false }

/-- Body.hpp:276-280 `setAngularVelocity`. -/
def setAngularVelocity (b : Body K) (w : K) : Body K := { b with angular := w, asleep := false }

/-- Body.hpp:321-325. -/
def mass (b : Body K) : K := b.colliders.properties.m
/-- Body.hpp:321-325. -/
def inertia (b : Body K) : K := b.colliders.properties.I
/-- Body.hpp:321. -/
def invMass (b : Body K) : K := 1 / b.mass
/-- Body.hpp:322. -/
def invInertia (b : Body K) : K := 1 / b.inertia
/-- Body.hpp:331 `isStructural`. -/
def isStructural (b : Body K) : Bool := decide (b.dominance = 0)

/-- Body.hpp:243-249 `applyImpulse`. -/
def applyImpulse (b : Body K) (impulse whereFromCentroid : Vec2 K) : Body K :=
  let b := b.setVelocity (b.velocity + b.invMass • impulse)
  b.setAngularVelocity (b.angular + Vec2.cross whereFromCentroid impulse * b.invInertia)

/-- Body.hpp:231-234 `applyForce`. -/
def applyForce (b : Body K) (force : Vec2 K) (dt : K) (whereFromCentroid : Vec2 K) : Body K :=
  b.applyImpulse (dt • force) whereFromCentroid

/-- Body.cpp:55-60 (and 77-82): the adjustment made after the set of colliders changed. -/
def recenter (b : Body K) (oldCentroid : Vec2 K) : Body K :=
  let dvAtCentroid := b.angular • Vec2.perp (b.centroid - oldCentroid)
  let b := b.setVelocity (b.velocity + dvAtCentroid)
  let b := { b with position := b.position.setLocalCentroid b.colliders.properties.centroid }
  b.update

/-- Body.cpp:44-63 `addCollider`, for a new object at address `id`: the state left behind and how the call
ended. The insertion in the world's tree is left out (Model/RTree.lean). -/
def addCollider (b : Body K) (id : Nat) (polygon : List (Vec2 K)) (material : Material K) : Body K × Outcome Unit :=
  if !b.attached then (b, .throw)
  else
    let oldCentroid := b.centroid
    let r := b.colliders.add id polygon material
    let b := { b with colliders := r.1 }
    match r.2 with
    | .ok () => (b.recenter oldCentroid, .ok ())
    | e => (b, e)

/-- Body.cpp:65-83 `removeCollider`. `world_->removeCollider` on a null world is undefined; its effects on the tree
and on contacts are left out. -/
def removeCollider (b : Body K) (id : Nat) : Body K × Outcome Unit :=
  if !b.attached then (b, .ub)
  else
    let oldCentroid := b.centroid
    let r := b.colliders.remove id
    let b := { b with colliders := r.1 }
    match r.2 with
    | .ok () => if b.colliders.list.isEmpty then (b, .ok ()) else (b.recenter oldCentroid, .ok ())
    | e => (b, e)

/-- Body.hpp:217-221: the loop of the destructor over the nodes of `colliders_`. After each call the loop
advances its iterator, which is undefined if the node it designates is no longer in the list. -/
def destroyLoop (b : Body K) : List (Collider K) → Outcome Unit
  | [] => .ok ()
  | c :: rest =>
    let r := b.removeCollider c.id
    r.2.bind fun _ =>
      if r.1.colliders.list.any (fun c' => decide (c'.id = c.id)) then destroyLoop r.1 rest else .ub

/-- Body.hpp:217-221 `~Body`. -/
def destroy (b : Body K) : Outcome Unit := destroyLoop b b.colliders.list

end Body

/-! ### Force fields -/

/-- ForceField.hpp:74-125: the two force fields; `region` is `none` for the global domain. -/
inductive ForceField (K : Type*)
  | linear (force : Vec2 K) (region : Option (BoundingBox K))
  | gravity (acceleration : Vec2 K)

/-- ForceField.hpp:37-64: the domain of a field; `Gravity` is always global. -/
def ForceField.region : ForceField K → Option (BoundingBox K)
  | .linear _ r => r
  | .gravity _ => none

/-- ForceField.hpp:86-95 and 111-120 `apply`, for a collider of mass properties `p` of body `b`. -/
def ForceField.apply (f : ForceField K) (b : Body K) (p : MassProperties K) (dt : K) : Body K :=
  match f with
  | .linear force _ =>
    b.applyForce (b.invMass • (p.m • force)) dt (b.position.toWorldSpace.r.app (p.centroid - b.position.localCentroid.offset))
  | .gravity acceleration =>
    let whereFromCentroid := b.position.toWorldSpace.r.app (p.centroid - b.position.localCentroid.offset)
    b.applyForce (p.m • acceleration) dt whereFromCentroid

/-- World.cpp:134-139 `ApplyForce::operator()` on a collider of body `i`. -/
def applyToCollider (f : ForceField K) (dt : K) (bodies : Nat → Body K) (c : Nat × Collider K) : Outcome (Nat → Body K) :=
  let b := bodies c.1
  if !b.asleep && !b.isStructural then
    c.2.properties.bind fun p => .ok (Function.update bodies c.1 (f.apply b p dt))
  else .ok bodies

/-- A loop whose body may fail. -/
def foldlO {S A : Type*} (f : S → A → Outcome S) (s : S) : List A → Outcome S
  | [] => .ok s
  | a :: l => (f s a).bind fun s => foldlO f s l

/-- Whether the tree's query for `region` reports the collider: its bounding box overlaps the region
(`C24`, `C25` for the tree). -/
def inRegion (region : Option (BoundingBox K)) (c : Nat × Collider K) : Bool :=
  match region with
  | none => true
  | some r => match c.2.geom.box with
    | .ok box => r.overlaps box
    | _ => false

/-- World.cpp:125-160 `applyForces`; `tree` lists the elements of the collider tree in the order of iteration. -/
def applyForces (fields : List (ForceField K)) (dt : K) (tree : List (Nat × Collider K)) (bodies : Nat → Body K) :
    Outcome (Nat → Body K) :=
  foldlO (fun bodies f => foldlO (applyToCollider f dt) bodies (tree.filter (inRegion f.region))) bodies fields

end
end Simu
