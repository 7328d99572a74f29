import Verif.Model.World
import Verif.Model.RTree
/-
A world together with its tree of colliders: src/Simu/physics/World.cpp, include/Simu/physics/World.hpp and src/Simu/physics/Body.cpp.
The world is that of Model/World.lean, where the calls made by the tree are a parameter; the tree is that of Model/RTree.lean,
whose elements are the colliders. Here each operation drives both, so that the calls are those of the tree as it is.
-/
namespace Simu.World
open World RTree
variable {K C : Type*} [Field K] [LinearOrder K]

/-- World.hpp:361-432: the members, with `colliderTree_`. -/
structure Engine (K : Type*) where
  world : World
  root : Node K Nat

/-- World.cpp:32: a new world, with an empty tree (RTree.hpp:69-72). -/
def Engine.init : Engine K := ⟨World.init, RTree.empty⟩

/-- Operations that neither add nor remove colliders, and do not look for contacts. -/
def Op.quiet : Op → Bool
  | .addCollider _ _ => false
  | .removeCollider _ => false
  | .step _ _ _ => false
  | .clear => false
  | _ => true

/-- The operations of users. A collider comes with its bounding box (`none`: it is refused); a step with the bounding boxes of the colliders after the
bodies moved. -/
inductive EngineOp (K : Type*) where
  | quiet (o : Op) (h : o.quiet = true)
  | addCollider (b : Nat) (box : Option (BoundingBox K))
  | removeCollider (k : Nat)
  | step (positive : Bool) (boxes : Nat → BoundingBox K) (fail : Option World.Stage)
  | clear

namespace Engine

/-- Body.hpp:217-221, Body.cpp:69, World.cpp:214: erases colliders from the tree, one after the other. -/
def eraseAll (tc : RTree.Cfg K C) : List Nat → Node K Nat → Outcome (Node K Nat)
  | [], t => .ok t
  | k :: ks, t => (RTree.erase tc t k).bind (eraseAll tc ks)

/-- World.cpp:260-267, Body.hpp:217-221: the colliders of the given bodies, in the order in which the bodies are destroyed. -/
def collidersOf (w : World) (bs : List Nat) : List Nat := bs.flatMap fun b => ((w.body b).map (·.colliders)).getD []

/-- Body.cpp:44-63, World.hpp:331-336: the collider is put in the tree last. -/
def addCollider (tc : RTree.Cfg K C) (pq : PQ (Cand K C Nat)) (e : Engine K) (b : Nat) (box : Option (BoundingBox K)) : Engine K × Outcome Unit :=
  let r := e.world.addCollider b box.isSome
  match r.2, box with
  | .ok (), some box =>
    match RTree.insert tc pq e.root box e.world.next with
    | .ok t => (⟨r.1, t⟩, .ok ())
    | .throw => (⟨r.1, e.root⟩, .throw)
    | .ub => (⟨r.1, e.root⟩, .ub)
  | o, _ => (⟨r.1, e.root⟩, o)

/-- Body.cpp:65-83, World.cpp:212-222: the collider is taken out of the tree first. -/
def removeCollider (tc : RTree.Cfg K C) (e : Engine K) (k : Nat) : Engine K × Outcome Unit :=
  match RTree.erase tc e.root k with
  | .ok t => let r := e.world.removeCollider k; (⟨r.1, t⟩, r.2)
  | .throw => (e, .throw)
  | .ub => (e, .ub)

/-- World.cpp:36-103 `step`. The colliders of dead bodies leave the tree in `cleanup`; then, unless the step ends before, the tree gets the new boxes and
makes the calls of `registerContact` (World.cpp:315-321). -/
def step (cfg : Cfg) (tc : RTree.Cfg K C) (pq : PQ (Cand K C Nat)) (e : Engine K) (positive : Bool) (boxes : Nat → BoundingBox K) (fail : Option Stage) :
    Engine K × Outcome Unit :=
  match eraseAll tc (collidersOf e.world (e.world.bodies.filter fun b => (e.world.body b).any (·.killed))) e.root with
  | .ub => (e, .ub)
  | .throw => (e, .throw)
  | .ok t =>
    if positive && fail.isNone then
      match updateAndCollide tc pq t fun n => boxes n.id with
      | .ok (t', calls) => let r := e.world.step cfg true (fun _ => calls.map fun c => (c.1.id, c.2.id)) none; (⟨r.1, t'⟩, r.2)
      | .throw => (⟨e.world, t⟩, .throw)
      | .ub => (⟨e.world, t⟩, .ub)
    else
      let r := e.world.step cfg positive (fun _ => []) fail
      (⟨r.1, t⟩, r.2)

/-- World.hpp:130-137 `clear`. -/
def clear (cfg : Cfg) (tc : RTree.Cfg K C) (e : Engine K) : Engine K × Outcome Unit :=
  match eraseAll tc (collidersOf e.world e.world.bodies) e.root with
  | .ub => (e, .ub)
  | .throw => (e, .throw)
  | .ok _ => let r := e.world.clear cfg; (⟨r.1, RTree.empty⟩, r.2)

/-- Effect of an operation: the functions above. -/
def apply (cfg : Cfg) (tc : RTree.Cfg K C) (pq : PQ (Cand K C Nat)) (e : Engine K) : EngineOp K → Engine K × Outcome Unit
  | .quiet o _ => let r := e.world.apply cfg o; (⟨r.1, e.root⟩, r.2)
  | .addCollider b box => e.addCollider tc pq b box
  | .removeCollider k => e.removeCollider tc k
  | .step p boxes f => e.step cfg tc pq p boxes f
  | .clear => e.clear cfg tc

end Engine

end Simu.World
