import Verif.Spec.World
import Mathlib.Data.List.Perm.Basic
/-
Vocabulary for the order of the contacts of a world.
-/
namespace Simu.World

/-- The worlds differ at most in the order of the elements of the hash table `contacts_` and in the order in which objects were freed. -/
structure SameUpToOrder (w w' : World) : Prop where
  bodies : w'.bodies = w.bodies
  body : w'.body = w.body
  joints : w'.joints = w.joints
  joint : w'.joint = w.joint
  contacts : w'.contacts.Perm w.contacts
  contact : w'.contact = w.contact
  forces : w'.forces = w.forces
  tree : w'.tree = w.tree
  broken : w'.broken = w.broken
  owner : w'.owner = w.owner
  next : w'.next = w.next
  log : w'.log.Perm w.log

/-- The runs of a program, with what its operations return: before each of them the elements of the hash table may be in any order, as it depends on addresses and on
the number of buckets. -/
inductive Runs (cfg : Cfg) : List Op → World → List (Outcome Unit) → Prop
  | init : Runs cfg [] init []
  | op {ops : List Op} {w : World} {rs : List (Outcome Unit)} (h : Runs cfg ops w rs) (order : List Nat) (hp : order.Perm w.contacts) (o : Op) :
      Runs cfg (ops ++ [o]) (({ w with contacts := order } : World).apply cfg o).1 (rs ++ [(({ w with contacts := order } : World).apply cfg o).2])

/-- The same, with operations that are allowed and that only destroy bodies whose destructor is defined. -/
inductive ProperRun (cfg : Cfg) : List Op → World → List (Outcome Unit) → Prop
  | init : ProperRun cfg [] init []
  | op {ops : List Op} {w : World} {rs : List (Outcome Unit)} (h : ProperRun cfg ops w rs) (order : List Nat) (hp : order.Perm w.contacts) (o : Op)
      (ha : o.Allowed w) (hd : o.DestroysSafely cfg w) :
      ProperRun cfg (ops ++ [o]) (({ w with contacts := order } : World).apply cfg o).1 (rs ++ [(({ w with contacts := order } : World).apply cfg o).2])

end Simu.World
