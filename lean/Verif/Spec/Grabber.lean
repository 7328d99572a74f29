import Verif.Model.Grabber
import Verif.Spec.World
/-
What is asked of the uses of the grabbing tool, and what it means to hold a body.
-/
namespace Simu.World

/-- A constraint exists and was not killed. -/
def LiveJoint (w : World) (n : Nat) : Prop := ∃ J, w.joint n = some J ∧ J.killed = false

/-- What must not happen to the world while a body is held: the body and the constraint are not killed, and the world is not cleared. -/
def Op.Spares (g : Grab) : Op → Prop
  | .killBody b => ∀ n J, g.mc = some n → g.w.joint n = some J → b ≠ J.b0
  | .killJoint n => g.mc ≠ some n
  | .clear => g.mc = none
  | _ => True

/-- The histories of a scene and its grabbing tool: the bodies under the mouse exist and were not killed, and what is held is spared. -/
inductive GReachable (cfg : Cfg) : Grab → Prop
  | init : GReachable cfg ⟨init, none, []⟩
  | op {g : Grab} (h : GReachable cfg g) (o : Op) (ha : o.Allowed g.w) (hd : o.DestroysSafely cfg g.w) (hs : o.Spares g) : GReachable cfg (g.apply cfg o).1
  | press {g : Grab} (h : GReachable cfg g) (bs : List Nat) (hb : ∀ b ∈ bs, b ∈ g.w.bodies ∧ ¬DeadBody g.w b) : GReachable cfg (g.press bs).1
  | release {g : Grab} (h : GReachable cfg g) : GReachable cfg g.release.1
  | move {g : Grab} (h : GReachable cfg g) : GReachable cfg g.move.1

/-- The body held, if any. -/
def Holds (g : Grab) (b : Nat) : Prop := ∃ n J, g.mc = some n ∧ g.w.joint n = some J ∧ J.killed = false ∧ J.b0 = b ∧ J.b1 = b

end Simu.World
