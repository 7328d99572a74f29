import Verif.Model.Spawner
import Verif.Spec.Transform
/-
Model of the initial state of the demonstration scenes (demos/BoxStacks.cpp, demos/Pyramid.cpp, demos/Tower.cpp, demos/NewtonPendulum.cpp): the bodies that `init` makes, in order.

Colours, gravity and the settings of the renderer are left out.
-/
namespace Simu
namespace Demos

/-- What a body of a scene is made from: its descriptor (Body.hpp:49-76), the polygon and the material of its collider, and the velocity given to it. -/
structure Piece where
  position : Vec2 ℝ := 0
  orientation : ℝ := 0
  dominance : ℝ := 1
  polygon : Outcome (Polygon ℝ)
  material : Material ℝ
  velocity : Option (Vec2 ℝ) := none

/-- Material.hpp:37-85: a material of given density, friction and bounciness. -/
noncomputable def material (density friction bounciness : ℝ) : Material ℝ := ⟨density, ⟨.average, bounciness⟩, ⟨.average, friction⟩, ⟨.average, 1 / 200⟩⟩

/-- BoxStacks.cpp:62-70, Pyramid.cpp:47-57, Tower.cpp:48-56, 85-91, NewtonPendulum.cpp:106-110, 124-125: the body is made, gets its collider and its velocity. -/
noncomputable def Piece.make (p : Piece) (id : Nat) : Outcome (Body ℝ) :=
  p.polygon.bind fun polygon =>
    let r := (Body.born p.position p.orientation p.dominance).addCollider id polygon.vertices p.material
    r.2.bind fun _ => .ok (match p.velocity with | some v => r.1.setVelocity v | none => r.1)

/-- Tool.cpp:126-144: the body that a spawner with its initial settings makes (Tool.hpp:119-127). -/
noncomputable def spawned (pos : Vec2 ℝ) (dims : Vec2 ℝ) : Piece where
  position := pos
  polygon := Polygon.box dims 0
  material := material 1 (1 / 2) 0

/-- BoxStacks.cpp:62-70, Pyramid.cpp:47-57, Tower.cpp:48-56: the ground. -/
noncomputable def ground (dims center : Vec2 ℝ) : Piece where
  dominance := 0
  polygon := Polygon.box dims center
  material := material 1 (8 / 10) 0

/-- BoxStacks.cpp:37-71. -/
noncomputable def boxStacks (nStacks height : Nat) : List Piece :=
  let dims : Vec2 ℝ := ⟨2, 2⟩
  let floorWidth : ℝ := (nStacks * 2 + 4) * dims.x
  let floorHeight : ℝ := 20
  let center : Vec2 ℝ := ⟨0, -floorHeight / 2 - 1⟩
  ((List.range nStacks).flatMap fun (stack : Nat) => (List.range height).map fun (h : Nat) =>
    spawned ⟨-floorWidth / 2 + dims.x * (1 + (stack + 1) * 2), h * dims.y⟩ dims) ++
  [ground ⟨floorWidth + 2 * height * dims.y, floorHeight⟩ center]

/-- Pyramid.cpp:39-75, with `w` and `h` of Demos.hpp: 2. -/
noncomputable def pyramid (height : Nat) (spacing : ℝ) : List Piece :=
  let w : ℝ := 2
  let h : ℝ := 2
  let start : ℝ := -(w + spacing) * height / 2
  ground ⟨400, 20⟩ ⟨0, -11⟩ ::
  (List.range height).flatMap fun (y : Nat) => (List.range (height - y)).map fun (x : Nat) =>
    spawned ⟨start + (w + spacing) * x + y * (1 + spacing / 2), (h + spacing) * y⟩ ⟨w, h⟩

/-- Tower.cpp:72-92 `makeSlab`, with `w` and `thickness` of Demos.hpp: 5 and 1. -/
noncomputable def slab (pos : Vec2 ℝ) (vertical : Bool) : Piece :=
  let w : ℝ := 5
  let thickness : ℝ := 1
  let width : ℝ := if vertical then w else 2 * w
  { position := pos
    orientation := if vertical then Real.pi / 2 else 0
    polygon := Polygon.mk' [⟨-width / 2, -thickness / 2⟩, ⟨width / 2, -thickness / 2⟩, ⟨width / 2, thickness / 2⟩, ⟨-width / 2, thickness / 2⟩]
    material := material 1 (1 / 2) 0 }

/-- Tower.cpp:40-69. -/
noncomputable def tower (height : Nat) : List Piece :=
  let w : ℝ := 5
  let thickness : ℝ := 1
  ground ⟨200, 20⟩ ⟨0, -10⟩ ::
  (List.range height).flatMap fun (y : Nat) =>
    [slab ⟨-w / 2 + thickness / 2, w / 2 + y * (w + thickness)⟩ true, slab ⟨w / 2 - thickness / 2, w / 2 + y * (w + thickness)⟩ true,
      slab ⟨0, (y + 1) * w + (y + 1 / 2) * thickness⟩ false]

/-- NewtonPendulum.cpp:87-94: the vertices of the balls. -/
noncomputable def circle (radius : ℝ) (precision : Nat) : List (Vec2 ℝ) :=
  List.ofFn fun i : Fin precision => radius • (⟨Real.cos ((i.val + 1) * (2 * Real.pi / precision)), Real.sin ((i.val + 1) * (2 * Real.pi / precision))⟩ : Vec2 ℝ)

/-- NewtonPendulum.cpp:70, 102-104: where the ball `i` is. -/
noncomputable def ballX (n : Nat) (radius : ℝ) (i : Nat) : ℝ := -(n * radius * 2) / 2 + ((2 + 1 / 10) * i + 1) * radius

/-- NewtonPendulum.cpp:64-129, without the strings. -/
noncomputable def pendulum (n : Nat) (radius length : ℝ) (precision initialPush : Nat) : List Piece :=
  let barWidth : ℝ := n * radius * 2
  let barBottom : ℝ := radius + length
  { dominance := 0, polygon := Polygon.box ⟨barWidth, 1⟩ ⟨0, barBottom + 1 / 2⟩, material := material 1 (1 / 2) 0 } ::
  (List.range n).map fun (i : Nat) =>
    { position := ⟨ballX n radius i, 0⟩
      polygon := Polygon.mk' (circle radius precision)
      material := material 10 (1 / 2) 1
      velocity := if (n : ℤ) - initialPush ≤ i then some ⟨10, 0⟩ else none }

/-- NewtonPendulum.cpp:116-119: the points a string joins, and its length. -/
noncomputable def string (n : Nat) (radius length : ℝ) (i : Nat) : Vec2 ℝ × Vec2 ℝ := (⟨ballX n radius i, radius⟩, ⟨ballX n radius i, radius + length⟩)

/-- BoxStacks.cpp:37-71 and the others: `init` makes the bodies one after the other, and stops at the first failure; the colliders get the addresses `id`, `id + 1`, ... -/
noncomputable def build (id : Nat) : List Piece → Outcome (List (Body ℝ))
  | [] => .ok []
  | p :: ps => (p.make id).bind fun b => (build (id + 1) ps).bind fun bs => .ok (b :: bs)

end Demos
end Simu
