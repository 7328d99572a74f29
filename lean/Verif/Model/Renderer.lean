import Verif.Model.Transform
import Verif.Model.Manifold
/-
Model of include/Simu/app/Renderer.hpp and src/Simu/app/Renderer.cpp: the shapes a renderer makes polygons of, and the
batches of `OpenGlRenderer`. OpenGL itself is represented by the batches given to it.
-/
namespace Simu

/-- Conversion to `Uint16`. -/
def u16 (n : Nat) : Nat := n % 65536

/-- Renderer.hpp:158-159: the batch in progress (vertices with their color, and indices); `drawn`: the batches given to OpenGL (latest first). -/
structure GlRenderer (V : Type*) where
  vertices : List V
  indices : List Nat
  drawn : List (List V × List Nat)

namespace GlRenderer
variable {V : Type*}

/-- Renderer.hpp:158-159: initially. -/
def init : GlRenderer V := ⟨[], [], []⟩

/-- Renderer.hpp:160. -/
def maxVertices : Nat := 1024

/-- Renderer.cpp:308-349 `flush`. -/
def flush (r : GlRenderer V) : GlRenderer V := ⟨[], [], (r.vertices, r.indices) :: r.drawn⟩

/-- Renderer.cpp:297-302: the loop, from `index`. `index - 1` is computed as an `int` and converted. -/
def fanLoop (center index stop : Nat) (indices : List Nat) : List Nat :=
  if index < stop then fanLoop center (index + 1) stop (indices ++ [center, u16 (index + 65535), index]) else indices
  termination_by stop - index

/-- Renderer.cpp:280-306 `drawPolygon`. -/
def drawPolygon (r : GlRenderer V) (center : V) (vertices : List V) : GlRenderer V × Outcome Unit :=
  if vertices.length < 3 then (r, .throw)
  else
    let centerIndex := u16 r.vertices.length
    let all := r.vertices ++ [center] ++ vertices
    let stop := u16 all.length
    let indices := r.indices ++ [centerIndex, u16 (stop + 65535), u16 (centerIndex + 1)]
    let indices := fanLoop centerIndex (u16 (centerIndex + 2)) stop indices
    let r := { r with vertices := all, indices := indices }
    (if maxVertices ≤ r.vertices.length then r.flush else r, .ok ())

end GlRenderer

/-- A polygon given to `drawPolygon`: its center and its vertices. -/
structure Drawn (K : Type*) where
  center : Vec2 K
  vertices : List (Vec2 K)

/-- Renderer.hpp:122-128: members, without the camera. -/
structure Renderer (K : Type*) where
  pointOffsets : List (Vec2 K)
  lineWidth : K
  pointRadius : K

namespace Renderer
section
variable {K : Type*} [Field K]

/-- Renderer.cpp:135-139: the offsets from a first one. -/
def offsets (rot : Rotation K) : Nat → Vec2 K → List (Vec2 K)
  | 0, _ => []
  | n + 1, offset => offset :: offsets rot n (rot.app offset)

variable [Trig K]

/-- Renderer.cpp:128-140 `updatePointOffsets`. `pi` is the constant of the library. With a precision of 0 the angle is infinite or NaN, but there are no offsets. -/
def updatePointOffsets (pi : K) (r : Renderer K) (radius : K) (precision : Nat) : Renderer K :=
  { r with
    pointRadius := radius
    pointOffsets := offsets (.ofAngle (2 * pi / precision)) precision (radius • ⟨1, 0⟩) }

/-- Renderer.hpp:43, 127-128: a new renderer. -/
def init (pi : K) : Renderer K := updatePointOffsets pi ⟨[], 1, 1⟩ 1 12

omit [Trig K] in
/-- Renderer.hpp:98-101 `getPointPrecision`. -/
def pointPrecision (r : Renderer K) : Nat := r.pointOffsets.length

/-- Renderer.hpp:93-96 `setPointRadius`. -/
def setPointRadius (pi : K) (r : Renderer K) (radius : K) : Renderer K := r.updatePointOffsets pi radius r.pointPrecision

/-- Renderer.hpp:102-106 `setPointPrecision`. -/
def setPointPrecision (pi : K) (r : Renderer K) (precision : Nat) : Renderer K :=
  if 3 ≤ precision then r.updatePointOffsets pi r.pointRadius precision else r

omit [Trig K] in
/-- Renderer.hpp:87 `setLineWidth`. -/
def setLineWidth (r : Renderer K) (width : K) : Renderer K := { r with lineWidth := width }

omit [Trig K] in
/-- Renderer.cpp:119-122: the loop of `drawPoint` with `fuel` iterations allowed, `i` is a `Uint8`; nothing if it does not end within them. -/
def pointLoop (r : Renderer K) (P : Vec2 K) : Nat → Nat → List (Vec2 K) → Option (Outcome (List (Vec2 K)))
  | 0, _, _ => none
  | fuel + 1, i, v =>
    if i < r.pointPrecision then
      match r.pointOffsets[i]? with
      | none => some .ub
      | some offset => pointLoop r P fuel ((i + 1) % 256) (v ++ [P + offset])
    else some (.ok v)

omit [Trig K] in
/-- Renderer.cpp:115-126 `drawPoint`: the polygon it draws, if it ends within the given number of iterations. -/
def drawPoint (r : Renderer K) (fuel : Nat) (P : Vec2 K) : Option (Outcome (Drawn K)) :=
  (r.pointLoop P fuel 0 []).map fun o => o.bind fun v => .ok ⟨P, v⟩

end

section
variable {K : Type*} [Field K] [LinearOrder K]

/-- Renderer.cpp:88-113 `drawLine` with a square tip: the polygon it draws. -/
def drawLine (sqrt : K → K) (r : Renderer K) (A B : Vec2 K) : Outcome (Drawn K) :=
  if A.x ≠ B.x ∨ A.y ≠ B.y then
    let d := (B - A).perp
    let n := Vec2.sdiv (r.lineWidth • Vec2.sdiv d (sqrt d.normSquared)) 2
    .ok ⟨Vec2.sdiv (A + B) 2, [A + n, B + n, B - n, A - n]⟩
  else .throw

/-- Renderer.cpp:62-69: the vertices of the contour: each vertex is moved along the normals of the edge that ends there and of the next one. -/
def contour (sqrt : K → K) (vertices : List (Vec2 K)) (width : K) : Outcome (List (Vec2 K)) :=
  (edgesOf vertices).bind fun edges =>
    .ok ((List.range edges.length).map fun i =>
      let n1 := (edges[i]?).elim 0 (edgeUnitNormal sqrt)
      let n2 := (edges[(i + 1) % edges.length]?).elim 0 (edgeUnitNormal sqrt)
      (vertices[i]?).elim 0 fun v => v + width • (n1 + n2))

end
end Renderer
end Simu
