import Verif.Model.Base
import Verif.Model.Algo
import Verif.Model.BoundingBox
import Mathlib.Algebra.Order.Group.Abs
/-
Model of include/Simu/math/Edges.hpp, Geometry.hpp, Geometry.inl.hpp, Polygon.hpp, Polygon.inl.hpp,
BarycentricCoordinates.hpp and src/Simu/math/{Geometry,BarycentricCoordinates}.cpp.

A `Geometry` (a range of vertices) is the list of its vertices; an iterator into it is a position,
`length` being `end()`.
-/
namespace Simu

/-! ### Edges -/

/-- Edges.hpp:43-102 `Edge`: iterators `from_` and `to_`. -/
structure EdgeIt where
  src : Nat
  dst : Nat
deriving DecidableEq, Repr

namespace EdgeIt

/-- Edges.hpp:140-145 `begin` of a geometry of `n` vertices; `std::prev(end)` of an empty one is undefined. -/
def first (n : Nat) : Outcome EdgeIt := if n = 0 then .ub else .ok ⟨n - 1, 0⟩

/-- Edges.hpp:147-152 `end`. -/
def last (n : Nat) : Outcome EdgeIt := if n = 0 then .ub else .ok ⟨n - 1, n⟩

/-- Edges.hpp:116-120 `operator++`: `from_ = to_++`; incrementing `end()` is undefined. -/
def incr (n : Nat) (e : EdgeIt) : Outcome EdgeIt := if e.dst < n then .ok ⟨e.dst, e.dst + 1⟩ else .ub

/-- Edges.hpp:155-159 `next`. -/
def next (n : Nat) (e : EdgeIt) : Outcome EdgeIt :=
  (e.incr n).bind fun e => (last n).bind fun l => if e = l then first n else .ok e

/-- Edges.hpp:161-169 `previous`. -/
def previous (n : Nat) (e : EdgeIt) : Outcome EdgeIt :=
  if e.src = 0 then first n else .ok ⟨e.src - 1, e.src⟩

/-- `for (edge : edgesOf(geometry))` from the edge `e`: the edges visited, in order. -/
def visitFrom (n : Nat) (e : EdgeIt) : Outcome (List EdgeIt) :=
  if e = ⟨n - 1, n⟩ then .ok []
  else if _h : e.dst < n then (visitFrom n ⟨e.dst, e.dst + 1⟩).bind fun r => .ok (e :: r)
  else .ub
termination_by n - e.dst

/-- All the edges visited by a range-for over `edgesOf` a geometry of `n` vertices. -/
def visit (n : Nat) : Outcome (List EdgeIt) := (first n).bind (visitFrom n)

/-- Edges.hpp:49-50 `from()`, `to()`: dereferencing `end()` is undefined. -/
def ends {α : Type*} (l : List α) (e : EdgeIt) : Outcome (α × α) :=
  match l[e.src]?, l[e.dst]? with
  | some a, some b => .ok (a, b)
  | _, _ => .ub

end EdgeIt

/-- Dereferences every edge of a list in turn. -/
def endsAll {α : Type*} (l : List α) : List EdgeIt → Outcome (List (α × α))
  | [] => .ok []
  | e :: es => (e.ends l).bind fun p => (endsAll l es).bind fun ps => .ok (p :: ps)

/-- `for (edge : edgesOf(geometry)) ... edge.from() ... edge.dst()`. -/
def edgesOf {α : Type*} (l : List α) : Outcome (List (α × α)) := (EdgeIt.visit l.length).bind (endsAll l)

/-! ### Geometric properties -/
section
variable {K : Type*} [Field K] [LinearOrder K]

/-- Geometry.hpp:142-154 `GeometricProperties`. -/
structure GeometricProperties (K : Type*) where
  centroid : Vec2 K
  area : K
  momentOfArea : K
  isDegenerate : Bool
deriving DecidableEq

/-- Geometry.inl.hpp:42-49: accumulation over one edge. -/
def GeometricProperties.accumulate (g : GeometricProperties K) (e : Vec2 K × Vec2 K) : GeometricProperties K :=
  let vertexCross := Vec2.cross e.1 e.2
  { g with
    area := g.area + vertexCross
    centroid := g.centroid + vertexCross • (e.1 + e.2)
    momentOfArea := g.momentOfArea + vertexCross *
      (Vec2.normSquared e.1 + Vec2.dot e.1 e.2 + Vec2.normSquared e.2) }

/-- Geometry.inl.hpp:52-64: normalisation of the sums. -/
def GeometricProperties.finish (g : GeometricProperties K) : GeometricProperties K :=
  if g.area = 0 then { g with isDegenerate := true }
  else
    let area := g.area / 2
    let centroid := Vec2.sdiv g.centroid (6 * area)
    let m := g.momentOfArea / 12
    let m := m - area * Vec2.normSquared centroid
    { g with area := area, centroid := centroid, momentOfArea := |m| }

/-- Geometry.inl.hpp:33-65. -/
def GeometricProperties.of (vertices : List (Vec2 K)) : Outcome (GeometricProperties K) :=
  (edgesOf vertices).bind fun es =>
    .ok (es.foldl GeometricProperties.accumulate ⟨0, 0, 0, false⟩).finish

/-- Polygon.hpp:52-91 `Polygon`. -/
structure Polygon (K : Type*) where
  properties : GeometricProperties K
  vertices : List (Vec2 K)
deriving DecidableEq

/-- Polygon.inl.hpp:32-49. -/
def Polygon.mk' (vertices : List (Vec2 K)) : Outcome (Polygon K) :=
  (Outcome.check (decide (3 ≤ vertices.length))).bind fun _ =>
    (GeometricProperties.of vertices).bind fun p =>
      if p.area < 0 then .ok ⟨{ p with area := p.area * -1 }, vertices.reverse⟩ else .ok ⟨p, vertices⟩

/-- Polygon.hpp:64-75 `Polygon::box`. -/
def Polygon.box (dim center : Vec2 K) : Outcome (Polygon K) :=
  let w := dim.x / 2
  let h := dim.y / 2
  Polygon.mk' [center + ⟨-w, -h⟩, center + ⟨w, -h⟩, center + ⟨w, h⟩, center + ⟨-w, h⟩]

/-! ### Support vertex -/

/-- Geometry.hpp:112-117: loop body; the state is `(furthest, maxDist)`. -/
def supportStep (direction : Vec2 K) (s : Vec2 K × K) (v : Vec2 K) : Vec2 K × K :=
  let dist := Vec2.dot v direction
  if s.2 < dist then (v, dist) else s

/-- Geometry.hpp:103-121 `furthestVertexInDirection`; `*geometry.begin()` of an empty geometry is undefined. -/
def furthestVertexInDirection (geometry : List (Vec2 K)) (direction : Vec2 K) : Outcome (Vec2 K) :=
  (Outcome.check (decide (direction.x ≠ 0) || decide (direction.y ≠ 0))).bind fun _ =>
    match geometry with
    | [] => .ub
    | v :: _ => .ok (geometry.foldl (supportStep direction) (v, Vec2.dot v direction)).1

/-! ### Orientation and barycentric coordinates -/

/-- Geometry.hpp:87-92. -/
inductive Orientation where
  | positive
  | collinear
  | negative
deriving DecidableEq, Repr

/-- src/Simu/math/Geometry.cpp:30-41 `orientation`. -/
def orientation (v0 v1 v2 : Vec2 K) (epsilon : K) : Orientation :=
  let c := Vec2.cross (v1 - v0) (v2 - v1)
  if (Interval.approx 0 epsilon).contains c then .collinear
  else if 0 < c then .positive
  else .negative

/-- BarycentricCoordinates.hpp:57-73 `LineBarycentric`. -/
structure LineBarycentric (K : Type*) where
  closestPoint : Vec2 K
  u : K
  v : K
deriving DecidableEq

/-- BarycentricCoordinates.hpp:59-68. -/
def LineBarycentric.mk' (A B Q : Vec2 K) : LineBarycentric K :=
  let AB := B - A
  let norm := Vec2.normSquared AB
  let t := if norm = 0 then 0 else Vec2.dot (Q - A) AB / norm
  { closestPoint := A + (Algo.clamp t 0 1) • AB, v := t, u := 1 - t }

/-- BarycentricCoordinates.hpp:85-97 `TriangleBarycentric`. -/
structure TriangleBarycentric (K : Type*) where
  closestPoint : Vec2 K
  u : K
  v : K
  w : K
deriving DecidableEq

/-- BarycentricCoordinates.cpp:31-70; `epsilon` is `simu::EPSILON`. -/
def TriangleBarycentric.mk' (epsilon : K) (A B C Q : Vec2 K) : Outcome (TriangleBarycentric K) :=
  let AB := LineBarycentric.mk' A B Q
  let BC := LineBarycentric.mk' B C Q
  let CA := LineBarycentric.mk' C A Q
  let sign := orientation A B C epsilon
  let u := 1 / 2 * Vec2.cross (B - Q) (C - Q)
  let v := 1 / 2 * Vec2.cross (C - Q) (A - Q)
  let w := 1 / 2 * Vec2.cross (A - Q) (B - Q)
  let u := if sign = .negative then -u else u
  let v := if sign = .negative then -v else v
  let w := if sign = .negative then -w else w
  if AB.v ≤ 0 ∧ CA.u ≤ 0 then .ok ⟨A, u, v, w⟩
  else if AB.u ≤ 0 ∧ BC.v ≤ 0 then .ok ⟨B, u, v, w⟩
  else if BC.u ≤ 0 ∧ CA.v ≤ 0 then .ok ⟨C, u, v, w⟩
  else if u ≤ 0 ∧ 0 ≤ BC.u ∧ 0 ≤ BC.v then .ok ⟨BC.closestPoint, u, v, w⟩
  else if v ≤ 0 ∧ 0 ≤ CA.u ∧ 0 ≤ CA.v then .ok ⟨CA.closestPoint, u, v, w⟩
  else if w ≤ 0 ∧ 0 ≤ AB.u ∧ 0 ≤ AB.v then .ok ⟨AB.closestPoint, u, v, w⟩
  else if 0 ≤ u ∧ 0 ≤ v ∧ 0 ≤ w then .ok ⟨Q, u, v, w⟩
  else .throw

end
end Simu
