import Verif.Model.Geometry
/-
Model of include/Simu/math/Gjk.hpp and Gjk.inl.hpp: the boolean algorithm run by the constructor, `separation` and `penetration`.

The loops have no bound in the code: here they are given a number of iterations, and `none` means that more are needed. `nIterations` does not wrap
around (it is a `Uint32`).
-/
namespace Simu
variable {K : Type*} [Field K] [LinearOrder K]

/-- Gjk.hpp:37-59 `Simplex`: `pointStack`, `normals`, `initialSearchDir_`, `nIterations` and `keepBottomPoint_`. -/
@[ext] structure Simplex (K : Type*) where
  p0 : Vec2 K
  p1 : Vec2 K
  p2 : Vec2 K
  n0 : Vec2 K
  n1 : Vec2 K
  n2 : Vec2 K
  initialSearchDir : Vec2 K
  nIterations : Nat
  keepBottomPoint : Bool
deriving DecidableEq

namespace Simplex

/-- Gjk.inl.hpp:36-40. -/
def mk' (initialSearchDir : Vec2 K) : Simplex K :=
  ⟨0, 0, 0, 0, 0, 0, if initialSearchDir.x = 0 ∧ initialSearchDir.y = 0 then ⟨1, 0⟩ else initialSearchDir, 0, false⟩

/-- Gjk.inl.hpp:42-65 `pushPoint`. -/
def pushPoint (s : Simplex K) (v : Vec2 K) : Simplex K :=
  let b := if s.keepBottomPoint then s.p2 else s.p1
  let p2 := b
  let p1 := s.p0
  let p0 := v
  let ab := p1 - p0
  let bc := p2 - p1
  let ca := p0 - p2
  let positivelyOriented := decide (0 ≤ Vec2.cross ab bc)
  { s with
    p0 := p0
    p1 := p1
    p2 := p2
    n0 := ab.perp positivelyOriented
    n1 := ca.perp positivelyOriented
    n2 := bc.perp positivelyOriented
    nIterations := s.nIterations + 1
    keepBottomPoint := false }

/-- Gjk.inl.hpp:67-103 `nextDirection`: the direction, and the simplex (`keepBottomPoint_` is mutable). -/
def nextDirection (s : Simplex K) : Vec2 K × Simplex K :=
  match s.nIterations with
  | 0 => (s.initialSearchDir, s)
  | 1 => (if 0 < Vec2.dot s.initialSearchDir s.p0 then -s.p0 else -s.initialSearchDir, s)
  | 2 =>
    let edge := s.p0 - s.p1
    let k := Vec2.cross s.p1 s.p0
    (if k = 0 then s.initialSearchDir.perp else edge.perp (decide (k < 0)), s)
  | _ => if Vec2.dot s.n0 s.p0 < 0 then (s.n0, s) else (s.n1, { s with keepBottomPoint := true })

/-- Gjk.inl.hpp:105-113 `hasPoint`. -/
def hasPoint (s : Simplex K) (v : Vec2 K) : Bool :=
  (decide (0 < s.nIterations) && decide (s.p0 = v)) || (decide (1 < s.nIterations) && decide (s.p1 = v)) || (decide (2 < s.nIterations) && decide (s.p2 = v))

/-- Gjk.inl.hpp:116-121 `containsOrigin`. -/
def containsOrigin (s : Simplex K) : Bool :=
  decide (0 ≤ Vec2.dot s.p0 s.n0) && decide (0 ≤ Vec2.dot s.p0 s.n1) && decide (0 ≤ Vec2.dot s.p1 s.n2)

end Simplex

namespace Gjk

/-- Gjk.inl.hpp:272-277 `furthestVertexInDirection`. -/
def support (first second : List (Vec2 K)) (direction : Vec2 K) : Outcome (Vec2 K) :=
  (furthestVertexInDirection first direction).bind fun a => (furthestVertexInDirection second (-direction)).bind fun b => .ok (a - b)

/-- Gjk.inl.hpp:173-198: one iteration of the constructor's loop: the simplex, `areColliding_` if done. -/
def iterate (first second : List (Vec2 K)) (s : Simplex K) : Outcome (Simplex K × Option Bool) :=
  let direction := s.nextDirection.1
  let s := s.nextDirection.2
  (support first second direction).bind fun v =>
    let separated := decide (Vec2.dot v direction < 0)
    let isNewPoint := !s.hasPoint v
    let s := s.pushPoint v
    if 2 < s.nIterations then
      if s.containsOrigin then .ok (s, some true)
      else if !isNewPoint then .ok (s, some false)
      else .ok (s, if separated then some false else none)
    else .ok (s, if separated then some false else none)

/-- Gjk.inl.hpp:172-199: the loop. -/
def run (first second : List (Vec2 K)) : Nat → Simplex K → Option (Outcome (Simplex K × Bool))
  | 0, _ => none
  | fuel + 1, s =>
    match iterate first second s with
    | .ok (s, some c) => some (.ok (s, c))
    | .ok (s, none) => run first second fuel s
    | .throw => some .throw
    | .ub => some .ub

/-- Gjk.inl.hpp:168-200: the constructor; the simplex at the end and `areColliding()`. -/
def make (fuel : Nat) (first second : List (Vec2 K)) (initialDir : Vec2 K) : Option (Outcome (Simplex K × Bool)) :=
  run first second fuel (Simplex.mk' initialDir)

/-- Gjk.inl.hpp:207-217: the loop of `separation`. -/
def refine (first second : List (Vec2 K)) : Nat → Simplex K → Option (Outcome (Simplex K))
  | 0, _ => none
  | fuel + 1, s =>
    match support first second s.nextDirection.1 with
    | .ok v => if s.nextDirection.2.hasPoint v then some (.ok s.nextDirection.2) else refine first second fuel (s.nextDirection.2.pushPoint v)
    | .throw => some .throw
    | .ub => some .ub

/-- Gjk.inl.hpp:219-235: the closest point of the simplex. The loop before has pushed at least one point. -/
def closest (epsilon : K) (s : Simplex K) : Outcome (Vec2 K) :=
  match s.nIterations with
  | 1 => .ok s.p0
  | 2 => .ok (LineBarycentric.mk' s.p0 s.p1 0).closestPoint
  | _ => (TriangleBarycentric.mk' epsilon s.p0 s.p1 s.p2 0).bind fun t => .ok t.closestPoint

/-- Gjk.inl.hpp:202-236 `separation`, from the result of the constructor. -/
def separation (epsilon : K) (fuel : Nat) (first second : List (Vec2 K)) (s : Simplex K) (colliding : Bool) : Option (Outcome (Vec2 K)) :=
  if colliding then some (.ok 0)
  else (refine first second fuel s).map fun o => o.bind fun s => (closest epsilon s).bind fun p => .ok (-p)

/-- Gjk.inl.hpp:124-136 `Polytope`; `orientation` with `epsilon = 0.f`. -/
def polytope (s : Simplex K) : List (Vec2 K) :=
  if orientation s.p0 s.p1 s.p2 0 = .negative then [s.p2, s.p1, s.p0] else [s.p0, s.p1, s.p2]

/-- Gjk.inl.hpp:138-163 `addVertex`, `where` being the edge that ends at position `i`: the polytope if the vertex was added. -/
def addVertex (vertices : List (Vec2 K)) (e : Vec2 K × Vec2 K) (i : Nat) (v : Vec2 K) : Option (List (Vec2 K)) :=
  if 0 < Vec2.dot ((e.2 - e.1).perp true) (v - e.2) then if v ∈ vertices then none else some (vertices.insertIdx i v) else none

/-- Edges.hpp:66, 61-64 `distanceSquaredToOrigin`. -/
def edgeDistance (e : Vec2 K × Vec2 K) : K := Vec2.normSquared ((LineBarycentric.mk' e.1 e.2 0).closestPoint - 0)

/-- Gjk.inl.hpp:246-258: the edges are visited in turn, and the first of those closest to the origin is kept, with the position of its end. -/
def bestEdge (best : (Vec2 K × Vec2 K) × Nat) (i : Nat) : List (Vec2 K × Vec2 K) → (Vec2 K × Vec2 K) × Nat
  | [] => best
  | e :: es => bestEdge (if edgeDistance e < edgeDistance best.1 then (e, i) else best) (i + 1) es

/-- Gjk.inl.hpp:244-269: the loop of `penetration`. -/
def expand (first second : List (Vec2 K)) : Nat → List (Vec2 K) → Option (Outcome (Vec2 K))
  | 0, _ => none
  | fuel + 1, vertices =>
    match edgesOf vertices with
    | .ok [] => some .ub
    | .ok (e :: es) =>
      let best := bestEdge (e, 0) 0 (e :: es)
      match support first second ((best.1.2 - best.1.1).perp true) with
      | .ok next =>
        match addVertex vertices best.1 best.2 next with
        | some vertices => expand first second fuel vertices
        | none => some (.ok (LineBarycentric.mk' best.1.1 best.1.2 0).closestPoint)
      | .throw => some .throw
      | .ub => some .ub
    | .throw => some .throw
    | .ub => some .ub

/-- Gjk.inl.hpp:238-270 `penetration`, from the result of the constructor. -/
def penetration (fuel : Nat) (first second : List (Vec2 K)) (s : Simplex K) (colliding : Bool) : Option (Outcome (Vec2 K)) :=
  if !colliding then some (.ok 0) else expand first second fuel (polytope s)

end Gjk
end Simu
