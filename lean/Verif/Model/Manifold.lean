import Verif.Model.Body
import Verif.Model.Solver
/-
Model of include/Simu/physics/ContactManifold.hpp and of Edge::clipInside (include/Simu/math/Edges.hpp).

`Gjk::penetration` is a parameter here: a function from the two sets of vertices and the search direction.
Normalising a zero vector yields NaNs in C++; in the model it is `0 / 0 = 0`.
-/
namespace Simu
section
variable {K : Type*} [Field K] [LinearOrder K] [IsStrictOrderedRing K]

omit [LinearOrder K] [IsStrictOrderedRing K] in
/-- Edges.hpp:55 `direction`, of the edge with the given ends. -/
def edgeDirection (e : Vec2 K × Vec2 K) : Vec2 K := e.2 - e.1

omit [LinearOrder K] [IsStrictOrderedRing K] in
/-- Edges.hpp:58 `normal`. -/
def edgeNormal (e : Vec2 K × Vec2 K) : Vec2 K := (edgeDirection e).perp true

omit [LinearOrder K] [IsStrictOrderedRing K] in
/-- Edges.hpp:59 `normalizedNormal`; Matrix.inl.hpp:606-616 `normalized`. -/
def edgeUnitNormal (sqrt : K → K) (e : Vec2 K × Vec2 K) : Vec2 K :=
  (edgeNormal e).sdiv (sqrt (edgeNormal e).normSquared)

omit [IsStrictOrderedRing K] in
/-- Edges.hpp:78-90 `clipInside`. -/
def clipInside (e other : Vec2 K × Vec2 K) : Outcome (Vec2 K) :=
  if Vec2.dot (edgeDirection e) (edgeNormal other) = 0 then .ok e.1
  else
    let d := edgeDirection e
    let od := edgeDirection other
    ((Solver2.mk' (⟨![d.x, od.x, d.y, od.y]⟩ : Mat K 2 2)).solve (Mat.ofFn ![(other.1 - e.1).x, (other.1 - e.1).y])).bind fun c =>
      let t := Algo.clamp (c.at_ 0) 0 1
      .ok (e.1 + t • d)

/-- ContactManifold.hpp:247-257: members, without the colliders; `contacts b c` is the contact `c` on body `b`, of
which the first `nContacts` are meaningful. -/
structure Manifold (K : Type*) where
  contacts : Fin 2 → Fin 2 → Vec2 K
  nContacts : Nat
  normal : Vec2 K
  minPen : K
  refIndex : Fin 2

/-- ContactManifold.hpp:138. -/
def Manifold.incIndex (m : Manifold K) : Fin 2 := if m.refIndex = 0 then 1 else 0

/-- One of the two colliders in contact and the position of its body. -/
structure Side (K : Type*) where
  geom : ColliderGeom K
  position : Position K

omit [IsStrictOrderedRing K] in
/-- ContactManifold.hpp:196-213 `computeContactEdge`. `std::find_if` gives `end()` if there is no such edge, whose successor
is undefined. -/
def computeContactEdge (sqrt : K → K) (verts : List (Vec2 K)) (direction : Vec2 K) : Outcome EdgeIt :=
  (furthestVertexInDirection verts direction).bind fun v =>
    (EdgeIt.visit verts.length).bind fun edges =>
      match edges.find? (fun e => decide (verts[e.dst]? = some v)) with
      | none => .ub
      | some previous =>
        (previous.next verts.length).bind fun next =>
          (next.ends verts).bind fun nextEnds =>
            (previous.ends verts).bind fun previousEnds =>
              if Vec2.dot (edgeUnitNormal sqrt previousEnds) direction < Vec2.dot (edgeUnitNormal sqrt nextEnds) direction then
                .ok next
              else .ok previous

omit [IsStrictOrderedRing K] in
/-- ContactManifold.hpp:225-237: the contacts on the incident edge. -/
def incidentContacts (refEdge previousOfRef nextOfRef incEdge : Vec2 K × Vec2 K) (n : Vec2 K) : Outcome (List (Vec2 K)) :=
  (clipInside incEdge previousOfRef).bind fun contact1 =>
    let l := if 0 ≤ Vec2.dot (contact1 - refEdge.1) n then [contact1] else []
    (clipInside incEdge nextOfRef).bind fun contact2 =>
      if 0 ≤ Vec2.dot (contact2 - refEdge.1) n then
        if l = [contact2] then .ok l else .ok (l ++ [contact2])
      else .ok l

/-- ContactManifold.hpp:215-245 `computeContacts`; `normal` is `contactNormal_`. The arrays keep their former elements
beyond the number of contacts. -/
def computeContacts (m : Manifold K) (verts : Fin 2 → List (Vec2 K)) (contactEdges : Fin 2 → EdgeIt) : Outcome (Manifold K) :=
  let ref := m.refIndex
  let inc := m.incIndex
  let n := (verts ref).length
  ((contactEdges ref).previous n).bind fun previousOfRef =>
  ((contactEdges ref).next n).bind fun nextOfRef =>
  ((contactEdges ref).ends (verts ref)).bind fun refEdge =>
  ((contactEdges inc).ends (verts inc)).bind fun incEdge =>
  (previousOfRef.ends (verts ref)).bind fun previousOfRef =>
  (nextOfRef.ends (verts ref)).bind fun nextOfRef =>
  (incidentContacts refEdge previousOfRef nextOfRef incEdge (-m.normal)).bind fun l =>
    .ok { m with
      nContacts := l.length
      contacts := fun b c =>
        match l[c.val]? with
        | none => m.contacts b c
        | some p => if b = inc then p else (LineBarycentric.mk' refEdge.1 refEdge.2 p).closestPoint }

variable [Trig K]

/-- ContactManifold.hpp:54-105 `update`; `penetration` is `Gjk::penetration` (ContactManifold.hpp:71-72). -/
def Manifold.update (sqrt : K → K) (penetration : List (Vec2 K) → List (Vec2 K) → Vec2 K → Outcome (Vec2 K))
    (m : Manifold K) (s : Fin 2 → Side K) : Outcome (Manifold K) :=
  let searchDir := if m.nContacts = 0 then (s 1).position.centroid - (s 0).position.centroid
    else (s m.refIndex).position.toWorldSpace.r.app m.normal
  let m := { m with nContacts := 0 }
  (s 0).geom.box.bind fun box0 => (s 1).geom.box.bind fun box1 =>
  if !box0.overlaps box1 then .ok m
  else
    (penetration (s 0).geom.transformed (s 1).geom.transformed searchDir).bind fun mtv =>
      if mtv.normSquared < m.minPen * m.minPen then .ok m
      else
        (computeContactEdge sqrt (s 0).geom.transformed mtv).bind fun e0 =>
        (computeContactEdge sqrt (s 1).geom.transformed (-mtv)).bind fun e1 =>
        (e0.ends (s 0).geom.transformed).bind fun ends0 =>
        (e1.ends (s 1).geom.transformed).bind fun ends1 =>
          let normal1 := edgeUnitNormal sqrt ends0
          let normal2 := edgeUnitNormal sqrt ends1
          let e1Coeff := Vec2.dot normal1 mtv
          let e2Coeff := Vec2.dot normal2 (-mtv)
          let m := if e2Coeff < e1Coeff then { m with refIndex := 0, normal := normal1 }
            else { m with refIndex := 1, normal := normal2 }
          (computeContacts m (fun i => (s i).geom.transformed) ![e0, e1]).bind fun m =>
            let m := { m with normal := (s m.refIndex).position.toLocalSpace.r.app m.normal }
            .ok { m with contacts := fun i c =>
              if c.val < m.nContacts then (s i).position.toLocalSpace.app (m.contacts i c) else m.contacts i c }

/-- ContactManifold.hpp:41-47: the constructor. -/
def Manifold.make (sqrt : K → K) (penetration : List (Vec2 K) → List (Vec2 K) → Vec2 K → Outcome (Vec2 K))
    (first second : Material K) (s : Fin 2 → Side K) : Outcome (Manifold K) :=
  Manifold.update sqrt penetration
    ⟨fun _ _ => 0, 0, 0, (CombinableProperty.combine first.penetration second.penetration).value, 0⟩ s

/-- ContactManifold.hpp:108-114 `FrameManifold`. -/
structure Frame (K : Type*) where
  nContacts : Nat
  contacts : Fin 2 → Fin 2 → Vec2 K
  normal : Vec2 K
  tangent : Vec2 K

omit [IsStrictOrderedRing K] in
/-- ContactManifold.hpp:118-183 `frameManifold` and what it calls; `Ts` are the transforms to world space. The elements of
`contacts` beyond the number of contacts are indeterminate in C++, here they are zero. -/
def Manifold.frame (m : Manifold K) (Ts : Fin 2 → Transform K) : Frame K :=
  let normal := (Ts m.refIndex).r.app m.normal
  let tangent := normal.perp
  { nContacts := m.nContacts
    contacts := fun b c => if c.val < m.nContacts then (Ts b).app (m.contacts b c) else 0
    normal := if m.refIndex = 0 then -normal else normal
    tangent := if m.refIndex = 0 then -tangent else tangent }

end
end Simu
