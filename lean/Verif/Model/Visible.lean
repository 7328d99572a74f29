import Verif.Model.Renderer
import Verif.Model.Body
import Verif.Model.Contact
/-
Model of include/Simu/app/VisiblePhysics.hpp: what bodies, contacts and constraints of the application draw after each step. A picture is the list of the polygons given to
`Renderer::drawPolygon`, in order; colors are left out. A call that throws leaves what was drawn before.
-/
namespace Simu
namespace Visible

section
variable {K : Type*}

/-- What is drawn, then what is drawn next unless the call has thrown; VisiblePhysics.hpp:77-97 (sequencing of the calls). -/
def andThen (a b : List (Drawn K) × Outcome Unit) : List (Drawn K) × Outcome Unit :=
  match a.2 with
  | .ok () => (a.1 ++ b.1, b.2)
  | .throw => a
  | .ub => a

/-- Renderer.cpp:280-283: a polygon is refused if it has less than three vertices. -/
def polygon (d : Drawn K) : List (Drawn K) × Outcome Unit := if d.vertices.length < 3 then ([], .throw) else ([d], .ok ())

/-- Renderer.cpp:88-126: a line or a point, that may throw before it draws. -/
def shape : Outcome (Drawn K) → List (Drawn K) × Outcome Unit
  | .ok d => polygon d
  | .throw => ([], .throw)
  | .ub => ([], .ub)
end

variable {K : Type*} [Field K] [LinearOrder K] [IsStrictOrderedRing K]

omit [LinearOrder K] [IsStrictOrderedRing K] in
/-- VisiblePhysics.hpp:79-92: the rectangle of a bounding box. -/
def boxPolygon (b : BoundingBox K) : Drawn K := ⟨b.center, [b.min, ⟨b.max.x, b.min.y⟩, b.max, ⟨b.min.x, b.max.y⟩]⟩

/-- VisiblePhysics.hpp:79-96: what is drawn for one collider. -/
def drawCollider (toWorld : Transform K) (c : Collider K) : List (Drawn K) × Outcome Unit :=
  match c.geom.box with
  | .throw => ([], .throw)
  | .ub => ([], .ub)
  | .ok bounds =>
    andThen (polygon (boxPolygon bounds)) <|
      match c.properties with
      | .throw => ([], .throw)
      | .ub => ([], .ub)
      | .ok m => polygon ⟨toWorld.app m.centroid, c.geom.transformed⟩

/-- VisiblePhysics.hpp:77-97: the loop of `VisibleBody::draw`. -/
def drawColliders (toWorld : Transform K) : List (Collider K) → List (Drawn K) × Outcome Unit
  | [] => ([], .ok ())
  | c :: cs => andThen (drawCollider toWorld c) (drawColliders toWorld cs)

/-- VisiblePhysics.hpp:44-48, 72-98 `VisibleBody::postStep` and `draw`, with a renderer. -/
def drawBody [Trig K] (b : Body K) : List (Drawn K) × Outcome Unit := drawColliders b.position.toWorldSpace b.colliders.list

omit [IsStrictOrderedRing K] in
/-- VisiblePhysics.hpp:193-204 `VisibleDistanceConstraint::draw`: `l0`, `l1` are the local fixed points. -/
def drawDistance (sqrt : K → K) (r : Renderer K) (T0 T1 : Transform K) (l0 l1 : Vec2 K) : List (Drawn K) × Outcome Unit :=
  shape (r.drawLine sqrt (T0.app l0) (T1.app l1))

omit [IsStrictOrderedRing K] in
/-- VisiblePhysics.hpp:220-227 `VisibleMouseConstraint::draw`. -/
def drawMouse (sqrt : K → K) (r : Renderer K) (bodyPos mousePos : Vec2 K) : List (Drawn K) × Outcome Unit :=
  if bodyPos.x ≠ mousePos.x ∨ bodyPos.y ≠ mousePos.y then shape (r.drawLine sqrt bodyPos mousePos) else ([], .ok ())

/-- Renderer.cpp:115-126 `drawPoint`: 257 iterations are enough for a `Uint8` (C62); a point that would be drawn forever is a call that does not return, here `ub`. -/
def point (r : Renderer K) (P : Vec2 K) : List (Drawn K) × Outcome Unit :=
  match r.drawPoint 257 P with
  | none => ([], .ub)
  | some o => shape o

omit [IsStrictOrderedRing K] in
/-- VisiblePhysics.hpp:124-136: the loop over the contacts of a contact constraint. -/
def drawContactsFrom (sqrt : K → K) (r : Renderer K) (ref inc : Fin 2 → Vec2 K) (normal : Vec2 K) : List (Fin 2) → List (Drawn K) × Outcome Unit
  | [] => ([], .ok ())
  | i :: is =>
    andThen (point r (ref i)) <|
      andThen (shape (r.drawLine sqrt (ref i) (ref i + (r.lineWidth * 10) • normal))) <|
        andThen (point r (inc i)) (drawContactsFrom sqrt r ref inc normal is)

omit [IsStrictOrderedRing K] in
/-- VisiblePhysics.hpp:119-145 `VisibleContactConstraint::draw`; `centroids` are those of the two bodies. More than two contacts would be read out of the arrays. -/
def drawContact (sqrt : K → K) (r : Renderer K) (info : Nat × (Fin 2 → Vec2 K) × (Fin 2 → Vec2 K) × Vec2 K) (centroids : Fin 2 → Vec2 K) : List (Drawn K) × Outcome Unit :=
  match info.1 with
  | 0 => andThen (point r (centroids 0)) (point r (centroids 1))
  | 1 => drawContactsFrom sqrt r info.2.1 info.2.2.1 info.2.2.2 [0]
  | 2 => drawContactsFrom sqrt r info.2.1 info.2.2.1 info.2.2.2 [0, 1]
  | _ => ([], .ub)

end Visible
end Simu
