import Verif.Model.BoundingBox
/-
Model of the geometric part of include/Simu/physics/Collider.hpp (class `Collider`).
-/
namespace Simu

/-- Collider.hpp:115-193, members `local_`, `transformed_` and `boundingBox_`. The allocator, the
material, the owner and the location in the tree are left out here. -/
structure ColliderGeom (K : Type*) where
  localVerts : List (Vec2 K)
  transformed : List (Vec2 K)
  box : Outcome (BoundingBox K)

namespace ColliderGeom
variable {K : Type*} [Field K] [LinearOrder K]

/-- Collider.hpp:124-131 constructor: `transformed_` is value-initialised by `resize` and
`boundingBox_` default constructed. -/
def make (polygon : List (Vec2 K)) : ColliderGeom K :=
  ⟨polygon, polygon.map (fun _ => 0), .ok BoundingBox.invalid⟩

/-- Collider.hpp:173-180 `update`; the transform is an arbitrary map of points. -/
def update (c : ColliderGeom K) (transform : Vec2 K → Vec2 K) : ColliderGeom K :=
  let t := c.localVerts.map transform
  ⟨c.localVerts, t, BoundingBox.ofVertices t⟩

end ColliderGeom
end Simu
