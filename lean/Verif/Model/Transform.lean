import Verif.Model.Matrix
/-
Model of include/Simu/physics/Transform.hpp and of class `Position` of include/Simu/physics/Body.hpp.

`std::cos` and `std::sin` are parameters (class `Trig`), so that the definitions make sense for any
approximation of them; what the theorems need of them is in `LawfulTrig` (Spec/Transform.lean), which holds
for the real functions.
-/
namespace Simu

/-- `std::cos` and `std::sin`. -/
class Trig (K : Type*) where
  cos : K → K
  sin : K → K

section
variable {K : Type*} [Field K] [Trig K]

/-- Transform.hpp:36-105 `Rotation`: `theta_`, `cosine`, `sine`. -/
@[ext] structure Rotation (K : Type*) where
  theta : K
  cosine : K
  sine : K

/-- Transform.hpp:40, 55-66: constructor and `set`. -/
def Rotation.ofAngle (theta : K) : Rotation K := ⟨theta, Trig.cos theta, Trig.sin theta⟩

/-- Transform.hpp:52 `inverse`. -/
def Rotation.inverse (r : Rotation K) : Rotation K := ⟨-r.theta, r.cosine, -r.sine⟩

/-- Transform.hpp:68-71: rotated vector. -/
def Rotation.app (r : Rotation K) (v : Vec2 K) : Vec2 K :=
  ⟨r.cosine * v.x - r.sine * v.y, r.sine * v.x + r.cosine * v.y⟩

/-- Transform.hpp:73-93: `operator*=` and `operator*` of two rotations; cosine and sine are recomputed. -/
def Rotation.mul (r other : Rotation K) : Rotation K := .ofAngle (r.theta + other.theta)

/-- Transform.hpp:41-50: conversion to a 3x3 matrix. -/
def Rotation.toMat3 (r : Rotation K) : Outcome (Mat K 3 3) :=
  Mat.ofList [r.cosine, -r.sine, 0, r.sine, r.cosine, 0, 0, 0, 1]

/-- Transform.hpp:108-145 `Translation`. -/
@[ext] structure Translation (K : Type*) where
  offset : Vec2 K

/-- Transform.hpp:124 `inverse`. -/
def Translation.inverse (t : Translation K) : Translation K := ⟨-t.offset⟩

/-- Transform.hpp:129: translated vector. -/
def Translation.app (t : Translation K) (v : Vec2 K) : Vec2 K := v + t.offset

/-- Transform.hpp:131-140: `operator*=` and `operator*` of two translations. -/
def Translation.mul (t other : Translation K) : Translation K := ⟨t.offset + other.offset⟩

/-- Transform.hpp:113-122: conversion to a 3x3 matrix. -/
def Translation.toMat3 (t : Translation K) : Outcome (Mat K 3 3) :=
  Mat.ofList [1, 0, t.offset.x, 0, 1, t.offset.y, 0, 0, 1]

/-- Transform.hpp:148-214 `Transform`: `r_` and `t_`. -/
@[ext] structure Transform (K : Type*) where
  r : Rotation K
  t : Translation K

/-- Transform.hpp:152, 170 `identity`. -/
def Transform.identity : Transform K := ⟨.ofAngle 0, ⟨0⟩⟩

/-- Transform.hpp:208. -/
def Transform.app (T : Transform K) (v : Vec2 K) : Vec2 K := T.r.app v + T.t.offset

/-- Transform.hpp:155-162: conversion to a 3x3 matrix. -/
def Transform.toMat3 (T : Transform K) : Outcome (Mat K 3 3) :=
  T.r.toMat3.bind fun M => .ok ((M.set 0 2 T.t.offset.x).set 1 2 T.t.offset.y)

/-- Transform.hpp:217-220 `Rotation * Translation`. -/
def Rotation.mulTranslation (r : Rotation K) (t : Translation K) : Transform K := ⟨r, ⟨r.app t.offset⟩⟩

/-- Transform.hpp:222-225 `Translation * Rotation`. -/
def Translation.mulRotation (t : Translation K) (r : Rotation K) : Transform K := ⟨r, t⟩

/-- Transform.hpp:228-232 `Transform * Translation`. -/
def Transform.mulTranslation (T : Transform K) (t : Translation K) : Transform K :=
  ⟨T.r, ⟨T.t.offset + T.r.app t.offset⟩⟩

/-- Transform.hpp:234-237 `Transform * Rotation`. -/
def Transform.mulRotation (T : Transform K) (r : Rotation K) : Transform K := ⟨T.r.mul r, T.t⟩

/-- Transform.hpp:240-243 `Translation * Transform`. -/
def Translation.mulTransform (t : Translation K) (T : Transform K) : Transform K := ⟨T.r, T.t.mul t⟩

/-- Transform.hpp:245-248 `Rotation * Transform`. -/
def Rotation.mulTransform (r : Rotation K) (T : Transform K) : Transform K :=
  ⟨T.r.mul r, ⟨r.app T.t.offset⟩⟩

/-- Transform.hpp:251-256 `Transform * Transform`. -/
def Transform.mul (T₁ T₂ : Transform K) : Transform K :=
  let T := T₁.r.mulTransform T₂
  ⟨T.r, T.t.mul T₁.t⟩

/-- Transform.hpp:259 `inverse`. -/
def Transform.inverse (T : Transform K) : Transform K := T.r.inverse.mulTranslation T.t.inverse

/-- Transform.hpp:261-266 `transformAround`. -/
def Transform.transformAround (theta : K) (offset origin : Vec2 K) : Transform K :=
  ((⟨offset + origin⟩ : Translation K).mulRotation (.ofAngle theta)).mulTranslation ⟨-origin⟩

/-- Transform.hpp:269-274: a 3x3 matrix acting on a 2D vector. -/
def mat3App (T : Mat K 3 3) (v : Vec2 K) : Vec2 K :=
  let vec : MVec K 3 := Mat.ofFn ![v.x, v.y, 1]
  let vec := T.mul vec
  ⟨vec.at_ 0, vec.at_ 1⟩

/-- Body.hpp:155-193 `Position`: `pos_`, `orientation_`, `localCentroid_`. -/
structure Position (K : Type*) where
  pos : Translation K
  orient : Rotation K
  localCentroid : Translation K

namespace Position

/-- Body.hpp:159-164. -/
def make (position : Vec2 K) (orientation : K) (localCentroid : Vec2 K) : Position K :=
  ⟨⟨position⟩, .ofAngle orientation, ⟨localCentroid⟩⟩

/-- Body.hpp:178-181. -/
def toWorldSpace (p : Position K) : Transform K :=
  ((p.pos.mul p.localCentroid).mulRotation p.orient).mulTranslation p.localCentroid.inverse

/-- Body.hpp:183. -/
def toLocalSpace (p : Position K) : Transform K := p.toWorldSpace.inverse

/-- Body.hpp:169. -/
def centroid (p : Position K) : Vec2 K := p.toWorldSpace.app p.localCentroid.offset

/-- Body.hpp:172-176. -/
def advance (p : Position K) (dPos : Vec2 K) (dTheta : K) : Position K :=
  { p with pos := p.pos.mul ⟨dPos⟩, orient := p.orient.mul (.ofAngle dTheta) }

/-- Body.hpp:185. -/
def setLocalCentroid (p : Position K) (c : Vec2 K) : Position K := { p with localCentroid := ⟨c⟩ }

end Position
end
end Simu
