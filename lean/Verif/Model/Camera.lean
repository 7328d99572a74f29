import Verif.Model.Transform
/-
Model of include/Simu/app/Camera.hpp, src/Simu/app/Camera.cpp and of `windowToScene` of src/Simu/app/Application.cpp.
-/
namespace Simu

/-- Camera.hpp:71-77: members. -/
structure Camera (K : Type*) where
  center : Vec2 K
  viewDimensions : Vec2 K
  zoom : K
  pixelSize : K

namespace Camera
section
variable {K : Type*} [Field K]

/-- Camera.hpp:71-77, Camera.cpp:32: initial values. -/
def init : Camera K := ⟨0, ⟨2, 2⟩, 1, 1 / 10⟩

/-- Camera.cpp:42 `pan`. -/
def pan (c : Camera K) (offset : Vec2 K) : Camera K := { c with center := c.center + offset }

/-- Camera.cpp:43 `panTo`. -/
def panTo (c : Camera K) (center : Vec2 K) : Camera K := c.pan (center - c.center)

/-- Camera.hpp:59 `setPixelSize`. -/
def setPixelSize (c : Camera K) (size : K) : Camera K := { c with pixelSize := size }

/-- Camera.cpp:45-52 `transform`. -/
def transform (c : Camera K) : Outcome (Mat K 3 3) :=
  let dimensions := Vec2.sdiv c.viewDimensions c.zoom
  let scale : Mat K 3 3 := Mat.diagonal (Mat.ofFn ![2 / dimensions.x, 2 / dimensions.y, 1])
  (Translation.toMat3 ⟨-c.center⟩).bind fun t => .ok (scale.mul t)

/-- Camera.cpp:54-61 `invTransform`. -/
def invTransform (c : Camera K) : Outcome (Mat K 3 3) :=
  let dimensions := Vec2.sdiv c.viewDimensions c.zoom
  let scale : Mat K 3 3 := Mat.diagonal (Mat.ofFn ![dimensions.x / 2, dimensions.y / 2, 1])
  (Translation.toMat3 ⟨c.center⟩).bind fun t => .ok (t.mul scale)

/-- Application.cpp:580-604 `windowToScene`, for a window of size `wz` (the framebuffer size is not used). -/
def windowToScene (c : Camera K) (wz : Vec2 K) : Outcome (Mat K 3 3) :=
  (Mat.ofList (m := 3) (n := 3) [1, 0, 0, 0, -1, wz.y, 0, 0, 1]).bind fun flipY =>
    (Mat.ofList (m := 3) (n := 3) [2 / wz.x, 0, -1, 0, 2 / wz.y, -1, 0, 0, 1]).bind fun screenToNdc =>
      c.invTransform.bind fun inv => .ok ((inv.mul screenToNdc).mul flipY)

variable [LinearOrder K]

/-- Camera.cpp:35-39 `setZoom`. -/
def setZoom (c : Camera K) (ratio : K) : Camera K := if 0 < ratio then { c with zoom := ratio } else c

/-- Camera.hpp:43 `zoomIn`. -/
def zoomIn (c : Camera K) : Camera K := c.setZoom (c.zoom * 5 / 4)

/-- Camera.hpp:44 `zoomOut`. -/
def zoomOut (c : Camera K) : Camera K := c.setZoom (c.zoom * 4 / 5)

/-- Camera.cpp:65-69 `setViewDimensions`. -/
def setViewDimensions (c : Camera K) (dimensions : Vec2 K) : Camera K :=
  if 0 < dimensions.x ∧ 0 < dimensions.y then { c with viewDimensions := dimensions } else c

/-- Camera.cpp:71-74 `setDimensionsFromScreenCoordinates`. -/
def setDimensionsFromScreenCoordinates (c : Camera K) (pixelDimensions : Vec2 K) : Camera K :=
  c.setViewDimensions (c.pixelSize • pixelDimensions)

end

/-- The public operations of a camera. -/
inductive Op (K : Type*) where
  | setZoom (ratio : K)
  | zoomIn
  | zoomOut
  | pan (offset : Vec2 K)
  | panTo (center : Vec2 K)
  | setPixelSize (size : K)
  | setViewDimensions (dimensions : Vec2 K)
  | setDimensionsFromScreenCoordinates (pixels : Vec2 K)

/-- Effect of a public operation: the functions above. -/
def apply {K : Type*} [Field K] [LinearOrder K] (c : Camera K) : Op K → Camera K
  | .setZoom r => c.setZoom r
  | .zoomIn => c.zoomIn
  | .zoomOut => c.zoomOut
  | .pan o => c.pan o
  | .panTo p => c.panTo p
  | .setPixelSize s => c.setPixelSize s
  | .setViewDimensions d => c.setViewDimensions d
  | .setDimensionsFromScreenCoordinates d => c.setDimensionsFromScreenCoordinates d

end Camera
end Simu
