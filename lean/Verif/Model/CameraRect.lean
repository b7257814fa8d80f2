import Verif.Model.CameraModel

/-!
# Model of `CameraModel::getRectByAngle`

Models `source/system/CameraModel.cpp:109-114` over the reals.
-/

set_option autoImplicit false

namespace Mdso.Cam

/-- `getRectByAngle` (source/system/CameraModel.cpp:109-114): width and height. Both products are
converted to `int`. -/
noncomputable def getRectByAngle (c : Cam) (observeAngle : ℝ) : Except Fault (Int × Int) := do
  let r := calcMapPoly c observeAngle
  let retWidth ← toInt (r * c.width / c.maxRadius)
  let retHeight ← toInt (r * c.height / c.maxRadius)
  .ok (retWidth, retHeight)

end Mdso.Cam
