import Verif.Model.CameraModel
import Verif.Model.ImmaturePoint

/-!
# Model of `CameraModel::diffMap`

Models `source/system/CameraModel.cpp:86-97`: the template `map` of `include/system/CameraModel.h:55-77` computed
with Ceres' dual numbers `Jet<double, 3>`, over the reals (floating-point rounding is not modelled).
-/

set_option autoImplicit false

namespace Mdso.Cam

open Mdso.Geom

/-- `ceres::Jet<double, 3>` (source/system/CameraModel.cpp:87): a value and the derivatives with respect to the
three coordinates of the ray. `none`: the derivatives are not numbers (infinite or NaN). -/
structure Jet where
  a : ℝ
  v : Option V3

namespace Jet

/-- A constant: `T(s)` and `cast<T>()` (include/system/CameraModel.h:63, 72, 75). -/
def const (s : ℝ) : Jet := ⟨s, some 0⟩

/-- An operation on two lists of derivatives; NaN stays NaN. -/
def lift2 (f : V3 → V3 → V3) : Option V3 → Option V3 → Option V3
  | some v, some w => some (f v w)
  | _, _ => none

/-- Ceres' `operator+` of `Jet` (used in include/system/CameraModel.h:68, 74). -/
def add (f g : Jet) : Jet := ⟨f.a + g.a, lift2 (fun v w => v + w) f.v g.v⟩

/-- Ceres' `operator*` of `Jet` (used in include/system/CameraModel.h:68, 69, 73, 75). -/
def mul (f g : Jet) : Jet := ⟨f.a * g.a, lift2 (fun v w => f.a • w + g.a • v) f.v g.v⟩

open Classical in
/-- Ceres' `operator/` of `Jet` (used by `normalized`, include/system/CameraModel.h:73). -/
noncomputable def div (f g : Jet) : Jet :=
  ⟨f.a / g.a, if g.a = 0 then none else lift2 (fun v w => (1 / g.a) • (v - (f.a / g.a) • w)) f.v g.v⟩

open Classical in
/-- Ceres' `sqrt` of `Jet`: the derivatives are multiplied by `1 / (2 * sqrt(a))`, which is infinite for zero (used
by `norm` and `normalized`, include/system/CameraModel.h:65, 73). -/
noncomputable def sqrt (f : Jet) : Jet :=
  ⟨Real.sqrt f.a, if Real.sqrt f.a = 0 then none else f.v.map fun v => (1 / (2 * Real.sqrt f.a)) • v⟩

open Classical in
/-- Ceres' `atan2(g, f)` of `Jet` (used in include/system/CameraModel.h:65). -/
noncomputable def atan2 (g f : Jet) : Jet :=
  ⟨Cam.atan2 g.a f.a, if f.a * f.a + g.a * g.a = 0 then none
    else lift2 (fun w v => (1 / (f.a * f.a + g.a * g.a)) • ((-g.a) • v + f.a • w)) g.v f.v⟩

/-- The loop of `map` (include/system/CameraModel.h:67-70) with dual numbers. -/
def polyLoop (angle : Jet) : List ℝ → Jet → Jet → Jet
  | [], _, r => r
  | p :: ps, angleN, r => polyLoop angle ps (mul angleN angle) (add r (mul (const p) angleN))

end Jet

open Jet

/-- Eigen's `squaredNorm` of the first two coordinates (include/system/CameraModel.h:65, 73). -/
def sqNormJ (x y : Jet) : Jet := add (mul x x) (mul y y)

open Classical in
/-- Eigen's `normalized` of the first two coordinates (include/system/CameraModel.h:73); dual numbers are compared by
their values. -/
noncomputable def normalizedJ (x y : Jet) : Jet × Jet :=
  if 0 < (sqNormJ x y).a then (div x (Jet.sqrt (sqNormJ x y)), div y (Jet.sqrt (sqNormJ x y))) else (x, y)

/-- `map` with dual numbers (include/system/CameraModel.h:55-77). -/
noncomputable def mapJ (c : Cam) (x y z : Jet) : Jet × Jet :=
  let angle := Jet.atan2 (Jet.sqrt (sqNormJ x y)) z
  let r := Jet.polyLoop angle c.ms angle (const c.m0)
  let n := normalizedJ x y
  (mul (add (mul n.1 r) (const c.center.x)) (const c.scale),
   mul (add (mul n.2 r) (const c.center.y)) (const c.scale))

/-- `rayJet` (source/system/CameraModel.cpp:87-92). -/
def rayJet (ray : V3) : Jet × Jet × Jet :=
  (⟨ray.x, some ⟨1, 0, 0⟩⟩, ⟨ray.y, some ⟨0, 1, 0⟩⟩, ⟨ray.z, some ⟨0, 0, 1⟩⟩)

/-- `diffMap` (source/system/CameraModel.cpp:86-97): the position and the rows of the Jacobian. -/
noncomputable def diffMap (c : Cam) (ray : V3) : V2 × Option V3 × Option V3 :=
  let j := rayJet ray
  let p := mapJ c j.1 j.2.1 j.2.2
  (⟨p.1.a, p.2.a⟩, p.1.v, p.2.v)

/-- `mapJacobian * v` (source/system/ImmaturePoint.cpp:132). Where the Jacobian is not a number, so are the step and
the next `alpha`, which ends the loop of `pointsToTrace` (line 139); a zero vector has the same effect in the model
of that loop, `Trace.sweep`. -/
noncomputable def jacobianTimes (c : Cam) (ray v : V3) : V2 :=
  match (diffMap c ray).2 with
  | (some gx, some gy) => ⟨gx.dot v, gy.dot v⟩
  | _ => ⟨0, 0⟩

/-- The camera as the epipolar search sees it (source/system/ImmaturePoint.cpp:104-105, 110-111, 126, 139), with the
border `PH`. -/
noncomputable def asTraced (c : Cam) (PH : Int) : Trace.Camera where
  map := map c
  unmap := unmap c
  jacobian := jacobianTimes c
  isOnImage := fun p => isOnImage c p PH
  maxAngle := c.maxAngle
  size := c.width + c.height

end Mdso.Cam
