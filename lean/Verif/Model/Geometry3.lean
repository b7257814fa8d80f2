import Verif.Model.Fault
import Verif.Model.Vec3
import Mathlib.Analysis.SpecialFunctions.Trigonometric.Inverse

/-!
# Model of the spatial part of `geometry.cpp`

Models `source/util/geometry.cpp:8-28` and `107-154` over the reals (floating-point rounding is not
modelled). The QR solvers of Eigen are modelled by the solution they compute for a matrix of full column
rank; for other matrices Eigen picks one of many candidates depending on pivoting, which is not modelled
and shows as `none`.
-/

set_option autoImplicit false

namespace Mdso.Geom

open V3

open Classical in
/-- `angle` (source/util/geometry.cpp:8-15). -/
noncomputable def angle (a b : V3) : ℝ :=
  let cosAngle := a.normalized.dot b.normalized
  Real.arccos (if cosAngle < -1 then -1 else if 1 < cosAngle then 1 else cosAngle)

/-- A 3 by 3 matrix, as its rows. -/
structure M3 where
  r0 : V3
  r1 : V3
  r2 : V3

/-- Matrix times vector. -/
def M3.mulVec (m : M3) (v : V3) : V3 := ⟨m.r0.dot v, m.r1.dot v, m.r2.dot v⟩

/-- Matrix product. -/
def M3.mul (m n : M3) : M3 :=
  let col := fun (f : V3 → ℝ) => (⟨f n.r0, f n.r1, f n.r2⟩ : V3)
  let row := fun (r : V3) => (⟨r.dot (col V3.x), r.dot (col V3.y), r.dot (col V3.z)⟩ : V3)
  ⟨row m.r0, row m.r1, row m.r2⟩

/-- `SO3::hat` of Sophus: the matrix of the cross product with `t`. -/
def hat (t : V3) : M3 := ⟨⟨0, -t.z, t.y⟩, ⟨t.z, 0, -t.x⟩, ⟨-t.y, t.x, 0⟩⟩

/-- A rigid motion `SE3`: rotation matrix and translation. That the matrix is a rotation is a hypothesis
where it is needed. -/
structure Motion3 where
  rot : M3
  t : V3

/-- The motion applied to a point. -/
def Motion3.act (m : Motion3) (p : V3) : V3 := m.rot.mulVec p + m.t

/-- `toEssential` (source/util/geometry.cpp:17-19). -/
def toEssential (m : Motion3) : M3 := (hat m.t).mul m.rot

open Classical in
/-- Least-squares solution of the system with columns `c1`, `c2` and right-hand side `b`: the solution of
the normal equations. `none` if the columns are linearly dependent. -/
noncomputable def lsq2 (c1 c2 b : V3) : Option (ℝ × ℝ) :=
  let d := c1.dot c1 * c2.dot c2 - c1.dot c2 * c1.dot c2
  if d = 0 then none
  else some ((c1.dot b * c2.dot c2 - c2.dot b * c1.dot c2) / d,
             (c1.dot c1 * c2.dot b - c1.dot c2 * c1.dot b) / d)

/-- `triangulate` (source/util/geometry.cpp:21-28). -/
noncomputable def triangulate (m : Motion3) (firstRay secondRay : V3) : Option (ℝ × ℝ) :=
  lsq2 (m.rot.mulVec firstRay) (-secondRay) (-m.t)

/-- Determinant of the matrix with the given columns. -/
def det3 (a b c : V3) : ℝ := a.dot (b.cross c)

open Classical in
/-- Solution of the system with columns `a`, `b`, `c` by Cramer's rule; `none` if it is singular. -/
noncomputable def solve3 (a b c r : V3) : Option V3 :=
  if det3 a b c = 0 then none
  else some ⟨det3 r b c / det3 a b c, det3 a r c / det3 a b c, det3 a b r / det3 a b c⟩

/-- `isInSector` (source/util/geometry.cpp:107-115): `some P` if it returns the truth value of `P`. -/
noncomputable def isInSector (ray s0 s1 s2 : V3) : Option Prop :=
  (solve3 s0 s1 s2 ray).map fun co => co.x ≥ 0 ∧ co.y ≥ 0 ∧ co.z ≥ 0

/-- `epsAngle` (source/util/geometry.cpp:120). -/
noncomputable def epsAngle : ℝ := 1 / 10000

/-- The optical axis `Vec3(0., 0., 1.)` (source/util/geometry.cpp:118-119). -/
def axis : V3 := ⟨0, 0, 1⟩

open Classical in
/-- `intersectOnSphere` (source/util/geometry.cpp:117-154): the result and the new values of `dir1`, `dir2`.
With `a2b2 = 0` the divisions give NaN, with a negative argument `std::sqrt` does; either way the `CHECK` of
line 137 compares with a NaN and fails. When both checks pass the matrix of line 144 has full rank, so the
`none` branch is never taken; it is given the outcome of `sol2`. -/
noncomputable def intersectOnSphere (sectorAngle : ℝ) (dir1 dir2 : V3) :
    Except Fault (Bool × V3 × V3) :=
  let angle1 := angle dir1 axis
  let angle2 := angle dir2 axis
  if angle1 > sectorAngle + epsAngle ∧ angle2 > sectorAngle + epsAngle then .ok (false, dir1, dir2)
  else if angle1 ≤ sectorAngle + epsAngle ∧ angle2 ≤ sectorAngle + epsAngle then .ok (true, dir1, dir2)
  else
    let z0 := Real.cos sectorAngle
    let R := Real.sin sectorAngle
    let norm := dir1.cross dir2
    let a := norm.x
    let b := norm.y
    let c := norm.z
    let a2b2 := a * a + b * b
    let x0 := -(a * c * z0) / a2b2
    let y0 := -(b * c * z0) / a2b2
    let u := a * y0 - b * x0
    let v := x0 * x0 + y0 * y0 - R * R
    let disc := u * u - a2b2 * v
    let sD4 := Real.sqrt disc
    let t1 := (u - sD4) / a2b2
    let t2 := (u + sD4) / a2b2
    let sol1 : V3 := ⟨x0 - t1 * b, y0 + t1 * a, z0⟩
    let sol2 : V3 := ⟨x0 - t2 * b, y0 + t2 * a, z0⟩
    if a2b2 ≠ 0 ∧ 0 ≤ disc ∧ |sol1.sqNorm - 1| < 1 / 10000 ∧ |sol2.sqNorm - 1| < 1 / 10000 then
      let sol := match lsq2 dir1 dir2 sol1 with
        | some co => if co.1 ≥ 0 ∧ co.2 ≥ 0 then sol1 else sol2
        | none => sol2
      if angle1 > sectorAngle then .ok (true, sol, dir2)
      else if angle2 > sectorAngle then .ok (true, dir1, sol)
      else .ok (true, dir1, dir2)
    else .error .abort

end Mdso.Geom
