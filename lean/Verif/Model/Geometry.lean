import Verif.Model.DepthColour
import Mathlib.Analysis.Real.Sqrt

/-!
# Model of the planar part of `geometry.cpp`

Models `source/util/geometry.cpp:30-105` over the reals (floating-point rounding is not modelled). A C++
function returning `bool` is modelled by the proposition that it returns `true`.
-/

set_option autoImplicit false

namespace Mdso.Geom

/-- `Vec2`. -/
@[ext] structure V2 where
  x : ℝ
  y : ℝ

instance : Sub V2 := ⟨fun p q => ⟨p.x - q.x, p.y - q.y⟩⟩
instance : Add V2 := ⟨fun p q => ⟨p.x + q.x, p.y + q.y⟩⟩
instance : SMul ℝ V2 := ⟨fun s p => ⟨s * p.x, s * p.y⟩⟩

@[simp] theorem sub_x (p q : V2) : (p - q).x = p.x - q.x := rfl
@[simp] theorem sub_y (p q : V2) : (p - q).y = p.y - q.y := rfl
@[simp] theorem add_x (p q : V2) : (p + q).x = p.x + q.x := rfl
@[simp] theorem add_y (p q : V2) : (p + q).y = p.y + q.y := rfl
@[simp] theorem smul_x (s : ℝ) (p : V2) : (s • p).x = s * p.x := rfl
@[simp] theorem smul_y (s : ℝ) (p : V2) : (s • p).y = s * p.y := rfl

/-- `squaredNorm`. -/
def sqNorm (p : V2) : ℝ := p.x * p.x + p.y * p.y

/-- `dot`. -/
def dot (p q : V2) : ℝ := p.x * q.x + p.y * q.y

/-- `cross2` (source/util/geometry.cpp:30-32). -/
def cross2 (a b : V2) : ℝ := a.x * b.y - a.y * b.x

/-- `isSameSide` (source/util/geometry.cpp:34-36). -/
def isSameSide (a b p1 p2 : V2) : Prop := cross2 (b - a) (p1 - a) * cross2 (b - a) (p2 - a) ≥ 0

/-- `isInsideTriangle` (source/util/geometry.cpp:38-42). -/
def isInsideTriangle (a b c p : V2) : Prop :=
  isSameSide a b p c ∧ isSameSide a c p b ∧ isSameSide b c p a

/-- `isABCDConvex` (source/util/geometry.cpp:44-47). -/
def isABCDConvex (a b c d : V2) : Prop :=
  isSameSide a b c d ∧ isSameSide b c a d ∧ isSameSide c d a b ∧ isSameSide d a b c

/-- `areEqual` (source/util/geometry.cpp:49-51). -/
def areEqual (a b : V2) (eps : ℝ) : Prop := sqNorm (a - b) < eps * eps

/-- `doesABcontain` (source/util/geometry.cpp:53-60). For `a = b` the quotients are NaN, and comparisons
with NaN are false. -/
def doesABcontain (a b p : V2) (eps : ℝ) : Prop :=
  Real.sqrt (sqNorm (b - a)) ≠ 0 ∧
  let ap := p - a
  let abNorm := Real.sqrt (sqNorm (b - a))
  let abN : V2 := ⟨(b - a).x / abNorm, (b - a).y / abNorm⟩
  let abNp := dot abN ap
  |dot ap ⟨abN.y, -abN.x⟩| < eps ∧ abNp ≥ -eps ∧ abNp ≤ abNorm + eps

/-- `isABDelaunay` (source/util/geometry.cpp:62-76), with the 3×3 determinant expanded. -/
def isABDelaunay (a b c d : V2) : Prop :=
  let da := a - d
  let db := b - d
  let dc := c - d
  let ab := b - a
  let bc := c - b
  let determinant := da.x * (db.y * sqNorm dc - sqNorm db * dc.y)
    - da.y * (db.x * sqNorm dc - sqNorm db * dc.x)
    + sqNorm da * (db.x * dc.y - db.y * dc.x)
  determinant * cross2 ab bc ≤ 0

/-- The bounding box filter of `doesABIntersectCD` (source/util/geometry.cpp:80-83). -/
def boxFilter (a b c d : V2) (eps : ℝ) : Prop :=
  ((a.x + eps < c.x ∧ c.x < b.x - eps) ∨ (a.x + eps < d.x ∧ d.x < b.x - eps)) ∧
  ((a.y + eps < c.y ∧ c.y < b.y - eps) ∨ (a.y + eps < d.y ∧ d.y < b.y - eps))

/-- `doesABIntersectCD` (source/util/geometry.cpp:78-87). -/
def doesABIntersectCD (a b c d : V2) (eps : ℝ) : Prop :=
  boxFilter a b c d eps ∧ ¬ isSameSide a b c d ∧ ¬ isSameSide c d a b

open Classical in
/-- `approxOnCurve` (source/util/geometry.cpp:91-105). Subscripts outside the vector are undefined
behaviour. -/
noncomputable def approxOnCurve (points : List V2) (displ : ℝ) : Except Fault V2 :=
  if points.length ≥ 2 then
    if displ ≤ 0 then
      match at' points 0, at' points 1 with
      | .ok p0, .ok p1 => .ok (p0 - displ • (p0 - p1))
      | _, _ => .error .ub
    else if displ + 1 ≥ (points.length : ℝ) then
      match at' points (points.length - 1), at' points (points.length - 2) with
      | .ok last, .ok lbo =>
        let res := displ - points.length + 1
        .ok (last + res • (last - lbo))
      | _, _ => .error .ub
    else
      let intDispl := Util.truncInt displ
      let fracDispl := displ - intDispl
      if intDispl < 0 then .error .ub
      else
        match at' points intDispl.toNat, at' points (intDispl.toNat + 1) with
        | .ok p, .ok q => .ok (p + fracDispl • (q - p))
        | _, _ => .error .ub
  else .error .abort

end Mdso.Geom
