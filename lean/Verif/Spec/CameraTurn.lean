import Verif.Model.Geometry
import Verif.Model.Vec3
import Mathlib.Tactic.LinearCombination

/-!
# Specification of turning about the axis of a camera

A turn of the plane about the origin, or such a turn after a reflection, and what it does to rays and to positions on
a picture.
-/

set_option autoImplicit false

namespace Mdso.CamSpec

open Mdso.Geom

/-- A turn: cosine and sine of its angle, and `1`, or `-1` if the plane is reflected first. -/
structure Turn where
  cos : ℝ
  sin : ℝ
  side : ℝ
  unit : cos ^ 2 + sin ^ 2 = 1
  sided : side ^ 2 = 1

namespace Turn

/-- A vector of the plane, turned. -/
def vec (t : Turn) (p : V2) : V2 := ⟨t.cos * p.x - t.side * t.sin * p.y, t.sin * p.x + t.side * t.cos * p.y⟩

/-- A direction in space, turned about the axis of the camera, which is the third axis. -/
def ray (t : Turn) (v : V3) : V3 :=
  ⟨t.cos * v.x - t.side * t.sin * v.y, t.sin * v.x + t.side * t.cos * v.y, v.z⟩

/-- A position on a picture, turned about `c`. -/
def pos (t : Turn) (c p : V2) : V2 := c + t.vec (p - c)

/-- The turn that undoes `t`. -/
def back (t : Turn) : Turn where
  cos := t.cos
  sin := -(t.side * t.sin)
  side := t.side
  unit := by
    have h1 := t.unit
    have h2 := t.sided
    linear_combination h1 + t.sin ^ 2 * h2
  sided := t.sided

end Turn

end Mdso.CamSpec
