import Verif.Model.Terrain
import Verif.Spec.Geometry3

/-!
# Sectors around a direction, and pictures filled cell by cell

Stated with sums of multiples of rays, angles and pixels only.
-/

set_option autoImplicit false

namespace Mdso.SectorSpec

open Mdso.Geom Mdso.Tri Mdso.Geom3Spec

/-- The direction is a sum of non-negative multiples of the three rays. -/
def Around (s : Sector) (dir : V3) : Prop :=
  ∃ x y z : ℝ, 0 ≤ x ∧ 0 ≤ y ∧ 0 ≤ z ∧ dir = x • s.r0 + y • s.r1 + z • s.r2

/-- `θ` is the angle between two of the three rays. -/
def AngleOf (s : Sector) (θ : ℝ) : Prop := IsAngle θ s.r0 s.r1 ∨ IsAngle θ s.r1 s.r2 ∨ IsAngle θ s.r2 s.r0

/-- `w` is the greatest of the three angles between two rays. -/
def WidestAngle (s : Sector) (w : ℝ) : Prop := AngleOf s w ∧ ∀ θ, AngleOf s θ → θ ≤ w

/-- The pixel (x, y) belongs to the cell that begins at (10 i, 10 j): eleven columns and eleven rows, so neighbouring cells share pixels. -/
def OfCell (i j x y : Nat) : Prop := 10 * i ≤ x ∧ x ≤ 10 * i + 10 ∧ 10 * j ≤ y ∧ y ≤ 10 * j + 10

end Mdso.SectorSpec
