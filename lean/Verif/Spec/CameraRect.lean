import Verif.Model.CameraRect
import Verif.Spec.CameraModel

/-!
# What a user expects of the rectangle of an angle
-/

set_option autoImplicit false

namespace Mdso.CamSpec

open Mdso.Geom Mdso.Cam

/-- `c` comes from one of the constructors, for a picture with at least one pixel and a positive
scale. -/
def Constructed (c : Cam) : Prop :=
  ∃ (solve : List (ℝ × ℝ) → Nat → ℝ × List ℝ) (deg : Nat) (samples : List ℝ) (w h : Nat),
    0 < w ∧ 0 < h ∧
    ((∃ (scale : ℝ) (center : V2) (cs : List ℝ), 0 < scale ∧
        ofPoly solve deg samples w h scale center cs = .ok c) ∨
      ∃ f cx cy : ℝ, ofPinhole solve deg samples w h f cx cy = .ok c)

/-- `p` lies in the rectangle of size `w` by `h` around `k`. -/
def InRect (k : V2) (w h : Int) (p : V2) : Prop := |p.x - k.x| ≤ (w : ℝ) / 2 ∧ |p.y - k.y| ≤ (h : ℝ) / 2

/-- The radius in the picture grows with the angle to the axis: from 0 on the axis to the opposite
direction. -/
def Grows (c : Cam) : Prop :=
  0 ≤ poly c.m0 c.ms 0 ∧
    ∀ a b, 0 ≤ a → a < b → b ≤ Real.pi → poly c.m0 c.ms a < poly c.m0 c.ms b

end Mdso.CamSpec
