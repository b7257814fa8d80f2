import Verif.Model.Vec3
import Mathlib.Analysis.SpecialFunctions.Trigonometric.Basic

/-!
# Specification of the spatial geometry helpers

Stated with coordinates, scalar products and cosines only.
-/

set_option autoImplicit false

namespace Mdso.Geom3Spec

open Mdso.Geom

/-- `θ` is the angle between the non-zero vectors `a` and `b`. -/
def IsAngle (θ : ℝ) (a b : V3) : Prop :=
  0 ≤ θ ∧ θ ≤ Real.pi ∧ Real.cos θ * (a.norm * b.norm) = a.dot b

/-- `p` is a direction on the (shorter) arc between the directions `d1` and `d2`: a non-zero combination of
them with non-negative coefficients. -/
def OnArc (p d1 d2 : V3) : Prop :=
  p ≠ 0 ∧ ∃ a b : ℝ, 0 ≤ a ∧ 0 ≤ b ∧ p = a • d1 + b • d2

/-- `d1` and `d2` point in exactly opposite directions. -/
def Opposite (d1 d2 : V3) : Prop := ∃ a : ℝ, 0 < a ∧ d2 = (-a) • d1

/-- `p` is in the field of view: its angle to the optical axis is at most `s`. -/
def InView (s : ℝ) (p : V3) : Prop := ∃ θ, IsAngle θ p ⟨0, 0, 1⟩ ∧ θ ≤ s

end Mdso.Geom3Spec
