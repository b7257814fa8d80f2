import Verif.Model.Geometry
import Verif.Model.Vec3
import Mathlib.Analysis.Calculus.FDeriv.Prod
import Mathlib.Analysis.Calculus.Deriv.Basic

/-!
# Specification of derivatives of functions of a ray
-/

set_option autoImplicit false

namespace Mdso.CamSpec

open Mdso.Geom

/-- The linear map `q ↦ g · q`. -/
noncomputable def lin (g : V3) : ℝ × ℝ × ℝ →L[ℝ] ℝ :=
  g.x • ContinuousLinearMap.fst ℝ ℝ (ℝ × ℝ) +
    g.y • (ContinuousLinearMap.fst ℝ ℝ ℝ).comp (ContinuousLinearMap.snd ℝ ℝ (ℝ × ℝ)) +
    g.z • (ContinuousLinearMap.snd ℝ ℝ ℝ).comp (ContinuousLinearMap.snd ℝ ℝ (ℝ × ℝ))

/-- `g` is the gradient of `f` at `p`: `f` is differentiable there and `f (p + d) = f p + g · d` up to terms smaller
than `d`. -/
def HasGradient (f : V3 → ℝ) (g p : V3) : Prop :=
  HasFDerivAt (fun q : ℝ × ℝ × ℝ => f ⟨q.1, q.2.1, q.2.2⟩) (lin g) (p.x, p.y, p.z)

/-- Going from `a` to `b`, a point on the curve moves by one pixel, as far as the derivative at `a` tells. -/
def OnePixel (curve : ℝ → V2) (a b : ℝ) : Prop :=
  a < b ∧ ∃ dx dy, HasDerivAt (fun t => (curve t).x) dx a ∧ HasDerivAt (fun t => (curve t).y) dy a ∧
    ((b - a) * dx) ^ 2 + ((b - a) * dy) ^ 2 = 1

end Mdso.CamSpec
