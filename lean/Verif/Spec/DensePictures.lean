import Verif.Model.DensePictures

/-!
# The colours of depths
-/

set_option autoImplicit false

namespace Mdso.Dense.Spec

open Mdso.Dense

/-- Where the depth is between the bounds, from 0 to 1. -/
noncomputable def place (minDepth maxDepth d : ℝ) : ℝ := max 0 (min 1 ((d - minDepth) / (maxDepth - minDepth)))

/-- The colour of a depth in bytes (blue, green, red): from red over green to blue. -/
noncomputable def ramp (minDepth maxDepth d : ℝ) : Bgr :=
  let t := place minDepth maxDepth d
  if t ≤ 1 / 2 then (0, ⌊255 * (2 * t)⌋₊, ⌊255 * (1 - 2 * t)⌋₊) else (⌊255 * (2 * t - 1)⌋₊, ⌊255 * (2 - 2 * t)⌋₊, 0)

end Mdso.Dense.Spec
