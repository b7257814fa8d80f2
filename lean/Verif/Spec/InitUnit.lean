import Verif.Spec.Initializer
import Verif.Spec.Symmetry

/-!
# What is expected of an initialization in another unit of length
-/

set_option autoImplicit false

namespace Mdso.Init.Spec

open Mdso.Geom Mdso.Tri Mdso.Init

/-- The matched key points with depths in a unit of length of which there are `σ` to the old one. -/
noncomputable def Matched.inUnit (σ : ℝ) (m : Matched) : Matched := ⟨m.keyPoints, m.depths.map fun d => σ * d⟩

/-- The same point with its depth and the interval of its depth in the new unit. -/
noncomputable def IPoint.inUnit (σ : ℝ) (ip : IPoint) : IPoint := { ip with pt := Sym.scalePoint σ ip.pt }

end Mdso.Init.Spec
