import Verif.Model.Geometry

/-!
# Other coordinates for the points of a plane
-/

set_option autoImplicit false

namespace Mdso.Tri.Spec

open Mdso.Geom

/-- The point in coordinates with another origin and another unit: there are `σ` new units to an old one, and the old origin is at `t`. -/
noncomputable def recoord (σ : ℝ) (t : V2) (p : V2) : V2 := ⟨σ * p.x + t.x, σ * p.y + t.y⟩

end Mdso.Tri.Spec
