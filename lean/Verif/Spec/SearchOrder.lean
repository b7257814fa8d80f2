import Verif.Spec.ImmaturePoint

/-!
# Where a point is seen

Written without the functions of the search.
-/

set_option autoImplicit false

namespace Mdso.TraceSpec

open Mdso.Geom Mdso.Cam Mdso.Trace

/-- If a point has the given depth on the ray `base` of the one camera, which moves by `m` to the other one, then the other camera sees it in the
direction `v`. An infinitely far point is seen in the direction of the turned ray. -/
def SeenIn (m : Motion3) (base v : V3) : WithTop ℝ → Prop
  | none => ∃ y : ℝ, 0 < y ∧ m.rot.mulVec base = y • v
  | some d => ∃ y : ℝ, 0 < y ∧ m.rot.mulVec (d • base) + m.t = y • v

/-- The other camera is not on the line of the ray, so that different depths are seen in different directions. -/
def Parallax (m : Motion3) (base : V3) : Prop := (m.rot.mulVec base).cross m.t ≠ 0

/-- Depths are those of `triangulate` wherever two rays meet in one point. -/
def Triangulates (e : Env) (base : V3) : Prop :=
  ∀ (ray : V3) (x y : ℝ), triangulate e.baseToRef base ray = some (x, y) →
    e.baseToRef.rot.mulVec (x • base) + e.baseToRef.t = y • ray → e.tri ray = x

end Mdso.TraceSpec
