import Verif.Model.FirstFrames
import Verif.Spec.Initializer
import Verif.Spec.StereoGeometry

/-!
# What it means that the first keyframes show the scene
-/

set_option autoImplicit false

namespace Mdso.Init.Spec

open Mdso.Geom Mdso.Tri Mdso.Cam Mdso.Init Mdso.StereoSpec

/-- The correspondence is the exact image of the point `X` in two views, the second being the first moved by `m`; the rays to `X` are not parallel. `X` is in the
coordinates of the first view. -/
def Sees (e : Stereo.Env) (m : Motion3) (c : V2 × V2) (X : V3) : Prop :=
  ∃ x y : ℝ, X = x • rayOf e c.1 ∧ m.act X = y • rayOf e c.2 ∧ (m.rot.mulVec (rayOf e c.1)).cross (rayOf e c.2) ≠ 0

/-- The point is active, and `d` before the camera on its ray. -/
def HasDepth (ip : IPoint) (d : ℝ) : Prop := ip.pt.state = .active ∧ ip.pt.depth = some d ∧ 0 < d

/-- The place in the world at the distance `d` in the direction of the pixel. -/
noncomputable def place (e : Stereo.Env) (f : First) (p : V2) (d : ℝ) : V3 := f.thisToWorld.act (d • rayOf e p)

/-- The terrain that is built from the matched points of a frame has no sector with dependent rays. -/
def NoFlatSector (S : Setup) (m : Matched) (order : List Nat) : Prop :=
  ∀ init, newSectors S.env S.arrange S.s (spatial S m) order S.fuel = .ok (some init) → ∀ x ∈ init, det3 x.r0 x.r1 x.r2 ≠ 0

/-- The plane with the equation `n · x = c`. -/
def OnPlane (n : V3) (c : ℝ) (x : V3) : Prop := n.dot x = c

end Mdso.Init.Spec
