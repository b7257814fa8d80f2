import Verif.Model.InitPicture
import Verif.Spec.DrawTracing

/-!
# What the pictures of keyframes and their depths should show
-/

set_option autoImplicit false

namespace Mdso.InitPicture.Spec

open Mdso.Geom Mdso.Util Mdso.Tri Mdso.TraceDraw.Spec

/-- The colour for a depth: red below `lo`, blue above `hi`, between them from red over green to blue. -/
def IsDepthColour (lo hi d : ℝ) (c : Colour) : Prop :=
  (d < lo → c = ⟨0, 0, 255⟩) ∧ (hi < d → c = ⟨255, 0, 0⟩) ∧ (lo ≤ d → d ≤ hi → IsRamp lo hi d c)

/-- The mark is a circle at the pixel of `p` in the colour for `d`. Without a range of depths the colour is not specified. -/
def IsCircleAt (lo hi : ℝ) (radius thickness : Int) (p : V2) (d : ℝ) (m : Mark) : Prop :=
  ∃ px c, m = .circle ⟨px, radius, c, thickness⟩ ∧ IsPixelOf px p ∧ (lo < hi → ∃ colour, c = some colour ∧ IsDepthColour lo hi d colour)

/-- There is one mark for each of the points, in their order. -/
def OneEach (ok : V2 → ℝ → Mark → Prop) (points : List (V2 × ℝ)) (marks : List Mark) : Prop :=
  List.Forall₂ (fun pd m => ok pd.1 pd.2 m) points marks

/-- The pixel a position is in, with the coordinates cut off toward zero. -/
noncomputable def pixelOf (p : V2) : Pixel := ⟨truncInt p.x, truncInt p.y⟩

/-- The active points with a bounded depth interval. -/
noncomputable def shown (ips : List Init.IPoint) : List Init.IPoint := ips.filter fun ip => decide (ip.pt.state = .active ∧ ip.pt.maxDepth ≠ ⊤)

end Mdso.InitPicture.Spec
