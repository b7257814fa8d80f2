import Verif.Model.Terrain
import Verif.Model.DepthColour
import Verif.Model.FrameTracker

/-!
# Model of pictures coloured by depth

Models `Terrain::drawDensePlainDepths` (source/util/Terrain.cpp:51-64), `drawDepthedFrame` (source/util/util.cpp:263-273) and
`toCvVec3bDummy` (source/util/util.cpp:203-205), over the reals. A pixel is a triple of bytes (blue, green, red).
-/

set_option autoImplicit false

namespace Mdso.Dense

open Mdso.Geom Mdso.Tri Mdso.Util

/-- A `cv::Vec3b`. -/
abbrev Bgr := Nat × Nat × Nat

/-- A `double` converted to `unsigned char`, as in the arguments of `cv::Vec3b` (source/util/util.cpp:204): the fraction is
dropped; a value that does not fit is undefined behaviour. -/
noncomputable def toByte (x : ℝ) : Except Fault Nat := if -1 < x ∧ x < 256 then .ok (truncInt x).toNat else .error .ub

/-- `toCvVec3bDummy` (source/util/util.cpp:203-205). Converting NaN is undefined. -/
noncomputable def toCvVec3bDummy : Option Colour → Except Fault Bgr
  | none => .error .ub
  | some c => do
    let b ← toByte c.b
    let g ← toByte c.g
    let r ← toByte c.r
    .ok (b, g, r)

/-- `img.at<cv::Vec3b>(y, x) = c`. -/
def setPixel (img : Pyr.Img Bgr) (q : Nat × Nat) (c : Bgr) : Pyr.Img Bgr :=
  { img with px := fun y x => if (y, x) = q then c else img.px y x }

/-- The loops over the pixels (source/util/Terrain.cpp:57-63, source/util/util.cpp:268-271): `depth q` is `some none` where nothing is
to be painted, and `none` if it does not return. -/
noncomputable def paint (depth : Nat × Nat → Except Fault (Option (Option ℝ))) (minDepth maxDepth : ℝ) :
    List (Nat × Nat) → Pyr.Img Bgr → Except Fault (Option (Pyr.Img Bgr))
  | [], img => .ok (some img)
  | q :: qs, img => do
    match ← depth q with
    | none => .ok none
    | some none => paint depth minDepth maxDepth qs img
    | some (some d) => do
      let c ← toCvVec3bDummy (depthCol d minDepth maxDepth)
      paint depth minDepth maxDepth qs (setPixel img q c)

/-- `drawDensePlainDepths` (source/util/Terrain.cpp:51-64); `typeOk` says whether the picture has three channels of bytes,
`coin q` are the coins of the walk for the pixel `q`. -/
noncomputable def drawDensePlainDepths (L : Linear) (env : Env) (T : Terrain) (coin : Nat × Nat → Nat → Bool) (fuel : Nat)
    (typeOk : Bool) (img : Pyr.Img Bgr) (minDepth maxDepth : ℝ) : Except Fault (Option (Pyr.Img Bgr)) :=
  if typeOk then
    paint (fun q => T.depthAt L env ⟨q.2, q.1⟩ (coin q) fuel) minDepth maxDepth (Track.pixels img.rows img.cols) img
  else .error .exception

/-- The condition and the depth of a pixel (source/util/util.cpp:270-271); reading outside `depths` is undefined. -/
noncomputable def knownDepth (depths : Pyr.Img ℝ) (q : Nat × Nat) : Except Fault (Option (Option ℝ)) := do
  let d ← depths.read q.1 q.2
  .ok (some (if d > 0 then some d else none))

/-- `drawDepthedFrame` (source/util/util.cpp:263-273). `cv::cvtColor` throws for an empty picture. -/
noncomputable def drawDepthedFrame (frame : Pyr.Img Nat) (depths : Pyr.Img ℝ) (minDepth maxDepth : ℝ) :
    Except Fault (Option (Pyr.Img Bgr)) :=
  if frame.rows = 0 ∨ frame.cols = 0 then .error .exception
  else
    paint (knownDepth depths) minDepth maxDepth (Track.pixels frame.rows frame.cols)
      ⟨frame.rows, frame.cols, fun y x => (frame.px y x, frame.px y x, frame.px y x)⟩

end Mdso.Dense
