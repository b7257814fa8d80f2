import Verif.Model.DepthColour

/-!
# Model of the flags for depth colours

Models `validateDepthsPart` (source/util/util.cpp:10-16) and drawing depths with the bounds taken from them, as `InterpolationDrawer` and the sample
`stat_epipolar` do.
-/

set_option autoImplicit false

namespace Mdso.Util

open Classical in
/-- `validateDepthsPart` (source/util/util.cpp:10-16), registered for both flags (source/util/util.cpp:21, 26): gflags refuses values for which it returns
`false`. `none` stands for a NaN or an infinity, which fail one of the comparisons. The message is left out. -/
noncomputable def validateDepthsPart (value : Option ℝ) : Bool :=
  match value with
  | none => false
  | some v => decide (v ≥ 0 ∧ v ≤ 1)

/-- The colours of depths drawn with the bounds set from them (source/output/InterpolationDrawer.cpp:14-18, 26-37 with
source/util/util.cpp:75-94, 170-180, and samples/mfov/stat/stat_epipolar/main.cpp:133-135). `b` are the bounds before. -/
noncomputable def drawWithOwnBounds (redPart bluePart : ℝ) (b : ColBounds) (depths : List ℝ) : Except Fault (List (Option Colour)) :=
  match setDepthColBounds redPart bluePart depths b with
  | .error e => .error e
  | .ok b' => .ok (depths.map fun d => depthCol d b'.minDepthCol b'.maxDepthCol)

end Mdso.Util
