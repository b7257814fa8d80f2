import Verif.Model.Initializer
import Verif.Model.DrawTracing
import Verif.Model.DensePictures

/-!
# Model of the pictures of keyframes and their depths

Models `insertDepths` (source/util/util.cpp:182-198), `InterpolationDrawer` (source/output/InterpolationDrawer.cpp), the call of the
observers of the initializer (source/system/DelaunayDsoInitializer.cpp:130-131) and `KeyFrame::drawDepthedFrame`
(source/system/KeyFrame.cpp:89-101). A picture is the list of the calls that draw on the coloured frame, in their order.
-/

set_option autoImplicit false

namespace Mdso.InitPicture

open Mdso.Geom Mdso.Util Mdso.Tri

/-- A call of `cv::circle`; a thickness of -1 is `cv::FILLED`. -/
structure Circle where
  centre : Pixel
  radius : Int
  colour : Option Colour
  thickness : Int

/-- A call that draws: a circle, or the curve of an edge. -/
inductive Mark where
  | circle (c : Circle)
  | curve (lines : List Line)

/-- One round of the loop of `insertDepths` (source/util/util.cpp:192-196). -/
noncomputable def depthCircle (minDepth maxDepth : ℝ) (areSolidPnts : Bool) (p : V2) (d : ℝ) : Mark :=
  .circle ⟨TraceDraw.toPixel p, if areSolidPnts then 6 else 5, depthCol d minDepth maxDepth, if areSolidPnts then -1 else 2⟩

/-- The loop of `insertDepths` over `i` (source/util/util.cpp:191-197). -/
noncomputable def depthCircles (minDepth maxDepth : ℝ) (areSolidPnts : Bool) : List V2 → List ℝ → List Mark
  | p :: ps, d :: ds => depthCircle minDepth maxDepth areSolidPnts p d :: depthCircles minDepth maxDepth areSolidPnts ps ds
  | _, _ => []

/-- `insertDepths` (source/util/util.cpp:182-198). -/
noncomputable def insertDepths (points : List V2) (depths : List ℝ) (minDepth maxDepth : ℝ) (areSolidPnts : Bool) : Except Fault (List Mark) :=
  if points.length ≠ depths.length then .error .exception
  else .ok (depthCircles minDepth maxDepth areSolidPnts points depths)

/-- `ip->depth` of all points (source/output/InterpolationDrawer.cpp:15-16, 30-33). Reading one that has not been written is undefined. -/
def depthsOf : List Init.IPoint → Except Fault (List ℝ)
  | [] => .ok []
  | ip :: ips => do
    let d ← match ip.pt.depth with
      | some d => .ok d
      | none => .error .ub
    let ds ← depthsOf ips
    .ok (d :: ds)

/-- What `InterpolationDrawer` keeps, with the globals it changes: the marks on the coloured frame of the keyframe. -/
structure Drawn where
  marks : List Mark
  didInitialize : Bool
  bounds : ColBounds

/-- `InterpolationDrawer::initialized` (source/output/InterpolationDrawer.cpp:10-40); `edges` are the curves that `lastTerrain->draw`
draws. -/
noncomputable def initialized (redPart bluePart : ℝ) (b : ColBounds) (ips : List Init.IPoint) (edges : List (List Line)) (m : Init.Matched) :
    Except Fault Drawn := do
  let ipDepths ← depthsOf ips
  let b' ← setDepthColBounds redPart bluePart ipDepths b
  let discs ← insertDepths m.keyPoints m.depths b'.minDepthCol b'.maxDepthCol true
  let d ← depthsOf ips
  let rings ← insertDepths (ips.map (·.p)) d b'.minDepthCol b'.maxDepthCol false
  .ok ⟨discs ++ edges.map .curve ++ rings, true, b'⟩

/-- `createKeyFrames` with an `InterpolationDrawer` among the observers (source/system/DelaunayDsoInitializer.cpp:71-132): only the
spherical branch tells the observers. The edges left in the terrain are a parameter. -/
noncomputable def createAndDraw (S : Init.Setup) (usePlainTriangulation : Bool) (m0 m1 : Init.Matched) (redPart bluePart : ℝ) (b : ColBounds)
    (edges : List (List Line)) : Except Fault (Option ((List Init.IPoint × List Init.IPoint) × Drawn)) := do
  match ← Init.createKeyFrames S usePlainTriangulation m0 m1 with
  | none => .ok none
  | some kfs =>
    if usePlainTriangulation then .ok (some (kfs, ⟨[], false, b⟩))
    else do
      let dr ← initialized redPart bluePart b kfs.2 edges m1
      .ok (some (kfs, dr))

/-- What `drawDepthedFrame` reads of an `OptimizedPoint`. -/
structure OPoint where
  p : V2
  depth : ℝ

/-- What `drawDepthedFrame` draws: the outline of a square with given centre, half side, colour and thickness (`putSquare`,
source/util/util.cpp:145-149), or a circle. -/
inductive KfMark where
  | square (centre : Pixel) (size : Int) (colour : Dense.Bgr) (thickness : Int)
  | circle (centre : Pixel) (radius : Int) (colour : Dense.Bgr) (thickness : Int)

/-- The first loop of `drawDepthedFrame` (source/system/KeyFrame.cpp:92-95). -/
noncomputable def immatureSquares (minDepth maxDepth : ℝ) : List Init.IPoint → Except Fault (List KfMark)
  | [] => .ok []
  | ip :: ips =>
    if ip.pt.state = .active ∧ ip.pt.maxDepth ≠ ⊤ then do
      let d ← match ip.pt.depth with
        | some d => .ok d
        | none => .error .ub
      let c ← Dense.toCvVec3bDummy (depthCol d minDepth maxDepth)
      let ms ← immatureSquares minDepth maxDepth ips
      .ok (.square (TraceDraw.toPixel ip.p) 5 c 2 :: ms)
    else immatureSquares minDepth maxDepth ips

/-- The second loop of `drawDepthedFrame` (source/system/KeyFrame.cpp:96-98). -/
noncomputable def optimizedCircles (minDepth maxDepth : ℝ) : List OPoint → Except Fault (List KfMark)
  | [] => .ok []
  | op :: ops => do
    let c ← Dense.toCvVec3bDummy (depthCol op.depth minDepth maxDepth)
    let ms ← optimizedCircles minDepth maxDepth ops
    .ok (.circle (TraceDraw.toPixel op.p) 5 c 2 :: ms)

/-- `drawDepthedFrame` (source/system/KeyFrame.cpp:89-101). -/
noncomputable def drawDepthedFrame (minDepth maxDepth : ℝ) (ips : List Init.IPoint) (ops : List OPoint) : Except Fault (List KfMark) := do
  let squares ← immatureSquares minDepth maxDepth ips
  let circles ← optimizedCircles minDepth maxDepth ops
  .ok (squares ++ circles)

end Mdso.InitPicture
