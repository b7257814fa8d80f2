import Verif.Model.FrameTracker

/-!
# Model of the debug pictures of the tracker

Models `TrackingDebugImageDrawer` (source/output/TrackingDebugImageDrawer.cpp) and `DepthPyramidDrawer`
(source/output/DepthPyramidDrawer.cpp) with `putSquare` (source/util/util.cpp:145-149). A pixel is a `cv::Scalar` colour (`none` if a channel is
NaN or infinite); the rounding to bytes, and the joining of the levels to one picture (`drawLeveled`, see `Verif/Model/DepthColour.lean`), are
not part of this model.
-/

set_option autoImplicit false

namespace Mdso.Drawers

open Mdso.Geom Mdso.Light Mdso.Track Mdso.Util

/-- `cv::Mat3b`. -/
abbrev Picture := Pyr.Img (Option Colour)

/-- `cv::cvtColor(..., cv::COLOR_GRAY2BGR)`. -/
def toBgr (img : Pyr.Img Nat) : Picture := ⟨img.rows, img.cols, fun y x => some ⟨img.px y x, img.px y x, img.px y x⟩⟩

/-- `putSquare(img, pos, size, col, cv::FILLED)` (source/util/util.cpp:145-149): `cv::rectangle` fills all pixels between the two corners, both
included, in whichever order they are given, and ignores what is outside the picture. -/
def putSquare (img : Picture) (posY posX size : Int) (col : Option Colour) : Picture :=
  { img with
    px := fun y x =>
      if |(x : Int) - posX| ≤ |size| ∧ |(y : Int) - posY| ≤ |size| then col else img.px y x }

/-- The flags `tracking_rel_point_size`, `debug_max_residual` (source/output/TrackingDebugImageDrawer.cpp:5-10) and `pyr_rel_point_size`
(source/output/DepthPyramidDrawer.cpp:4). -/
structure Flags where
  relPointSize : ℝ
  maxResidual : ℝ
  pyrRelPointSize : ℝ

/-! ## `TrackingDebugImageDrawer` -/

/-- `TrackingDebugImageDrawer` (include/output/TrackingDebugImageDrawer.h:27-33). In `residualsImg`, `none` is an empty `cv::Mat`. -/
structure Drawer where
  levelNum : Nat
  camPyr : List Cam.Cam
  curFramePyr : List (Pyr.Img Nat)
  residualsImg : List (Option Picture)

/-- The constructor (source/output/TrackingDebugImageDrawer.cpp:12-21): black pictures of the size of the finest level. -/
def Drawer.create (camPyr : List Cam.Cam) (levelNum : Nat) : Except Fault Drawer := do
  let c ← at' camPyr 0
  .ok ⟨levelNum, camPyr, [], List.replicate levelNum (some ⟨c.height, c.width, fun _ _ => some ⟨0, 0, 0⟩⟩)⟩

/-- `startTracking` (source/output/TrackingDebugImageDrawer.cpp:23-27). -/
def Drawer.startTracking (d : Drawer) (images : List (Pyr.Img Nat)) : Drawer :=
  { d with curFramePyr := images, residualsImg := List.replicate d.levelNum none }

/-- The half size of the squares of a level (source/output/TrackingDebugImageDrawer.cpp:33-34). -/
noncomputable def squareSize (relPointSize : ℝ) (w h : Nat) : Int := truncInt (relPointSize * ((w : ℝ) + h) / 2)

open Classical in
/-- The loop over the residuals (source/output/TrackingDebugImageDrawer.cpp:38-41). -/
noncomputable def drawResiduals (f : Flags) (c : Cam.Cam) (s : Int) : List (V2 × ℝ) → Picture → Picture
  | [], img => img
  | (point, res) :: rest, img =>
    drawResiduals f c s rest
      (if Cam.isOnImage c point s then putSquare img (truncInt point.y) (truncInt point.x) s (depthCol |res| 0 f.maxResidual) else img)

/-- `levelTracked` (source/output/TrackingDebugImageDrawer.cpp:29-42). Indexing `camPyr`, `curFramePyr` and `residualsImg` beyond their ends is
undefined. -/
noncomputable def Drawer.levelTracked (f : Flags) (d : Drawer) (r : Report) : Except Fault Drawer := do
  let c ← at' d.camPyr r.pyrLevel
  let img ← at' d.curFramePyr r.pyrLevel
  let _ ← at' d.residualsImg r.pyrLevel
  .ok { d with
    residualsImg := d.residualsImg.set r.pyrLevel
      (some (drawResiduals f c (squareSize f.relPointSize c.width c.height) r.pointResiduals (toBgr img))) }

/-- A call by a tracker; `images` are the levels of the frame being tracked. The drawer does not override `newBaseFrame`. -/
noncomputable def Drawer.observe (f : Flags) (images : List (Pyr.Img Nat)) (d : Drawer) : Event → Except Fault Drawer
  | .newBaseFrame => .ok d
  | .startTracking => .ok (d.startTracking images)
  | .levelTracked r => d.levelTracked f r

/-- Several calls. -/
noncomputable def Drawer.observeAll (f : Flags) (images : List (Pyr.Img Nat)) : List Event → Drawer → Except Fault Drawer
  | [], d => .ok d
  | e :: es, d => do
    let d' ← d.observe f images e
    Drawer.observeAll f images es d'

/-- `drawFinestLevel` (source/output/TrackingDebugImageDrawer.cpp:50-52). -/
def Drawer.drawFinestLevel (d : Drawer) : Except Fault (Option Picture) := at' d.residualsImg 0

/-! ## `DepthPyramidDrawer` -/

/-- The two loops over the pixels of a level (source/output/DepthPyramidDrawer.cpp:15-20), over the pixels in the order of the loops. -/
noncomputable def drawDepths (cb : ColBounds) (depths : Pyr.Img ℝ) (s : Int) : List (Nat × Nat) → Picture → Picture
  | [], img => img
  | q :: rest, img =>
    drawDepths cb depths s rest
      (if depths.px q.1 q.2 > 0 then putSquare img q.1 q.2 s (depthCol (depths.px q.1 q.2) cb.minDepthCol cb.maxDepthCol) else img)

/-- The picture of one level (source/output/DepthPyramidDrawer.cpp:12-20). -/
noncomputable def depthLevel (f : Flags) (cb : ColBounds) (img : Pyr.Img Nat) (depths : Pyr.Img ℝ) : Picture :=
  drawDepths cb depths (squareSize f.pyrRelPointSize img.cols img.rows) (Track.pixels depths.rows depths.cols) (toBgr img)

/-- `draw` (source/output/DepthPyramidDrawer.cpp:10-24) up to the joining of the levels: `pyr.depths[i]` is read for every picture. -/
noncomputable def drawPyramid (f : Flags) (cb : ColBounds) : List (Pyr.Img Nat) → List (Pyr.Img ℝ) → Except Fault (List Picture)
  | [], _ => .ok []
  | _ :: _, [] => .error .ub
  | img :: imgs, d :: ds => do
    let rest ← drawPyramid f cb imgs ds
    .ok (depthLevel f cb img d :: rest)

/-- `DepthPyramidDrawer` (include/output/DepthPyramidDrawer.h:20-22). -/
structure PyrDrawer where
  lastPyr : List Picture
  mPyrChanged : Bool

/-- A new drawer. -/
def PyrDrawer.create : PyrDrawer := ⟨[], false⟩

/-- `newBaseFrame` (source/output/DepthPyramidDrawer.cpp:26-29). -/
noncomputable def PyrDrawer.newBaseFrame (f : Flags) (cb : ColBounds) (base : BaseFrame) (_ : PyrDrawer) : Except Fault PyrDrawer := do
  let p ← drawPyramid f cb base.images base.depths
  .ok ⟨p, true⟩

/-- `getLastPyr` (source/output/DepthPyramidDrawer.cpp:33-36). -/
def PyrDrawer.getLastPyr (d : PyrDrawer) : PyrDrawer × List Picture := (⟨d.lastPyr, false⟩, d.lastPyr)

/-- What can happen to the drawer: a new base frame, or a round of the loop of `genply` (samples/mfov/genply/main.cpp:213-217), which writes the
picture if it has changed. -/
inductive PyrOp where
  | base (cb : ColBounds) (b : BaseFrame)
  | poll (num : Int)

/-- The drawer and the files written, as pairs of a frame number and the levels shown. -/
noncomputable def pyrStep (f : Flags) (s : PyrDrawer × List (Int × List Picture)) : PyrOp → Except Fault (PyrDrawer × List (Int × List Picture))
  | .base cb b => do
    let d ← s.1.newBaseFrame f cb b
    .ok (d, s.2)
  | .poll num => if s.1.mPyrChanged then .ok (s.1.getLastPyr.1, s.2 ++ [(num, s.1.getLastPyr.2)]) else .ok s

/-- A sequence of such events. -/
noncomputable def pyrRun (f : Flags) : List PyrOp → PyrDrawer × List (Int × List Picture) → Except Fault (PyrDrawer × List (Int × List Picture))
  | [], s => .ok s
  | o :: os, s => do
    let s' ← pyrStep f s o
    pyrRun f os s'

end Mdso.Drawers
