import Verif.Model.AffineLight
import Verif.Model.CameraModel

/-!
# Model of `FrameTracker`

Models `source/system/FrameTracker.cpp`, `gradNormAt` (source/util/util.cpp:164-168) and the number of pyramid levels of the frames
that are tracked (source/system/PreKeyFrame.cpp:10-23, source/system/DsoSystem.cpp:446-447), over the reals.

Ceres is a parameter: a function that gets the optimization problem and returns the new motion and light transform. What is assumed
of it is stated in `Verif/Spec/FrameTracker.lean`. The bicubic interpolation of a level of the tracked frame is an arbitrary
function of row and column. Not modelled: logging, `residualsImg` and `lastRmse` (never written), the vectors `pixUsed` and
`gotOutside` (never read) and the mask `resMask`, all of whose pixels are set.
-/

set_option autoImplicit false

namespace Mdso.Track

open Mdso.Geom Mdso.Light

/-- `ceres::BiCubicInterpolator` of a picture: value at a row and a column. -/
abbrev Interp := ℝ → ℝ → ℝ

/-- What is used of `FrameTrackerSettings` (include/util/settings.h:279-286). -/
structure Settings where
  levelNum : Nat
  useGradWeighting : Bool
  optimizeAffineLight : Bool
  minAffineLightA : ℝ
  maxAffineLightA : ℝ
  minAffineLightB : ℝ
  maxAffineLightB : ℝ
  outlierDiff : ℝ
  gradWeightingC : ℝ

/-- What is used of a `DepthedImagePyramid`. -/
structure BaseFrame where
  images : List (Pyr.Img Nat)
  depths : List (Pyr.Img ℝ)

/-- A frame to be tracked: one interpolator for every level of its pyramid. `framePyr.images` and the interpolators are made from the
same settings (source/system/PreKeyFrame.cpp:14, 18-19), so there are equally many of them. -/
abbrev Frame := List Interp

/-- `Settings::Pyramid::default_levelNum` (include/util/settings.h:172). -/
def defaultLevelNum : Nat := 6

/-- A residual block: `PointTrackingResidual` (source/system/FrameTracker.cpp:13-54) with the weight of its loss function, 1 without
gradient weighting. -/
structure Block where
  pos : V3
  baseIntensity : ℝ
  weight : ℝ

/-- `PointTrackingResidual::operator()` (source/system/FrameTracker.cpp:23-47). -/
noncomputable def Block.eval (b : Block) (c : Cam.Cam) (trackedFrame : Interp) (motion : Motion3) (affLight : AffLight) : ℝ :=
  let newPosProj := Cam.map c (motion.act b.pos)
  affLight.apply (trackedFrame newPosProj.y newPosProj.x) - b.baseIntensity

/-- The problem given to Ceres (source/system/FrameTracker.cpp:119-184): residual blocks, start values, whether the light transform is
constant, its bounds, and the parameter of the Huber loss. -/
structure Problem where
  cam : Cam.Cam
  trackedFrame : Interp
  blocks : List Block
  motion : Motion3
  affLight : AffLight
  lightConstant : Bool
  minA : ℝ
  maxA : ℝ
  minB : ℝ
  maxB : ℝ
  huber : ℝ

/-- `ceres::Solve`: the values of the parameter blocks afterwards. -/
abbrev Solver := Problem → Motion3 × AffLight

/-- `img(y, x)` with `int` indices; outside the picture it is undefined behaviour. -/
def readInt (img : Pyr.Img Nat) (y x : Int) : Except Fault Nat :=
  if 0 ≤ y ∧ 0 ≤ x then img.read y.toNat x.toNat else .error .ub

/-- `gradNormAt` (source/util/util.cpp:164-168). -/
noncomputable def gradNormAt (img : Pyr.Img Nat) (y x : Nat) : Except Fault ℝ := do
  let r ← readInt img y (x + 1)
  let l ← readInt img y (x - 1)
  let d ← readInt img (y + 1) x
  let u ← readInt img (y - 1) x
  .ok (Real.sqrt ((((r : ℝ) - l) / 2) ^ 2 + (((d : ℝ) - u) / 2) ^ 2))

/-- The weight of a residual (source/system/FrameTracker.cpp:164-173). -/
noncomputable def weightAt (s : Settings) (img : Pyr.Img Nat) (y x : Nat) : Except Fault ℝ :=
  if s.useGradWeighting then do
    let gradNorm ← gradNormAt img y x
    .ok (s.gradWeightingC / Real.sqrt (s.gradWeightingC ^ 2 + gradNorm ^ 2))
  else .ok 1

/-- `isPointTrackable` (source/system/FrameTracker.cpp:98-103). -/
def isPointTrackable (c : Cam.Cam) (basePos : V3) (coarseBaseToCur : Motion3) : Prop :=
  Cam.isOnImage c (Cam.map c (coarseBaseToCur.act basePos)) 0

/-- The residual block of a trackable point (source/system/FrameTracker.cpp:162-183). -/
noncomputable def blockOf (s : Settings) (baseImg : Pyr.Img Nat) (y x : Nat) (pos : V3) : Except Fault (Option Block) := do
  let intensity ← baseImg.read y x
  let weight ← weightAt s baseImg y x
  .ok (some ⟨pos, intensity, weight⟩)

open Classical in
/-- The body of the loop over the pixels (source/system/FrameTracker.cpp:149-184): the residual block added, if any. -/
noncomputable def pixelBody (s : Settings) (c : Cam.Cam) (baseImg : Pyr.Img Nat) (baseDepths : Pyr.Img ℝ) (coarse : Motion3)
    (y x : Nat) : Except Fault (Option Block) := do
  let d ← baseDepths.read y x
  if 0 < d ∧ isPointTrackable c (d • (Cam.unmap c ⟨x, y⟩).normalized) coarse then
    blockOf s baseImg y x (d • (Cam.unmap c ⟨x, y⟩).normalized)
  else .ok none

/-- The pixels of a picture in the order of the two loops (source/system/FrameTracker.cpp:147-148). -/
def pixels (rows cols : Nat) : List (Nat × Nat) :=
  (List.range rows).flatMap fun y => (List.range cols).map fun x => (y, x)

/-- The two loops over the pixels (source/system/FrameTracker.cpp:147-184). -/
def collect (f : Nat → Nat → Except Fault (Option Block)) : List (Nat × Nat) → Except Fault (List Block)
  | [] => .ok []
  | q :: rest => do
    let b ← f q.1 q.2
    let bs ← collect f rest
    .ok (b.toList ++ bs)

/-- What an observer is told about a level (include/output/FrameTrackerObserver.h:16-19). -/
structure Report where
  pyrLevel : Nat
  baseToLast : Motion3
  affLight : AffLight
  pointResiduals : List (V2 × ℝ)

/-- `pointResiduals` (source/system/FrameTracker.cpp:199-208). -/
noncomputable def pointResiduals (c : Cam.Cam) (trackedFrame : Interp) (bs : List Block) (m : Motion3) (l : AffLight) :
    List (V2 × ℝ) :=
  bs.map fun b => (Cam.map c (m.act b.pos), b.eval c trackedFrame m l)

/-- `trackPyrLevel` (source/system/FrameTracker.cpp:105-214): the report to the observers, which contains what is returned. -/
noncomputable def trackPyrLevel (s : Settings) (solve : Solver) (c : Cam.Cam) (baseImg : Pyr.Img Nat) (baseDepths : Pyr.Img ℝ)
    (trackedFrame : Interp) (coarse : Motion3) (coarseAffLight : AffLight) (pyrLevel : Nat) : Except Fault Report := do
  let bs ← collect (pixelBody s c baseImg baseDepths coarse) (pixels baseImg.rows baseImg.cols)
  let r := solve {
    cam := c, trackedFrame := trackedFrame, blocks := bs, motion := coarse, affLight := coarseAffLight,
    lightConstant := !s.optimizeAffineLight,
    minA := s.minAffineLightA, maxA := s.maxAffineLightA, minB := s.minAffineLightB, maxB := s.maxAffineLightB,
    huber := s.outlierDiff }
  .ok ⟨pyrLevel, r.1, r.2, pointResiduals c trackedFrame bs r.1 r.2⟩

/-- The body of the loop over the levels (source/system/FrameTracker.cpp:87-90). -/
noncomputable def trackLevel (s : Settings) (solve : Solver) (camPyr : List Cam.Cam) (base : BaseFrame) (frame : Frame)
    (m : Motion3) (l : AffLight) (i : Nat) : Except Fault Report := do
  let c ← at' camPyr i
  let img ← at' base.images i
  let depths ← at' base.depths i
  let tracked ← at' frame i
  trackPyrLevel s solve c img depths tracked m l i

/-- The loop over the levels below `i` (source/system/FrameTracker.cpp:86-91), from the coarsest one on; the reports in the order they
are made. -/
noncomputable def trackLevels (s : Settings) (solve : Solver) (camPyr : List Cam.Cam) (base : BaseFrame) (frame : Frame) :
    Nat → Motion3 → AffLight → Except Fault (Motion3 × AffLight × List Report)
  | 0, m, l => .ok (m, l, [])
  | i + 1, m, l => do
    let r ← trackLevel s solve camPyr base frame m l i
    let rest ← trackLevels s solve camPyr base frame i r.baseToLast r.affLight
    .ok (rest.1, rest.2.1, r :: rest.2.2)

/-- A call of an observer's function. -/
inductive Event where
  | newBaseFrame
  | startTracking
  | levelTracked (r : Report)

/-- `for (FrameTrackerObserver *obs : observers)`: every one of `n` observers is told the same, in their order. -/
def tell (n : Nat) (e : Event) : List (Nat × Event) := (List.range n).map fun o => (o, e)

/-- A `FrameTracker`. -/
structure Tracker where
  s : Settings
  camPyr : List Cam.Cam
  base : BaseFrame
  observers : Nat

/-- The constructor (source/system/FrameTracker.cpp:56-70): `camPyr[1]` is read for the size of the display. -/
def construct (s : Settings) (camPyr : List Cam.Cam) (base : BaseFrame) (observers : Nat) :
    Except Fault (Tracker × List (Nat × Event)) := do
  let _ ← at' camPyr 1
  .ok (⟨s, camPyr, base, observers⟩, tell observers .newBaseFrame)

/-- `trackFrame` (source/system/FrameTracker.cpp:76-96): the motion and light transform returned, and the calls of the observers. -/
noncomputable def trackFrame (solve : Solver) (t : Tracker) (frame : Frame) (coarse : Motion3) (coarseAffLight : AffLight) :
    Except Fault (Motion3 × AffLight × List (Nat × Event)) := do
  let r ← trackLevels t.s solve t.camPyr t.base frame t.s.levelNum coarse coarseAffLight
  .ok (r.1, r.2.1, tell t.observers .startTracking ++ r.2.2.flatMap fun rep => tell t.observers (.levelTracked rep))

/-- `PreKeyFrame` as constructed for a new frame (source/system/DsoSystem.cpp:446-447): the pyramid settings are not passed on, so
the frame has the default number of levels (include/system/PreKeyFrame.h:19-21). `interp` is the interpolation of a picture. -/
def newFrame (interp : Pyr.Img Nat → Interp) (img : Pyr.Img Nat) : Except Fault Frame := do
  let images ← Pyr.imagePyramid img defaultLevelNum
  .ok (images.map interp)

end Mdso.Track
