import Verif.Model.ImmaturePoint
import Verif.Model.BundleAdjuster
import Verif.Model.PixelSelector

/-!
# Model of making frames, keyframes and their points

Models `grad` (source/util/util.cpp:151-162), `PreKeyFrame` and `PreKeyFrameInternals` (source/system/PreKeyFrame.cpp:10-23,
internal/source/PreKeyFrameInternals.cpp:5-40), the constructor of `ImmaturePoint` with the patch it copies (source/system/ImmaturePoint.cpp:18-51) and the
methods of `KeyFrame` that make points (source/system/KeyFrame.cpp:9-87), over the reals. The conversion from colour to gray is left out: a frame is given by
its gray picture. The bicubic interpolators are given by the pictures they read.
-/

set_option autoImplicit false

namespace Mdso.Frame

open Mdso.Geom

/-! ## Gradients -/

/-- `cv::BORDER_REPLICATE`: the index that stands for `i` in a row or column of length `n`. -/
def replicate (n : Nat) (i : Int) : Nat := (max 0 (min i ((n : Int) - 1))).toNat

/-- `cv::filter2D` with the kernel `filter` as a row (source/util/util.cpp:153-154, 157-158): correlation, anchored at the middle. -/
noncomputable def filterRow (img : Pyr.Img Nat) : Pyr.Img ℝ :=
  ⟨img.rows, img.cols, fun y x => -0.5 * (img.px y (replicate img.cols ((x : Int) - 1)) : ℝ) + 0 * (img.px y x : ℝ) +
    0.5 * (img.px y (replicate img.cols ((x : Int) + 1)) : ℝ)⟩

/-- The same with the kernel as a column (source/util/util.cpp:155, 159-160). -/
noncomputable def filterColumn (img : Pyr.Img Nat) : Pyr.Img ℝ :=
  ⟨img.rows, img.cols, fun y x => -0.5 * (img.px (replicate img.rows ((y : Int) - 1)) x : ℝ) + 0 * (img.px y x : ℝ) +
    0.5 * (img.px (replicate img.rows ((y : Int) + 1)) x : ℝ)⟩

/-- `gradX`, `gradY`, `gradNorm` of `PreKeyFrame` (include/system/PreKeyFrame.h:26). -/
structure Gradients where
  gradX : Pyr.Img ℝ
  gradY : Pyr.Img ℝ
  gradNorm : Pyr.Img ℝ

/-- `grad` (source/util/util.cpp:151-162). -/
noncomputable def grad (img : Pyr.Img Nat) : Gradients where
  gradX := filterRow img
  gradY := filterColumn img
  gradNorm := ⟨img.rows, img.cols, fun y x => Real.sqrt ((filterRow img).px y x ^ 2 + (filterColumn img).px y x ^ 2)⟩

/-- The picture of gradient norms as the pixel selector gets it. -/
noncomputable def Gradients.forSelector (g : Gradients) : PixSel.Grad ℝ := ⟨g.gradNorm.rows, g.gradNorm.cols, g.gradNorm.px⟩

/-! ## Frames -/

/-- `Settings::Pyramid::max_levelNum` (include/util/settings.h:171). -/
def maxLevelNum : Nat := 8

/-- `ceres::Grid2D` (internal/source/PreKeyFrameInternals.cpp:9-10): its constructor checks that the picture is not empty. -/
def gridOf (img : Pyr.Img Nat) : Except Fault (Pyr.Img Nat) :=
  if 0 < img.rows ∧ 0 < img.cols then .ok img else .error .abort

/-- The loop of the constructor of `PreKeyFrameInternals` (internal/source/PreKeyFrameInternals.cpp:8-13): the grid of every level is constructed in an array of
`max_levelNum` places (internal/include/PreKeyFrameInternals.h:23-27); constructing it behind the array is undefined behaviour. -/
def internals (pyramid : List (Pyr.Img Nat)) : List Nat → Except Fault (List (Pyr.Img Nat))
  | [] => .ok []
  | lvl :: lvls => do
    let img ← at' pyramid lvl
    let grid ← if lvl < maxLevelNum then gridOf img else .error .ub
    let rest ← internals pyramid lvls
    .ok (grid :: rest)

/-- What is used here of a `PreKeyFrame` (include/system/PreKeyFrame.h:20-41): its pyramid, its gradients, and the pictures its interpolators read. -/
structure PreFrame where
  pyramid : List (Pyr.Img Nat)
  grads : Gradients
  grids : List (Pyr.Img Nat)

/-- The constructor of `PreKeyFrame` (source/system/PreKeyFrame.cpp:10-22). A negative number of levels is left out. -/
noncomputable def newPreFrame (img : Pyr.Img Nat) (levelNum : Nat) : Except Fault PreFrame := do
  let pyramid ← Pyr.imagePyramid img levelNum
  let grids ← internals pyramid (List.range levelNum)
  .ok ⟨pyramid, grad img, grids⟩

/-- `PreKeyFrameInternals::interpolator` (internal/source/PreKeyFrameInternals.cpp:26-38), by the picture it reads. -/
def interpolator (f : PreFrame) (lvl : Int) : Except Fault (Pyr.Img Nat) :=
  if 0 ≤ lvl ∧ lvl < f.grids.length then at' f.grids lvl.toNat else .error .abort

/-- The frames the system makes itself (source/system/KeyFrame.cpp:13-14, source/system/DsoSystem.cpp:446-447) have the default number of levels
(include/util/settings.h:172), whatever the settings say. -/
noncomputable def systemFrame (img : Pyr.Img Nat) : Except Fault PreFrame := newPreFrame img 6

/-! ## Points -/

/-- A read of a picture at `toCvPoint` of a position (source/util/util.cpp:207), which truncates; outside the picture it is undefined behaviour. -/
noncomputable def readAt {α : Type} (img : Pyr.Img α) (pos : V2) : Except Fault α :=
  if 0 ≤ Util.truncInt pos.y ∧ 0 ≤ Util.truncInt pos.x then img.read (Util.truncInt pos.y).toNat (Util.truncInt pos.x).toNat
  else .error .ub

/-- `Eigen::normalized`: a zero vector is left as it is. -/
noncomputable def normalize (g : V2) : V2 := Cam.normalized2 g

/-- What is copied of one pixel of the pattern (include/system/ImmaturePoint.h:49-53). -/
structure Sample where
  direction : V3
  intensity : ℝ
  grad : V2
  gradNorm : V2

/-- The loop over the residual pattern (source/system/ImmaturePoint.cpp:41-50). -/
noncomputable def samples (c : Cam.Cam) (f : PreFrame) (p : V2) : List V2 → Except Fault (List Sample)
  | [] => .ok []
  | d :: ds => do
    let frame ← at' f.pyramid 0
    let intensity ← readAt frame (p + d)
    let gx ← readAt f.grads.gradX (p + d)
    let gy ← readAt f.grads.gradY (p + d)
    let rest ← samples c f p ds
    .ok (⟨(Cam.unmap c (p + d)).normalized, intensity, ⟨gx, gy⟩, normalize ⟨gx, gy⟩⟩ :: rest)

/-- An `ImmaturePoint`: its pixel, what tracing changes, and its patch (empty vectors' contents are left out). -/
structure ImPoint where
  p : V2
  state : Trace.Point
  patch : List Sample

open Classical in
/-- The constructor of `ImmaturePoint` (source/system/ImmaturePoint.cpp:18-51). `height` is `residualPattern.height`. -/
noncomputable def newPoint (c : Cam.Cam) (pattern : List V2) (height : Int) (f : PreFrame) (p : V2) : Except Fault ImPoint :=
  if Cam.isOnImage c p height then do
    let patch ← samples c f p pattern
    .ok ⟨p, Trace.new true, patch⟩
  else .ok ⟨p, Trace.new false, []⟩

/-- What is used here of an `OptimizedPoint` (include/system/OptimizedPoint.h:40-43). `logInvDepth` is `none` if it is no finite number. -/
structure OptPoint where
  p : V2
  logInvDepth : Option ℝ
  stddev : WithTop ℝ

/-- What is used here of a `KeyFrame` (include/system/KeyFrame.h:43-55). -/
structure KeyFrame where
  pre : PreFrame
  immature : List ImPoint
  optimized : List OptPoint

/-- `addImmatures` (source/system/KeyFrame.cpp:56-61): the points made. -/
noncomputable def addImmatures (c : Cam.Cam) (pattern : List V2) (height : Int) (f : PreFrame) : List PixSel.Pt → Except Fault (List ImPoint)
  | [] => .ok []
  | q :: qs => do
    let pt ← newPoint c pattern height f ⟨q.1, q.2⟩
    let rest ← addImmatures c pattern height f qs
    .ok (pt :: rest)

/-- The constructor of `KeyFrame` that selects its points (source/system/KeyFrame.cpp:45-54), and likewise the first one (source/system/KeyFrame.cpp:9-24):
the keyframe and the new state of the selector. `none`: the selection does not end. -/
noncomputable def newKeyFrame (fuel : Nat) (shuffle : Nat → List PixSel.Pt → List PixSel.Pt) (c : Cam.Cam) (pattern : List V2) (height : Int)
    (sel : PixSel.Settings ℝ) (st : PixSel.State) (pointsNum : Nat) (f : PreFrame) : Except Fault (Option (KeyFrame × PixSel.State)) :=
  match PixSel.select fuel shuffle sel st f.grads.forSelector pointsNum with
  | .error e => .error e
  | .ok none => .ok none
  | .ok (some (pts, st')) =>
    match addImmatures c pattern height f pts with
    | .error e => .error e
    | .ok ips => .ok (some (⟨f, ips, []⟩, st'))

/-- `selectPointsDenser` (source/system/KeyFrame.cpp:63-70). -/
noncomputable def selectPointsDenser (fuel : Nat) (shuffle : Nat → List PixSel.Pt → List PixSel.Pt) (c : Cam.Cam) (pattern : List V2) (height : Int)
    (sel : PixSel.Settings ℝ) (st : PixSel.State) (pointsNeeded : Nat) (kf : KeyFrame) : Except Fault (Option (KeyFrame × PixSel.State)) :=
  match PixSel.select fuel shuffle sel st kf.pre.grads.forSelector pointsNeeded with
  | .error e => .error e
  | .ok none => .ok none
  | .ok (some (pts, st')) =>
    match addImmatures c pattern height kf.pre pts with
    | .error e => .error e
    | .ok ips => .ok (some (⟨kf.pre, ips, []⟩, st'))

open Classical in
/-- `OptimizedPoint(const ImmaturePoint &)` (include/system/OptimizedPoint.h:24-28, 33-36). Reading an indeterminate depth is undefined behaviour; the logarithm
of a depth that is not positive is no finite number. -/
noncomputable def activate (ip : ImPoint) : Except Fault OptPoint :=
  match ip.state.depth with
  | none => .error .ub
  | some d => .ok ⟨ip.p, if 0 < d then some (-Real.log d) else none, ip.state.stddev⟩

/-- The loop of `activateAllImmature` (source/system/KeyFrame.cpp:73-75). -/
noncomputable def activateEach : List ImPoint → Except Fault (List OptPoint)
  | [] => .ok []
  | ip :: ips => do
    let op ← activate ip
    let rest ← activateEach ips
    .ok (op :: rest)

/-- `activateAllImmature` (source/system/KeyFrame.cpp:72-77). -/
noncomputable def activateAllImmature (kf : KeyFrame) : Except Fault KeyFrame := do
  let ops ← activateEach kf.immature
  .ok ⟨kf.pre, [], kf.optimized ++ ops⟩

/-- The loop of `deactivateAllOptimized` (source/system/KeyFrame.cpp:80-85). A depth that is no positive finite number is `none`. -/
noncomputable def deactivateEach (c : Cam.Cam) (pattern : List V2) (height : Int) (f : PreFrame) : List OptPoint → Except Fault (List ImPoint)
  | [] => .ok []
  | op :: ops => do
    let ip ← newPoint c pattern height f op.p
    let rest ← deactivateEach c pattern height f ops
    .ok ({ ip with state := { ip.state with depth := op.logInvDepth.map fun l => Real.exp (-l) } } :: rest)

/-- `deactivateAllOptimized` (source/system/KeyFrame.cpp:79-87). -/
noncomputable def deactivateAllOptimized (c : Cam.Cam) (pattern : List V2) (height : Int) (kf : KeyFrame) : Except Fault KeyFrame := do
  let ips ← deactivateEach c pattern height kf.pre kf.optimized
  .ok ⟨kf.pre, kf.immature ++ ips, []⟩

end Mdso.Frame
