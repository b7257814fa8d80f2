import Mathlib.Data.List.Sort
import Verif.Model.AffineLight
import Verif.Model.BaseProjection
import Verif.Model.CameraModel
import Verif.Model.FrameTracker
import Verif.Model.SphericalPlus

/-!
# Model of `BundleAdjuster` with points, residuals and outliers

Models `source/system/BundleAdjuster.cpp` and the height of the residual pattern (include/util/settings.h:206-224), over the
reals. `Verif/Model/SphericalPlus.lean` models which parameter blocks of the keyframes may move; here the points, the residuals, the
bounds and the marking of the points afterwards are added.

The keyframes are a list in the order of the `std::set<KeyFrame *>`, that is by address; a pointer to a keyframe is its position in that
list. Ceres is a parameter: a function that gets the optimization problem and returns the new values of the parameter blocks. What is
assumed of it is stated in `Verif/Spec/BundleAdjuster.lean`. The bicubic interpolation of a picture is an arbitrary function of row and
column. A logarithm of an inverse depth that is not finite is `none`. Not modelled: logging, the pictures drawn for debugging (line
259 and 302-303 write no state), the vectors of positions collected for them, and the order of the parameter blocks.
-/

set_option autoImplicit false

namespace Mdso.BA

open Mdso.Geom Mdso.Light

/-- `OptimizedPoint::State` (include/system/OptimizedPoint.h). -/
inductive PState where
  | active
  | oob
  | outlier
  deriving DecidableEq

/-- What is used of an `OptimizedPoint`. -/
structure OptPoint where
  p : V2
  logInvDepth : Option ℝ
  stddev : ℝ
  state : PState

/-- What is used of a `KeyFrame`: its address, pose, light transform, points, gradient picture and interpolator of the finest level. -/
structure Kf where
  addr : Nat
  thisToWorld : Motion3
  light : AffLight
  points : List OptPoint
  gradNorm : Pyr.Img ℝ
  interp : Track.Interp

/-- What is used of `BundleAdjusterSettings`. `height` is `residualPattern.height`. -/
structure Settings where
  gauge : Gauge.Settings
  minAffineLightA : ℝ
  maxAffineLightA : ℝ
  minAffineLightB : ℝ
  maxAffineLightB : ℝ
  depthMin : ℝ
  depthMax : ℝ
  outlierDiff : ℝ
  gradWeightingC : ℝ
  pattern : List V2
  height : Int

/-- `lpNorm<Eigen::Infinity>`. -/
noncomputable def infNorm (d : V2) : ℝ := max |d.x| |d.y|

/-- `ResidualPattern::height` (include/util/settings.h:207-216). For an empty pattern `end()` is dereferenced. -/
noncomputable def patternHeight : List V2 → Except Fault Int
  | [] => .error .ub
  | d :: ds => .ok ⌈ds.foldl (fun m e => max m (infNorm e)) (infNorm d)⌉

/-- The fields of `BundleAdjuster` (include/system/BundleAdjuster.h): the set of keyframes and the first one, by its address. -/
structure Adjuster where
  keyFrames : List Kf
  firstKeyFrame : Option Nat

/-- `std::set::insert`: by address, nothing happens if the pointer is already there. -/
def insertKf (kf : Kf) : List Kf → List Kf
  | [] => [kf]
  | k :: ks =>
    if kf.addr < k.addr then kf :: k :: ks
    else if kf.addr = k.addr then k :: ks
    else k :: insertKf kf ks

/-- `addKeyFrame` (source/system/BundleAdjuster.cpp:27-31). -/
def addKeyFrame (a : Adjuster) (kf : Kf) : Adjuster :=
  { keyFrames := insertKf kf a.keyFrames
    firstKeyFrame := a.firstKeyFrame.orElse fun _ => some kf.addr }

/-- The adjuster after the keyframes were added in the order given (source/system/DsoSystem.cpp:529-531). -/
def construct (kfs : List Kf) : Adjuster := kfs.foldl addKeyFrame ⟨[], none⟩

/-- Position of a point of the frame `baseToWorld` in the picture of the frame `refToWorld`, the point being at distance `depth` in the
direction `dir` (source/system/BundleAdjuster.cpp:22-23 and 76-79). -/
noncomputable def reproject (c : Cam.Cam) (baseToWorld refToWorld : Motion3) (dir : V3) (depth : ℝ) : V2 :=
  Cam.map c ((Base.compose (Base.inverse refToWorld) baseToWorld).act (depth • dir))

/-- `isOOB` (source/system/BundleAdjuster.cpp:20-25) for a point with a finite depth; `OptimizedPoint::depth` is `exp(-logInvDepth)`. -/
def isOOB (c : Cam.Cam) (s : Settings) (baseToWorld refToWorld : Motion3) (p : V2) (logInvDepth : ℝ) : Prop :=
  ¬ Cam.isOnImage c
    (reproject c baseToWorld refToWorld (Cam.unmap c p).normalized (Real.exp (-logInvDepth))) s.height

/-- A residual block: `DirectResidual` (source/system/BundleAdjuster.cpp:33-46, 90-96) with the weight of its loss function. `base` and
`ref` are positions in the list of keyframes, `idx` is the position of the point in its keyframe. -/
structure RBlock where
  base : Nat
  idx : Nat
  ref : Nat
  baseDirection : V3
  baseIntensity : ℝ
  weight : ℝ

/-- `DirectResidual::operator()` (source/system/BundleAdjuster.cpp:48-88). -/
noncomputable def residual (c : Cam.Cam) (b : RBlock) (refFrame : Track.Interp) (logInvDepth : ℝ) (baseToWorld refToWorld : Motion3)
    (baseLight refLight : AffLight) : ℝ :=
  let refPosMapped := reproject c baseToWorld refToWorld b.baseDirection (Real.exp (-logInvDepth))
  lightResidual baseLight refLight b.baseIntensity (refFrame refPosMapped.y refPosMapped.x)

/-- A read of a picture at `toCvPoint` of a position (source/util/util.cpp, `toCvPoint`), which truncates; outside the picture it is undefined
behaviour. -/
noncomputable def readAt (img : Pyr.Img ℝ) (pos : V2) : Except Fault ℝ :=
  if 0 ≤ Util.truncInt pos.y ∧ 0 ≤ Util.truncInt pos.x then img.read (Util.truncInt pos.y).toNat (Util.truncInt pos.x).toNat
  else .error .ub

/-- The loop over the residual pattern (source/system/BundleAdjuster.cpp:202-227). -/
noncomputable def patternBlocks (c : Cam.Cam) (s : Settings) (base : Kf) (k i ref : Nat) (p : V2) :
    List V2 → Except Fault (List RBlock)
  | [] => .ok []
  | d :: ds => do
    let gradNorm ← readAt base.gradNorm (p + d)
    let rest ← patternBlocks c s base k i ref p ds
    .ok (⟨k, i, ref, (Cam.unmap c (p + d)).normalized, base.interp (p + d).y (p + d).x,
      s.gradWeightingC / Real.sqrt (s.gradWeightingC ^ 2 + gradNorm ^ 2)⟩ :: rest)

open Classical in
/-- The body of the loop over the frames a point may be seen in (source/system/BundleAdjuster.cpp:190-227). -/
noncomputable def refStep (c : Cam.Cam) (s : Settings) (base : Kf) (k i : Nat) (p : V2) (logInvDepth : ℝ) (r : Nat) (ref : Kf) :
    Except Fault (List RBlock) :=
  if r = k ∨ isOOB c s base.thisToWorld ref.thisToWorld p logInvDepth then .ok []
  else patternBlocks c s base k i r p s.pattern

/-- A loop that collects lists, from position `n` on. -/
def collectFrom {α β : Type} (f : Nat → α → Except Fault (List β)) : Nat → List α → Except Fault (List β)
  | _, [] => .ok []
  | n, a :: as => do
    let x ← f n a
    let xs ← collectFrom f (n + 1) as
    .ok (x ++ xs)

/-- The body of the loop over the points of a keyframe (source/system/BundleAdjuster.cpp:176-228). -/
noncomputable def pointStep (c : Cam.Cam) (s : Settings) (kfs : List Kf) (k : Nat) (base : Kf) (i : Nat) (op : OptPoint) :
    Except Fault (List RBlock) :=
  match op.logInvDepth with
  | none => .ok []
  | some d => collectFrom (refStep c s base k i op.p d) 0 kfs

/-- The residual blocks (source/system/BundleAdjuster.cpp:174-229). -/
noncomputable def allBlocks (c : Cam.Cam) (s : Settings) (kfs : List Kf) : Except Fault (List RBlock) :=
  collectFrom (fun k base => collectFrom (pointStep c s kfs k base) 0 base.points) 0 kfs

/-- The problem given to Ceres: start values (in `kfs`), how each block of a keyframe may move, the residual blocks, the bounds of the
light transforms and of the logarithms of the inverse depths, and the parameter of the Huber loss. Only points with a finite depth have
a parameter block. -/
structure Problem where
  cam : Cam.Cam
  kfs : List Kf
  decl : Nat → Gauge.Decl
  blocks : List RBlock
  minA : ℝ
  maxA : ℝ
  minB : ℝ
  maxB : ℝ
  minLogInvDepth : ℝ
  maxLogInvDepth : ℝ
  huber : ℝ

/-- Values of the parameter blocks: of a keyframe by its position, of a point by the position of its keyframe and its own. -/
structure Values where
  pose : Nat → Motion3
  light : Nat → AffLight
  logInvDepth : Nat → Nat → ℝ

/-- `ceres::Solve`: the values of the parameter blocks afterwards. -/
abbrev Solver := Problem → Values

/-- A point after the solver has written its parameter block. -/
def movePoint (v : Values) (k i : Nat) (op : OptPoint) : OptPoint :=
  { op with logInvDepth := op.logInvDepth.map fun _ => v.logInvDepth k i }

/-- A keyframe after the solver has written its parameter blocks. -/
def moveKf (v : Values) (k : Nat) (kf : Kf) : Kf :=
  { kf with thisToWorld := v.pose k, light := v.light k, points := kf.points.mapIdx (movePoint v k) }

/-- `std::nth_element` and the element at `size() / 2` (source/system/BundleAdjuster.cpp:288-290), for a non-empty vector. -/
noncomputable def upperMedian (values : List ℝ) : ℝ := (values.mergeSort fun a b => decide (a ≤ b)).getD (values.length / 2) 0

/-- The residuals of a point (source/system/BundleAdjuster.cpp:267-281), `kfs` being the keyframes after the solver has run. -/
noncomputable def valuesOf (c : Cam.Cam) (kfs : List Kf) (base : Kf) (logInvDepth : ℝ) (bs : List RBlock) : List ℝ :=
  bs.filterMap fun b => kfs[b.ref]?.map fun ref =>
    residual c b ref.interp logInvDepth base.thisToWorld ref.thisToWorld base.light ref.light

open Classical in
/-- The new state of a point (source/system/BundleAdjuster.cpp:264-265, 283-294). -/
noncomputable def newState (s : Settings) (values : List ℝ) (st : PState) : PState :=
  if st = .oob then .oob
  else if values = [] then .oob
  else if s.outlierDiff < upperMedian values then .outlier
  else st

/-- The vector `values` of a point (source/system/BundleAdjuster.cpp:267-281). A point whose depth is not finite has no residuals. -/
noncomputable def pointValues (c : Cam.Cam) (kfs : List Kf) (k : Nat) (base : Kf) (bs : List RBlock) (i : Nat) (op : OptPoint) :
    List ℝ :=
  op.logInvDepth.elim [] fun d => valuesOf c kfs base d (bs.filter fun b => b.base == k && b.idx == i)

/-- The body of the loop over the points of the second keyframe (source/system/BundleAdjuster.cpp:263-295). -/
noncomputable def labelPoint (c : Cam.Cam) (s : Settings) (kfs : List Kf) (k : Nat) (base : Kf) (bs : List RBlock) (i : Nat)
    (op : OptPoint) : OptPoint :=
  { op with
    state := newState s (pointValues c kfs k base bs i op) op.state }

/-- The loop over the points of the second keyframe (source/system/BundleAdjuster.cpp:263-295). -/
noncomputable def label (c : Cam.Cam) (s : Settings) (kfs : List Kf) (second : Nat) (bs : List RBlock) : List Kf :=
  kfs.mapIdx fun k kf => if k = second then { kf with points := kf.points.mapIdx (labelPoint c s kfs k kf bs) } else kf

/-- The second keyframe: the first one in the set that is not `firstKeyFrame` (source/system/BundleAdjuster.cpp:102-107), the latter
being at position `first`. -/
def secondIndex (first : Nat) : Nat := if first = 0 then 1 else 0

/-- The problem built in source/system/BundleAdjuster.cpp:112-229. -/
noncomputable def problemOf (c : Cam.Cam) (s : Settings) (kfs : List Kf) (first : Nat) (sp : Gauge.SPlus) (bs : List RBlock) : Problem :=
  { cam := c
    kfs := kfs
    decl := Gauge.decl s.gauge kfs.length first (secondIndex first) sp
    blocks := bs
    minA := s.minAffineLightA
    maxA := s.maxAffineLightA
    minB := s.minAffineLightB
    maxB := s.maxAffineLightB
    minLogInvDepth := -Real.log s.depthMax
    maxLogInvDepth := -Real.log s.depthMin
    huber := s.outlierDiff }

/-- `adjust` (source/system/BundleAdjuster.cpp:99-304) with `firstKeyFrame` at position `first`. No keyframe but the first one makes
line 143 dereference a null pointer. -/
noncomputable def adjustAt (c : Cam.Cam) (s : Settings) (solve : Solver) (kfs : List Kf) (first : Nat) : Except Fault (List Kf) := do
  let fk ← at' kfs first
  let sk ← at' kfs (secondIndex first)
  let sp ← Gauge.mk' fk.thisToWorld.t (sk.thisToWorld.t - fk.thisToWorld.t).norm sk.thisToWorld.t
  let bs ← allBlocks c s kfs
  .ok (label c s (kfs.mapIdx (moveKf (solve (problemOf c s kfs first sp bs)))) (secondIndex first) bs)

/-- `adjust` of an adjuster (source/system/BundleAdjuster.cpp:99-304): the keyframes afterwards, in the order of the set. Without a
keyframe line 138 dereferences a null pointer. -/
noncomputable def adjust (c : Cam.Cam) (s : Settings) (solve : Solver) (a : Adjuster) : Except Fault (List Kf) :=
  match a.firstKeyFrame with
  | none => .error .ub
  | some addr => adjustAt c s solve a.keyFrames (a.keyFrames.findIdx fun kf => kf.addr == addr)

end Mdso.BA
