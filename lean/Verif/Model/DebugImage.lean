import Verif.Model.Drawers
import Verif.Model.BaseProjection

/-!
# Model of the picture made by `DebugImageDrawer`

Models `DebugImageDrawer::draw` (source/output/DebugImageDrawer.cpp:35-103). The conversion of the base frame to grey is left out: its grey picture is
given. Pixels are `cv::Scalar` colours as in `Verif/Model/Drawers.lean`. `cv::resize` is a parameter that gets the picture, the width and the height.
Which pointers the drawer keeps is the subject of `Verif/Model/Session.lean`.
-/

set_option autoImplicit false

namespace Mdso.DebugImage

open Mdso.Geom Mdso.Util Mdso.Drawers

/-- What is read of an `ImmaturePoint`. -/
structure ImmV where
  view : Base.PView
  numTraced : Nat
  stddev : ℝ

/-- What is read of an `OptimizedPoint`. -/
structure OptV where
  view : Base.PView
  stddev : ℝ

/-- What is read of a keyframe. -/
structure KfV where
  thisToWorld : Motion3
  imm : List ImmV
  opt : List OptV

/-- The flags (source/output/DebugImageDrawer.cpp:3-8) and the settings that are read: `trackFromLastKf`, the height of the residual pattern, the number
of its points and `positionVariance`. -/
structure Params where
  relPointSize : ℝ
  imageWidth : Int
  maxStddev : ℝ
  trackFromLastKf : Bool
  patternHeight : Int
  patternSize : Nat
  positionVariance : ℝ

/-- A keyframe as `projectOntoBaseKf<ImmaturePoint>` sees it. -/
def immView (k : KfV) : Base.KfView := ⟨k.thisToWorld, k.imm.map (·.view)⟩

/-- A keyframe as `projectOntoBaseKf<OptimizedPoint>` sees it. -/
def optView (k : KfV) : Base.KfView := ⟨k.thisToWorld, k.opt.map (·.view)⟩

/-- The point a pointer returned by `projectOntoBaseKf` points to. -/
def deref {α : Type} (points : KfV → List α) (kfs : List KfV) (ptr : Nat × Nat) : Except Fault α := do
  let kf ← at' kfs ptr.1
  at' (points kf) ptr.2

/-- The points of a vector of pointers. -/
def derefs {α : Type} (points : KfV → List α) (kfs : List KfV) : List (Nat × Nat) → Except Fault (List α)
  | [] => .ok []
  | p :: ps => do
    let a ← deref points kfs p
    let as ← derefs points kfs ps
    .ok (a :: as)

/-- A point with its place in the base frame, its depth there and what the pointer points to. -/
structure Item (α : Type) where
  pos : V2
  depth : ℝ
  ref : α

/-- The three vectors filled by `projectOntoBaseKf`, entry by entry (source/output/DebugImageDrawer.cpp:43-50). -/
noncomputable def project {α : Type} (c : Cam.Cam) (last : Bool) (view : KfV → Base.KfView) (points : KfV → List α) (kfs : List KfV) :
    Except Fault (List (Item α)) := do
  let out ← Base.projectOntoBaseKf c last (kfs.map view)
  let refs ← derefs points kfs out.ptrs
  .ok ((out.points.zip (out.depths.zip refs)).map fun q => ⟨q.1, q.2.1, q.2.2⟩)

/-- The loops that call `putSquare` (source/output/DebugImageDrawer.cpp:53-60, 63-71, 76-87): squares around places, in this order. -/
noncomputable def paint (s : Int) : List (V2 × Option Colour) → Picture → Picture
  | [], img => img
  | q :: rest, img => paint s rest (putSquare img (truncInt q.1.y) (truncInt q.1.x) s q.2)

/-- The squares of `depths` (source/output/DebugImageDrawer.cpp:53-60). -/
noncomputable def depthSquares (cb : ColBounds) (imm : List (Item ImmV)) (opt : List (Item OptV)) : List (V2 × Option Colour) :=
  (imm.filter fun q => decide (q.ref.numTraced > 0)).map (fun q => (q.pos, depthCol q.depth cb.minDepthCol cb.maxDepthCol)) ++
    opt.map fun q => (q.pos, depthCol q.depth cb.minDepthCol cb.maxDepthCol)

open Classical in
/-- The squares of `usefulImg` (source/output/DebugImageDrawer.cpp:62-71). -/
noncomputable def usefulSquares (c : Cam.Cam) (p : Params) (baseToLast : Motion3) (opt : List (Item OptV)) : List (V2 × Option Colour) :=
  opt.map fun q =>
    let reproj := Cam.map c (baseToLast.act (q.depth • (Cam.unmap c q.pos).normalized))
    (q.pos, if Cam.isOnImage c reproj p.patternHeight then some green else some red)

/-- `minStddev` (source/output/DebugImageDrawer.cpp:74-75). -/
noncomputable def minStddev (p : Params) : ℝ := Real.sqrt (p.positionVariance / p.patternSize)

/-- The squares of `stddevs` (source/output/DebugImageDrawer.cpp:76-87). -/
noncomputable def stddevSquares (p : Params) (imm : List (Item ImmV)) (opt : List (Item OptV)) : List (V2 × Option Colour) :=
  (imm.filter fun q => decide (q.ref.numTraced > 0)).map (fun q => (q.pos, depthCol q.ref.stddev (minStddev p) p.maxStddev)) ++
    opt.map fun q => (q.pos, depthCol q.ref.stddev (minStddev p) p.maxStddev)

/-- `cv::hconcat` of two pictures: throws unless the heights are equal. -/
def hconcat (a b : Picture) : Except Fault Picture :=
  if a.rows = b.rows then .ok ⟨a.rows, a.cols + b.cols, fun y x => if x < a.cols then a.px y x else b.px y (x - a.cols)⟩
  else .error .exception

/-- `cv::vconcat` of two pictures: throws unless the widths are equal. -/
def vconcat (a b : Picture) : Except Fault Picture :=
  if a.cols = b.cols then .ok ⟨a.rows + b.rows, a.cols, fun y x => if y < a.rows then a.px y x else b.px (y - a.rows) x⟩
  else .error .exception

/-- `resultBig` (source/output/DebugImageDrawer.cpp:36-37, 42-96): the four pictures joined. -/
noncomputable def drawBig (p : Params) (c : Cam.Cam) (cb : ColBounds) (kfs : List KfV) (base : Pyr.Img Nat) (baseToLast : Motion3)
    (residuals : Picture) : Except Fault Picture := do
  let s := squareSize p.relPointSize c.width c.height
  let imm ← project c p.trackFromLastKf immView KfV.imm kfs
  let opt ← project c p.trackFromLastKf optView KfV.opt kfs
  let depths := paint s (depthSquares cb imm opt) (toBgr base)
  let useful := paint s (usefulSquares c p baseToLast opt) (toBgr base)
  let stddevs := paint s (stddevSquares p imm opt) (toBgr base)
  let row1 ← hconcat depths useful
  let row2 ← hconcat stddevs residuals
  vconcat row1 row2

open Classical in
/-- `newh` and `cv::resize` (source/output/DebugImageDrawer.cpp:97-99). A size without pixels makes `resize` throw. -/
noncomputable def shrink (p : Params) (resize : Picture → Nat → Nat → Picture) (big : Picture) : Except Fault Picture :=
  let newh := truncInt ((big.rows : ℝ) / big.cols * p.imageWidth)
  if 0 < p.imageWidth ∧ 0 < newh ∧ 0 < big.rows ∧ 0 < big.cols then .ok (resize big p.imageWidth.toNat newh.toNat) else .error .exception

/-- `draw` (source/output/DebugImageDrawer.cpp:35-101): `frames` are the base frame and the last frame, if there are any. -/
noncomputable def draw (p : Params) (resize : Picture → Nat → Nat → Picture) (c : Cam.Cam) (cb : ColBounds) (kfs : List KfV)
    (frames : Option (Pyr.Img Nat × Motion3)) (residuals : Picture) : Except Fault Picture :=
  match frames with
  | none => .ok ⟨c.height, c.width, fun _ _ => some ⟨0, 0, 0⟩⟩
  | some (base, baseToLast) => do
    let big ← drawBig p c cb kfs base baseToLast residuals
    shrink p resize big

end Mdso.DebugImage
