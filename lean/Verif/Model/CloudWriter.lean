import Verif.Model.PrintInPly
import Verif.Model.FileInDir
import Verif.Model.DsoSystem

/-!
# Model of `CloudWriter` and `CloudWriterGT`

Models `source/output/CloudWriter.cpp`, `source/output/CloudWriterGT.cpp` and their headers, on top of
the models of `PlyHolder` and `printInPly`.
-/

set_option autoImplicit false

namespace Mdso.Cloud
open Mdso.Ply Mdso.Util

/-- `OptimizedPoint`: pixel and depth (include/system/OptimizedPoint.h:14-44). -/
structure Opt (Pix D : Type) where
  p : Pix
  depth : D

/-- `ImmaturePoint`: pixel, depth and number of successful traces
(include/system/ImmaturePoint.h). -/
structure Imm (Pix D : Type) where
  p : Pix
  depth : D
  numTraced : Int

/-- The parts of `KeyFrame` the writer reads; `frame` stands for the pose and the colour image. -/
structure Kf (K Pix D : Type) where
  num : Int
  frame : K
  optimizedPoints : List (Opt Pix D)
  immaturePoints : List (Imm Pix D)

/-- Geometry and image access: `place` is `thisToWorld * (depth * cam->unmap(p).normalized())`,
`colorAt` is `frameColored.at<cv::Vec3b>(toCvPoint(p))` (source/output/CloudWriter.cpp:17-20).
The pixels of points are assumed to lie on the image. -/
structure Scene (K Pix D α : Type) where
  place : K → Pix → D → Pt α
  colorAt : K → Pix → Vec3b

/-- The vector `points` (source/output/CloudWriter.cpp:13, 16-29). -/
def points {K Pix D α : Type} (sc : Scene K Pix D α) (kf : Kf K Pix D) : List (Pt α) :=
  kf.optimizedPoints.map (fun op => sc.place kf.frame op.p op.depth) ++
    (kf.immaturePoints.filter (fun ip => decide (ip.numTraced > 0))).map
      (fun ip => sc.place kf.frame ip.p ip.depth)

/-- The vector `colors` (source/output/CloudWriter.cpp:14, 16-29). -/
def colors {K Pix D α : Type} (sc : Scene K Pix D α) (kf : Kf K Pix D) : List Vec3b :=
  kf.optimizedPoints.map (fun op => sc.colorAt kf.frame op.p) ++
    (kf.immaturePoints.filter (fun ip => decide (ip.numTraced > 0))).map
      (fun ip => sc.colorAt kf.frame ip.p)

/-- `std::to_string` on an `int`. -/
def intText (n : Int) : List Char :=
  if n < 0 then '-' :: toStringC n.natAbs else toStringC n.natAbs

/-- The members of `CloudWriter` (include/output/CloudWriter.h:25-27), the contents of the cloud file,
and the per-keyframe files it opened for writing, in order, as (path, contents). -/
structure Writer where
  outputDirectory : List Char
  cloudPath : List Char
  cloud : Holder
  kfFiles : List (List Char × List Char)

/-- Constructor (source/output/CloudWriter.cpp:5-8). The member `outputDirectory` is not initialised
from the parameter of the same name: it stays the empty string. -/
def create (creatable : Bool) (outputDirectory fileName : List Char) : Except Err Writer :=
  match Ply.create creatable with
  | .error e => .error e
  | .ok h =>
    .ok { outputDirectory := [], cloudPath := fileInDir outputDirectory fileName, cloud := h,
          kfFiles := [] }

/-- One round of the loop (source/output/CloudWriter.cpp:12-37). Opening the per-keyframe file is
assumed to succeed (a failure is silently ignored by the code). -/
def putKeyFrame {K Pix D α : Type} (sc : Scene K Pix D α) (finite : α → Bool)
    (fmt : α → List Char) (w : Writer) (kf : Kf K Pix D) : Except Err Writer :=
  match printInPly finite fmt (points sc kf) (colors sc kf) with
  | .error e => .error e
  | .ok text =>
    match putPoints fmt w.cloud (points sc kf) (colors sc kf) with
    | .error e => .error e
    | .ok h =>
      .ok { w with
        cloud := h
        kfFiles := w.kfFiles ++
          [(w.outputDirectory ++ "/kf".toList ++ intText kf.num ++ ".ply".toList, text)] }

/-- The loop of source/output/CloudWriter.cpp:12-37. -/
def putKeyFrames {K Pix D α : Type} (sc : Scene K Pix D α) (finite : α → Bool)
    (fmt : α → List Char) (w : Writer) : List (Kf K Pix D) → Except Err Writer
  | [] => .ok w
  | kf :: kfs =>
    match putKeyFrame sc finite fmt w kf with
    | .error e => .error e
    | .ok w => putKeyFrames sc finite fmt w kfs

/-- `keyFramesMarginalized` (source/output/CloudWriter.cpp:10-40) and `destructed`, which only calls it
(lines 42-45). -/
def keyFramesMarginalized {K Pix D α : Type} (sc : Scene K Pix D α) (finite : α → Bool)
    (fmt : α → List Char) (w : Writer) (kfs : List (Kf K Pix D)) : Except Err Writer :=
  match putKeyFrames sc finite fmt w kfs with
  | .error e => .error e
  | .ok w =>
    match updatePointCount w.cloud with
    | .error e => .error e
    | .ok h => .ok { w with cloud := h }

/-- A history of calls of `keyFramesMarginalized` and `destructed`. -/
def calls {K Pix D α : Type} (sc : Scene K Pix D α) (finite : α → Bool)
    (fmt : α → List Char) (w : Writer) : List (List (Kf K Pix D)) → Except Err Writer
  | [] => .ok w
  | c :: cs =>
    match keyFramesMarginalized sc finite fmt w c with
    | .error e => .error e
    | .ok w => calls sc finite fmt w cs

/-! ## `CloudWriterGT` -/

/-- Failures of `CloudWriterGT`: undefined behaviour, a failed `CHECK`, an exception. -/
inductive GTErr where
  | ub
  | abort
  | exception
  deriving DecidableEq, Repr

/-- Failures inside `PlyHolder` seen from `CloudWriterGT`. -/
def GTErr.ofPly : Err → GTErr
  | .ub => .ub
  | .exception => .exception

/-- The members of `CloudWriterGT` (include/output/CloudWriterGT.h:25-29) without the pose table, which
is never read for output. `aligner` is what the `Sim3Aligner` does to a point (`alignScale`), absent
before `initialized`. -/
structure WriterGT (α : Type) where
  pointsInFrameGT : List (List (Pt α))
  colors : List (List Vec3b)
  poses : Nat
  aligner : Option (Pt α → Pt α)
  cloud : Holder

/-- `v[i]` on a vector; an index outside is undefined behaviour. -/
def at? {β : Type} (l : List β) (i : Int) : Except GTErr β :=
  if 0 ≤ i then
    match l[i.toNat]? with
    | some x => .ok x
    | none => .error .ub
  else .error .ub

/-- `initialized` (source/output/CloudWriterGT.cpp:15-31); `scale` is the `alignScale` of the aligner
built in line 26. Reading the pose table out of range is undefined behaviour. -/
def WriterGT.initialized {G α : Type} (scale : Pt α → Pt α) (w : WriterGT α)
    (kfs : List (Dso.KeyFrame G)) : Except GTErr (WriterGT α) :=
  match kfs.head?, kfs.getLast? with
  | some f, some l =>
    if ¬ 1 < kfs.length then .error .abort
    else if 0 ≤ f.num ∧ f.num < w.poses ∧ 0 ≤ l.num ∧ l.num < w.poses then
      .ok { w with aligner := some scale }
    else .error .ub
  | _, _ => .error .abort

/-- Lines 38-42 resp. 45-50 of source/output/CloudWriterGT.cpp: the ground truth points of one frame.
`act g` applies a rigid motion to a point. -/
def WriterGT.putFrame {G α : Type} (act : G → Pt α → Pt α) (fmt : α → List Char)
    (scale : Pt α → Pt α) (w : WriterGT α) (num : Int) (frameToWorld : G) :
    Except GTErr (WriterGT α) :=
  match at? w.pointsInFrameGT num with
  | .error e => .error e
  | .ok ps =>
    match at? w.colors num with
    | .error e => .error e
    | .ok cs =>
      match putPoints fmt w.cloud (ps.map (fun p => act frameToWorld (scale p))) cs with
      | .error e => .error (GTErr.ofPly e)
      | .ok h => .ok { w with cloud := h }

/-- The frames of a keyframe with the poses used for them (source/output/CloudWriterGT.cpp:38-47). -/
def framePoses {G : Type} [Group G] (kf : Dso.KeyFrame G) : List (Int × G) :=
  (kf.num, kf.thisToWorld) ::
    kf.trackedFrames.map (fun f => (f.num, kf.thisToWorld * f.baseToThis⁻¹))

/-- The loops of source/output/CloudWriterGT.cpp:37-52 over all frames. -/
def WriterGT.putFrames {G α : Type} (act : G → Pt α → Pt α) (fmt : α → List Char)
    (scale : Pt α → Pt α) (w : WriterGT α) : List (Int × G) → Except GTErr (WriterGT α)
  | [] => .ok w
  | f :: fs =>
    match w.putFrame act fmt scale f.1 f.2 with
    | .error e => .error e
    | .ok w => WriterGT.putFrames act fmt scale w fs

/-- `keyFramesMarginalized` and `destructed` (source/output/CloudWriterGT.cpp:33-59). -/
def WriterGT.marginalized {G α : Type} [Group G] (act : G → Pt α → Pt α) (fmt : α → List Char)
    (w : WriterGT α) (kfs : List (Dso.KeyFrame G)) : Except GTErr (WriterGT α) :=
  match w.aligner with
  | none => .error .abort
  | some scale =>
    match w.putFrames act fmt scale (kfs.flatMap framePoses) with
    | .error e => .error e
    | .ok w =>
      match updatePointCount w.cloud with
      | .error e => .error (GTErr.ofPly e)
      | .ok h => .ok { w with cloud := h }

/-- One observer call. -/
def WriterGT.step {G α : Type} [Group G] (act : G → Pt α → Pt α) (fmt : α → List Char)
    (scale : Pt α → Pt α) (w : WriterGT α) : Dso.Event G → Except GTErr (WriterGT α)
  | .initialized kfs => w.initialized scale kfs
  | .marginalized kfs => w.marginalized act fmt kfs
  | .destructed kfs => w.marginalized act fmt kfs
  | .newFrame _ => .ok w
  | .newKeyFrame _ => .ok w

/-- All observer calls of a log. -/
def WriterGT.steps {G α : Type} [Group G] (act : G → Pt α → Pt α) (fmt : α → List Char)
    (scale : Pt α → Pt α) (w : WriterGT α) : List (Dso.Event G) → Except GTErr (WriterGT α)
  | [] => .ok w
  | e :: es =>
    match w.step act fmt scale e with
    | .error e => .error e
    | .ok w => WriterGT.steps act fmt scale w es

end Mdso.Cloud
