import Verif.Model.DsoSystem

/-!
# Model of `TrajectoryWriter` and `TrajectoryWriterGT`

Models `source/output/TrajectoryWriter.cpp` and `source/output/TrajectoryWriterGT.cpp` as consumers of
observer calls. Lines are pairs of a frame number and a pose; both output files of a writer get their
lines in the same order, the pose file the inverse of the pose in the matrix file. The textual form of
poses is not modelled, and writing to the files always succeeds.

The conversion `int minKfNum = INF` (infinity to `int`) is undefined behaviour in C++; its result is
the parameter `infInt`. (x86-64's `cvttsd2si` yields `INT_MIN`; a compiler that folds the constant may
yield `INT_MAX`.)
-/

set_option autoImplicit false

namespace Mdso.Traj
open Mdso.Dso

variable {G : Type}

/-- Members of `TrajectoryWriter` (include/output/TrajectoryWriter.h:24-27) and its output.
`cur` is the ordered set `curKfNums`, `pool` the ordered map `frameToWorldPool`, `lines` the lines
written so far: frame number and frame-to-world pose. -/
structure Writer (G : Type) where
  cur : List Int
  pool : List (Int × G)
  lines : List (Int × G)

/-- A freshly constructed writer (source/output/TrajectoryWriter.cpp:5-10). -/
def Writer.init : Writer G := { cur := [], pool := [], lines := [] }

/-- `std::set<int>::insert`. -/
def setInsert (x : Int) : List Int → List Int
  | [] => [x]
  | y :: ys => if x < y then x :: y :: ys else if x = y then y :: ys else y :: setInsert x ys

/-- `std::map::insert`: keeps the element already present. -/
def poolInsert (x : Int × G) : List (Int × G) → List (Int × G)
  | [] => [x]
  | y :: ys =>
    if x.1 < y.1 then x :: y :: ys else if x.1 = y.1 then y :: ys else y :: poolInsert x ys

/-- What one keyframe puts into the pool (source/output/TrajectoryWriter.cpp:21-27). -/
def poseEntries [Group G] (kf : KeyFrame G) : List (Int × G) :=
  (kf.num, kf.thisToWorld) ::
    kf.trackedFrames.map (fun f => (f.num, kf.thisToWorld * f.baseToThis⁻¹))

/-- `keyFramesMarginalized` (source/output/TrajectoryWriter.cpp:16-44). -/
def Writer.marginalized [Group G] (infInt : Int) (w : Writer G) (kfs : List (KeyFrame G)) :
    Writer G :=
  -- lines 18-19
  let cur := w.cur.filter (fun n => !(kfs.map (·.num)).contains n)
  -- lines 21-28
  let pool := (kfs.flatMap poseEntries).foldl (fun p x => poolInsert x p) w.pool
  -- line 32
  let minKfNum := match cur with | [] => infInt | m :: _ => m
  -- lines 33-44
  { cur := cur
    pool := pool.dropWhile (fun e => decide (e.1 < minKfNum))
    lines := w.lines ++ pool.takeWhile (fun e => decide (e.1 < minKfNum)) }

/-- The writer's reaction to one observer call (`newKeyFrame` lines 12-14, `destructed` lines 47-50;
the other calls are not overridden). -/
def Writer.step [Group G] (infInt : Int) (w : Writer G) : Event G → Writer G
  | .newKeyFrame kf => { w with cur := setInsert kf.num w.cur }
  | .marginalized kfs => w.marginalized infInt kfs
  | .destructed kfs => w.marginalized infInt kfs
  | .initialized _ => w
  | .newFrame _ => w

/-- The writer after a sequence of observer calls. -/
def writerOf [Group G] (infInt : Int) (log : List (Event G)) : Writer G :=
  log.foldl (Writer.step infInt) Writer.init

/-! ## Ground truth -/

/-- Members of `TrajectoryWriterGT` (include/output/TrajectoryWriterGT.h:22-26): aligned poses
(`worldToFrameGT`), the unaligned ones, and the lines of the pose file (frame number, aligned
world-to-frame pose) and of the matrix file (frame-to-world pose, here with the frame number). -/
structure WriterGT (G : Type) where
  aligned : List G
  unaligned : List G
  lines : List (Int × G)
  matrixLines : List (Int × G)

/-- Constructor (source/output/TrajectoryWriterGT.cpp:5-13). -/
def WriterGT.init (gt : List G) : WriterGT G :=
  { aligned := gt, unaligned := gt, lines := [], matrixLines := [] }

/-- `table[num]`; outside the table it is undefined behaviour. -/
def lookup (table : List G) (num : Int) : Except Err G :=
  if 0 ≤ num then
    match table[num.toNat]? with
    | some g => .ok g
    | none => .error .ub
  else .error .ub

/-- `initialized` (source/output/TrajectoryWriterGT.cpp:15-33). `align first last gtFirst gtLast` is the
alignment computed by `Sim3Aligner` from the four world-to-frame poses. -/
def WriterGT.initialized [Group G] (align : G → G → G → G → G → G) (w : WriterGT G)
    (kfs : List (KeyFrame G)) : Except Err (WriterGT G) :=
  match kfs.head?, kfs.getLast? with
  | some f, some l =>
    if kfs.length > 1 then
      match lookup w.aligned f.num, lookup w.aligned l.num with
      | .ok gf, .ok gl => .ok { w with aligned := w.aligned.map (align f.thisToWorld⁻¹ l.thisToWorld⁻¹ gf gl) }
      | _, _ => .error .ub
    else .error .abort
  | _, _ => .error .abort

/-- One line in each file (source/output/TrajectoryWriterGT.cpp:41-48, 50-57). -/
def WriterGT.put [Group G] (w : WriterGT G) (num : Int) : Except Err (WriterGT G) :=
  match lookup w.unaligned num, lookup w.aligned num with
  | .ok u, .ok a =>
    .ok { w with lines := w.lines ++ [(num, a)], matrixLines := w.matrixLines ++ [(num, u⁻¹)] }
  | _, _ => .error .ub

/-- `keyFramesMarginalized` (source/output/TrajectoryWriterGT.cpp:35-60): each keyframe, then its
tracked frames. -/
def WriterGT.marginalized [Group G] (w : WriterGT G) (kfs : List (KeyFrame G)) :
    Except Err (WriterGT G) :=
  (kfs.flatMap (fun kf => kf.num :: kf.trackedFrames.map (·.num))).foldlM WriterGT.put w

/-- The writer's reaction to one observer call. -/
def WriterGT.step [Group G] (align : G → G → G → G → G → G) (w : WriterGT G) :
    Event G → Except Err (WriterGT G)
  | .initialized kfs => w.initialized align kfs
  | .marginalized kfs => w.marginalized kfs
  | .destructed kfs => w.marginalized kfs
  | .newKeyFrame _ => .ok w
  | .newFrame _ => .ok w

/-- The writer after a sequence of observer calls. -/
def writerGTOf [Group G] (align : G → G → G → G → G → G) (gt : List G) (log : List (Event G)) :
    Except Err (WriterGT G) :=
  log.foldlM (WriterGT.step align) (WriterGT.init gt)

end Mdso.Traj
