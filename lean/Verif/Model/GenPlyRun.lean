import Verif.Model.TrajectoryWriter
import Verif.Model.Fault
import Mathlib.Logic.Function.Basic

/-!
# Model of a run of `genply`

Models `main` of `genply` (samples/mfov/genply/main.cpp:93-230, without the branch `gen_gt_only`, see `Verif/Model/GenPly.lean`) as the sequence of
its effects on the disk, up to the end of `main` or the first fault.

* Paths are lists of names, relative to the working directory. A name with a number in it is identified with the number.
* A file is the list of what was written into it; the contents of pictures and of snapshot files are only named here. They are the subject of
  `Verif/Model/Drawers.lean`, `Verif/Model/DebugImage.lean` and `Verif/Model/Snapshot.lean`.
* Opening a file in a directory that does not exist has no effect: neither `std::ofstream` nor `cv::imwrite` is tested by the code.
* `CloudWriter`, `CloudWriterGT` and windows on the screen are left out. Directories are never removed, and no directory has the name of a file.
* `addFrame` is that of `Verif/Model/DsoSystem.lean`; if it fails, the calls it had made to observers before are not part of this model (it fails
  before the first one if the settings are valid).
* An exception nobody catches ends the program without running destructors, like a failed `CHECK` (what the usual compilers do).
* The constructor of the reader (line 127) succeeds.
* The buffer of `args.txt` is assumed to be large enough for the arguments.
-/

set_option autoImplicit false

namespace Mdso.GenPlyRun

open Mdso.Dso Mdso.Traj

/-- A component of a path. -/
inductive Name where
  | str (s : String)
  | numbered (pre : String) (n : Int) (suffix : String)
  deriving DecidableEq

abbrev Path := List Name

/-- What is written into files. -/
inductive Item (G : Type) where
  | arg (s : String)
  | pose (num : Int) (p : G)
  | debugPicture (num : Int)
  | trackPicture (num : Int)
  | pyrPicture (num : Int)
  | interpolation
  | snapshotKeyFrame (num : Int)
  | snapshotFrame (num : Int)
  | depthColBounds

/-- The disk: its directories, its files, and the files this process has opened for writing and not closed yet. -/
structure Disk (G : Type) where
  dirs : List Path
  files : Path → Option (List (Item G))
  handles : List Path

/-- Effects on the disk. -/
inductive Effect (G : Type) where
  /-- `fs::create_directories` -/
  | mkdirs (p : Path)
  /-- a new file, written and closed -/
  | put (p : Path) (items : List (Item G))
  /-- a file opened with `std::ios_base::app`, written and closed -/
  | app (p : Path) (items : List (Item G))
  /-- a new file, opened -/
  | opened (p : Path)
  /-- that file, written and closed -/
  | closed (p : Path) (items : List (Item G))

variable {G : Type}

/-- The working directory always exists. -/
def Disk.isDir (d : Disk G) (p : Path) : Prop := p = [] ∨ p ∈ d.dirs

instance (d : Disk G) (p : Path) : Decidable (d.isDir p) := inferInstanceAs (Decidable (_ ∨ _))

/-- One effect. -/
def Disk.exec (d : Disk G) : Effect G → Disk G
  | .mkdirs p => { d with dirs := (List.range (p.length + 1)).map p.take ++ d.dirs }
  | .put p items => if d.isDir p.dropLast then { d with files := Function.update d.files p (some items) } else d
  | .app p items =>
    if d.isDir p.dropLast then { d with files := Function.update d.files p (some ((d.files p).getD [] ++ items)) } else d
  | .opened p =>
    if d.isDir p.dropLast then { d with files := Function.update d.files p (some []), handles := p :: d.handles } else d
  | .closed p items =>
    if p ∈ d.handles then { d with files := Function.update d.files p (some items), handles := d.handles.erase p } else d

/-- Several effects. -/
def Disk.execAll (d : Disk G) (es : List (Effect G)) : Disk G := es.foldl Disk.exec d

/-- The flags (samples/mfov/genply/main.cpp:17-62): `outDir` as computed in lines 110-112; `debugDir`, `trackDir` and `pyrDir` are relative to it. -/
structure Flags where
  start : Int
  count : Int
  writeFiles : Bool
  drawDepthPyramid : Bool
  outDir : Path
  debugDir : Path
  trackDir : Path
  pyrDir : Path
  args : List String

/-- What the numerical parts return for a frame, see `Dso.FrameIn`. -/
structure Input (G : Type) where
  stereo : G
  track : G
  ba : Int → G

/-- Everything else a run depends on: the settings, the value of `int(INF)`, the alignment computed by `Sim3Aligner`, the poses of the ground truth, and
the frames of the data set; `none` is a frame that `getFrame` cannot read (it throws, samples/mfov/reader/MultiFovReader.cpp:65-74). -/
structure World (G : Type) where
  set : Settings
  infInt : Int
  align : G → G → G → G → G → G
  gt : List G
  input : Int → Option (Input G)

def Flags.trackedPos (f : Flags) : Path := f.outDir ++ [.str "tracked_pos.txt"]
def Flags.trackedMatrix (f : Flags) : Path := f.outDir ++ [.str "tracked_frame_to_world.txt"]
def Flags.gtPos (f : Flags) : Path := f.outDir ++ [.str "ground_truth_pos.txt"]
def Flags.gtMatrix (f : Flags) : Path := f.outDir ++ [.str "matrix_form_GT_pose.txt"]
def Flags.argsTxt (f : Flags) : Path := f.outDir ++ [.str "args.txt"]
def Flags.interpolationJpg (f : Flags) : Path := f.outDir ++ [.str "interpolation.jpg"]
def Flags.snapshot (f : Flags) : Path := f.outDir ++ [.str "snapshot"]
/-- `"frame#" + std::to_string(it) + ".jpg"` (samples/mfov/genply/main.cpp:208, 211, 215). -/
def frameJpg (it : Int) : Name := .numbered "frame#" it ".jpg"
def Flags.debugJpg (f : Flags) (it : Int) : Path := f.outDir ++ f.debugDir ++ [frameJpg it]
def Flags.trackJpg (f : Flags) (it : Int) : Path := f.outDir ++ f.trackDir ++ [frameJpg it]
def Flags.pyrJpg (f : Flags) (it : Int) : Path := f.outDir ++ f.pyrDir ++ [frameJpg it]

/-- `DsoSystem`, `TrajectoryWriter` and `TrajectoryWriterGT`. -/
structure St (G : Type) where
  sys : Dso.State G
  w : Writer G
  gt : WriterGT G

/-- A failure of `DsoSystem` or of an observer. -/
def ofErr : Err → Fault
  | .ub => .ub
  | .abort => .abort

/-- Effects, then a fault or a result. -/
abbrev Act (G σ : Type) := List (Effect G) × Except Fault σ

/-- One action after another. -/
def andThen {σ τ : Type} (a : Act G σ) (k : σ → Act G τ) : Act G τ :=
  match a.2 with
  | .error e => (a.1, .error e)
  | .ok s => (a.1 ++ (k s).1, (k s).2)

/-- The lines added to a file of poses. -/
def poseItems (lines : List (Int × G)) : List (Item G) := lines.map fun l => .pose l.1 l.2

/-- The two files of `TrajectoryWriter` (source/output/TrajectoryWriter.cpp:30-45, 47-50) after a call. -/
def writerEffects [Group G] (f : Flags) (w w' : Writer G) : Event G → List (Effect G)
  | .marginalized _ | .destructed _ =>
    [.app f.trackedPos (poseItems ((w'.lines.drop w.lines.length).map fun l => (l.1, l.2⁻¹))),
      .app f.trackedMatrix (poseItems (w'.lines.drop w.lines.length))]
  | _ => []

/-- The two files of `TrajectoryWriterGT` (source/output/TrajectoryWriterGT.cpp:35-66) after a call. -/
def writerGTEffects (f : Flags) (w w' : WriterGT G) : Event G → List (Effect G)
  | .marginalized _ | .destructed _ =>
    [.app f.gtPos (poseItems (w'.lines.drop w.lines.length)), .app f.gtMatrix (poseItems (w'.matrixLines.drop w.matrixLines.length))]
  | _ => []

/-- One call of the observers, in the order they were registered (samples/mfov/genply/main.cpp:179-180). -/
def onEvent [Group G] (f : Flags) (wd : World G) (s : St G) (e : Event G) : Act G (St G) :=
  let w' := s.w.step wd.infInt e
  match s.gt.step wd.align e with
  | .error er => (writerEffects f s.w w' e, .error (ofErr er))
  | .ok gt' => (writerEffects f s.w w' e ++ writerGTEffects f s.gt gt' e, .ok { s with w := w', gt := gt' })

/-- Several calls. -/
def onEvents [Group G] (f : Flags) (wd : World G) : List (Event G) → St G → Act G (St G)
  | [], s => ([], .ok s)
  | e :: es, s => andThen (onEvent f wd s e) (onEvents f wd es)

/-- Whether a call is `newKeyFrame`. It is made exactly when `DsoSystem` makes a new tracker (source/system/DsoSystem.cpp:431-438, 510-567), which tells
`DepthPyramidDrawer` of its base frame. -/
def isNewKeyFrame : Event G → Bool
  | .newKeyFrame _ => true
  | _ => false

/-- The pictures written after a frame (samples/mfov/genply/main.cpp:196-218). `init`: the interpolation has been drawn, which happens when the system gets
initialized (source/output/InterpolationDrawer.cpp:10-41); `base`: the tracker has got a new base frame. -/
def pictures (f : Flags) (init base : Bool) (it : Int) : List (Effect G) :=
  if f.writeFiles then
    (if init then [.put f.interpolationJpg [.interpolation]] else []) ++
      [.put (f.debugJpg it) [.debugPicture it], .put (f.trackJpg it) [.trackPicture it]] ++
      (if f.drawDepthPyramid && base then [.put (f.pyrJpg it) [.pyrPicture it]] else [])
  else []

/-- One round of the loop (samples/mfov/genply/main.cpp:192-225). -/
def round [Group G] (f : Flags) (wd : World G) (s : St G) (it : Int) : Act G (St G) :=
  match wd.input it with
  | none => ([], .error .exception)
  | some x =>
    match Dso.addFrame wd.set s.sys ⟨it, x.stereo, x.track, x.ba⟩ with
    | .error e => ([], .error (ofErr e))
    | .ok (sys, _) =>
      let evs := sys.log.drop s.sys.log.length
      andThen (onEvents f wd evs { s with sys := sys }) fun s' =>
        (pictures f sys.isInitialized (evs.any isNewKeyFrame) it, .ok s')

/-- The loop (samples/mfov/genply/main.cpp:192). -/
def rounds [Group G] (f : Flags) (wd : World G) : List Int → St G → Act G (St G)
  | [], s => ([], .ok s)
  | it :: its, s => andThen (round f wd s it) (rounds f wd its)

/-- The values of `it` (samples/mfov/genply/main.cpp:192). -/
def frameNums (f : Flags) : List Int := (List.range f.count.toNat).map fun i : Nat => f.start + (i : Int)

/-- The files of a snapshot (source/system/serialization.cpp:188-235, 273-283). -/
def snapshotEffects (f : Flags) (kfs : List (KeyFrame G)) : List (Effect G) :=
  .mkdirs f.snapshot ::
    (kfs.flatMap fun kf =>
      [.mkdirs (f.snapshot ++ [.numbered "kf" kf.num ""]),
        .put (f.snapshot ++ [.numbered "kf" kf.num ""] ++ [.str "kf.txt"]) [.snapshotKeyFrame kf.num]] ++
      kf.trackedFrames.map fun t => .put (f.snapshot ++ [.numbered "pkf" t.num ".txt"]) [.snapshotFrame t.num]) ++
    [.put (f.snapshot ++ [.str "depth_col.txt"]) [.depthColBounds]]

/-- The directories made, and `args.txt` opened (samples/mfov/genply/main.cpp:116-125). -/
def prepare (f : Flags) : List (Effect G) :=
  (if f.writeFiles then
    [.mkdirs f.outDir, .mkdirs (f.outDir ++ f.debugDir), .mkdirs (f.outDir ++ f.trackDir), .mkdirs (f.outDir ++ f.pyrDir)] else []) ++
    [.opened f.argsTxt]

/-- The end of `main` (samples/mfov/genply/main.cpp:227-229): the snapshot, the destructor of `DsoSystem`, and the destructor of `argsOfs`. -/
def finish [Group G] (f : Flags) (wd : World G) (s : St G) : Act G (St G) :=
  andThen ((snapshotEffects f s.sys.keyFrames, .ok s) : Act G (St G)) fun s =>
    andThen (onEvent f wd s (.destructed s.sys.keyFrames)) fun s' =>
      ([.closed f.argsTxt (f.args.map .arg)], .ok s')

/-- `main` (samples/mfov/genply/main.cpp:110-230). `FLAGS_start + FLAGS_count` may overflow. -/
def main [Group G] (f : Flags) (wd : World G) : Act G (St G) :=
  andThen ((prepare f, Dso.create wd.set |>.mapError ofErr) : Act G (Dso.State G)) fun sys =>
    if f.start + f.count > intMax then ([], .error .ub)
    else andThen (rounds f wd (frameNums f) ⟨sys, Writer.init, WriterGT.init wd.gt⟩) (finish f wd)

end Mdso.GenPlyRun
