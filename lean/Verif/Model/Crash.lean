import Verif.Model.Snapshot

/-!
# Model of a process killed while it saves a snapshot

Models `SnapshotSaver::save` and `KeyFrameSaver::store` (source/system/serialization.cpp:190-232, 273-281) as the sequence of their operations on files, and what is
on the disk if the process is killed between any two of them. Files are sequences of tokens as in `Verif.Model.Snapshot`: a number is either on the disk or not.
`depth_col.txt` is left out.
-/

set_option autoImplicit false

namespace Mdso.Snap

/-- The files of a snapshot: `kf<n>/kf.txt`, `kf<n>/pkf.txt`, `kf<n>/immaturePoints.txt`, `kf<n>/optimizedPoints.txt` (source/system/serialization.cpp:195-204) and
`pkf<n>.txt` (source/system/serialization.cpp:229). -/
inductive File where
  | kf (n : Int)
  | pkf (n : Int)
  | immature (n : Int)
  | optimized (n : Int)
  | tracked (n : Int)
  deriving DecidableEq

/-- What `save` does with files: make the directory `kf<n>`, open a file for writing, put tokens into the stream of an open file, and close it. -/
inductive Op where
  | mkdir (n : Int)
  | open (f : File)
  | put (f : File) (ts : List Tok)
  | close (f : File)

/-- A snapshot directory on the disk: its subdirectories and files. -/
structure Disk where
  dirs : List Int
  file : File → Option (List Tok)

/-- The disk, and what was put into the streams that are open. -/
structure World where
  disk : Disk
  stream : File → Option (List Tok)

/-- One operation: `fs::create_directories` leaves an existing directory as it is (source/system/serialization.cpp:193); opening a `std::ofstream` empties its file;
what is put stays in the stream; closing writes everything. -/
def step (w : World) : Op → World
  | .mkdir n => ⟨⟨if n ∈ w.disk.dirs then w.disk.dirs else w.disk.dirs ++ [n], w.disk.file⟩, w.stream⟩
  | .open f => ⟨⟨w.disk.dirs, fun g => if g = f then some [] else w.disk.file g⟩, fun g => if g = f then some [] else w.stream g⟩
  | .put f ts => ⟨w.disk, fun g => if g = f then (w.stream f).map (· ++ ts) else w.stream g⟩
  | .close f => ⟨⟨w.disk.dirs, fun g => if g = f then w.stream f else w.disk.file g⟩, fun g => if g = f then none else w.stream g⟩

def run (w : World) (ops : List Op) : World := ops.foldl step w

/-- What may be on the disk when the process is killed: of every open stream some part of what was put is written, when its buffer was full. The last token is still in
the buffer (the coincidence that the buffer runs full within the last token before the process is killed is left out). -/
def Killed (w : World) (d : Disk) : Prop :=
  d.dirs = w.disk.dirs ∧ ∀ f, match w.stream f with
    | none => d.file f = w.disk.file f
    | some ts => ∃ k, (k < ts.length ∨ k = 0) ∧ d.file f = some (ts.take k)

/-- `storeTrackedVector` after the count (source/system/serialization.cpp:225-231), with `PreKeyFrameSaver::store` (source/system/serialization.cpp:106-112). -/
def trackedOps (n : Int) : List PreKeyFrame → List Op
  | [] => []
  | f :: fs => [.put (.kf n) [.int f.globalFrameNum], .open (.tracked f.globalFrameNum), .put (.tracked f.globalFrameNum) (putPreKeyFrame f),
      .close (.tracked f.globalFrameNum)] ++ trackedOps n fs

/-- `KeyFrameSaver::store` (source/system/serialization.cpp:190-209). The streams are closed by their destructors, in reverse order. The points of one kind are put
at once. -/
noncomputable def storeOps (ps : Nat) (kf : KeyFrame) : Except Fault (List Op) := do
  let n := kf.preKeyFrame.globalFrameNum
  let imm ← kf.immaturePoints.mapM (putImmature ps)
  .ok ([.mkdir n, .open (.kf n), .open (.pkf n), .put (.pkf n) (putPreKeyFrame kf.preKeyFrame), .close (.pkf n),
      .open (.immature n), .put (.kf n) [.int kf.immaturePoints.length], .put (.immature n) imm.flatten,
      .open (.optimized n), .put (.kf n) [.int kf.optimizedPoints.length], .put (.optimized n) (kf.optimizedPoints.flatMap putOptimized),
      .put (.kf n) [.int n], .put (.kf n) (putMotion kf.thisToWorld), .put (.kf n) (putLight kf.lightWorldToThis),
      .put (.kf n) [.int kf.trackedFrames.length]] ++ trackedOps n kf.trackedFrames ++
    [.close (.optimized n), .close (.immature n), .close (.kf n)])

/-- `SnapshotSaver::save` (source/system/serialization.cpp:273-281). -/
noncomputable def saveOps (ps : Nat) : List KeyFrame → Except Fault (List Op)
  | [] => .ok []
  | kf :: kfs => do
    let a ← storeOps ps kf
    let b ← saveOps ps kfs
    .ok (a ++ b)

/-- A failed read leaves its variable as it was, that is indeterminate, and the variable is used: the counts as sizes, the frame number to get the frame
(source/system/serialization.cpp:90-98, 162-167, 172-177, 149). The exception stands for a failed read in `Verif.Model.Snapshot`. -/
def indeterminate {α : Type} : Except Fault α → Except Fault α
  | .error .exception => .error .ub
  | x => x

/-- `KeyFrameLoader::load` (source/system/serialization.cpp:124-184) for one subdirectory of a disk. All reads of a missing file fail. -/
noncomputable def loadFrom (ps : Nat) (d : Disk) (n : Int) : Except Fault KeyFrame :=
  match d.file (.pkf n), d.file (.kf n), d.file (.immature n), d.file (.optimized n) with
  | some a, some b, some c, some e => indeterminate (loadKeyFrame ps ⟨[], fun m => d.file (.tracked m)⟩ ⟨a, b, c, e⟩)
  | _, _, _, _ => .error .ub

/-- `SnapshotLoader::load` (source/system/serialization.cpp:248-261) from a disk; `order` is the order of the directory iterator. -/
noncomputable def loadDisk (ps : Nat) (d : Disk) (order : List Int) : Except Fault (List KeyFrame) :=
  order.foldlM (fun m n => do
    let kf ← loadFrom ps d n
    insertNew kf m) []

/-- The disk with the files of a directory of `Verif.Model.Snapshot`. -/
def Dir.disk (d : Dir) : Disk where
  dirs := d.kf.map Prod.fst
  file
    | .kf n => (d.kf.lookup n).map (·.kf)
    | .pkf n => (d.kf.lookup n).map (·.pkf)
    | .immature n => (d.kf.lookup n).map (·.immaturePoints)
    | .optimized n => (d.kf.lookup n).map (·.optimizedPoints)
    | .tracked n => d.pkf n

/-- Nothing is open. -/
def Dir.idle (d : Dir) : World := ⟨d.disk, fun _ => none⟩

end Mdso.Snap
