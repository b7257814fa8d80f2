import Mathlib.Analysis.SpecialFunctions.Exp
import Mathlib.Analysis.SpecialFunctions.Log.Basic
import Mathlib.Analysis.SpecialFunctions.Sqrt
import Verif.Model.Fault

/-!
# Model of snapshots

Models `source/system/serialization.cpp`, `include/system/serialization.h`, the loading constructors
of `ImmaturePoint` and `OptimizedPoint` and the constructor of `KeyFrame` used for loading.

* A text file is the list of its whitespace separated tokens. A token carries the exact value: the
  files are written with `max_digits10 + 1` digits and with Boost's facets for infinities and NaN
  (serialization.cpp:7-23), so text and value determine each other (up to the payload of a NaN).
* The state of an input stream is the list of tokens not read yet. The code never tests a stream; a
  read at the end of the file, or of a token of the wrong kind, is the outcome `Fault.exception`
  here, although the program goes on with the value the variable had before (`Verif.Model.Crash`).
* The images, re-read from the data set by their frame numbers, are not part of the model, neither
  is `depth_col.txt`.
* A member that no constructor has set is `none` where the difference matters (`Optimized.state`),
  otherwise an arbitrary value.
-/

set_option autoImplicit false

namespace Mdso.Snap

/-- A `double`. -/
inductive Dbl where
  | fin (x : ℝ)
  | inf (negative : Bool)
  | nan

/-- Unary minus. -/
def Dbl.neg : Dbl → Dbl
  | .fin x => .fin (-x)
  | .inf b => .inf (!b)
  | .nan => .nan

/-- `std::exp`. -/
noncomputable def Dbl.exp : Dbl → Dbl
  | .fin x => .fin (Real.exp x)
  | .inf true => .fin 0
  | .inf false => .inf false
  | .nan => .nan

/-- `x != INF` (include/util/defs.h: `INF` is the positive infinity). -/
def Dbl.isInf : Dbl → Bool
  | .inf false => true
  | _ => false

/-- A token of a snapshot file. -/
inductive Tok where
  | num (x : Dbl)
  | int (n : Int)

/-- `Vec2`, `Vec3`. -/
abbrev D2 := Dbl × Dbl
abbrev D3 := Dbl × Dbl × Dbl

/-- `SO3`: a unit quaternion. -/
structure Rot where
  x : ℝ
  y : ℝ
  z : ℝ
  w : ℝ
  unit : x ^ 2 + y ^ 2 + z ^ 2 + w ^ 2 = 1

/-- `SE3`, with finite entries. -/
structure Motion where
  rot : Rot
  t : ℝ × ℝ × ℝ

/-- `AffLight`: its two parameters (include/system/AffineLightTransform.h). -/
abbrev Light := Dbl × Dbl

/-- `ImmaturePoint::State` and `OptimizedPoint::State`. -/
inductive PState where
  | active
  | oob
  | outlier
  deriving DecidableEq

/-- `int(state)`. -/
def PState.toInt : PState → Int
  | .active => 0
  | .oob => 1
  | .outlier => 2

/-- The stored members of `ImmaturePoint` and the members its loading constructor sets
(include/system/ImmaturePoint.h:48-69). -/
structure Immature where
  p : D2
  baseDirections : List D3
  baseIntencities : List Dbl
  baseGrad : List D2
  baseGradNorm : List D2
  minDepth : Dbl
  maxDepth : Dbl
  depth : Dbl
  bestQuality : Dbl
  lastEnergy : Dbl
  stddev : Dbl
  state : PState
  lastTraced : Bool
  numTraced : Int
  tracedPyrLevel : Int

/-- `OptimizedPoint` (include/system/OptimizedPoint.h:40-43). `state = none`: never set. -/
structure Optimized where
  p : D2
  logInvDepth : Dbl
  stddev : Dbl
  state : Option PState

/-- `OptimizedPoint::depth` (include/system/OptimizedPoint.h:38). -/
noncomputable def Optimized.depth (op : Optimized) : Dbl := op.logInvDepth.neg.exp

/-- The stored members of `PreKeyFrame` (include/system/PreKeyFrame.h:31-35). -/
structure PreKeyFrame where
  baseToThis : Motion
  globalFrameNum : Int
  lightBaseToThis : Light

/-- The stored members of `KeyFrame` (include/system/KeyFrame.h:43-51). -/
structure KeyFrame where
  preKeyFrame : PreKeyFrame
  thisToWorld : Motion
  lightWorldToThis : Light
  immaturePoints : List Immature
  optimizedPoints : List Optimized
  trackedFrames : List PreKeyFrame

/-! ## Writing (`DataSerializer<STORE>`, include/system/serialization.h:31-60) -/

/-- Matrices of two entries (include/system/serialization.h:35-40). -/
def putD2 (v : D2) : List Tok := [.num v.1, .num v.2]

/-- Matrices of three entries (include/system/serialization.h:35-40). -/
def putD3 (v : D3) : List Tok := [.num v.1, .num v.2.1, .num v.2.2]

/-- include/system/serialization.h:46: the coefficients in the order of `Quaternion::coeffs`. -/
def putRot (r : Rot) : List Tok := [.num (.fin r.x), .num (.fin r.y), .num (.fin r.z), .num (.fin r.w)]

/-- include/system/serialization.h:47-50. -/
def putMotion (m : Motion) : List Tok :=
  putRot m.rot ++ [.num (.fin m.t.1), .num (.fin m.t.2.1), .num (.fin m.t.2.2)]

/-- include/system/serialization.h:43-45. -/
def putLight (l : Light) : List Tok := [.num l.1, .num l.2]

/-- `for (int i = 0; i < PS; ++i) process(v[i])` while storing. -/
def putEach {α : Type} (put : α → List Tok) (v : List α) : Nat → Except Fault (List Tok)
  | 0 => .ok []
  | n + 1 => do
    let ts ← putEach put v n
    let a ← at' v n
    .ok (ts ++ put a)

/-- `PointSerializer<STORE>::process(ImmaturePoint)` (source/system/serialization.cpp:31-51). -/
def putImmature (ps : Nat) (p : Immature) : Except Fault (List Tok) := do
  let dirs ← putEach putD3 p.baseDirections ps
  let dir0 ← at' p.baseDirections 0
  let ints ← putEach (fun x => [Tok.num x]) p.baseIntencities ps
  let grads ← putEach putD2 p.baseGrad ps
  let gradNorms ← putEach putD2 p.baseGradNorm ps
  .ok (putD2 p.p ++ dirs ++ putD3 dir0 ++ ints ++ grads ++ gradNorms ++
    [.num p.minDepth, .num p.maxDepth, .num p.depth, .num p.bestQuality, .num p.lastEnergy,
      .num p.stddev, .int p.state.toInt])

/-- `PointSerializer<STORE>::process(OptimizedPoint)` (source/system/serialization.cpp:53-75). -/
noncomputable def putOptimized (p : Optimized) : List Tok :=
  putD2 p.p ++ putD3 (.fin 0, .fin 0, .fin 0) ++
    [.num p.logInvDepth.neg, .num p.stddev, .num p.depth, .num p.depth]

/-- `PreKeyFrameSaver::store` (source/system/serialization.cpp:106-112). -/
def putPreKeyFrame (f : PreKeyFrame) : List Tok :=
  putMotion f.baseToThis ++ [.int f.globalFrameNum] ++ putLight f.lightBaseToThis

/-! ## Reading (`DataSerializer<LOAD>`, include/system/serialization.h:62-94) -/

/-- An action on an input stream. -/
abbrev Read := StateT (List Tok) (Except Fault)

/-- `stream >> val` for a `double`. The text of an integer is also one of a `double`. -/
def getDbl : Read Dbl := fun ts =>
  match ts with
  | .num x :: ts => .ok (x, ts)
  | .int n :: ts => .ok (.fin n, ts)
  | [] => .error .exception

/-- `stream >> val` for an `int`. -/
def getInt : Read Int := fun ts =>
  match ts with
  | .int n :: ts => .ok (n, ts)
  | _ => .error .exception

/-- A finite `double`, for the entries of poses. -/
def getReal : Read ℝ := fun ts =>
  match ts with
  | .num (.fin x) :: ts => .ok (x, ts)
  | .int n :: ts => .ok (n, ts)
  | _ => .error .exception

def getD2 : Read D2 := do
  let x ← getDbl
  let y ← getDbl
  return (x, y)

def getD3 : Read D3 := do
  let x ← getDbl
  let y ← getDbl
  let z ← getDbl
  return (x, y, z)

/-- `SO3::setQuaternion`: the quaternion is divided by its length; Sophus aborts if it is zero (its
threshold for that is simplified to zero). -/
noncomputable def setQuaternion (x y z w : ℝ) : Except Fault Rot :=
  if h : x ^ 2 + y ^ 2 + z ^ 2 + w ^ 2 = 0 then .error .abort
  else
    .ok
      { x := x / Real.sqrt (x ^ 2 + y ^ 2 + z ^ 2 + w ^ 2)
        y := y / Real.sqrt (x ^ 2 + y ^ 2 + z ^ 2 + w ^ 2)
        z := z / Real.sqrt (x ^ 2 + y ^ 2 + z ^ 2 + w ^ 2)
        w := w / Real.sqrt (x ^ 2 + y ^ 2 + z ^ 2 + w ^ 2)
        unit := by
          have h0 : 0 ≤ x ^ 2 + y ^ 2 + z ^ 2 + w ^ 2 := by positivity
          simp only [div_pow, Real.sq_sqrt h0]
          field_simp }

/-- include/system/serialization.h:77-81. -/
noncomputable def getRot : Read Rot := do
  let x ← getReal
  let y ← getReal
  let z ← getReal
  let w ← getReal
  StateT.lift (setQuaternion x y z w)

/-- include/system/serialization.h:82-85. -/
noncomputable def getMotion : Read Motion := do
  let rot ← getRot
  let x ← getReal
  let y ← getReal
  let z ← getReal
  return ⟨rot, (x, y, z)⟩

/-- include/system/serialization.h:74-76. -/
def getLight : Read Light := do
  let a ← getDbl
  let b ← getDbl
  return (a, b)

/-- include/system/serialization.h:86-90. -/
def getState : Read PState := do
  let n ← getInt
  if n = 0 then return .active
  else if n = 1 then return .oob
  else if n = 2 then return .outlier
  else StateT.lift (.error .ub)

/-- `n` reads in a row, into a vector of size `n`. -/
def getEach {α : Type} (get : Read α) : Nat → Read (List α)
  | 0 => return []
  | n + 1 => do
    let as ← getEach get n
    let a ← get
    return as ++ [a]

/-- The loading constructor of `ImmaturePoint` (source/system/ImmaturePoint.cpp:53-75) with
`PointSerializer<LOAD>::process` (source/system/serialization.cpp:31-51). `ps` is the size of the
pattern. Reading `baseDirections[0]` a second time is undefined behaviour for an empty pattern. -/
def getImmature (ps : Nat) : Read Immature := do
  let p ← getD2
  let dirs ← getEach getD3 ps
  let _ ← StateT.lift (at' dirs 0)
  let dir0 ← getD3
  let dirs := dirs.set 0 dir0
  let ints ← getEach getDbl ps
  let grads ← getEach getD2 ps
  let gradNorms ← getEach getD2 ps
  let minDepth ← getDbl
  let maxDepth ← getDbl
  let depth ← getDbl
  let bestQuality ← getDbl
  let lastEnergy ← getDbl
  let stddev ← getDbl
  let state ← getState
  return {
    p := p, baseDirections := dirs, baseIntencities := ints, baseGrad := grads,
    baseGradNorm := gradNorms, minDepth := minDepth, maxDepth := maxDepth, depth := depth,
    bestQuality := bestQuality, lastEnergy := lastEnergy, stddev := stddev, state := state,
    lastTraced := !maxDepth.isInf
    numTraced := if maxDepth.isInf then 0 else 1
    tracedPyrLevel := 0 }

/-- The loading constructor of `OptimizedPoint` (include/system/OptimizedPoint.h:29-31) with
`PointSerializer<LOAD>::process` (source/system/serialization.cpp:53-75). Neither of them sets
`state`. -/
def getOptimized : Read Optimized := do
  let p ← getD2
  let _ ← getD3
  let logDepth ← getDbl
  let stddev ← getDbl
  let _ ← getDbl
  let _ ← getDbl
  return { p := p, logInvDepth := logDepth.neg, stddev := stddev, state := none }

/-- `PreKeyFrameLoader::load` (source/system/serialization.cpp:87-104) on an opened file. -/
noncomputable def getPreKeyFrame : Read PreKeyFrame := do
  let baseToThis ← getMotion
  let num ← getInt
  let light ← getLight
  return ⟨baseToThis, num, light⟩

/-! ## Directories -/

/-- The files of one keyframe (source/system/serialization.cpp:195-204). -/
structure KfDir where
  pkf : List Tok
  kf : List Tok
  immaturePoints : List Tok
  optimizedPoints : List Tok

/-- The snapshot directory: its subdirectories `kf<number>` and its files `pkf<number>.txt`. The
decimal rendering of a number is identified with the number. -/
structure Dir where
  kf : List (Int × KfDir)
  pkf : Int → Option (List Tok)

/-- The directory before the first save. -/
def Dir.empty : Dir := ⟨[], fun _ => none⟩

/-- Creating (or overwriting the files of) the subdirectory of one keyframe. -/
def setKf (n : Int) (f : KfDir) : List (Int × KfDir) → List (Int × KfDir)
  | [] => [(n, f)]
  | (m, g) :: rest => if m = n then (m, f) :: rest else (m, g) :: setKf n f rest

/-- `storeTrackedVector` (source/system/serialization.cpp:222-232): the tokens appended to `kf.txt`,
apart from the count, and the files of the tracked frames. -/
def storeTracked (d : Int → Option (List Tok)) : List PreKeyFrame → (Int → Option (List Tok))
  | [] => d
  | f :: fs => storeTracked
      (fun n => if n = f.globalFrameNum then some (putPreKeyFrame f) else d n) fs

/-- The files of the subdirectory written by `KeyFrameSaver::store`
(source/system/serialization.cpp:195-220). The conversions of the sizes to `int` are taken to be
exact. -/
noncomputable def keyFrameFiles (ps : Nat) (kf : KeyFrame) : Except Fault KfDir := do
  let imm ← kf.immaturePoints.mapM (putImmature ps)
  .ok
    { pkf := putPreKeyFrame kf.preKeyFrame
      kf :=
        [.int kf.immaturePoints.length, .int kf.optimizedPoints.length,
          .int kf.preKeyFrame.globalFrameNum] ++
        putMotion kf.thisToWorld ++ putLight kf.lightWorldToThis ++
        [.int kf.trackedFrames.length] ++
        kf.trackedFrames.map (fun f => .int f.globalFrameNum)
      immaturePoints := imm.flatten
      optimizedPoints := kf.optimizedPoints.flatMap putOptimized }

/-- `KeyFrameSaver::store` (source/system/serialization.cpp:190-232). -/
noncomputable def storeKeyFrame (ps : Nat) (d : Dir) (kf : KeyFrame) : Except Fault Dir := do
  let files ← keyFrameFiles ps kf
  .ok { kf := setKf kf.preKeyFrame.globalFrameNum files d.kf
        pkf := storeTracked d.pkf kf.trackedFrames }

/-- `SnapshotSaver::save` (source/system/serialization.cpp:273-281), without `depth_col.txt`. Nothing
is removed from the directory. -/
noncomputable def save (ps : Nat) (d : Dir) (kfs : List KeyFrame) : Except Fault Dir :=
  kfs.foldlM (storeKeyFrame ps) d

/-- Opening and reading one file. -/
def readFile {α : Type} (get : Read α) (f : Option (List Tok)) : Except Fault α :=
  match f with
  | none => .error .exception
  | some ts =>
    match get ts with
    | .ok (a, _) => .ok a
    | .error e => .error e

/-- `loadPointVector` (source/system/serialization.cpp:157-168): a negative count makes `reserve`
throw. -/
def getPoints {α : Type} (get : Read α) (size : Int) : Read (List α) :=
  if size < 0 then StateT.lift (.error .exception) else getEach get size.toNat

/-- The entries of `kf.txt` (source/system/serialization.cpp:142-153, 170-184): counts of points,
frame number, pose, light and the numbers of the tracked frames. -/
noncomputable def getOwnData : Read (Int × Int × Int × Motion × Light × List Int) := do
  let ni ← getInt
  let no ← getInt
  let num ← getInt
  let pose ← getMotion
  let light ← getLight
  let nt ← getInt
  let nums ← getPoints getInt nt
  return (ni, no, num, pose, light, nums)

/-- `KeyFrameLoader::load` (source/system/serialization.cpp:124-184) without the insertion into the
map (lines 133-135). Reading the points does not interfere with reading `kf.txt`, so the order of
these reads is changed here. -/
noncomputable def loadKeyFrame (ps : Nat) (d : Dir) (f : KfDir) : Except Fault KeyFrame := do
  let pre ← readFile getPreKeyFrame (some f.pkf)
  let own ← readFile getOwnData (some f.kf)
  let imm ← readFile (getPoints (getImmature ps) own.1) (some f.immaturePoints)
  let opt ← readFile (getPoints getOptimized own.2.1) (some f.optimizedPoints)
  if own.2.2.1 = pre.globalFrameNum then
    let tracked ← own.2.2.2.2.2.mapM (fun n => readFile getPreKeyFrame (d.pkf n))
    .ok
      { preKeyFrame := pre
        thisToWorld := own.2.2.2.1
        lightWorldToThis := own.2.2.2.2.1
        immaturePoints := imm
        optimizedPoints := opt
        trackedFrames := tracked }
  else .error .abort

/-- `keyFrames.insert` with the `CHECK` that the number is new
(source/system/serialization.cpp:133-135); the map is a list ordered by number. -/
def insertNew (kf : KeyFrame) : List KeyFrame → Except Fault (List KeyFrame)
  | [] => .ok [kf]
  | k :: ks =>
    if kf.preKeyFrame.globalFrameNum < k.preKeyFrame.globalFrameNum then .ok (kf :: k :: ks)
    else if kf.preKeyFrame.globalFrameNum = k.preKeyFrame.globalFrameNum then .error .abort
    else do
      let ks ← insertNew kf ks
      .ok (k :: ks)

/-- `SnapshotLoader::load` (source/system/serialization.cpp:248-261) into an empty map. `order` lists
the subdirectories in the order of the directory iterator, which is not specified. -/
noncomputable def load (ps : Nat) (d : Dir) (order : List (Int × KfDir)) :
    Except Fault (List KeyFrame) :=
  order.foldlM (fun m f => do
    let kf ← loadKeyFrame ps d f.2
    insertNew kf m) []

end Mdso.Snap
