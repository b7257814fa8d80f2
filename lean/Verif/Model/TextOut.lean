import Verif.Model.EpipolarStat
import Verif.Model.AffineLight
import Verif.Model.TraceReport

/-!
# Model of texts of arrays

Models `outputArrayUndivided` and `outputArray` (include/util/util.h:25-45), the output operators of `AffineLightTransform`
(include/system/AffineLightTransform.h:43-49) and of `EpiErr` (samples/mfov/stat/stat_epipolar/main.cpp:71-77), and where they are used: the log of tracing
(source/system/DsoSystem.cpp:500-506) and the file written by `stat_epipolar` (samples/mfov/stat/stat_epipolar/main.cpp:171-203).
`fmt` is the text that `operator<<` produces for a single number (see `Verif/Model/NumberText.lean` about its digits).
-/

set_option autoImplicit false

namespace Mdso.Out

open Mdso.Stat Mdso.Light

/-- `os << array[i] << ' '` for the first `size` elements (include/util/util.h:28-29, 36-37). Reading beyond the array is undefined. -/
def elements {α : Type} (put : α → List Char) (array : List α) (size : Nat) : Except Fault (List Char) :=
  if size ≤ array.length then .ok ((array.take size).flatMap fun a => put a ++ [' ']) else .error .ub

/-- `outputArrayUndivided` (include/util/util.h:25-31): what is appended to the stream. -/
def outputArrayUndivided {α : Type} (put : α → List Char) (array : List α) (size : Nat) : Except Fault (List Char) := elements put array size

/-- A file: it has contents, or there is none. -/
abbrev File := Option (List Char)

/-- `outputArray` for an array (include/util/util.h:33-40): the file afterwards. If the file cannot be opened for writing, nothing is written, and nobody is told. -/
def outputArrayPtr {α : Type} (put : α → List Char) (canOpen : Bool) (before : File) (array : List α) (size : Nat) : Except Fault File :=
  match elements put array size with
  | .error f => .error f
  | .ok t => .ok (if canOpen then some (t ++ ['\n']) else before)

/-- `outputArray` for a vector (include/util/util.h:42-45). -/
def outputArray {α : Type} (put : α → List Char) (canOpen : Bool) (before : File) (array : List α) : Except Fault File :=
  outputArrayPtr put canOpen before array array.length

/-- `operator<<` of `EpiErr` (samples/mfov/stat/stat_epipolar/main.cpp:71-77). -/
def putEpiErr (fmt : ℝ → List Char) (e : EpiErr) : List Char :=
  fmt e.disparity ++ [' '] ++ fmt e.expectedErr ++ [' '] ++ fmt e.realErrBef ++ [' '] ++ fmt e.realErr ++ [' '] ++ fmt e.depthGT ++ [' '] ++ fmt e.depth ++ [' '] ++
    fmt e.depthBeforeSubpixel ++ [' '] ++ fmt e.eBeforeSubpixel ++ [' '] ++ fmt e.eAfterSubpixel

/-- `operator<<` of `AffineLightTransform` (include/system/AffineLightTransform.h:43-49). -/
noncomputable def putLight (fmt : ℝ → List Char) (l : AffLight) : List Char :=
  "raw     = ".toList ++ fmt l.a ++ [' '] ++ fmt l.b ++ "\nas ax+b = ".toList ++ fmt (Real.exp l.a) ++ [' '] ++ fmt (Real.exp l.a * l.b) ++ ['\n']

/-- The messages logged after tracing (source/system/DsoSystem.cpp:500-506); `fmtInt` is the text of a count. -/
def traceLog (fmtInt : Nat → List Char) (levelNum : Int) (r : Report.Report) : Except Fault (List (List Char)) :=
  match outputArrayUndivided fmtInt r.byNumber Report.maxTraced, outputArrayUndivided fmtInt r.onLevel levelNum.toNat with
  | .ok n, .ok l => .ok ["POINT TRACING:".toList, "Successfully traced = ".toList ++ fmtInt r.traced ++ ['\n'],
      "Ready to be optimized = ".toList ++ fmtInt r.good ++ ['\n'], "Traced by number: ".toList, n, "Last traced on pyramid levels: ".toList, l]
  | .error f, _ => .error f
  | .ok _, .error f => .error f

/-- The end of `collectEpipolarStat` (samples/mfov/stat/stat_epipolar/main.cpp:195-203) for the array `errors` left by the workers: the file and whether
"All done." is printed. -/
def writeStat {S : Type} (fmt : ℝ → List Char) (canOpen : Bool) (before : File) (testCount : Nat) (s : Sys S) : Except Fault (File × Bool) :=
  match outputArray (putEpiErr fmt) canOpen before (allErr testCount s) with
  | .error f => .error f
  | .ok file => .ok (file, true)

end Mdso.Out
