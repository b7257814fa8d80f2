import Verif.Model.CameraModel
import Verif.Model.Reader
import Mathlib.Data.Nat.Digits.Defs

/-!
# Model of the files read by `MultiFovReader`

Models `samples/mfov/reader/MultiFovReader.cpp:4-46, 65-90`; the list of poses (lines 48-63) is in `Verif/Model/Reader.lean`. A disk gives for each
name the lines, the numbers or the picture in the file, `none` if it cannot be opened. Splitting a line at white space is a parameter.
-/

set_option autoImplicit false

namespace Mdso.Reader

open Mdso.Geom

/-- `sprintf` into an array of 256 characters: the final zero must fit. -/
def sprintf256 (s : List Char) : Except Fault (List Char) := if s.length + 1 ≤ 256 then .ok s else .error .ub

/-- The digits of a number, most significant first; none for 0. -/
def digits (n : Nat) : List Char := ((Nat.digits 10 n).map Nat.digitChar).reverse

/-- Zeros in front, up to the given length. -/
def pad (k : Nat) (l : List Char) : List Char := List.replicate (k - l.length) '0' ++ l

/-- The conversion `%04i`. -/
def fmt04 (n : Int) : List Char := if n < 0 then '-' :: pad 3 (digits n.natAbs) else pad 4 (digits n.natAbs)

/-- `datasetDir` (samples/mfov/reader/MultiFovReader.cpp:5-7); `back()` of an empty string is undefined. -/
def datasetDir (dir : List Char) : Except Fault (List Char) :=
  match dir.getLast? with
  | none => .error .ub
  | some '/' => .ok dir.dropLast
  | some _ => .ok dir

/-- `camFName` (samples/mfov/reader/MultiFovReader.cpp:14-15). -/
def camFName (d : List Char) : Except Fault (List Char) := sprintf256 (d ++ "/info/intrinsics.txt".toList)

/-- `posesFName` (samples/mfov/reader/MultiFovReader.cpp:48-49). -/
def posesFName (d : List Char) : Except Fault (List Char) := sprintf256 (d ++ "/info/groundtruth.txt".toList)

/-- `frameFName` (samples/mfov/reader/MultiFovReader.cpp:66-68). -/
def frameFName (d : List Char) (n : Int) : Except Fault (List Char) :=
  sprintf256 (d ++ "/data/img/img".toList ++ fmt04 n ++ "_0.png".toList)

/-- `depthsFName` (samples/mfov/reader/MultiFovReader.cpp:77-79). -/
def depthsFName (d : List Char) (n : Int) : Except Fault (List Char) :=
  sprintf256 (d ++ "/data/depth/img".toList ++ fmt04 n ++ "_0.depth".toList)

/-- What the constructor of the camera gets besides the file: the solver and the random samples, see `Verif/Model/CameraModel.lean`. -/
structure CamEnv where
  solve : List (ℝ × ℝ) → Nat → ℝ × List ℝ
  deg : Nat
  samples : List ℝ

/-- `pinholeF` (samples/mfov/reader/MultiFovReader.h:25). -/
noncomputable def pinholeF : ℝ := 329.115520046

/-- Several `strIfs >> x` for `double`s. -/
def readDoubles : Nat → Cam.Stream → List (Option ℝ) × Cam.Stream
  | 0, is => ([], is)
  | n + 1, is =>
    let r := Cam.readDouble is
    let r' := readDoubles n r.2
    (r.1 :: r'.1, r'.2)

/-- The numbers of the line (samples/mfov/reader/MultiFovReader.cpp:32-43): width, height, five coefficients, center. Using a variable that was
not read is undefined; so is, in this model, a negative size. -/
noncomputable def lineParams (toks : List Cam.Tok) : Except Fault (Nat × Nat × List ℝ) :=
  let w := Cam.readInt ⟨toks, true⟩
  let h := Cam.readInt w.2
  let ds := (readDoubles 7 h.2).1
  match w.1, h.1 with
  | some w, some h =>
    if 0 ≤ w ∧ 0 ≤ h then
      if ds.all Option.isSome then .ok (w.toNat, h.toNat, ds.filterMap id) else .error .ub
    else .error .ub
  | _, _ => .error .ub

/-- The camera made of these numbers (samples/mfov/reader/MultiFovReader.cpp:38-45): the second coefficient is left out, the others change their sign. -/
noncomputable def camOfParams (e : CamEnv) (w h : Nat) : List ℝ → Except Fault Cam.Cam
  | [a0, _, a2, a3, a4, cx, cy] =>
    Cam.ofPoly e.solve e.deg e.samples w h 1 ⟨cx, cy⟩ [a0 * -1, a2 * -1, a3 * -1, a4 * -1]
  | _ => .error .ub

/-- The camera made of the first line (samples/mfov/reader/MultiFovReader.cpp:26-46). -/
noncomputable def camOfLine (e : CamEnv) (toks : List Char → List Cam.Tok) (line : List Char) : Except Fault Cam.Cam :=
  if line.length < 3 then .error .exception
  else if line.take 3 = "K =".toList then Cam.ofPinhole e.solve e.deg e.samples 640 480 pinholeF 320 240
  else do
    let p ← lineParams (toks line)
    camOfParams e p.1 p.2.1 p.2.2

/-- A disk: the lines of the intrinsics, the numbers in other files with a remark whether white space follows the last one, and the pictures
`cv::imread` makes. -/
structure Disk (N I : Type) where
  lines : List Char → Option (List (List Char))
  poses : List Char → Option (List (Option N) × Bool)
  numbers : List Char → Option (List (Option ℝ) × Bool)
  pictures : List Char → Option I

/-- A `MultiFovReader`; an entry of the list of poses is `none` if it was made of numbers that were not read. -/
structure MultiFovReader (G : Type) where
  dir : List Char
  cam : Cam.Cam
  table : List (Option G)

/-- The constructor (samples/mfov/reader/MultiFovReader.cpp:4-63). `none`: the list of poses is not read to its end with this fuel. -/
noncomputable def construct {N I G : Type} (e : CamEnv) (toks : List Char → List Cam.Tok) (one : G) (mk : List N → G) (disk : Disk N I)
    (fuel : Nat) (newDir : List Char) : Except Fault (Option (MultiFovReader G)) := do
  let d ← datasetDir newDir
  let camName ← camFName d
  match disk.lines camName with
  | none => .error .exception
  | some [] => .error .exception
  | some (line :: _) => do
    let cam ← camOfLine e toks line
    let posesName ← posesFName d
    match disk.poses posesName with
    | none => .error .exception
    | some (tokens, trailing) => .ok ((worldToFrameGT one mk tokens trailing fuel).map fun t => ⟨d, cam, t⟩)

/-- `getFrame` (samples/mfov/reader/MultiFovReader.cpp:65-74). -/
def getFrame {N I G : Type} (disk : Disk N I) (r : MultiFovReader G) (n : Int) : Except Fault I := do
  let name ← frameFName r.dir n
  match disk.pictures name with
  | none => .error .exception
  | some img => .ok img

/-- The matrix read from the numbers of a file (samples/mfov/reader/MultiFovReader.cpp:84-87): rows × columns extractions, row by row; an entry is
`none` if no number was assigned to it. -/
def depthsOf (cam : Cam.Cam) (tokens : List (Option ℝ)) (trailing : Bool) : Pyr.Img (Option ℝ) :=
  let vals := (Stream.extracts (cam.height * cam.width) (Stream.open tokens trailing)).2
  ⟨cam.height, cam.width, fun y x => (vals[y * cam.width + x]?).join⟩

/-- `getDepths` (samples/mfov/reader/MultiFovReader.cpp:76-90). -/
def getDepths {N I G : Type} (disk : Disk N I) (r : MultiFovReader G) (n : Int) : Except Fault (Pyr.Img (Option ℝ)) := do
  let name ← depthsFName r.dir n
  match disk.numbers name with
  | none => .error .exception
  | some (tokens, trailing) => .ok (depthsOf r.cam tokens trailing)

end Mdso.Reader
