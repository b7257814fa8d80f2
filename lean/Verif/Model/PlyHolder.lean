/-!
# Model of `PlyHolder` (streamed ASCII PLY point clouds)

Models `source/util/PlyHolder.cpp` and `include/util/PlyHolder.h`.

A file is the list of its characters. `α` is the type of coordinates and `fmt` is the text
`operator<<` produces for one coordinate (floating-point formatting itself is not modelled).
C++ `int` overflow and narrowing are the distinct outcome `Err.ub`; a thrown exception is
`Err.exception`.
-/

set_option autoImplicit false

namespace Mdso.Ply

/-- What can go wrong in a call: undefined behaviour, or a C++ exception. -/
inductive Err where
  | ub
  | exception
  deriving DecidableEq, Repr

/-- `Vec3`: the three coordinates of a point. -/
structure Pt (α : Type) where
  x : α
  y : α
  z : α
  deriving DecidableEq, Repr

/-- `cv::Vec3b`: the three bytes `color[0]`, `color[1]`, `color[2]`, which OpenCV stores in
blue, green, red order. -/
structure Vec3b where
  c0 : Fin 256
  c1 : Fin 256
  c2 : Fin 256
  deriving DecidableEq, Repr

/-- Largest value of the C++ `int` member `pointCount` (include/util/PlyHolder.h:22). -/
def intMax : Nat := 2147483647

/-- `countSpace` (source/util/PlyHolder.cpp:7). -/
def countSpace : Nat := 19

/-- `countPos` (source/util/PlyHolder.cpp:56). -/
def countPos : Nat := 36

/-- `std::to_string` on a non-negative number. -/
def toStringC (n : Nat) : List Char := Nat.toDigits 10 n

/-- The text the constructor writes (source/util/PlyHolder.cpp:17-29). -/
def initialText : List Char :=
  "ply\nformat ascii 1.0\nelement vertex 0".toList
    ++ List.replicate (countSpace - 1) ' '
    ++ ("\nproperty float x\nproperty float y\nproperty float z\n" ++
        "property uchar red\nproperty uchar green\nproperty uchar blue\nend_header\n").toList

/-- The object together with the contents of the file it names
(include/util/PlyHolder.h:12-23). Other writers of the same file are not modelled. -/
structure Holder where
  file : List Char
  pointCount : Nat
  deriving DecidableEq, Repr

/-- Constructor (source/util/PlyHolder.cpp:9-32). `creatable = false` models
`!fs.good()` and the exception thrown in line 15. -/
def create (creatable : Bool) : Except Err Holder :=
  if creatable then .ok { file := initialText, pointCount := 0 } else .error .exception

/-- One vertex line (source/util/PlyHolder.cpp:45-46): coordinates, then
`color[2]`, `color[1]`, `color[0]`, then a line feed. -/
def vertexLine {α : Type} (fmt : α → List Char) (p : Pt α) (c : Vec3b) : List Char :=
  fmt p.x ++ [' '] ++ fmt p.y ++ [' '] ++ fmt p.z ++ [' ']
    ++ toStringC c.c2.val ++ [' '] ++ toStringC c.c1.val ++ [' '] ++ toStringC c.c0.val ++ ['\n']

/-- The loop of source/util/PlyHolder.cpp:42-47 over `i < cnt`: the text appended. -/
def pointsText {α : Type} (fmt : α → List Char) : List (Pt α) → List Vec3b → List Char
  | p :: ps, c :: cs => vertexLine fmt p c ++ pointsText fmt ps cs
  | _, _ => []

/-- `putPoints` (source/util/PlyHolder.cpp:34-53). The `int cnt` of line 41 that does not fit and
the overflow of `pointCount += cnt` in line 50 are `Err.ub`. Opening the file in append mode is
assumed to succeed. -/
def putPoints {α : Type} (fmt : α → List Char) (h : Holder) (points : List (Pt α))
    (colors : List Vec3b) : Except Err Holder :=
  let cnt := min points.length colors.length
  if cnt > intMax then .error .ub
  else if h.pointCount + cnt > intMax then .error .ub
  else .ok { file := h.file ++ pointsText fmt points colors, pointCount := h.pointCount + cnt }

/-- `fs.seekp(pos) << s` on a file opened for update: overwrite in place. -/
def overwriteAt (file : List Char) (pos : Nat) (s : List Char) : List Char :=
  file.take pos ++ s ++ file.drop (pos + s.length)

/-- `updatePointCount` (source/util/PlyHolder.cpp:55-62). A text longer than `countSpace` would make
`std::string(countSpace - length, ' ')` throw. -/
def updatePointCount (h : Holder) : Except Err Holder :=
  let emplaced := toStringC h.pointCount
  if emplaced.length > countSpace then .error .exception
  else
    let emplaced' := emplaced ++ List.replicate (countSpace - emplaced.length) ' '
    .ok { h with file := overwriteAt h.file countPos emplaced' }

/-- A process killed inside `updatePointCount` (source/util/PlyHolder.cpp:60) after only the first `j`
characters of the field reached the file. Whether this can happen depends on the operating system;
only the resulting contents are modelled. -/
def updatePointCountTorn (h : Holder) (j : Nat) : List Char :=
  let emplaced := toStringC h.pointCount
  overwriteAt h.file countPos
    ((emplaced ++ List.replicate (countSpace - emplaced.length) ' ').take j)

/-- A process killed inside `putPoints` (source/util/PlyHolder.cpp:42-47) after only the first `j`
characters of the appended text reached the file. -/
def putPointsTorn {α : Type} (fmt : α → List Char) (h : Holder) (points : List (Pt α))
    (colors : List Vec3b) (j : Nat) : List Char :=
  h.file ++ (pointsText fmt points colors).take j

/-- The two public member functions as operations. -/
inductive Op (α : Type) where
  | put (points : List (Pt α)) (colors : List Vec3b)
  | update

/-- One call. -/
def step {α : Type} (fmt : α → List Char) (h : Holder) : Op α → Except Err Holder
  | .put ps cs => putPoints fmt h ps cs
  | .update => updatePointCount h

/-- A history of calls; stops at the first failing call. -/
def run {α : Type} (fmt : α → List Char) (h : Holder) : List (Op α) → Except Err Holder
  | [] => .ok h
  | op :: ops =>
    match step fmt h op with
    | .ok h' => run fmt h' ops
    | .error e => .error e

end Mdso.Ply
