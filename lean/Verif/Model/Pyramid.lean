import Verif.Model.DepthColour
import Mathlib.Algebra.BigOperators.Group.Finset.Basic

/-!
# Model of the image and depth pyramids

Models `boxFilterPyrDown` (include/util/util.h:80-99), `ImagePyramid` (source/util/ImagePyramid.cpp:6-11),
`pyrNUpDepth` (source/util/util.cpp:238-261) and `DepthedImagePyramid`
(source/util/DepthedImagePyramid.cpp:7-33). Depths and weights are reals: the rounding of `double` and the
narrowing to `float` in `pyrNUpDepth` are not modelled. `cv::integral` is modelled by the sums it computes.
-/

set_option autoImplicit false

namespace Mdso.Pyr

/-- `cv::Mat` of one channel: `px y x` is meaningful for `y < rows`, `x < cols`. -/
structure Img (α : Type) where
  rows : Nat
  cols : Nat
  px : Nat → Nat → α

/-- `img.at<T>(y, x)`: outside the picture it is undefined behaviour. -/
def Img.read {α : Type} (img : Img α) (y x : Nat) : Except Fault α :=
  if y < img.rows ∧ x < img.cols then .ok (img.px y x) else .error .ub

/-- A picture filled by one computation per pixel; undefined behaviour if one of them is. -/
def build {α : Type} [Inhabited α] (rows cols : Nat) (f : Nat → Nat → Except Fault α) :
    Except Fault (Img α) :=
  if (List.range rows).all (fun y => (List.range cols).all fun x => (f y x).toOption.isSome) then
    .ok { rows := rows, cols := cols, px := fun y x => ((f y x).toOption).getD default }
  else .error .ub

/-- The sum of the four pixels (include/util/util.h:91-94). `unsigned char` values are accumulated in an
`int`, so nothing overflows. -/
def accum (img : Img Nat) (y x : Nat) : Except Fault Nat :=
  match img.read y x, img.read y (x + 1), img.read (y + 1) x, img.read (y + 1) (x + 1) with
  | .ok a, .ok b, .ok c, .ok d => .ok (0 + a + b + c + d)
  | _, _, _, _ => .error .ub

/-- `boxFilterPyrDown<unsigned char>` (include/util/util.h:86-99). The loops run over `y = 0, 2, ..` below
`rows / 2 * 2` and write the result pixel `(y / 2, x / 2)`, so every result pixel is written once; the model
gives the value written to pixel `(r, c)`, from `y = 2 r`, `x = 2 c`. -/
def boxFilterPyrDown (img : Img Nat) : Except Fault (Img Nat) :=
  build (img.rows / 2) (img.cols / 2) fun r c =>
    match accum img (2 * r) (2 * c) with
    | .ok s => .ok (s / (2 * 2))
    | .error e => .error e

/-- The levels below `img` (source/util/ImagePyramid.cpp:9-10). -/
def levelsFrom : Nat → Img Nat → Except Fault (List (Img Nat))
  | 0, _ => .ok []
  | n + 1, img =>
    match boxFilterPyrDown img with
    | .error e => .error e
    | .ok next =>
      match levelsFrom n next with
      | .error e => .error e
      | .ok rest => .ok (next :: rest)

/-- `ImagePyramid` (source/util/ImagePyramid.cpp:6-11). Without levels `images[0]` is undefined. -/
def imagePyramid (base : Img Nat) : Nat → Except Fault (List (Img Nat))
  | 0 => .error .ub
  | n + 1 =>
    match levelsFrom n base with
    | .error e => .error e
    | .ok rest => .ok (base :: rest)

/-! ## Depths -/

/-- A point given to `DepthedImagePyramid`: position, depth, weight. -/
structure Pt where
  x : ℝ
  y : ℝ
  d : ℝ
  w : ℝ

/-- The pixel `toCvPoint` makes of a position (source/util/util.cpp:207): truncation; `none` if it is
outside the picture. -/
noncomputable def pixel (rows cols : Nat) (p : Pt) : Option (Nat × Nat) :=
  let px := Util.truncInt p.x
  let py := Util.truncInt p.y
  if 0 ≤ px ∧ px < cols ∧ 0 ≤ py ∧ py < rows then some (py.toNat, px.toNat) else none

/-- Depth and weight of every pixel. -/
abbrev Grid := Nat → Nat → ℝ × ℝ

/-- The grids before the loop (source/util/DepthedImagePyramid.cpp:17-18). -/
def grid0 : Grid := fun _ _ => (-1, 0)

/-- One write (source/util/DepthedImagePyramid.cpp:21-22). -/
def write (g : Grid) (at_ : Nat × Nat) (v : ℝ × ℝ) : Grid :=
  fun y x => if (y, x) = at_ then v else g y x

/-- The loop over the points (source/util/DepthedImagePyramid.cpp:19-23); writing outside the picture is
undefined behaviour. -/
noncomputable def writeAll (rows cols : Nat) : List Pt → Grid → Except Fault Grid
  | [], g => .ok g
  | p :: ps, g =>
    match pixel rows cols p with
    | none => .error .ub
    | some at_ => writeAll rows cols ps (write g at_ (p.d, p.w))

/-- `cv::integral`: one row and one column more than the picture, sum over the pixels above and to the
left. -/
noncomputable def integral (rows cols : Nat) (f : Nat → Nat → ℝ) : Img ℝ :=
  { rows := rows + 1, cols := cols + 1,
    px := fun y x => ∑ i ∈ Finset.range y, ∑ j ∈ Finset.range x, f i j }

/-- The four-corner combination (source/util/util.cpp:247-254). -/
noncomputable def corners (im : Img ℝ) (origY origX d : Nat) : Except Fault ℝ :=
  match im.read (origY + d) (origX + d), im.read origY (origX + d), im.read (origY + d) origX,
    im.read origY origX with
  | .ok a, .ok b, .ok c, .ok e => .ok (a - b - c + e)
  | _, _, _, _ => .error .ub

open Classical in
/-- `pyrNUpDepth` (source/util/util.cpp:238-261). -/
noncomputable def pyrNUpDepth (integralWeightedDepths integralWeights : Img ℝ) (levelNum : Nat) :
    Except Fault (Img ℝ) :=
  build ((integralWeightedDepths.rows - 1) / 2 ^ levelNum) ((integralWeightedDepths.cols - 1) / 2 ^ levelNum)
    fun y x =>
      let d := 2 ^ levelNum
      match corners integralWeightedDepths (y * 2 ^ levelNum) (x * 2 ^ levelNum) d,
        corners integralWeights (y * 2 ^ levelNum) (x * 2 ^ levelNum) d with
      | .ok depthsSum, .ok weightsSum =>
        if |weightsSum| > 1 / 100000000 then .ok (depthsSum / weightsSum) else .ok (-1)
      | _, _ => .error .ub

/-- The loop over the levels (source/util/DepthedImagePyramid.cpp:31-32), from level `il` on. -/
noncomputable def depthLevels (wd w : Img ℝ) : Nat → Nat → Except Fault (List (Img ℝ))
  | 0, _ => .ok []
  | n + 1, il =>
    match pyrNUpDepth wd w il with
    | .error e => .error e
    | .ok im =>
      match depthLevels wd w n (il + 1) with
      | .error e => .error e
      | .ok rest => .ok (im :: rest)

/-- The depths of `DepthedImagePyramid` (source/util/DepthedImagePyramid.cpp:7-33) for a picture of the given
size. The three vectors are one list of points, so the `CHECK` of lines 14-15 holds; see
`depthedImagePyramid` for vectors of different lengths. -/
noncomputable def depthPyramid (rows cols levelNum : Nat) (pts : List Pt) : Except Fault (List (Img ℝ)) :=
  if levelNum = 0 then .error .ub
  else
    match writeAll rows cols pts grid0 with
    | .error e => .error e
    | .ok g =>
      let wd := integral rows cols fun y x => (g y x).1 * (g y x).2
      let w := integral rows cols fun y x => (g y x).2
      match depthLevels wd w (levelNum - 1) 1 with
      | .error e => .error e
      | .ok rest => .ok ({ rows := rows, cols := cols, px := fun y x => (g y x).1 } :: rest)

/-- `DepthedImagePyramid` for the three vectors it is given (source/util/DepthedImagePyramid.cpp:7-33). -/
noncomputable def depthedImagePyramid (base : Img Nat) (levelNum : Nat) (points : List (ℝ × ℝ))
    (depthsVec weightsVec : List ℝ) : Except Fault (List (Img Nat) × List (Img ℝ)) :=
  match imagePyramid base levelNum with
  | .error e => .error e
  | .ok images =>
    if points.length = depthsVec.length ∧ depthsVec.length = weightsVec.length then
      match depthPyramid base.rows base.cols levelNum
        ((points.zip (depthsVec.zip weightsVec)).map fun q => ⟨q.1.1, q.1.2, q.2.1, q.2.2⟩) with
      | .error e => .error e
      | .ok depths => .ok (images, depths)
    else .error .abort

end Mdso.Pyr
