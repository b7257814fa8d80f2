import Verif.Model.Fault
import Mathlib.Data.Real.Basic
import Mathlib.Algebra.Order.Archimedean.Real.Basic
import Mathlib.Data.List.Sort

/-!
# Model of the depth colouring in `util.cpp`

Models `setDepthColBounds`, `depthCol` and `drawLeveled` of `source/util/util.cpp`. Depths are reals: no NaN
among them (with a NaN, `std::sort` itself would be undefined), no rounding. List lengths are assumed to be
representable as `int`.
-/

set_option autoImplicit false

namespace Mdso.Util

/-- Conversion of a `double` to `int`: truncation toward zero. -/
noncomputable def truncInt (x : ℝ) : Int := if 0 ≤ x then ⌊x⌋ else ⌈x⌉

/-- The globals `minDepthCol`, `maxDepthCol` (source/util/util.cpp:31). -/
structure ColBounds where
  minDepthCol : ℝ
  maxDepthCol : ℝ

/-- The clamped index (source/util/util.cpp:80-84 for red, 86-90 for blue). -/
noncomputable def colIndex (part : ℝ) (size : Nat) : Nat :=
  let ind := truncInt (part * (size : ℝ))
  let ind := if ind < 0 then 0 else ind
  if ind.toNat ≥ size then size - 1 else ind.toNat

/-- `setDepthColBounds` (source/util/util.cpp:75-94). The two flags `red_depths_part` and
`blue_depths_part` are the first arguments. -/
noncomputable def setDepthColBounds (redPart bluePart : ℝ) (depths : List ℝ) (b : ColBounds) :
    Except Fault ColBounds :=
  if depths.isEmpty then .ok b
  else
    let sorted := depths.mergeSort (fun x y => decide (x ≤ y))
    match at' sorted (colIndex redPart sorted.length), at' sorted (colIndex bluePart sorted.length) with
    | .ok lo, .ok hi => .ok ⟨lo, hi⟩
    | _, _ => .error .ub

/-- A `cv::Scalar` colour in BGR order. -/
@[ext] structure Colour where
  b : ℝ
  g : ℝ
  r : ℝ

/-- `CV_RED` (include/util/defs.h:8). -/
def red : Colour := ⟨0, 0, 255⟩
/-- `CV_GREEN` (include/util/defs.h:9). -/
def green : Colour := ⟨0, 255, 0⟩
/-- `CV_BLUE` (include/util/defs.h:10). -/
def blue : Colour := ⟨255, 0, 0⟩

/-- `s * x + t * y`. -/
def Colour.blend (s : ℝ) (x : Colour) (t : ℝ) (y : Colour) : Colour :=
  ⟨s * x.b + t * y.b, s * x.g + t * y.g, s * x.r + t * y.r⟩

/-- Floating-point division of finite numbers; `none` stands for the infinity or NaN that a zero divisor
gives. -/
noncomputable def fdiv (x y : ℝ) : Option ℝ := if y = 0 then none else some (x / y)

/-- `depthCol` (source/util/util.cpp:170-180); `none` is a colour with NaN or infinite channels. -/
noncomputable def depthCol (d mind maxd : ℝ) : Option Colour :=
  if d < mind then some red
  else if d > maxd then some blue
  else
    let mid := (mind + maxd) / 2
    let dist := maxd - mid
    if d > mid then
      match fdiv (maxd - d) dist, fdiv (d - mid) dist with
      | some s, some t => some (Colour.blend s green t blue)
      | _, _ => none
    else
      match fdiv (mid - d) dist, fdiv (d - mind) dist with
      | some s, some t => some (Colour.blend s red t green)
      | _, _ => none

/-! ## `drawLeveled` -/

/-- A slot of the picture: upper or lower row, position in the row. -/
inductive Slot where
  | up (i : Int)
  | down (i : Int)
  deriving DecidableEq

/-- The two loops of `drawLeveled` (source/util/util.cpp:108-114): for `pl = num - 1 .. 0`, the slot image
`pl` is written to. The list pairs level and slot in the order of the writes. -/
def slots (num : Nat) : List (Nat × Slot) :=
  let downCnt := num / 2
  let upCnt := num - downCnt
  (List.range num).reverse.map (fun pl =>
    if pl ≥ upCnt then (pl, .up ((num : Int) - pl - 1)) else (pl, .down ((downCnt : Int) - pl - 1)))

/-- The result of `drawLeveled`: levels of the upper and lower row from left to right (`none` where nothing
was drawn), and the widths of one slot. -/
structure Drawing where
  up : List (Option Nat)
  down : List (Option Nat)
  upW : Int
  downW : Int

/-- The level written last to a slot. -/
def lastAt (ws : List (Nat × Slot)) (s : Slot) : Option Nat :=
  (ws.reverse.find? (fun w => decide (w.2 = s))).map (·.1)

/-- `drawLeveled` (source/util/util.cpp:96-121) for `num ≥ 0` levels: dividing by a zero count and writing
outside a row are undefined behaviour; `cv::resize` throws for a non-positive width. Heights and the actual
pixels are not modelled. -/
def drawLeveled (num : Nat) (resultW : Int) : Except Fault Drawing :=
  let downCnt := num / 2
  let upCnt := num - downCnt
  if upCnt = 0 ∨ downCnt = 0 then .error .ub
  else
    let upW := Int.tdiv resultW upCnt
    let downW := Int.tdiv resultW downCnt
    if (slots num).any (fun w => match w.2 with
        | .up i => decide (i < 0 ∨ (upCnt : Int) ≤ i)
        | .down i => decide (i < 0 ∨ (downCnt : Int) ≤ i)) then .error .ub
    else if upW ≤ 0 ∨ downW ≤ 0 then .error .exception
    else .ok
      { up := (List.range upCnt).map (fun i : Nat => lastAt (slots num) (.up i))
        down := (List.range downCnt).map (fun i : Nat => lastAt (slots num) (.down i))
        upW := upW, downW := downW }

end Mdso.Util
