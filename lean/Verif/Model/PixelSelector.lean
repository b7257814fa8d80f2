import Verif.Model.DepthColour
import Mathlib.Analysis.Real.Sqrt
import Mathlib.Algebra.Order.Field.Basic

/-!
# Model of `PixelSelector`

Models `source/util/PixelSelector.cpp`. Gradient norms are elements of any ordered field (no NaN, no rounding).
The random shuffle is a parameter, see `IsShuffle`. The two nested loops of `selectLayer` run on fuel: `none`
means that the fuel was used up. The requested number is not negative (a negative one makes `reserve` throw or
the block size NaN). Drawing and logging are not modelled.
-/

set_option autoImplicit false

namespace Mdso.PixSel

/-- A `cv::Point`, as (x, y). -/
abbrev Pt := Nat × Nat

/-- The matrix of gradient norms; `px y x`. -/
structure Grad (K : Type) where
  rows : Nat
  cols : Nat
  px : Nat → Nat → K

/-- `Settings::PixelSelector` (include/util/settings.h:28-43). -/
structure Settings (K : Type) where
  initialAdaptiveBlockSize : Nat
  initialPointsFound : Nat
  adaptToFactor : ℝ
  gradThresholds : List K

/-- The two fields that survive from call to call (include/util/PixelSelector.h:24-25). -/
structure State where
  lastBlockSize : Nat
  lastPointsFound : Nat
  deriving DecidableEq

/-- The constructor (source/util/PixelSelector.cpp:11-14). -/
def init {K : Type} (s : Settings K) : State := ⟨s.initialAdaptiveBlockSize, s.initialPointsFound⟩

section
variable {K : Type} [Field K] [LinearOrder K]

/-- Offsets (y, x) inside a block, row by row. -/
def offsets (bs : Nat) : List (Nat × Nat) :=
  (List.range bs).flatMap fun y => (List.range bs).map fun x => (y, x)

/-- `avg` (source/util/PixelSelector.cpp:32) of the block with corner row `i`, column `j`. -/
def blockAvg (g : Grad K) (bs i j : Nat) : K :=
  ((offsets bs).map fun o => g.px (i + o.1) (j + o.2)).sum / ((bs * bs : Nat) : K)

/-- Does a later value replace the maximum so far? `cv::minMaxLoc` reports the first maximum. -/
def better (f : Nat × Nat → K) (best c : Nat × Nat) : Nat × Nat := if f best < f c then c else best

/-- `maxLoc` (source/util/PixelSelector.cpp:33-35): offset (y, x) of the first maximum, (0, 0) for an empty
block. -/
def maxOffset (g : Grad K) (bs i j : Nat) : Nat × Nat :=
  match offsets bs with
  | [] => (0, 0)
  | c :: cs => cs.foldl (better fun o => g.px (i + o.1) (j + o.2)) c

/-- The body of the two loops (source/util/PixelSelector.cpp:30-37) for a block: the point pushed, if any. -/
def pick (g : Grad K) (bs : Nat) (threshold : K) (i j : Nat) : List Pt :=
  let o := maxOffset g bs i j
  if g.px (i + o.1) (j + o.2) > blockAvg g bs i j + threshold then [(j + o.2, i + o.1)] else []

/-- The values of the loop variable of `for (int i = s; i + bs < limit; i += bs)`
(source/util/PixelSelector.cpp:28, 29); `none` when the fuel is used up. -/
def scan (limit bs : Nat) : Nat → Nat → Option (List Nat)
  | 0, s => if s + bs < limit then none else some []
  | fuel + 1, s => if s + bs < limit then (scan limit bs fuel (s + bs)).map (s :: ·) else some []

/-- `selectLayer` (source/util/PixelSelector.cpp:26-39). -/
def selectLayer (fuel : Nat) (g : Grad K) (bs : Nat) (threshold : K) : Option (List Pt) :=
  match scan g.rows bs fuel 0 with
  | none => none
  | some [] => some []
  | some is =>
    match scan g.cols bs fuel 0 with
    | none => none
    | some js => some (is.flatMap fun i => js.flatMap fun j => pick g bs threshold i j)

/-- What is assumed of `std::shuffle` (source/util/PixelSelector.cpp:54-55), one for every layer. -/
def IsShuffle (shuffle : Nat → List Pt → List Pt) : Prop := ∀ i l, (shuffle i l).Perm l

/-- The loop over the layers (source/util/PixelSelector.cpp:51-58), from layer `i` on. A block size beyond `int`
is undefined behaviour. -/
def layers (fuel : Nat) (shuffle : Nat → List Pt → List Pt) (g : Grad K) (blockSize : Nat) :
    Nat → List K → Except Fault (Option (List (List Pt)))
  | _, [] => .ok (some [])
  | i, t :: ts =>
    if 2 ^ i * blockSize > 2147483647 then .error .ub
    else
      match selectLayer fuel g (2 ^ i * blockSize) t with
      | none => .ok none
      | some l =>
        match layers fuel shuffle g blockSize (i + 1) ts with
        | .error e => .error e
        | .ok none => .ok none
        | .ok (some rest) => .ok (some (shuffle i l :: rest))

end

/-- `std::vector::resize`: new elements are `cv::Point(0, 0)`. -/
def resize (l : List Pt) (n : Nat) : List Pt := l.take n ++ List.replicate (n - l.length) (0, 0)

/-- The truncation (source/util/PixelSelector.cpp:73-81). Without layers `pointsOverThres[0]` is undefined. -/
def trim (pointsNeeded : Nat) (ls : List (List Pt)) : Except Fault (List (List Pt)) :=
  let foundTotal := (ls.map List.length).sum
  if foundTotal > pointsNeeded then
    match ls with
    | [] => .error .ub
    | l0 :: rest =>
      let rest := rest.map fun l => resize l (l.length * pointsNeeded / foundTotal)
      let sz := (rest.map List.length).sum
      if pointsNeeded < sz then .error .exception
      else .ok (resize l0 (pointsNeeded - sz) :: rest)
  else .ok ls

section
variable {K : Type} [Field K] [LinearOrder K]

/-- `selectInternal` (source/util/PixelSelector.cpp:41-99): the points and the new state. Without thresholds the
log line 68 already reads out of range. -/
def selectInternal (fuel : Nat) (shuffle : Nat → List Pt → List Pt) (thresholds : List K) (g : Grad K)
    (pointsNeeded blockSize : Nat) : Except Fault (Option (List Pt × State)) :=
  if thresholds.isEmpty then .error .ub
  else
    match layers fuel shuffle g blockSize 0 thresholds with
    | .error e => .error e
    | .ok none => .ok none
    | .ok (some ls) =>
      match trim pointsNeeded ls with
      | .error e => .error e
      | .ok ls' => .ok (some (ls'.flatten, ⟨blockSize, (ls.map List.length).sum⟩))

/-- The adapted block size (source/util/PixelSelector.cpp:20-22). A zero divisor gives an infinity or a NaN,
whose conversion to `int` is undefined, as is that of too large a value. -/
noncomputable def adapt (factor : ℝ) (st : State) (pointsNeeded : Nat) : Except Fault Nat :=
  let divisor := (pointsNeeded : ℝ) * factor
  if divisor ≤ 0 then .error .ub
  else
    let v := (st.lastBlockSize : ℝ) * Real.sqrt ((st.lastPointsFound : ℝ) / divisor)
    if v < 2147483648 then .ok (Util.truncInt v).toNat else .error .ub

/-- `select` (source/util/PixelSelector.cpp:16-24). -/
noncomputable def select (fuel : Nat) (shuffle : Nat → List Pt → List Pt) (s : Settings K) (st : State) (g : Grad K)
    (pointsNeeded : Nat) : Except Fault (Option (List Pt × State)) :=
  match adapt s.adaptToFactor st pointsNeeded with
  | .error e => .error e
  | .ok blockSize => selectInternal fuel shuffle s.gradThresholds g pointsNeeded blockSize

end

end Mdso.PixSel
