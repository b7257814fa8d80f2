import Verif.Model.ImmaturePoint
import Verif.Model.TriDraw

/-!
# Model of the picture of one search along the epipolar curve

Models `ImmaturePoint::drawTracing` (source/system/ImmaturePoint.cpp:432-466) and its call at the end of a successful trace with
`DRAW_EPIPOLE` (source/system/ImmaturePoint.cpp:406-413). A picture is the list of the calls of `cv::line`. Not modelled: the circle
around the pixel of the base frame, the resizing and the windows (lines 412, 415-428).
-/

set_option autoImplicit false

namespace Mdso.TraceDraw

open Mdso.Geom Mdso.Trace Mdso.Util Mdso.Tri

/-- A call of `cv::line` with colour and thickness. The colour is `none` if a channel is NaN or infinite. -/
structure Stroke where
  a : Pixel
  b : Pixel
  colour : Option Colour
  thickness : Int

/-- `CV_BLACK` (include/util/defs.h:13). -/
def black : Colour := ⟨0, 0, 0⟩

/-- `std::min_element` with `comp` (source/system/ImmaturePoint.cpp:435-441): the place of the first of the least energies, where the
`i - 1` elements before `es` have been looked at and the least of them is `best`. -/
noncomputable def minFrom : Nat → List (V2 × ℝ) → Nat × ℝ → Nat × ℝ
  | _, [], best => best
  | i, e :: es, best => minFrom (i + 1) es (if e.2 < best.2 then (i, e.2) else best)

/-- The value at `std::max_element` with `comp` (source/system/ImmaturePoint.cpp:444-446). -/
noncomputable def maxFrom : List (V2 × ℝ) → ℝ → ℝ
  | [], best => best
  | e :: es, best => maxFrom es (if best < e.2 then e.2 else best)

/-- `dir` (source/system/ImmaturePoint.cpp:451-452). `energiesFound[-1]` and reads past the end are undefined. -/
def direction (found : List (V2 × ℝ)) (i : Nat) (p : V2) : Except Fault V2 :=
  if i + 1 = found.length then
    if i = 0 then .error .ub else (at' found (i - 1)).map fun e => p - e.1
  else (at' found (i + 1)).map fun e => e.1 - p

/-- `ort` (source/system/ImmaturePoint.cpp:453-456). -/
noncomputable def ortOf (dir : V2) (isBest : Bool) : V2 :=
  let ort := Cam.normalized2 ⟨dir.y, -dir.x⟩
  if isBest then (2 : ℝ) • ort else ort

/-- `toCvPoint(v)` (source/util/util.cpp:207). -/
noncomputable def toPixel (v : V2) : Pixel := ⟨truncInt v.x, truncInt v.y⟩

/-- One round of the loop (source/system/ImmaturePoint.cpp:449-464). -/
noncomputable def stroke (found : List (V2 × ℝ)) (lineWidth : Int) (minI : Nat) (minEnergy maxEnergy : ℝ) (i : Nat) (p : V2 × ℝ) :
    Except Fault Stroke := do
  let dir ← direction found i p.1
  let ort := ortOf dir (decide (i = minI))
  let beg := p.1 + ((lineWidth : ℝ) / 2) • ort
  let end' := p.1 - ((lineWidth : ℝ) / 2) • ort
  .ok ⟨toPixel beg, toPixel end', if i = minI then some black else depthCol p.2 minEnergy maxEnergy, if i = minI then 3 else 1⟩

/-- The loop (source/system/ImmaturePoint.cpp:448-465), from round `i` on. -/
noncomputable def strokes (found : List (V2 × ℝ)) (lineWidth : Int) (minI : Nat) (minEnergy maxEnergy : ℝ) :
    Nat → List (V2 × ℝ) → Except Fault (List Stroke)
  | _, [] => .ok []
  | i, p :: ps => do
    let s ← stroke found lineWidth minI minEnergy maxEnergy i p
    let ss ← strokes found lineWidth minI minEnergy maxEnergy (i + 1) ps
    .ok (s :: ss)

/-- `drawTracing` (source/system/ImmaturePoint.cpp:432-466). Reading the least energy of an empty vector is undefined. -/
noncomputable def drawTracing (found : List (V2 × ℝ)) (lineWidth : Int) : Except Fault (List Stroke) :=
  match found with
  | [] => .error .ub
  | e :: es =>
    let m := minFrom 1 es (0, e.2)
    strokes found lineWidth m.1 m.2 (maxFrom es e.2) 0 found

/-- `energiesFound` after the loop over the candidates (source/system/ImmaturePoint.cpp:304). -/
def energiesFound (cs : List Cand) : List (V2 × ℝ) := cs.map fun c => (c.point, c.energy)

/-- What `traceOn` draws on the frame it searched (source/system/ImmaturePoint.cpp:406-413) if `debugType` is `DRAW_EPIPOLE`; `cs` are
the candidates of the search, `q` the point after it. -/
noncomputable def drawn (st : Status) (q : Point) (cs : List Cand) : Except Fault (List Stroke) :=
  if st = .ok ∧ q.state = .active then drawTracing (energiesFound cs) 5 else .ok []

end Mdso.TraceDraw
