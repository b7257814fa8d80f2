import Verif.Model.Geometry
import Verif.Model.Geometry3
import Verif.Model.CameraModel
import Mathlib.Analysis.SpecialFunctions.Log.Base

/-!
# Model of tracing a point

Models `source/system/ImmaturePoint.cpp` over the reals (floating-point rounding is not modelled; `INF` is `⊤`).
The camera, the images, the motion and the light between the two frames are parameters, so that everything below
holds for all of them. What OpenCV draws for `DRAW_EPIPOLE` is left out, and so are the members that are only
written (`lastIntVar`, `lastGeomVar`, `lastFullVar`, `pyrChanged`).
-/

set_option autoImplicit false

namespace Mdso.Trace

open Mdso.Geom Mdso.Cam

/-- `ImmaturePoint::State` (include/system/ImmaturePoint.h:20). -/
inductive State where
  | active
  | oob
  | outlier
  deriving DecidableEq, Repr

/-- `ImmaturePoint::TracingStatus` (include/system/ImmaturePoint.h:22-33). -/
inductive Status where
  | ok
  | wasOob
  | bigPredictedError
  | epipolarOob
  | tooCoarsePyrLevel
  | infDepth
  | infEnergy
  | bigEnergy
  | smallAbsSecondBest
  | lowQuality
  deriving DecidableEq, Repr

/-- The members of `ImmaturePoint` that change (include/system/ImmaturePoint.h:55-72). `none` is an indeterminate
value. -/
structure Point where
  minDepth : ℝ
  maxDepth : WithTop ℝ
  depth : Option ℝ
  bestQuality : WithTop ℝ
  lastEnergy : WithTop ℝ
  stddev : WithTop ℝ
  state : State
  lastTraced : Bool
  numTraced : Nat
  depthBeforeSubpixel : Option ℝ
  tracedPyrLevel : Int
  eBeforeSubpixel : Option ℝ
  eAfterSubpixel : Option (WithTop ℝ)

/-- `PointTracerSettings` as far as used by tracing (include/util/settings.h). -/
structure Settings where
  /-- `pyramid.levelNum` (`PL`). -/
  levelNum : Int
  /-- `residualPattern.height` (`PH`). -/
  height : Int
  /-- `intencity.outlierDiff` (`TH`). -/
  outlierDiff : ℝ
  performFullTracing : Bool
  onImageTestCount : Int
  maxSearchRel : ℝ
  positionVariance : ℝ
  minSecondBestDistance : ℝ
  imprFactor : ℝ
  outlierEnergyFactor : ℝ
  secondBestEnergyThresFactor : ℝ
  outlierQuality : ℝ
  optimizedStddev : ℝ
  gnIter : Nat
  useAltHWeighting : Bool

/-- The camera: `map`, `unmap`, the Jacobian of `diffMap` at a direction applied to a vector, `isOnImage` with
border `PH`, `getMaxAngle`, `getWidth() + getHeight()`. -/
structure Camera where
  map : V3 → V2
  unmap : V2 → V3
  jacobian : V3 → V3 → V2
  isOnImage : V2 → Prop
  maxAngle : ℝ
  size : Nat

/-- What one call of `traceOn` reads besides the members above: settings, camera, the patch around the point in the
base frame (`baseDirections`, `baseIntencities`, `baseGradNorm`; the length of the first is `PS`), `baseToRef`,
`lightBaseToRef`, the interpolated pyramid of the other frame (intensity and gradient), and
`triangulate(baseToRef, baseDirections[0], ray)[0]`. The latter is a function of the ray that is `Geom.triangulate`
where that has a unique solution, and the choice of Eigen's QR solver elsewhere. `infiniteDepth` is the value
triangulated from a position with infinite coordinates. -/
structure Env where
  s : Settings
  cam : Camera
  baseDirections : List V3
  baseIntencities : List ℝ
  baseGradNorm : List V2
  baseToRef : Motion3
  light : ℝ → ℝ
  interp : Int → V2 → ℝ × V2
  tri : V3 → ℝ
  infiniteDepth : ℝ

/-- The constructor (source/system/ImmaturePoint.cpp:18-51), given whether the patch is on the image. -/
def new (onImage : Bool) : Point where
  minDepth := 0
  maxDepth := ⊤
  depth := none
  bestQuality := ((-1 : ℝ) : WithTop ℝ)
  lastEnergy := ⊤
  stddev := ⊤
  state := if onImage then .active else .oob
  lastTraced := false
  numTraced := 0
  depthBeforeSubpixel := none
  tracedPyrLevel := 0
  eBeforeSubpixel := none
  eAfterSubpixel := none

open Classical in
/-- The constructor from a snapshot (source/system/ImmaturePoint.cpp:53-75) reading what was stored of `p`
(source/system/serialization.cpp:43-50). -/
noncomputable def restore (p : Point) : Point :=
  { p with
    lastTraced := if p.maxDepth ≠ ⊤ then true else false
    numTraced := if p.maxDepth ≠ ⊤ then 1 else 0
    depthBeforeSubpixel := p.depth
    tracedPyrLevel := 0
    eBeforeSubpixel := none
    eAfterSubpixel := none }

/-- `isReady` (source/system/ImmaturePoint.cpp:77-79). -/
def isReady (s : Settings) (p : Point) : Prop :=
  p.state = .active ∧ p.stddev < ((s.optimizedStddev : ℝ) : WithTop ℝ)

/-! ## `pointsToTrace` -/

/-- `maxSearchCount` (source/system/ImmaturePoint.cpp:104-105). -/
noncomputable def maxSearchCount (e : Env) : Int := Util.truncInt (e.s.maxSearchRel * e.cam.size)

/-- `(1 - alpha) * dirMaxDepth + alpha * dirMinDepth` (source/system/ImmaturePoint.cpp:109, 124). -/
def dirAt (dirMax dirMin : V3) (alpha : ℝ) : V3 := (1 - alpha) • dirMax + alpha • dirMin

open Classical in
/-- One run of the `do`-`while` loop (source/system/ImmaturePoint.cpp:123-139): the candidates pushed and the final
`alpha`. A vanishing derivative makes `deltaAlpha` and `alpha` infinite (`none`), which ends the loop. `fuel` bounds
the number of rounds; the result is `none` when it is used up. -/
noncomputable def sweep (e : Env) (dirMax dirMin : V3) :
    Nat → ℝ → Nat → Option (List (V2 × V3) × Option ℝ)
  | 0, _, _ => none
  | fuel + 1, alpha, cnt =>
    let curDir := dirAt dirMax dirMin alpha
    let point := e.cam.map curDir
    let speed := norm2 (e.cam.jacobian curDir (dirMax - dirMin))
    let alpha' : Option ℝ := if speed = 0 then none else some (alpha + 1 / speed)
    if e.s.performFullTracing = false ∧ ((cnt + 1 : Nat) : Int) ≥ maxSearchCount e then
      some ([(point, curDir)], alpha')
    else
      match alpha' with
      | none => some ([(point, curDir)], none)
      | some a =>
        if 0 ≤ a ∧ a ≤ 1 ∧ e.cam.isOnImage point then
          (sweep e dirMax dirMin fuel a (cnt + 1)).map fun r => ((point, curDir) :: r.1, r.2)
        else some ([(point, curDir)], some a)

/-- The loop `for (int i = 0; i < 2; ++i)` (source/system/ImmaturePoint.cpp:119-140), which runs the `do`-`while`
loop `n` times from the same `alpha0`. -/
noncomputable def sweeps (e : Env) (dirMax dirMin : V3) (fuel : Nat) (alpha0 : ℝ) :
    Nat → List (V2 × V3) → Option ℝ → Option (List (V2 × V3) × Option ℝ)
  | 0, found, alpha => some (found, alpha)
  | n + 1, found, _ =>
    match sweep e dirMax dirMin fuel alpha0 0 with
    | none => none
    | some r => sweeps e dirMax dirMin fuel alpha0 n (found ++ r.1) r.2

open Classical in
/-- `step` added to `alpha0` (source/system/ImmaturePoint.cpp:107, 114, 145); with `onImageTestCount = 1` it is infinite. -/
noncomputable def stepFrom (e : Env) (alpha : Option ℝ) : Option ℝ :=
  if e.s.onImageTestCount = 1 then none
  else alpha.map fun a => a + 1 / ((e.s.onImageTestCount - 1 : Int) : ℝ)

open Classical in
/-- The loop `while (alpha0 <= 1)` (source/system/ImmaturePoint.cpp:108-146). `none` for `alpha0` is infinity. -/
noncomputable def searchLoop (e : Env) (dirMax dirMin : V3) :
    Nat → Option ℝ → List (V2 × V3) → Option (List (V2 × V3))
  | 0, _, _ => none
  | _ + 1, none, found => some found
  | fuel + 1, some alpha0, found =>
    if alpha0 ≤ 1 then
      if e.cam.isOnImage (e.cam.map (dirAt dirMax dirMin alpha0)) then
        match sweeps e dirMax dirMin (fuel + 1) alpha0 2 found none with
        | none => none
        | some r =>
          if e.s.performFullTracing = false then some r.1
          else searchLoop e dirMax dirMin fuel (stepFrom e r.2) r.1
      else if e.s.performFullTracing = false then some found
      else searchLoop e dirMax dirMin fuel (stepFrom e (some alpha0)) found
    else some found

open Classical in
/-- `pointsToTrace` (source/system/ImmaturePoint.cpp:81-149): the candidates, or `[]` where it returns `false` before
the search. It returns `true` iff there is more than one. -/
noncomputable def pointsToTrace (e : Env) (fuel : Nat) (dirMin dirMax : V3) :
    Except Fault (Option (List (V2 × V3))) :=
  if Real.pi - Geom.angle dirMin dirMax < 1 / 1000 then .ok (some [])
  else if e.s.performFullTracing = true then
    match intersectOnSphere e.cam.maxAngle dirMin dirMax with
    | .error f => .error f
    | .ok r => if r.1 then .ok (searchLoop e r.2.2 r.2.1 fuel (some 0) []) else .ok (some [])
  else .ok (searchLoop e dirMax dirMin fuel (some 0) [])

/-! ## Energies of the candidates -/

/-- One candidate: position, depth, pyramid level and energy. -/
structure Cand where
  point : V2
  depth : WithTop ℝ
  level : Int
  energy : ℝ

/-- Where the other pixels of the patch are seen if the point has the given depth
(source/system/ImmaturePoint.cpp:262-273). -/
def reprojections (e : Env) (depth : WithTop ℝ) : List V2 :=
  match depth with
  | none => e.baseDirections.tail.map fun b => e.cam.map (e.baseToRef.rot.mulVec b)
  | some d => e.baseDirections.tail.map fun b => e.cam.map (e.baseToRef.act (d • b))

/-- `maxReprojDist` (source/system/ImmaturePoint.cpp:275-280). -/
noncomputable def maxReprojDist (point : V2) (reproj : List V2) : ℝ :=
  reproj.foldl (fun m r => if m < norm2 (r - point) then norm2 (r - point) else m) (-1)

open Classical in
/-- `pyrLevel` (source/system/ImmaturePoint.cpp:281-285). The logarithm of a number that is not positive, or of
infinity, is no number that fits an `int`. -/
noncomputable def pyrLevelOf (e : Env) (dist : ℝ) : Except Fault Int :=
  if 0 < dist / e.s.height then
    let l := round (Real.logb 2 (dist / e.s.height))
    let l := if l < 0 then 0 else l
    .ok (if l ≥ e.s.levelNum then e.s.levelNum - 1 else l)
  else .error .ub

/-- `residual > TH ? TH * (2 * residual - TH) : residual * residual` (source/system/ImmaturePoint.cpp:301). -/
noncomputable def huber (th residual : ℝ) : ℝ :=
  if residual > th then th * (2 * residual - th) else residual * residual

/-- The energy of a candidate (source/system/ImmaturePoint.cpp:292-302), the sum over the patch; `reproj` has the
`PS` positions in full resolution. Shifting by a negative number of bits is undefined. -/
noncomputable def energyOf (e : Env) (level : Int) (reproj : List V2) : ℝ :=
  (List.zip e.baseIntencities reproj).foldl
    (fun acc b => acc + huber e.s.outlierDiff
      |e.light b.1 - (e.interp level ((1 / (2 : ℝ) ^ level) • b.2)).1|) 0

open Classical in
/-- One candidate (source/system/ImmaturePoint.cpp:259-302). -/
noncomputable def candidate (e : Env) (p : Point) (dirInd : Nat) (c : V2 × V3) : Except Fault Cand :=
  let depth : WithTop ℝ := if p.maxDepth = ⊤ ∧ dirInd = 0 then ⊤ else ((e.tri c.2.normalized : ℝ) : WithTop ℝ)
  let reproj := reprojections e depth
  match pyrLevelOf e (maxReprojDist c.1 reproj) with
  | .error f => .error f
  | .ok level =>
    if level < 0 then .error .ub
    else .ok ⟨c.1, depth, level, energyOf e level (c.1 :: reproj)⟩

/-- All candidates in order (source/system/ImmaturePoint.cpp:258-313). -/
noncomputable def candidatesFrom (e : Env) (p : Point) : Nat → List (V2 × V3) → Except Fault (List Cand)
  | _, [] => .ok []
  | i, c :: cs =>
    match candidate e p i c, candidatesFrom e p (i + 1) cs with
    | .ok a, .ok as => .ok (a :: as)
    | .error f, _ => .error f
    | .ok _, .error f => .error f

/-- The choice of the best candidate (source/system/ImmaturePoint.cpp:306-312): `bestInd` and the candidate. -/
noncomputable def bestFrom : Nat → List Cand → Option (Nat × Cand) → Option (Nat × Cand)
  | _, [], best => best
  | i, c :: cs, none => bestFrom (i + 1) cs (some (i, c))
  | i, c :: cs, some b => bestFrom (i + 1) cs (if c.energy < b.2.energy then some (i, c) else some b)

/-- `secondBestEnergy` (source/system/ImmaturePoint.cpp:326-333). -/
noncomputable def secondBest (minDist : ℝ) (best : V2) (cs : List Cand) : WithTop ℝ :=
  cs.foldl (fun acc c =>
    if norm2 (c.point - best) < minDist then acc
    else if ((c.energy : ℝ) : WithTop ℝ) < acc then ((c.energy : ℝ) : WithTop ℝ) else acc) ⊤

/-! ## Subpixel refinement -/

/-- The threshold weight `wb` (source/system/ImmaturePoint.cpp:172). -/
noncomputable def weight (th ar : ℝ) : ℝ := if ar > th then th / ar else 1

/-- One summand of the loop over the patch (source/system/ImmaturePoint.cpp:165-181): energy, `b` and `H`. -/
noncomputable def gnTerm (s : Settings) (img : V2 → ℝ × V2) (dir curPoint : V2) (i : ℝ × V2) : ℝ × ℝ × ℝ :=
  let v := img (curPoint + i.2)
  let r := v.1 - i.1
  let ar := |r|
  let wb := weight s.outlierDiff ar
  let dr := Geom.dot v.2 dir
  (wb * (2 - wb) * ar * ar, wb * r * dr,
    if s.useAltHWeighting then wb / (2 - wb) * dr * dr else wb * dr * dr)

/-- The loop over the patch (source/system/ImmaturePoint.cpp:162-181). -/
noncomputable def gnSums (s : Settings) (img : V2 → ℝ × V2) (dir curPoint : V2) (patch : List (ℝ × V2)) :
    ℝ × ℝ × ℝ :=
  patch.foldl (fun acc i =>
    let t := gnTerm s img dir curPoint i
    (acc.1 + t.1, acc.2.1 + t.2.1, acc.2.2 + t.2.2)) (0, 0, 0)

/-- Clamping of the step (source/system/ImmaturePoint.cpp:188-191). -/
noncomputable def clampStep (displ step : ℝ) : ℝ :=
  if displ + step > 1 then (1 - displ) * (1 / 2)
  else if displ + step < -1 then (-1 - displ) * (1 / 2)
  else step

/-- The variables of the Gauss-Newton loop: `bestPoint`, `bestEnergy`, `bestDispl`, `step`. The step is `none` after
a division by zero. -/
structure GN where
  point : V2
  energy : WithTop ℝ
  displ : ℝ
  step : Option ℝ

open Classical in
/-- One round of the Gauss-Newton loop (source/system/ImmaturePoint.cpp:161-194). With `H = 0` the step is
`0 / 0`; the next round evaluates the interpolator there, whose conversion of a NaN to `int` is undefined. (Where
`H = 0` but `b ≠ 0`, possible only with a negative threshold, the infinite step is clamped; this is not
distinguished.) -/
noncomputable def gnRound (s : Settings) (img : V2 → ℝ × V2) (dir : V2) (patch : List (ℝ × V2)) (g : GN) :
    Except Fault GN :=
  match g.step with
  | none => .error .ub
  | some step =>
    let cur := g.point + step • dir
    let sums := gnSums s img dir cur patch
    if ((sums.1 : ℝ) : WithTop ℝ) < g.energy then
      let displ := g.displ + step
      .ok ⟨cur, ((sums.1 : ℝ) : WithTop ℝ), displ,
        if sums.2.2 = 0 then none else some (clampStep displ (-sums.2.1 / sums.2.2))⟩
    else .ok { g with step := some (step * (1 / 2)) }

/-- `n` rounds. -/
noncomputable def gnLoop (s : Settings) (img : V2 → ℝ × V2) (dir : V2) (patch : List (ℝ × V2)) :
    Nat → GN → Except Fault GN
  | 0, g => .ok g
  | n + 1, g =>
    match gnRound s img dir patch g with
    | .error f => .error f
    | .ok g' => gnLoop s img dir patch n g'

/-- `tracePrecise` (source/system/ImmaturePoint.cpp:151-197); `patch` has the intensities and the offsets. -/
noncomputable def tracePrecise (s : Settings) (img : V2 → ℝ × V2) (frm dst : V2) (patch : List (ℝ × V2)) :
    Except Fault GN :=
  gnLoop s img (normalized2 (dst - frm)) patch (s.gnIter + 1) ⟨(1 / 2 : ℝ) • (frm + dst), ⊤, 0, some 0⟩

/-! ## `traceOn` -/

open Classical in
/-- `estVariance` followed by the square root (source/system/ImmaturePoint.cpp:199-209, 232-233), for positive
`positionVariance`. -/
noncomputable def deviation (e : Env) (searchDirection : V2) : WithTop ℝ :=
  let sum1 := e.baseGradNorm.foldl (fun acc g => acc + Geom.dot g searchDirection * Geom.dot g searchDirection) 0
  if sum1 = 0 then ⊤
  else ((Real.sqrt (e.baseDirections.length * e.s.positionVariance / sum1) : ℝ) : WithTop ℝ)

/-- `curDev * imprFactor > stddev` (source/system/ImmaturePoint.cpp:236), for positive `imprFactor`. -/
noncomputable def isWorse (curDev : WithTop ℝ) (imprFactor : ℝ) (stddev : WithTop ℝ) : Prop :=
  stddev < curDev.map fun d => d * imprFactor

/-- `dirMin` and `dirMax` (source/system/ImmaturePoint.cpp:224-227). -/
noncomputable def searchEnds (e : Env) (p : Point) (base : V3) : V3 × V3 :=
  ((e.baseToRef.act (p.minDepth • base)).normalized,
    match p.maxDepth with
    | none => e.baseToRef.rot.mulVec base
    | some d => (e.baseToRef.act (d • base)).normalized)

/-- `newQuality` (source/system/ImmaturePoint.cpp:349); `none` is NaN. -/
noncomputable def quality (second best : ℝ) : Option (WithTop ℝ) :=
  open Classical in
  if best = 0 then (if second = 0 then none else some ⊤)
  else some ((second / best : ℝ) : WithTop ℝ)

/-- The patch compared by the refinement (source/system/ImmaturePoint.cpp:370-376). -/
noncomputable def refinePatch (e : Env) (best : V2) (bestDepth : ℝ) (level : Int) : List (ℝ × V2) :=
  List.zip (e.baseIntencities.map e.light)
    (⟨0, 0⟩ :: (e.baseDirections.tail.map fun b =>
      (1 / (2 : ℝ) ^ level) • (e.cam.map (e.baseToRef.act (bestDepth • b)) - best)))

/-- The refined position used for the depth, `bestPoint / scale`, in full resolution, and the energy
(source/system/ImmaturePoint.cpp:365-381). -/
noncomputable def refine (e : Env) (points : List V2) (bestInd : Nat) (best : V2) (bestDepth : ℝ) (level : Int) :
    Except Fault (V2 × WithTop ℝ) :=
  match at' points (bestInd - 1), at' points (min (points.length - 1) (bestInd + 1)) with
  | .ok frm, .ok dst =>
    match tracePrecise e.s (e.interp level) frm dst (refinePatch e best bestDepth level) with
    | .error f => .error f
    | .ok g => .ok ((2 : ℝ) ^ level • g.point, g.energy)
  | _, _ => .error .ub

/-- The depth interval (source/system/ImmaturePoint.cpp:387-400). -/
noncomputable def interval (e : Env) (points : List V2) (bestInd : Nat) (curDev : WithTop ℝ) :
    Except Fault (ℝ × WithTop ℝ) :=
  match curDev with
  | none => .ok (e.infiniteDepth, ⊤)
  | some dev =>
    match approxOnCurve points (bestInd + 2 * dev) with
    | .error f => .error f
    | .ok minPos =>
      open Classical in
      if (bestInd : ℝ) - 2 * dev ≤ 0 then .ok (e.tri (e.cam.unmap minPos), ⊤)
      else
        match approxOnCurve points (bestInd - 2 * dev) with
        | .error f => .error f
        | .ok maxPos => .ok (e.tri (e.cam.unmap minPos), ((e.tri (e.cam.unmap maxPos) : ℝ) : WithTop ℝ))

/-- What is left to do once all checks have passed (source/system/ImmaturePoint.cpp:354-404). -/
noncomputable def accept (e : Env) (p : Point) (points : List V2) (curDev : WithTop ℝ) (bestInd : Nat) (best : Cand)
    (bestDepth : ℝ) (newQuality : Option (WithTop ℝ)) : Except Fault (Status × Point) :=
  let refined : Except Fault (ℝ × WithTop ℝ) :=
    if e.s.gnIter > 0 then
      (refine e points bestInd best.point bestDepth best.level).map
        fun r => (e.tri (e.cam.unmap r.1), r.2)
    else .ok (bestDepth, ((best.energy : ℝ) : WithTop ℝ))
  match refined, interval e points bestInd curDev with
  | .error f, _ => .error f
  | .ok _, .error f => .error f
  | .ok r, .ok i => .ok (.ok, { p with
      bestQuality := match newQuality with
        | some q => max q p.bestQuality
        | none => p.bestQuality
      lastEnergy := ((best.energy : ℝ) : WithTop ℝ)
      numTraced := p.numTraced + 1
      eBeforeSubpixel := some best.energy
      depthBeforeSubpixel := some (e.tri (e.cam.unmap best.point))
      depth := some r.1
      eAfterSubpixel := some r.2
      minDepth := i.1
      maxDepth := i.2
      lastTraced := true
      stddev := curDev
      tracedPyrLevel := best.level })

open Classical in
/-- The reliability checks (source/system/ImmaturePoint.cpp:315-352); the members written before them are
`lastEnergy` and `lastTraced`. -/
noncomputable def judge (e : Env) (p : Point) (points : List V2) (curDev : WithTop ℝ) (cs : List Cand) :
    Except Fault (Status × Point) :=
  match bestFrom 0 cs none with
  | none => .error .ub
  | some (bestInd, best) =>
    let q : Point := { p with lastEnergy := ((best.energy : ℝ) : WithTop ℝ), lastTraced := false }
    let area := e.baseDirections.length * e.s.outlierDiff * e.s.outlierDiff
    if best.level = e.s.levelNum - 1 then .ok (.tooCoarsePyrLevel, q)
    else
      match best.depth with
      | none => .ok (.infDepth, q)
      | some bestDepth =>
        match secondBest e.s.minSecondBestDistance best.point cs with
        | none => .ok (.infEnergy, q)
        | some second =>
          if second ≤ e.s.secondBestEnergyThresFactor * area then .ok (.smallAbsSecondBest, q)
          else if best.energy > e.s.outlierEnergyFactor * area then .ok (.bigEnergy, q)
          else
            let newQuality := quality second best.energy
            if ∃ r, newQuality = some r ∧ r < ((e.s.outlierQuality : ℝ) : WithTop ℝ) then .ok (.lowQuality, q)
            else accept e p points curDev bestInd best bestDepth newQuality

open Classical in
/-- `traceOn` (source/system/ImmaturePoint.cpp:211-404). `none` means that `fuel` rounds of the search loops did not
suffice. -/
noncomputable def traceOn (e : Env) (fuel : Nat) (p : Point) : Except Fault (Option (Status × Point)) :=
  if p.state = .oob then .ok (some (.wasOob, p))
  else
    match e.baseDirections with
    | [] => .error .ub
    | base :: _ =>
      let ends := searchEnds e p base
      let searchDirection := normalized2 (e.cam.jacobian ends.2 (ends.1 - ends.2))
      let curDev := deviation e searchDirection
      if e.s.performFullTracing = false ∧ p.numTraced > 0 ∧ isWorse curDev e.s.imprFactor p.stddev then
        .ok (some (.bigPredictedError, p))
      else
        match pointsToTrace e fuel ends.1 ends.2 with
        | .error f => .error f
        | .ok none => .ok none
        | .ok (some found) =>
          if found.length > 1 then
            match candidatesFrom e p 0 found with
            | .error f => .error f
            | .ok cs => (judge e p (found.map (·.1)) curDev cs).map some
          else .ok (some (.epipolarOob, p))

end Mdso.Trace
