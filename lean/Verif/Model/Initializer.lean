import Verif.Model.Terrain
import Verif.Model.ImmaturePoint
import Mathlib.Data.Rat.Floor

/-!
# Model of the creation of the first two keyframes

Models `DelaunayDsoInitializer::createKeyFrames` (source/system/DelaunayDsoInitializer.cpp:46-135) with the functions of
`KeyFrame` it calls (source/system/KeyFrame.cpp:9-24, 56-71), over the reals. What `stereoMatcher.match` returns, the camera
and the pixel selector are parameters. Not modelled: observers, `lastKeyPointDepths`, pictures.
-/

set_option autoImplicit false

namespace Mdso.Init

open Mdso.Geom Mdso.Tri

/-- An `ImmaturePoint` with its position (include/system/ImmaturePoint.h:55). -/
structure IPoint where
  p : V2
  pt : Trace.Point

/-- What is used of the settings, of the camera, and of the pixel selector: `onPatch` is `isOnImage(p, PH)`, `pointsNum` is
`settings.keyFrame.pointsNum`, `pointsNeeded` the member of the initializer, `select i n` what the `i`-th call of
`PixelSelector::select` returns if asked for `n` points. `env`, `order`, `arrange`, `fuel` are those of the triangulations, with
one order for each of the two, `walk i` the coins of the `i`-th lookup in a plain terrain. -/
structure Setup where
  unmap : V2 → V3
  onPatch : V2 → Bool
  pointsNum : Int
  pointsNeeded : Int
  select : Nat → Int → List V2
  L : Linear
  env : Tri.Env
  s : Tri.Settings
  order : Nat → List Nat
  arrange : List Nat → List Nat
  walk : Nat → Nat → Nat → Bool
  fuel : Nat

/-- `keyPoints` and `depths` of a frame as returned by `stereoMatcher.match` (source/system/DelaunayDsoInitializer.cpp:47-49). -/
structure Matched where
  keyPoints : List V2
  depths : List ℝ

/-- `addImmatures` on an empty keyframe (source/system/KeyFrame.cpp:56-61). -/
def addImmatures (S : Setup) (ps : List V2) : List IPoint := ps.map fun p => ⟨p, Trace.new (S.onPatch p)⟩

/-- The points of a keyframe after its construction and the loop over them (source/system/KeyFrame.cpp:21-23,
source/system/DelaunayDsoInitializer.cpp:61-65), for the `i`-th frame. -/
noncomputable def construct (S : Setup) (i : Nat) : List IPoint :=
  (addImmatures S (S.select i S.pointsNum)).map fun ip => { ip with pt := { ip.pt with stddev := ((1 : ℝ) : WithTop ℝ) } }

/-- A point given a depth (source/system/DelaunayDsoInitializer.cpp:79-80, 106-107). -/
def IPoint.accept (ip : IPoint) (d : ℝ) : IPoint := { ip with pt := { ip.pt with state := .active, depth := some d } }

/-- A point without a depth (source/system/DelaunayDsoInitializer.cpp:82, 109). -/
def IPoint.reject (ip : IPoint) : IPoint := { ip with pt := { ip.pt with state := .oob } }

/-! ## Plain terrains -/

/-- The loop over the points (source/system/DelaunayDsoInitializer.cpp:76-83), with the coins of each lookup; `none` if one
does not end within `fuel` rounds. -/
noncomputable def markPlain (S : Setup) (T : Terrain) (walk : Nat → Nat → Bool) :
    Nat → List IPoint → Except Fault (Option (List IPoint))
  | _, [] => .ok (some [])
  | n, ip :: ips => do
    match ← T.depthAt S.L S.env ip.p (walk n) S.fuel with
    | none => .ok none
    | some o => do
      match ← markPlain S T walk (n + 1) ips with
      | none => .ok none
      | some l => .ok (some ((match o with
        | some d => ip.accept d
        | none => ip.reject) :: l))

/-- The plain branch (source/system/DelaunayDsoInitializer.cpp:71-84): the points of the two keyframes. -/
noncomputable def createPlain (S : Setup) (m0 m1 : Matched) : Except Fault (Option (List IPoint × List IPoint)) := do
  match ← newTerrain S.env S.unmap S.s m0.keyPoints m0.depths (S.order 0) S.fuel with
  | none => .ok none
  | some T0 => do
    match ← newTerrain S.env S.unmap S.s m1.keyPoints m1.depths (S.order 1) S.fuel with
    | none => .ok none
    | some T1 => do
      match ← markPlain S T0 (S.walk 0) 0 (construct S 0) with
      | none => .ok none
      | some l0 => do
        match ← markPlain S T1 (S.walk 1) 0 (construct S 1) with
        | none => .ok none
        | some l1 => .ok (some (l0, l1))

/-! ## Spherical terrains -/

/-- `depthedRays` (source/system/DelaunayDsoInitializer.cpp:86-93). -/
noncomputable def depthedRays (S : Setup) (m : Matched) : Except Fault (List V3) :=
  if m.depths.length < m.keyPoints.length then .error .ub
  else .ok ((m.keyPoints.zip m.depths).map fun pd => pd.2 • (S.unmap pd.1).normalized)

/-- The loop over the points (source/system/DelaunayDsoInitializer.cpp:102-110), with the sectors left in the terrain. -/
noncomputable def markSpherical (S : Setup) : List Sector → List IPoint → List IPoint × List Sector
  | st, [] => ([], st)
  | st, ip :: ips =>
    if ip.pt.state = .active then
      match sphericalDepth S.L st (S.unmap ip.p) with
      | (some d, st') =>
        let r := markSpherical S st' ips
        (ip.accept d :: r.1, r.2)
      | (none, st') =>
        let r := markSpherical S st' ips
        (ip.reject :: r.1, r.2)
    else
      let r := markSpherical S st ips
      (ip.reject :: r.1, r.2)

/-- The loop erasing points (source/system/DelaunayDsoInitializer.cpp:114-120). -/
def eraseInactive : List IPoint → List IPoint
  | [] => []
  | ip :: ips => if ip.pt.state ≠ .active then eraseInactive ips else ip :: eraseInactive ips

/-- `newPointsNeeded` (source/system/DelaunayDsoInitializer.cpp:122-124) over the rationals. Without points left the quotient is
infinite or not a number; converting that, or a number too large, to `int` is undefined. -/
def newPointsNeeded (needed : Int) (total inTriang : Nat) : Except Fault Int :=
  if inTriang = 0 then .error .ub
  else
    let x : ℚ := needed * ((total : ℚ) / inTriang)
    let n : Int := if 0 ≤ x then ⌊x⌋ else ⌈x⌉
    if -2147483648 ≤ n ∧ n ≤ 2147483647 then .ok n else .error .ub

/-- The rest of the loop over `i` (source/system/DelaunayDsoInitializer.cpp:101-127) with `reselect` selections to come; `call n`
is what the next call of `select` but `reselect - n` returns. -/
noncomputable def rounds (S : Setup) (call : Nat → Int → List V2) :
    Nat → List Sector → List IPoint → Except Fault (List IPoint)
  | 0, st, ips => do
    let r := markSpherical S st ips
    let kept := eraseInactive r.1
    let _ ← newPointsNeeded S.pointsNeeded r.1.length kept.length
    .ok kept
  | reselect + 1, st, ips => do
    let r := markSpherical S st ips
    let kept := eraseInactive r.1
    let n ← newPointsNeeded S.pointsNeeded r.1.length kept.length
    rounds S call reselect r.2 (addImmatures S (call reselect n))

/-- `reselectCount` (source/system/DelaunayDsoInitializer.cpp:100). -/
def reselectCount : Nat := 1

/-- The spherical branch (source/system/DelaunayDsoInitializer.cpp:85-132): the points of the two keyframes. -/
noncomputable def createSpherical (S : Setup) (m0 m1 : Matched) : Except Fault (Option (List IPoint × List IPoint)) := do
  let rays0 ← depthedRays S m0
  let rays1 ← depthedRays S m1
  match ← newSectors S.env S.arrange S.s rays0 (S.order 0) S.fuel with
  | none => .ok none
  | some st0 => do
    match ← newSectors S.env S.arrange S.s rays1 (S.order 1) S.fuel with
    | none => .ok none
    | some st1 => do
      let l0 ← rounds S (fun i => S.select (2 + i)) reselectCount st0 (construct S 0)
      let l1 ← rounds S (fun i => S.select (2 + reselectCount + i)) reselectCount st1 (construct S 1)
      .ok (some (l0, l1))

/-- The points of the two keyframes `createKeyFrames` returns (source/system/DelaunayDsoInitializer.cpp:46-135); `none` if a
triangulation or a lookup does not end within `fuel` rounds. -/
noncomputable def createKeyFrames (S : Setup) (usePlainTriangulation : Bool) (m0 m1 : Matched) :
    Except Fault (Option (List IPoint × List IPoint)) :=
  if usePlainTriangulation then createPlain S m0 m1 else createSpherical S m0 m1

end Mdso.Init
