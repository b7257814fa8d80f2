import Verif.Model.Geometry
import Verif.Model.Geometry3
import Verif.Model.Pyramid
import Mathlib.Analysis.SpecialFunctions.Complex.Arg

/-!
# Model of `CameraModel`

Models `include/system/CameraModel.h` and `source/system/CameraModel.cpp` over the reals (floating-point rounding
is not modelled). `atan2(y, x)` is the argument of the complex number `x + i y`. `diffMap` (automatic
differentiation) is in `Model/DiffMap.lean`. Not modelled: logging.
-/

set_option autoImplicit false

namespace Mdso.Cam

open Mdso.Geom

/-- Eigen's `norm` of a `Vec2`. -/
noncomputable def norm2 (p : V2) : ℝ := Real.sqrt (sqNorm p)

open Classical in
/-- Eigen's `normalized` of a `Vec2`; the zero vector is returned as it is (Eigen 3.3, `Dot.h`). -/
noncomputable def normalized2 (p : V2) : V2 := if 0 < sqNorm p then (1 / norm2 p) • p else p

/-- `std::atan2`. -/
noncomputable def atan2 (y x : ℝ) : ℝ := Complex.arg ⟨x, y⟩

/-- The fields of `CameraModel` (include/system/CameraModel.h:144-153). `p0 :: ps` is `unmapPolyCoeffs`; an empty
vector is caught by the constructors as undefined behaviour. `unmapPolyDeg` is the number of coefficients, except
that the pinhole constructor sets it to 0 with one coefficient; it is only used as the bound of loops that start at
1, where 0 and 1 mean the same. `m0 :: ms` is `mapPolyCoeffs`. -/
structure Cam where
  width : Nat
  height : Nat
  p0 : ℝ
  ps : List ℝ
  center : V2
  scale : ℝ
  maxRadius : ℝ
  minZ : ℝ
  maxAngle : ℝ
  m0 : ℝ
  ms : List ℝ

/-! ## Projection -/

/-- The loop of `unmap` (include/system/CameraModel.h:44-49), two coefficients at a time. -/
def unmapLoop (rho1 rho2 : ℝ) : List ℝ → ℝ → ℝ → ℝ
  | [], _, z => z
  | [p], rhoN, z => z + rhoN * p
  | p :: q :: ps, rhoN, z => unmapLoop rho1 rho2 ps (rhoN * rho2) (z + rhoN * p + rhoN * rho1 * q)

/-- `unmap` (include/system/CameraModel.h:26-53). -/
noncomputable def unmap (c : Cam) (point : V2) : V3 :=
  let pt : V2 := ⟨point.x / c.scale, point.y / c.scale⟩ - c.center
  let rho2 := sqNorm pt
  let rho1 := Real.sqrt rho2
  ⟨pt.x, pt.y, unmapLoop rho1 rho2 c.ps rho2 c.p0⟩

/-- The loop of `calcUnmapPoly` (include/system/CameraModel.h:126-129) and, started with the first power, of
`calcMapPoly` and `map` (lines 135-138, 67-70). -/
def polyLoop (r : ℝ) : List ℝ → ℝ → ℝ → ℝ
  | [], _, res => res
  | p :: ps, rN, res => polyLoop r ps (rN * r) (res + p * rN)

/-- `calcUnmapPoly` (include/system/CameraModel.h:123-131). -/
def calcUnmapPoly (p0 : ℝ) (ps : List ℝ) (r : ℝ) : ℝ := polyLoop r ps (r * r) p0

/-- `calcMapPoly` (include/system/CameraModel.h:132-140). -/
def calcMapPoly (c : Cam) (funcVal : ℝ) : ℝ := polyLoop funcVal c.ms funcVal c.m0

/-- `map` (include/system/CameraModel.h:55-77). -/
noncomputable def map (c : Cam) (point : V3) : V2 :=
  let head : V2 := ⟨point.x, point.y⟩
  let angle := atan2 (norm2 head) point.z
  let r := polyLoop angle c.ms angle c.m0
  c.scale • (r • normalized2 head + c.center)

/-- `getImgCenter` (include/system/CameraModel.h:108). -/
def getImgCenter (c : Cam) : V2 := c.scale • c.center

/-- `getImgRadiusByAngle` (source/system/CameraModel.cpp:105-107). -/
def getImgRadiusByAngle (c : Cam) (observeAngle : ℝ) : ℝ := c.scale * calcMapPoly c observeAngle

/-- `isOnImage` (source/system/CameraModel.cpp:99-103); `AlignedBox::contains` includes both corners. -/
def isOnImage (c : Cam) (p : V2) (border : Int) : Prop :=
  (border : ℝ) ≤ p.x ∧ (border : ℝ) ≤ p.y ∧ p.x ≤ ((c.width : Int) - border : Int) ∧
    p.y ≤ ((c.height : Int) - border : Int)

/-! ## Construction -/

/-- The loop of `normalize` (source/system/CameraModel.cpp:74-77). -/
def scaleLoop (s : ℝ) : List ℝ → ℝ → List ℝ
  | [], _ => []
  | p :: ps, sK => p * sK :: scaleLoop s ps (sK * s)

/-- `newScale` (source/system/CameraModel.cpp:64-69): distance from the image center to the farthest corner. -/
noncomputable def farthestCorner (width height : Nat) (imcenter : V2) : ℝ :=
  max (max (norm2 ((⟨0, 0⟩ : V2) - imcenter)) (norm2 ((⟨width, 0⟩ : V2) - imcenter)))
    (max (norm2 ((⟨0, height⟩ : V2) - imcenter)) (norm2 ((⟨width, height⟩ : V2) - imcenter)))

/-- `normalize` (source/system/CameraModel.cpp:63-84). -/
noncomputable def normalize (c : Cam) : Cam :=
  let newScale := farthestCorner c.width c.height (c.scale • c.center)
  let s := newScale / c.scale
  let p0 := c.p0 * (c.scale / newScale)
  let ps := scaleLoop s c.ps s
  let maxRadius := 1
  let minZUnnorm := calcUnmapPoly p0 ps maxRadius
  { c with
    p0 := p0
    ps := ps
    center := ⟨c.center.x / s, c.center.y / s⟩
    scale := newScale
    maxRadius := maxRadius
    minZ := minZUnnorm / Real.sqrt (minZUnnorm * minZUnnorm + maxRadius * maxRadius)
    maxAngle := atan2 maxRadius minZUnnorm }

/-- An entry of `funcGraph` (source/system/CameraModel.cpp:147-149): radius and angle. -/
noncomputable def graphPoint (c : Cam) (r : ℝ) : ℝ × ℝ := (r, atan2 r (calcUnmapPoly c.p0 c.ps r))

/-- The check that the angles do not decrease (source/system/CameraModel.cpp:155-158). -/
def nonDecreasing : List (ℝ × ℝ) → Prop
  | a :: b :: rest => ¬ a.2 > b.2 ∧ nonDecreasing (b :: rest)
  | _ => True

open Classical in
/-- `setMapPolyCoeffs` (source/system/CameraModel.cpp:134-174). `samples` are the random radii, `solve` the
least-squares solver of Eigen, which gets the graph and the degree; see `IsLeastSquares`. Entries of the graph with
equal radii are equal, so sorting the radii first is the same. -/
noncomputable def setMapPolyCoeffs (solve : List (ℝ × ℝ) → Nat → ℝ × List ℝ) (deg : Nat) (samples : List ℝ)
    (c : Cam) : Except Fault Cam :=
  let funcGraph := (samples.mergeSort (fun a b => decide (a ≤ b))).map (graphPoint c)
  if nonDecreasing funcGraph then
    let m := solve funcGraph deg
    .ok { c with m0 := m.1, ms := m.2 }
  else .error .exception

/-- The constructor with polynomial (source/system/CameraModel.cpp:16-28). Fields that are set later are 0 at
first. -/
noncomputable def ofPoly (solve : List (ℝ × ℝ) → Nat → ℝ × List ℝ) (deg : Nat) (samples : List ℝ)
    (width height : Nat) (scale : ℝ) (center : V2) : List ℝ → Except Fault Cam
  | [] => .error .ub
  | p0 :: ps => setMapPolyCoeffs solve deg samples
      (normalize ⟨width, height, p0, ps, center, scale, 0, 0, 0, 0, []⟩)

/-- The pinhole constructor (source/system/CameraModel.cpp:45-61). -/
noncomputable def ofPinhole (solve : List (ℝ × ℝ) → Nat → ℝ × List ℝ) (deg : Nat) (samples : List ℝ)
    (width height : Nat) (f cx cy : ℝ) : Except Fault Cam :=
  setMapPolyCoeffs solve deg samples (normalize ⟨width, height, f, [], ⟨cx, cy⟩, 1, 0, 0, 0, 0, []⟩)

/-! ## Calibration file -/

/-- A token of the file, separated by white space: a number with a decimal point, an integer, or anything else. -/
inductive Tok
  | real (x : ℝ)
  | int (n : Int)
  | bad

/-- The content after the tag, as it is read. `ok` is false once a read has failed: later reads do nothing. -/
structure Stream where
  toks : List Tok
  ok : Bool

/-- `is >> x` for a `double`. `none`: the variable keeps its indeterminate value. An unreadable token sets it to 0
and the failure bit. -/
def readDouble (is : Stream) : Option ℝ × Stream :=
  if is.ok then
    match is.toks with
    | [] => (none, ⟨[], false⟩)
    | .real x :: rest => (some x, ⟨rest, true⟩)
    | .int n :: rest => (some n, ⟨rest, true⟩)
    | .bad :: rest => (some 0, ⟨.bad :: rest, false⟩)
  else (none, is)

open Classical in
/-- `is >> n` for an `int`. Of a number with a decimal point the digits before it are taken; the rest remains. -/
noncomputable def readInt (is : Stream) : Option Int × Stream :=
  if is.ok then
    match is.toks with
    | [] => (none, ⟨[], false⟩)
    | .real x :: rest => (some (Util.truncInt x), ⟨.real |x - Util.truncInt x| :: rest, true⟩)
    | .int n :: rest => (some n, ⟨rest, true⟩)
    | .bad :: rest => (some 0, ⟨.bad :: rest, false⟩)
  else (none, is)

/-- The loop over the coefficients (source/system/CameraModel.cpp:125-126). -/
def readCoeffs : Nat → Stream → List (Option ℝ)
  | 0, _ => []
  | n + 1, is => (readDouble is).1 :: readCoeffs n (readDouble is).2

/-- The numbers that `operator>>` reads (source/system/CameraModel.cpp:122-126): scale, center and coefficients.
The members start indeterminate, and are all used afterwards (lines 129 and 63-84): an indeterminate one is
undefined behaviour, as is an empty or negative number of coefficients. `maxRadius` and `minZ` (lines 128-130) are
overwritten by `normalize`. -/
noncomputable def readParams (toks : List Tok) : Except Fault (ℝ × V2 × List ℝ) :=
  let s1 := readDouble ⟨toks, true⟩
  let s2 := readDouble s1.2
  let s3 := readDouble s2.2
  let s4 := readInt s3.2
  match s1.1, s2.1, s3.1, s4.1 with
  | some scale, some cx, some cy, some n =>
    if n ≤ 0 then .error .ub
    else
      let cs := readCoeffs n.toNat s4.2
      if cs.all Option.isSome then .ok (scale, ⟨cx, cy⟩, cs.filterMap id) else .error .ub
  | _, _, _, _ => .error .ub

/-- The constructor from a file (source/system/CameraModel.cpp:30-43) with `operator>>` (lines 116-132). The file
is `none` if it cannot be opened, else its first word and the tokens after it. -/
noncomputable def ofFile (solve : List (ℝ × ℝ) → Nat → ℝ × List ℝ) (deg : Nat) (samples : List ℝ)
    (width height : Nat) (file : Option (String × List Tok)) : Except Fault Cam :=
  match file with
  | none => .error .exception
  | some (tag, toks) =>
    if tag ≠ "omnidirectional" then .error .exception
    else
      match readParams toks with
      | .error e => .error e
      | .ok (scale, center, cs) => ofPoly solve deg samples width height scale center cs

/-! ## Pyramids and undistortion -/

/-- Level `i` of `camPyr` (source/system/CameraModel.cpp:179-181). -/
noncomputable def atLevel (c : Cam) (i : Nat) : Cam :=
  { c with scale := c.scale / (2 ^ i : Nat), width := c.width / 2 ^ i, height := c.height / 2 ^ i }

/-- `camPyr` (source/system/CameraModel.cpp:176-185). The shift `1 << i` is undefined beyond the bits of `int`. -/
noncomputable def camPyr (c : Cam) (pyrLevels : Nat) : Except Fault (List Cam) :=
  if pyrLevels > 31 then .error .ub else .ok ((List.range pyrLevels).map (atLevel c))

open Classical in
/-- Conversion of a `double` to `int`: undefined outside its range. -/
noncomputable def toInt (x : ℝ) : Except Fault Int :=
  if -2147483649 < x ∧ x < 2147483648 then .ok (Util.truncInt x) else .error .ub

/-- The pixel written at row `y`, column `x` by `undistort` (include/system/CameraModel.h:94-99). -/
noncomputable def undistortAt (c : Cam) (img : Pyr.Img Nat) (kinv : M3) (y x : Nat) : Except Fault Nat :=
  let origPix := map c (kinv.mulVec ⟨x, y, 1⟩)
  match toInt origPix.x, toInt origPix.y with
  | .ok origX, .ok origY =>
    if origX ≥ 0 ∧ origX < img.cols ∧ origY ≥ 0 ∧ origY < img.rows then img.read origY.toNat origX.toNat
    else .ok 0
  | _, _ => .error .ub

/-- `undistort` (include/system/CameraModel.h:87-102) with the inverse of the camera matrix given. -/
noncomputable def undistort (c : Cam) (img : Pyr.Img Nat) (kinv : M3) : Except Fault (Pyr.Img Nat) :=
  Pyr.build img.rows img.cols (undistortAt c img kinv)

end Mdso.Cam
