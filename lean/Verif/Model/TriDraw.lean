import Verif.Model.Terrain
import Verif.Model.DepthColour
import Mathlib.Analysis.SpecialFunctions.Trigonometric.Inverse

/-!
# Model of the drawing of triangulations

Models `source/util/Triangulation.cpp:593-672` and `source/util/SphericalTriangulation.cpp:70-96, 150-162, 170-190`. What is drawn is the list of the calls of
`cv::line` with the pixels at their ends; how a line is put into a picture is not modelled. Results of `double` arithmetic are real numbers, infinite ones and
NaN are `none`, and converting these to `int` is undefined. The camera is a parameter. So is the order in which the elements of an `unordered_set` are visited.
-/

set_option autoImplicit false

namespace Mdso.Tri

open Mdso.Geom

/-- A pixel (`cv::Point`). -/
structure Pixel where
  x : Int
  y : Int
deriving DecidableEq

/-- A call of `cv::line`. -/
structure Line where
  a : Pixel
  b : Pixel
deriving DecidableEq

/-- The edges met by the two outer loops of `drawScaled` and `drawCurved` that are not skipped by their first test
(source/util/Triangulation.cpp:619-622, 664-667): the edges of each vertex, in the order of its set. -/
def visited (order : Finset Nat → List Nat) (t : Triangulation) : List Nat :=
  (([0, 1, 2] ++ t.verts).flatMap fun v => order (t.mesh.vE v)).filter fun e => !(isBound (t.mesh.ev e 0) || isBound (t.mesh.ev e 1))

/-- The rest of the loop body in `drawScaled` (source/util/Triangulation.cpp:623-625) with `edgesDrawn`: the edges for which `cv::line` is called. -/
def unseen : List Nat → List Nat → List Nat
  | [], _ => []
  | e :: es, edgesDrawn => if e ∈ edgesDrawn then unseen es edgesDrawn else e :: unseen es (e :: edgesDrawn)

/-- The rest of the loop body in `drawCurved` (source/util/Triangulation.cpp:668-670), which looks into `edgesDrawn`, too. -/
def unseenCurved : List Nat → List Nat → List Nat
  | [], _ => []
  | e :: es, edgesDrawn => if e ∈ edgesDrawn then unseenCurved es edgesDrawn else e :: unseenCurved es edgesDrawn

/-- `int(x)` for a number that may be infinite. -/
noncomputable def toInt : Option ℝ → Except Fault Int
  | some x => .ok (Util.truncInt x)
  | none => .error .ub

/-- `toCvPoint` with scales and shift (source/util/util.cpp:209-213). A product with a scale that is infinite is infinite or NaN. -/
noncomputable def toCvPoint (v : V2) (scaleX scaleY : Option ℝ) (shift : Pixel) : Except Fault Pixel := do
  let x ← toInt (scaleX.map fun s => v.x * s)
  let y ← toInt (scaleY.map fun s => v.y * s)
  .ok ⟨x + shift.x, y + shift.y⟩

/-- The two pixels and the call of `cv::line` for an edge (source/util/Triangulation.cpp:626-630). -/
noncomputable def scaledLine (t : Triangulation) (pos : Nat → V2) (upperLeft : V2) (scaleX scaleY : Option ℝ) (shift : Pixel) (e : Nat) :
    Except Fault Line := do
  let a ← toCvPoint (pos (t.mesh.ev e 0) - upperLeft) scaleX scaleY shift
  let b ← toCvPoint (pos (t.mesh.ev e 1) - upperLeft) scaleX scaleY shift
  .ok ⟨a, b⟩

/-- The lines of a list of edges, in this order. -/
noncomputable def scaledLines (t : Triangulation) (pos : Nat → V2) (upperLeft : V2) (scaleX scaleY : Option ℝ) (shift : Pixel) :
    List Nat → Except Fault (List Line)
  | [] => .ok []
  | e :: es => do
    let l ← scaledLine t pos upperLeft scaleX scaleY shift e
    let ls ← scaledLines t pos upperLeft scaleX scaleY shift es
    .ok (l :: ls)

/-- `drawScaled` (source/util/Triangulation.cpp:613-632). -/
noncomputable def drawScaled (order : Finset Nat → List Nat) (t : Triangulation) (pos : Nat → V2) (upperLeft : V2) (scaleX scaleY : Option ℝ)
    (shift : Pixel) : Except Fault (List Line) :=
  scaledLines t pos upperLeft scaleX scaleY shift (unseen (visited order t) [])

open Classical in
/-- A quotient of `double`s with a numerator that is not zero: infinite for the denominator zero. The numerator zero, for a picture without pixels, is treated
in the same way. -/
noncomputable def quotient (a b : ℝ) : Option ℝ := if b = 0 then none else some (a / b)

/-- `upperLeft` (source/util/Triangulation.cpp:38). -/
noncomputable def upperLeft (points : List V2) : V2 := ⟨lowest V2.x points, lowest V2.y points⟩

/-- `bottomRight` (source/util/Triangulation.cpp:39). -/
noncomputable def bottomRight (points : List V2) : V2 := ⟨highest V2.x points, highest V2.y points⟩

/-- `draw(imgWidth, imgHeight, ...)` (source/util/Triangulation.cpp:593-607). -/
noncomputable def draw (drawPadding : ℝ) (order : Finset Nat → List Nat) (t : Triangulation) (points : List V2) (pos : Nat → V2) (imgWidth imgHeight : Nat) :
    Except Fault (List Line) :=
  let diag : V2 := (1 + 2 * drawPadding) • (bottomRight points - upperLeft points)
  let scaleX := quotient imgWidth diag.y
  let scaleY := quotient imgHeight diag.x
  let startFrom : Pixel := ⟨Util.truncInt (drawPadding * imgWidth), Util.truncInt (drawPadding * imgHeight)⟩
  drawScaled order t pos (upperLeft points) scaleX scaleY startFrom

/-- `draw(img, edgeCol)` (source/util/Triangulation.cpp:609-611) with `toCvPoint` (source/util/util.cpp:207). -/
noncomputable def drawOn (order : Finset Nat → List Nat) (t : Triangulation) (points : List V2) (pos : Nat → V2) : Except Fault (List Line) :=
  drawScaled order t pos (upperLeft points) (some 1) (some 1)
    ⟨Util.truncInt (upperLeft points).x, Util.truncInt (upperLeft points).y⟩

open Classical in
/-- `SO3::exp(v) * r`: the rotation about the axis `v` by the angle `|v|`, by the formula of Rodrigues. -/
noncomputable def rotate (v r : V3) : V3 :=
  if v.norm = 0 then r
  else Real.cos v.norm • r + (Real.sin v.norm / v.norm) • v.cross r + ((1 - Real.cos v.norm) / (v.norm * v.norm) * v.dot r) • v

/-- `rayCur` in the round `it` (source/util/Triangulation.cpp:641-648, source/util/SphericalTriangulation.cpp:82-89) for unit vectors. -/
noncomputable def rayAt (rayFrom rayTo : V3) (it : Nat) : V3 :=
  let fullAngle := Real.arccos (rayFrom.dot rayTo)
  let axis := (rayFrom.cross rayTo).normalized
  rotate ((fullAngle * it / 50) • axis) rayFrom

/-- `pnts[it]` for unit vectors (source/util/Triangulation.cpp:649, source/util/SphericalTriangulation.cpp:91). -/
noncomputable def curvePoint (map : V3 → V2) (rayFrom rayTo : V3) (it : Nat) : Pixel :=
  ⟨Util.truncInt (map (rayAt rayFrom rayTo it)).x, Util.truncInt (map (rayAt rayFrom rayTo it)).y⟩

/-- The lines of `drawCurvedInternal` for two rays (source/util/SphericalTriangulation.cpp:70-96). -/
noncomputable def curve (map : V3 → V2) (rayFrom rayTo : V3) : List Line :=
  (List.range 50).map fun it =>
    ⟨curvePoint map rayFrom.normalized rayTo.normalized it, curvePoint map rayFrom.normalized rayTo.normalized (it + 1)⟩

/-- `drawCurved` (source/util/Triangulation.cpp:634-672): `drawCurvedInternal` for two points is the same as the function for their rays. -/
noncomputable def drawCurved (order : Finset Nat → List Nat) (t : Triangulation) (pos : Nat → V2) (unmap : V2 → V3) (map : V3 → V2) : List (List Line) :=
  (unseenCurved (visited order t) []).map fun e => curve map (unmap (pos (t.mesh.ev e 0))) (unmap (pos (t.mesh.ev e 1)))

/-- A sector as `SphericalTriangulation::draw` sees it: the numbers of its rays in `_rays`, which are in the order of their addresses. -/
structure SectorRays where
  i : Fin 3 → Nat

/-- The pair of pointers, ordered (source/util/SphericalTriangulation.cpp:180-183). -/
def side (s : SectorRays) (i : Fin 3) : Nat × Nat :=
  if s.i i > s.i (i + 1) then (s.i (i + 1), s.i i) else (s.i i, s.i (i + 1))

/-- The loops of `SphericalTriangulation::draw` (source/util/SphericalTriangulation.cpp:178-187) with `edgesDrawn`: the pairs of rays for which a curve is
drawn. -/
def sphericalSides : List (Nat × Nat) → List (Nat × Nat) → List (Nat × Nat)
  | [], _ => []
  | p :: ps, edgesDrawn => if p ∈ edgesDrawn then sphericalSides ps edgesDrawn else p :: sphericalSides ps (p :: edgesDrawn)

/-- The pairs in the order of the loops. -/
def allSides (sectors : List SectorRays) : List (Nat × Nat) := sectors.flatMap fun s => [side s 0, side s 1, side s 2]

/-- `SphericalTriangulation::draw` (source/util/SphericalTriangulation.cpp:170-190). A ray that is missing cannot be pointed to. -/
noncomputable def sphericalDraw (map : V3 → V2) (rays : List V3) (sectors : List SectorRays) : List (List Line) :=
  (sphericalSides (allSides sectors) []).map fun p => curve map (rays.getD p.1 0) (rays.getD p.2 0)

/-- `isInConvexDummy` (source/util/SphericalTriangulation.cpp:150-162). -/
noncomputable def isInConvexDummy (L : Linear) (rays : List V3) (ray : V3) : Bool :=
  rays.any fun r0 => rays.any fun r1 => rays.any fun r2 => inSector L ray ⟨0, r0, r1, r2⟩

end Mdso.Tri
