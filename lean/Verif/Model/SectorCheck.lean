import Verif.Model.FillUncovered
import Verif.Model.DepthColour

/-!
# Model of the pictures of single sectors

Models `SphericalTriangulation::checkAllSectors` (source/util/SphericalTriangulation.cpp:98-129) and
`SphericalTerrain::drawDenseTriangle` (source/util/SphericalTerrain.cpp:49-64), over the reals. A drawing is the list of the calls
of `cv::circle` and `cv::line`; the messages of the log are left out. `cam->map` and `cam->unmap` are parameters.
-/

set_option autoImplicit false

namespace Mdso.Tri

open Mdso.Geom

/-- A call of `putDot` (source/util/util.cpp:134-136) or of `cv::line`, both in black. -/
inductive Mark where
  | dot (p : Pixel)
  | line (l : Line)

/-- The three sides of a sector (source/util/SphericalTriangulation.cpp:120-123). -/
noncomputable def outline (map : V3 → V2) (s : Sector) : List Line :=
  curve map s.r0 s.r1 ++ curve map s.r1 s.r2 ++ curve map s.r2 s.r0

/-- `SphericalTriangulation::checkAllSectors` (source/util/SphericalTriangulation.cpp:98-129), and so
`SphericalTerrain::checkAllSectors` (source/util/SphericalTerrain.cpp:29-32): what is drawn, and the new value of the static
variable `secDrawn`, which all triangulations of the process share. -/
noncomputable def checkAllSectors (L : Linear) (map : V3 → V2) (sectors : List Sector) (secDrawn : Bool) (ray : V3) :
    List Mark × Bool :=
  let sec := sectors.filter (inSector L ray)
  if sec.length > 1 then
    (.dot ⟨Util.truncInt (map ray).x, Util.truncInt (map ray).y⟩ ::
      (if secDrawn then [] else (sec.flatMap (outline map)).map .line), true)
  else ([], secDrawn)

/-- Checks of several directions one after the other. -/
noncomputable def checkMany (L : Linear) (map : V3 → V2) (sectors : List Sector) :
    Bool → List V3 → List (List Mark)
  | _, [] => []
  | drawn, r :: rs =>
    (checkAllSectors L map sectors drawn r).1 :: checkMany L map sectors (checkAllSectors L map sectors drawn r).2 rs

/-- A call of `putDot` with the colour of a depth (source/util/SphericalTerrain.cpp:62). -/
structure Dot where
  x : Nat
  y : Nat
  col : Option Util.Colour

/-- The loops of `drawDenseTriangle` (source/util/SphericalTerrain.cpp:53-63) over the positions `(x, y)`: the dots, and `_sectors`
afterwards. Sectors are compared by their keys, as they are kept in a map; `sec` is the key of the sector given. -/
noncomputable def denseLoop (L : Linear) (unmap : V2 → V3) (sec : Nat) (minDepth maxDepth : ℝ) :
    List (Nat × Nat) → List Sector → List Dot × List Sector
  | [], st => ([], st)
  | c :: cs, st =>
    let ray := unmap ⟨c.1, c.2⟩
    let found := enclosingSector L st ray
    if found.1.map Sector.key ≠ some sec then denseLoop L unmap sec minDepth maxDepth cs found.2
    else
      let answer := sphericalDepth L found.2 ray
      let rest := denseLoop L unmap sec minDepth maxDepth cs answer.2
      match answer.1 with
      | none => rest
      | some d => (⟨c.1, c.2, Util.depthCol d minDepth maxDepth⟩ :: rest.1, rest.2)

/-- `SphericalTerrain::drawDenseTriangle` (source/util/SphericalTerrain.cpp:49-64) on a picture of this size. -/
noncomputable def drawDenseTriangle (L : Linear) (unmap : V2 → V3) (rows cols : Nat) (sec : Nat) (minDepth maxDepth : ℝ)
    (sectors : List Sector) : List Dot × List Sector :=
  denseLoop L unmap sec minDepth maxDepth (cells rows cols 10) sectors

end Mdso.Tri
