import Verif.Model.TriDraw
import Verif.Model.Pyramid

/-!
# Model of `SphericalTriangulation::fillUncovered`

Models `source/util/SphericalTriangulation.cpp:131-148`. The messages of the log are left out, and so is the overflow of `img.rows * img.cols` in
one of them. `cam->unmap` is a parameter.
-/

set_option autoImplicit false

namespace Mdso.Tri

open Mdso.Geom

/-- `cv::rectangle(img, Point(x, y), Point(x + step, y + step), fillCol, FILLED)` (source/util/SphericalTriangulation.cpp:145-146): both corners belong to
the rectangle; what is outside the picture is clipped. -/
def fillCell {α : Type} (img : Pyr.Img α) (x y step : Nat) (col : α) : Pyr.Img α :=
  { img with px := fun v u => if x ≤ u ∧ u ≤ x + step ∧ y ≤ v ∧ v ≤ y + step then col else img.px v u }

/-- The corners of the cells in the order of the loops (source/util/SphericalTriangulation.cpp:137-138): pairs (x, y), row by row. -/
def cells (rows cols step : Nat) : List (Nat × Nat) :=
  (List.range ((rows + (step - 1)) / step)).flatMap fun j => (List.range ((cols + (step - 1)) / step)).map fun i => (i * step, j * step)

/-- `fillUncovered` (source/util/SphericalTriangulation.cpp:131-148). -/
noncomputable def fillUncovered {α : Type} (L : Linear) (rays : List V3) (unmap : V2 → V3) (img : Pyr.Img α) (fillCol : α) : Pyr.Img α :=
  (cells img.rows img.cols 10).foldl
    (fun img c => if isInConvexDummy L rays (unmap ⟨c.1, c.2⟩) then fillCell img c.1 c.2 10 fillCol else img) img

end Mdso.Tri
