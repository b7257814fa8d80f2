import Verif.Model.GenPly
import Verif.Spec.DataSet

/-!
# Specification of the ground truth clouds
-/

set_option autoImplicit false

namespace Mdso.GenPly

open Mdso.Geom Mdso.Reader Mdso.Ply

open Classical in
/-- The pixels (row, column) whose row and column are multiples of the step and whose depth is at most 10^10, row by row. -/
noncomputable def sampled (depths : Pyr.Img (Option ℝ)) (step : Nat) : List (Nat × Nat) :=
  (((List.range depths.rows).filter (fun y => step ∣ y)).flatMap fun y =>
      ((List.range depths.cols).filter (fun x => step ∣ x)).map fun x => (y, x)).filter
    fun p => ∃ d, depths.px p.1 p.2 = some d ∧ d ≤ 10 ^ 10

/-- The coloured point of a pixel: it lies on the ray of the pixel at the distance given by the depth, and has the colour of the pixel. -/
def PointOf (cam : Cam.Cam) (depths : Pyr.Img (Option ℝ)) (frame : Pyr.Img Vec3b) (px : Nat × Nat) (pt : V3 × Vec3b) : Prop :=
  ∃ (d : ℝ) (u : V3), depths.px px.1 px.2 = some d ∧ SameDirection u (Cam.unmap cam ⟨px.2, px.1⟩) ∧ u.norm = 1 ∧ pt.1 = d • u ∧
    frame.px px.1 px.2 = pt.2

/-- Number of points in all frames. -/
def total (t : Tables) : Nat := (t.points.map List.length).sum

/-- A frame that can be read completely: its files are there, every pixel has a depth and the picture is not smaller than the camera says. -/
def Readable {N : Type} (disk : Disk N (Pyr.Img Vec3b)) (r : MultiFovReader Motion3) (i : Int) : Prop :=
  ∃ depths frame, getDepths disk r i = .ok depths ∧ getFrame disk r i = .ok frame ∧
    (∀ y x, y < r.cam.height → x < r.cam.width → (depths.px y x).isSome) ∧ r.cam.height ≤ frame.rows ∧ r.cam.width ≤ frame.cols

end Mdso.GenPly
