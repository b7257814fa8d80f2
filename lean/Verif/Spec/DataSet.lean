import Verif.Model.DataSet
import Verif.Spec.CameraModel

/-!
# Specification of the files of a data set
-/

set_option autoImplicit false

namespace Mdso.Reader

open Mdso.Geom

/-- A token that stands for a number. -/
inductive Denotes : Cam.Tok → ℝ → Prop
  | real (x : ℝ) : Denotes (.real x) x
  | int (n : Int) : Denotes (.int n) n

/-- Two rays point the same way. -/
def SameDirection (u v : V3) : Prop := ∃ k : ℝ, 0 < k ∧ u = k • v

/-- The ray that the calibration of the data set gives a pixel: its position relative to the center, and a polynomial of the distance `ρ` from it with
the five coefficients of the file. The camera looks along the negative third axis. -/
noncomputable def sensorRay (center : V2) (a0 a1 a2 a3 a4 : ℝ) (p : V2) : V3 :=
  let ρ := CamSpec.len ⟨p.x - center.x, p.y - center.y⟩
  ⟨p.x - center.x, p.y - center.y, -(a0 + a1 * ρ + a2 * ρ ^ 2 + a3 * ρ ^ 3 + a4 * ρ ^ 4)⟩

end Mdso.Reader
