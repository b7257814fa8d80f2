import Verif.Model.Activation
import Verif.Model.BundleAdjuster

/-!
# Points found to be bad
-/

set_option autoImplicit false

namespace Mdso.Bad.Spec

/-- A keyframe without the optimized points that are outliers or out of bounds. -/
def onlyGood (kf : Act.KeyFrame) : Act.KeyFrame := { kf with optimized := kf.optimized.filter fun op => op.state = .active }

/-- The number of optimized points that are outliers or out of bounds. -/
def badCount (kfs : List Act.KeyFrame) : Nat := (kfs.map fun kf => (kf.optimized.filter fun op => ¬ op.state = .active).length).sum

/-- A keyframe of the bundle adjuster with the marks of its points forgotten. -/
def unmarked (kf : BA.Kf) : BA.Kf := { kf with points := kf.points.map fun op => { op with state := .active } }

/-- The solver is not told the marks: they are no parameters of the problem. -/
def NotTold (solve : BA.Solver) : Prop := ∀ P : BA.Problem, solve { P with kfs := P.kfs.map unmarked } = solve P

end Mdso.Bad.Spec
