import Verif.Spec.Initializer

/-!
# How many of the selected pixels a terrain reports a depth for
-/

set_option autoImplicit false

namespace Mdso.Init.Spec

open Mdso.Geom Mdso.Tri Mdso.Init

/-- The number of the pixels that are far enough from the border and for which a depth is reported, if they are looked up one after another; pixels too
close to the border are not looked up. -/
noncomputable def inside (S : Setup) : List Sector → List V2 → Nat
  | _, [] => 0
  | st, p :: ps =>
    if S.onPatch p then
      (if (sphericalDepth S.L st (S.unmap p)).1 = none then 0 else 1) + inside S (lookedUp S.L st [S.unmap p]) ps
    else inside S st ps

/-- The terrain after these lookups. -/
noncomputable def afterwards (S : Setup) (st : List Sector) (ps : List V2) : List Sector := lookedUp S.L st ((ps.filter S.onPatch).map S.unmap)

/-- What becomes of a frame whose terrain has the sectors `init`: of the pixels `first` some are inside; `n` pixels are asked for again, in the proportion of
all to those inside, rounded down; and those of `second n` that are inside are the positions of the points `l`. -/
def SelectedAgain (S : Setup) (init : List Sector) (first : List V2) (second : Int → List V2) (l : List IPoint) : Prop :=
  ∃ n : Int, 0 < inside S init first ∧
    n * (inside S init first) ≤ S.pointsNeeded * first.length ∧ S.pointsNeeded * first.length < (n + 1) * inside S init first ∧
    (l.map (·.p)).Sublist (second n) ∧ l.length = inside S (afterwards S init first) (second n)

end Mdso.Init.Spec
