import Verif.Model.Terrain
import Verif.Spec.Triangulation

/-!
# What a terrain reports
-/

set_option autoImplicit false

namespace Mdso.Tri.Spec

open Mdso.Geom Mdso.Tri

/-- What Eigen's decompositions compute in exact arithmetic: a regular system is solved, and the last column of the
orthogonal factor is a unit vector orthogonal to the columns of the matrix. -/
structure Exact (L : Linear) : Prop where
  solve : ∀ a b c r, det3 a b c ≠ 0 →
    (L.solve a b c r).x • a + (L.solve a b c r).y • b + (L.solve a b c r).z • c = r
  orthogonal : ∀ a b c, (L.plane a b c).1.dot a + (L.plane a b c).2 = 0 ∧
    (L.plane a b c).1.dot b + (L.plane a b c).2 = 0 ∧ (L.plane a b c).1.dot c + (L.plane a b c).2 = 0
  unit : ∀ a b c, (L.plane a b c).1.sqNorm + (L.plane a b c).2 * (L.plane a b c).2 = 1

/-- `d` is the affine function that takes the values `d0`, `d1`, `d2` at `a`, `b`, `c`, evaluated at `p`. -/
def Interpolates (a b c : V2) (d0 d1 d2 : ℝ) (p : V2) (d : ℝ) : Prop :=
  ∃ x y z : ℝ, x + y + z = 1 ∧ p = x • a + y • b + z • c ∧ d = x * d0 + y * d1 + z * d2

/-- `q` is a convex combination of `a`, `b`, `c`: a point of the flat triangle between them. -/
def OnTriangle (a b c q : V3) : Prop :=
  ∃ x y z : ℝ, 0 ≤ x ∧ 0 ≤ y ∧ 0 ≤ z ∧ x + y + z = 1 ∧ q = x • a + y • b + z • c

/-- An order in which a map may hold its keys. -/
def Arrangement (arrange : List Nat → List Nat) : Prop := ∀ l, (arrange l).Perm l

end Mdso.Tri.Spec
