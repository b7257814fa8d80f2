import Verif.Model.Geometry

/-!
# Planar geometry, independently of the code

The only thing used from the model is the type `V2` of points with coordinates.
-/

set_option autoImplicit false

namespace Mdso.GeomSpec
open Mdso.Geom (V2)

/-- The three points do not lie on a line: no affine combination of two of them is the third, and the two
differ. -/
def Proper (a b c : V2) : Prop :=
  a ≠ b ∧ ∀ t : ℝ, ¬ (c.x = a.x + t * (b.x - a.x) ∧ c.y = a.y + t * (b.y - a.y))

/-- `p` is a convex combination of the corners. -/
def InTriangle (a b c p : V2) : Prop :=
  ∃ s t u : ℝ, 0 ≤ s ∧ 0 ≤ t ∧ 0 ≤ u ∧ s + t + u = 1 ∧
    p.x = s * a.x + t * b.x + u * c.x ∧ p.y = s * a.y + t * b.y + u * c.y

/-- Squared distance. -/
def d2 (p q : V2) : ℝ := (p.x - q.x) ^ 2 + (p.y - q.y) ^ 2

/-- `o` is the centre of a circle through the three points. -/
def Circumcentre (a b c o : V2) : Prop := d2 o a = d2 o b ∧ d2 o b = d2 o c

/-- The point dividing the segment from `a` to `b` in the ratio `t : 1 - t`. -/
def along (a b : V2) (t : ℝ) : V2 := ⟨a.x + t * (b.x - a.x), a.y + t * (b.y - a.y)⟩

/-- The closed segments have a common point. -/
def Meet (a b c d : V2) : Prop :=
  ∃ s t : ℝ, 0 ≤ s ∧ s ≤ 1 ∧ 0 ≤ t ∧ t ≤ 1 ∧ along a b s = along c d t

/-- The segments cross: they are not parallel and have a common point inside both. -/
def Cross (a b c d : V2) : Prop :=
  (∃ s t : ℝ, 0 < s ∧ s < 1 ∧ 0 < t ∧ t < 1 ∧ along a b s = along c d t) ∧
    (b.x - a.x) * (d.y - c.y) ≠ (b.y - a.y) * (d.x - c.x)

end Mdso.GeomSpec
