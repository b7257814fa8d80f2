import Verif.Model.Triangulation
import Verif.Model.Terrain

/-!
# What a Delaunay triangulation is
-/

set_option autoImplicit false

namespace Mdso.Tri.Spec

open Mdso.Geom Mdso.Tri

/-- There is a circle through `a`, `b` and `c` with no point of the list inside it. -/
def EmptyCircle (points : List V2) (a b c : V2) : Prop :=
  ∃ (o : V2) (d : ℝ), sqNorm (a - o) = d ∧ sqNorm (b - o) = d ∧ sqNorm (c - o) = d ∧ ∀ p ∈ points, d ≤ sqNorm (p - o)

/-- The point `q` is in the convex hull of the points: every half plane that contains them contains it. -/
def InConvexHull (points : List V2) (q : V2) : Prop :=
  ∀ α β γ : ℝ, (∀ p ∈ points, 0 ≤ α * p.x + β * p.y + γ) → 0 ≤ α * q.x + β * q.y + γ

/-- No four of the points are on a circle. -/
def NoFourOnCircle (points : List V2) : Prop :=
  ∀ (i j k l : Nat) (p q r u : V2), i ≠ j → i ≠ k → i ≠ l → j ≠ k → j ≠ l → k ≠ l → points[i]? = some p →
    points[j]? = some q → points[k]? = some r → points[l]? = some u →
    ¬∃ (o : V2) (d : ℝ), sqNorm (p - o) = d ∧ sqNorm (q - o) = d ∧ sqNorm (r - o) = d ∧ sqNorm (u - o) = d

/-- The vertices of points `i`, `j` and `k`, as returned by `operator[]`, are those of one of the `triangles()`. -/
def Joined (t : Triangulation) (i j k : Nat) : Prop :=
  ∃ a b c, get t i = .ok a ∧ get t j = .ok b ∧ get t k = .ok c ∧
    ∃ n ∈ triangles t, ∀ v, (∃ s, t.mesh.tv n s = v) ↔ v = a ∨ v = b ∨ v = c

/-- The directions `a`, `b` and `c` lie on a circle of the unit sphere, the direction opposite to the optical axis and all
given directions on it or on the same side of it. -/
def EmptyCap (rays : List V3) (a b c : V3) : Prop :=
  ∃ (w : V3) (d : ℝ), w.dot a.normalized = d ∧ w.dot b.normalized = d ∧ w.dot c.normalized = d ∧
    (∀ r ∈ rays, w.dot r.normalized ≤ d) ∧ w.dot ⟨0, 0, -1⟩ < d

/-- The optical axis is in the convex cone of the rays: every half space that contains them contains it. -/
def AroundAxis (rays : List V3) : Prop := ∀ w : V3, (∀ r ∈ rays, w.dot r ≤ 0) → w.dot ⟨0, 0, 1⟩ ≤ 0

/-- No four of the directions are on a circle of the unit sphere. -/
def NoFourOnPlane (rays : List V3) : Prop :=
  ∀ (i j k l : Nat) (p q r u : V3), i ≠ j → i ≠ k → i ≠ l → j ≠ k → j ≠ l → k ≠ l → rays[i]? = some p →
    rays[j]? = some q → rays[k]? = some r → rays[l]? = some u →
    ¬∃ (w : V3) (d : ℝ), w ≠ 0 ∧ w.dot p.normalized = d ∧ w.dot q.normalized = d ∧ w.dot r.normalized = d ∧
      w.dot u.normalized = d

/-- The direction is on no side of the trihedral angle between the three rays: if it is in the closed angle, it is in the
open one. -/
def OffSides (a b c dir : V3) : Prop :=
  ∀ x y z : ℝ, 0 ≤ x → 0 ≤ y → 0 ≤ z → dir = x • a + y • b + z • c → 0 < x ∧ 0 < y ∧ 0 < z

end Mdso.Tri.Spec
