import Verif.Model.TriDraw
import Verif.Spec.Terrain

/-!
# What drawings of triangulations should show
-/

set_option autoImplicit false

namespace Mdso.Tri.Spec

open Mdso.Geom Mdso.Tri

/-- A way to visit sets: every element once. -/
def Visits (order : Finset Nat → List Nat) : Prop := ∀ S, (order S).Nodup ∧ ∀ e, e ∈ order S ↔ e ∈ S

/-- The pixel is on a picture of width `w` and height `h`: in the horizontal direction, in the vertical one. -/
def InWidth (w : Nat) (p : Pixel) : Prop := 0 ≤ p.x ∧ p.x < w
def InHeight (h : Nat) (p : Pixel) : Prop := 0 ≤ p.y ∧ p.y < h

/-- The pixel that contains a position: rounded towards zero. -/
def PixelOf (v : V2) (p : Pixel) : Prop := p.x = Util.truncInt v.x ∧ p.y = Util.truncInt v.y

/-- The unit vector `r` divides the shortest arc from `a` to `b` in the ratio of `s` to `1 - s`. -/
def OnArc (a b : V3) (s : ℝ) (r : V3) : Prop :=
  r.sqNorm = 1 ∧ a.dot r = Real.cos (s * Real.arccos (a.dot b)) ∧ r.dot b = Real.cos ((1 - s) * Real.arccos (a.dot b)) ∧ r.dot (a.cross b) = 0

/-- The two rays of a side of a sector, the one with the lower number first. -/
def IsSide (sectors : List SectorRays) (p : Nat × Nat) : Prop :=
  p.1 ≤ p.2 ∧ ∃ s ∈ sectors, ∃ i j : Fin 3, i ≠ j ∧ p.1 = s.i i ∧ p.2 = s.i j

/-- The ray is a sum of nonnegative multiples of three of the given rays. -/
def InHull (rays : List V3) (ray : V3) : Prop :=
  ∃ a ∈ rays, ∃ b ∈ rays, ∃ c ∈ rays, ∃ x y z : ℝ, 0 ≤ x ∧ 0 ≤ y ∧ 0 ≤ z ∧ ray = x • a + y • b + z • c

/-- What `fullPivHouseholderQr().solve` computes in exact arithmetic for three equal columns: the matrix has rank 1, one of the coefficients is the least
squares solution for one column and the others are 0. -/
def Basic (L : Linear) : Prop := ∀ r q : V3, r ≠ 0 →
  L.solve r r r q = ⟨r.dot q / r.sqNorm, 0, 0⟩ ∨ L.solve r r r q = ⟨0, r.dot q / r.sqNorm, 0⟩ ∨ L.solve r r r q = ⟨0, 0, r.dot q / r.sqNorm⟩

/-- The lines of a drawing belong to the edges: there is exactly one for each edge between two points, and `shown v p` holds for the vertices `v` at its ends
and the pixels `p` where it ends. -/
def EachOnce (t : Triangulation) (lines : List Line) (shown : Nat → Pixel → Prop) : Prop :=
  ∃ es : List Nat, es.Perm (edges t) ∧ List.Forall₂ (fun e l => shown (t.mesh.ev e 0) l.a ∧ shown (t.mesh.ev e 1) l.b) es lines

/-- The extent of the points in the direction of `f`. -/
noncomputable def extent (f : V2 → ℝ) (points : List V2) : ℝ := highest f points - lowest f points

end Mdso.Tri.Spec
