import Verif.Model.Geometry
import Verif.Model.Vec3
import Mathlib.Analysis.SpecialFunctions.Trigonometric.Inverse
import Mathlib.Algebra.BigOperators.Fin

/-!
# Specification of the camera model

The omnidirectional model: a pixel, divided by the scale and taken relative to the center, is the x and y of its
ray, and the z of the ray is `p0 + p1 ρ² + p2 ρ³ + ...`, where `ρ` is the distance from the center.
-/

set_option autoImplicit false

namespace Mdso.CamSpec

open Mdso.Geom

/-- Length of a planar vector. -/
noncomputable def len (p : V2) : ℝ := Real.sqrt (p.x ^ 2 + p.y ^ 2)

/-- Distance of two points of the plane. -/
noncomputable def distance (p q : V2) : ℝ := Real.sqrt ((p.x - q.x) ^ 2 + (p.y - q.y) ^ 2)

/-- `p0 + p1 ρ² + p2 ρ³ + ...`. -/
noncomputable def depthPoly (p0 : ℝ) (ps : List ℝ) (ρ : ℝ) : ℝ :=
  p0 + ∑ i ∈ Finset.range ps.length, ps.getD i 0 * ρ ^ (i + 2)

/-- `m0 + m1 t + m2 t² + ...`. -/
noncomputable def poly (m0 : ℝ) (ms : List ℝ) (t : ℝ) : ℝ :=
  m0 + ∑ i ∈ Finset.range ms.length, ms.getD i 0 * t ^ (i + 1)

/-- A pixel relative to the center, in units of the scale. -/
noncomputable def normalisedPixel (scale : ℝ) (center : V2) (p : V2) : V2 :=
  ⟨p.x / scale - center.x, p.y / scale - center.y⟩

/-- The ray of a pixel. -/
noncomputable def ray (scale : ℝ) (center : V2) (p0 : ℝ) (ps : List ℝ) (p : V2) : V3 :=
  let q := normalisedPixel scale center p
  ⟨q.x, q.y, depthPoly p0 ps (len q)⟩

/-- The angle between a ray and the axis of the camera, between 0 and π. -/
noncomputable def angleToAxis (v : V3) : ℝ := Real.arccos (v.z / Real.sqrt (v.x ^ 2 + v.y ^ 2 + v.z ^ 2))

/-- Distance from a point to the farthest corner of a picture. -/
noncomputable def farRadius (w h : Nat) (k : V2) : ℝ :=
  max (max (distance ⟨0, 0⟩ k) (distance ⟨w, 0⟩ k)) (max (distance ⟨0, h⟩ k) (distance ⟨w, h⟩ k))

/-- What is assumed of the least-squares solver: the polynomial it returns has the degree asked for, and the sum of
its squared errors over the graph of (value, argument) pairs is least. -/
def IsLeastSquares (solve : List (ℝ × ℝ) → Nat → ℝ × List ℝ) : Prop :=
  ∀ graph deg, (solve graph deg).2.length = deg ∧ ∀ (m0 : ℝ) (ms : List ℝ), ms.length = deg →
    (graph.map fun g => (poly (solve graph deg).1 (solve graph deg).2 g.2 - g.1) ^ 2).sum
      ≤ (graph.map fun g => (poly m0 ms g.2 - g.1) ^ 2).sum

end Mdso.CamSpec
