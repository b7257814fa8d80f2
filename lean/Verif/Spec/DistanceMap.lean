import Mathlib.Data.Real.Basic
import Mathlib.Algebra.Order.Archimedean.Real.Basic

/-!
# Specification of the distance map
-/

set_option autoImplicit false

namespace Mdso.DistMapSpec

/-- City-block distance of two cells. -/
def manhattan (a b : Int × Int) : Nat := (a.1 - b.1).natAbs + (a.2 - b.2).natAbs

/-- `d` is the distance from `c` to the nearest of the seeds, or `top` if there is none that near. -/
def IsNearest (top : Nat) (seeds : List (Int × Int)) (c : Int × Int) (d : Nat) : Prop :=
  d ≤ top ∧ (∀ s ∈ seeds, d ≤ manhattan s c) ∧ (d = top ∨ ∃ s ∈ seeds, manhattan s c = d)

/-- The point lies on a picture of the given size. -/
def OnImage (width height : Nat) (p : ℝ × ℝ) : Prop := 0 ≤ p.1 ∧ p.1 < width ∧ 0 ≤ p.2 ∧ p.2 < height

/-- The cell of a point when `n`×`n` pixels form one cell. -/
noncomputable def cell (n : Nat) (p : ℝ × ℝ) : Int × Int := (⌊p.1 / n⌋, ⌊p.2 / n⌋)

/-- The cell lies on a map of the given size. -/
def InMap (w h : Nat) (c : Int × Int) : Prop := 0 ≤ c.1 ∧ c.1 < w ∧ 0 ≤ c.2 ∧ c.2 < h

/-- `n` is the smallest power of two that is at least `x`. -/
def IsLeastPow (n x : Nat) : Prop := (∃ k, n = 2 ^ k) ∧ x ≤ n ∧ ∀ k, x ≤ 2 ^ k → n ≤ 2 ^ k

end Mdso.DistMapSpec
