import Verif.Model.Pyramid

/-!
# Points that share a pixel
-/

set_option autoImplicit false

namespace Mdso.PyrSpec

open Mdso.Pyr

/-- The point lies in the pixel of row `r` and column `c`. -/
def At (r c : Nat) (p : Pt) : Prop :=
  (c : ℝ) ≤ p.x ∧ p.x < (c : ℝ) + 1 ∧ (r : ℝ) ≤ p.y ∧ p.y < (r : ℝ) + 1

/-- The point lies in the picture. -/
def InPicture (rows cols : Nat) (p : Pt) : Prop := ∃ r c, r < rows ∧ c < cols ∧ At r c p

/-- Both points lie in one pixel. -/
def Share (p q : Pt) : Prop := ∃ r c, At r c p ∧ At r c q

/-- A picture of depths shows, where there are points, the nearest one: the one that hides the others. -/
def ShowsNearest (pts : List Pt) (px : Nat → Nat → ℝ) : Prop :=
  ∀ r c, ∀ p ∈ pts, At r c p → px r c ≤ p.d

end Mdso.PyrSpec
