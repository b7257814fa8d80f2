import Verif.Model.DrawTracing

/-!
# What the picture of a search should show
-/

set_option autoImplicit false

namespace Mdso.TraceDraw.Spec

open Mdso.Geom Mdso.Util Mdso.Tri Mdso.TraceDraw

/-- The direction of the curve at its place `i`: to the next position, at the last one from the position before it. -/
def IsTangent (found : List (V2 × ℝ)) (i : Nat) (t : V2) : Prop :=
  ∃ p q : V2 × ℝ, t = q.1 - p.1 ∧
    ((found[i]? = some p ∧ found[i + 1]? = some q) ∨ (i + 1 = found.length ∧ 0 < i ∧ found[i - 1]? = some p ∧ found[i]? = some q))

/-- The pixel a position is in, with the coordinates cut off toward zero. -/
def IsPixelOf (px : Pixel) (v : V2) : Prop := px.x = truncInt v.x ∧ px.y = truncInt v.y

/-- The stroke connects the pixels of two positions: their middle is `p`, the line between them is perpendicular to `t`, and they are
`len` apart, or equal to `p` if `t` vanishes. -/
def IsAcross (s : Stroke) (p t : V2) (len : ℝ) : Prop :=
  ∃ a b : V2, IsPixelOf s.a a ∧ IsPixelOf s.b b ∧ a.x + b.x = 2 * p.x ∧ a.y + b.y = 2 * p.y ∧
    (a.x - b.x) * t.x + (a.y - b.y) * t.y = 0 ∧
    (t ≠ ⟨0, 0⟩ → (a.x - b.x) ^ 2 + (a.y - b.y) ^ 2 = len ^ 2) ∧ (t = ⟨0, 0⟩ → a = p ∧ b = p)

/-- The place `i` has the least energy, and no place before it has the same. -/
def IsBest (found : List (V2 × ℝ)) (i : Nat) : Prop :=
  ∃ p, found[i]? = some p ∧ ∀ (j : Nat) (q : V2 × ℝ), found[j]? = some q → p.2 ≤ q.2 ∧ (j < i → p.2 < q.2)

/-- The least and the greatest energy. -/
def IsRange (found : List (V2 × ℝ)) (lo hi : ℝ) : Prop :=
  (∃ p ∈ found, p.2 = lo) ∧ (∃ p ∈ found, p.2 = hi) ∧ ∀ p ∈ found, lo ≤ p.2 ∧ p.2 ≤ hi

/-- The colour for an energy: from red at `lo` over green in the middle to blue at `hi`. -/
def IsRamp (lo hi e : ℝ) (c : Colour) : Prop :=
  (∀ t : ℝ, 0 ≤ t → t ≤ 1 → e = lo + t * ((hi - lo) / 2) → c = ⟨0, 255 * t, 255 * (1 - t)⟩) ∧
    ∀ t : ℝ, 0 ≤ t → t ≤ 1 → e = (lo + hi) / 2 + t * ((hi - lo) / 2) → c = ⟨255 * t, 255 * (1 - t), 0⟩

end Mdso.TraceDraw.Spec
