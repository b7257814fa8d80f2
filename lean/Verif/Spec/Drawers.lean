import Verif.Model.Drawers
import Verif.Spec.FrameTracker

/-!
# What the debug pictures of the tracker should show
-/

set_option autoImplicit false

namespace Mdso.Drawers.Spec

open Mdso.Geom Mdso.Util Mdso.Track

/-- The square of half size `s` around the pixel `(cy, cx)` contains the pixel `(y, x)`. -/
def InSquare (s : Nat) (cy cx : Int) (y x : Nat) : Prop :=
  cx - s ≤ x ∧ x ≤ cx + s ∧ cy - s ≤ y ∧ y ≤ cy + s

/-- `col` is the colour of the last item that covers something, and `background` if there is none. -/
def Shows {α : Type} (items : List α) (covers : α → Prop) (colour : α → Option Colour) (background col : Option Colour) : Prop :=
  (∃ before item after, items = before ++ item :: after ∧ covers item ∧ (∀ a ∈ after, ¬ covers a) ∧ col = colour item) ∨
    ((∀ a ∈ items, ¬ covers a) ∧ col = background)

/-- A grey value as a colour. -/
def grey (v : Nat) : Option Colour := some ⟨v, v, v⟩

/-- The half size of squares on a picture: the given part of the mean of width and height, rounded down. -/
noncomputable def halfSize (rel : ℝ) (w h : Nat) : Nat := ⌊rel * ((w : ℝ) + h) / 2⌋₊

/-- What a file of the depth pyramid should show for one level: every pixel has the colour of the depth of the last pixel, in reading order,
that has a depth and whose square covers it; otherwise the picture is unchanged. -/
def DepthPicture (rel : ℝ) (cb : ColBounds) (img : Pyr.Img Nat) (depths : Pyr.Img ℝ) (p : Picture) : Prop :=
  p.rows = img.rows ∧ p.cols = img.cols ∧ ∀ y x, y < img.rows → x < img.cols →
    Shows (pixels depths.rows depths.cols)
      (fun q => 0 < depths.px q.1 q.2 ∧ InSquare (halfSize rel img.cols img.rows) q.1 q.2 y x)
      (fun q => depthCol (depths.px q.1 q.2) cb.minDepthCol cb.maxDepthCol) (grey (img.px y x)) (p.px y x)

/-- The numbers of the frames whose poll comes directly after a new base frame, with this base frame and the colour bounds of that moment. -/
def fresh : List PyrOp → List (Int × ColBounds × BaseFrame)
  | .base cb b :: .poll n :: rest => (n, cb, b) :: fresh rest
  | _ :: rest => fresh rest
  | [] => []

end Mdso.Drawers.Spec
