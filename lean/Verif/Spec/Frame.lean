import Verif.Model.Frame

/-!
# What is expected of new frames, keyframes and points
-/

set_option autoImplicit false

namespace Mdso.Frame

open Mdso.Geom

/-- The next index in a row of length `n`, or the index itself at the end of the row. -/
def next (n x : Nat) : Nat := if x + 1 < n then x + 1 else x

/-- The index before, or the index itself at the start of the row. -/
def before (x : Nat) : Nat := if 0 < x then x - 1 else x

/-- Half the difference of the two horizontal neighbours of a pixel. -/
noncomputable def slopeX (img : Pyr.Img Nat) (y x : Nat) : ℝ := ((img.px y (next img.cols x) : ℝ) - img.px y (before x)) / 2

/-- Half the difference of the two vertical neighbours of a pixel. -/
noncomputable def slopeY (img : Pyr.Img Nat) (y x : Nat) : ℝ := ((img.px (next img.rows y) x : ℝ) - img.px (before y) x) / 2

/-- The second picture shows the first with all brightnesses `v` replaced by `k v + b`. -/
def Relit (k b : ℝ) (img img' : Pyr.Img Nat) : Prop :=
  img'.rows = img.rows ∧ img'.cols = img.cols ∧ ∀ y x, y < img.rows → x < img.cols → (img'.px y x : ℝ) = k * img.px y x + b

/-- The second picture is the first one seen in a mirror. -/
def Mirrored (img img' : Pyr.Img Nat) : Prop :=
  img'.rows = img.rows ∧ img'.cols = img.cols ∧ ∀ y x, y < img.rows → x < img.cols → img'.px y x = img.px y (img.cols - 1 - x)

/-- Pixel `(y, x)` of the picture is the one the position lies on. -/
def LiesOn (img : Pyr.Img Nat) (pos : V2) (y x : Nat) : Prop :=
  y < img.rows ∧ x < img.cols ∧ (x : ℝ) ≤ pos.x ∧ pos.x < x + 1 ∧ (y : ℝ) ≤ pos.y ∧ pos.y < y + 1

/-- A sample shows a position of the picture: the direction of its ray, and brightness, gradient and direction of the gradient of the pixel it lies on. -/
def Shows (c : Cam.Cam) (img : Pyr.Img Nat) (pos : V2) (s : Sample) : Prop :=
  ∃ y x, LiesOn img pos y x ∧ s.direction = (Cam.unmap c pos).normalized ∧ s.intensity = img.px y x ∧
    s.grad = ⟨slopeX img y x, slopeY img y x⟩ ∧ (s.grad = ⟨0, 0⟩ → s.gradNorm = ⟨0, 0⟩) ∧
    (s.grad ≠ ⟨0, 0⟩ → sqNorm s.gradNorm = 1 ∧ ∃ k : ℝ, 0 < k ∧ s.gradNorm = k • s.grad)

/-- A frame made from the picture of a camera. -/
def FrameOf (c : Cam.Cam) (img : Pyr.Img Nat) (f : PreFrame) : Prop :=
  img.rows = c.height ∧ img.cols = c.width ∧ ∃ n, newPreFrame img n = .ok f

/-- Also on the far sides of the picture the border is kept. -/
def InsideBorder (c : Cam.Cam) (height : Int) (p : V2) : Prop := p.x + height < c.width ∧ p.y + height < c.height

/-- The nine pixels of the default pattern (source/util/settings.cpp:12-14). -/
def defaultPattern : List V2 := [⟨0, 0⟩, ⟨0, -2⟩, ⟨-1, -1⟩, ⟨1, -1⟩, ⟨-2, 0⟩, ⟨2, 0⟩, ⟨-1, 1⟩, ⟨1, 1⟩, ⟨0, 2⟩]

end Mdso.Frame
