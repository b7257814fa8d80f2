import Verif.Model.FrameTracker
import Verif.Spec.Frame

/-!
# Specification for C180: tracking in brighter and darker pictures
-/

set_option autoImplicit false

namespace Mdso.Relit

open Mdso.Geom Mdso.Light

/-- The second picture shows the first one, brighter by `b` (darker, if `b` is negative). -/
def Brighter (b : ℝ) (img img' : Pyr.Img Nat) : Prop := Frame.Relit 1 b img img'

/-- The interpolation of pictures follows their brightness: in a picture brighter by `b` every interpolated value is brighter by `b`. -/
def InterpFollows (interp : Pyr.Img Nat → Track.Interp) : Prop :=
  ∀ b img img', Brighter b img img' → 0 < img.rows → 0 < img.cols → ∀ y x, interp img' y x = interp img y x + b

/-- The light transform from a tracked picture that is brighter by `δ` to a base picture that is brighter by `β`. -/
noncomputable def shiftLight (δ β : ℝ) (l : AffLight) : AffLight := ⟨l.a, l.b - δ + β * Real.exp (-l.a)⟩

/-- Two problems of tracking with the same residuals, the second one for a tracked picture brighter by `δ` and a base picture brighter by `β`: places, weights
and loss are the same, and so are the start values. Either the light transform is not optimized, or only the tracked picture is brighter, and the bounds of the
light transform have been moved accordingly. -/
structure SameView (δ β : ℝ) (P P' : Track.Problem) : Prop where
  cam : P'.cam = P.cam
  tracked : ∀ y x, P'.trackedFrame y x = P.trackedFrame y x + δ
  blocks : P'.blocks = P.blocks.map fun b => { b with baseIntensity := b.baseIntensity + β }
  motion : P'.motion = P.motion
  affLight : P'.affLight = shiftLight δ β P.affLight
  lightConstant : P'.lightConstant = P.lightConstant
  huber : P'.huber = P.huber
  bounds : P.lightConstant = true ∨
    (β = 0 ∧ P'.minA = P.minA ∧ P'.maxA = P.maxA ∧ P'.minB = P.minB - δ ∧ P'.maxB = P.maxB - δ)

/-- A solver that treats two such problems alike. -/
def LightFair (solve : Track.Solver) : Prop :=
  ∀ δ β P P', SameView δ β P P' → solve P' = ((solve P).1, shiftLight δ β (solve P).2)

/-- What an observer of tracking is told: the light transform belongs to the brighter pictures, the rest is the same. -/
noncomputable def shiftEvent (δ β : ℝ) : Track.Event → Track.Event
  | .levelTracked r => .levelTracked { r with affLight := shiftLight δ β r.affLight }
  | e => e

/-- The settings with the bounds of the additive part of the light transform moved by `-δ`. -/
noncomputable def shiftBounds (δ : ℝ) (s : Track.Settings) : Track.Settings :=
  { s with minAffineLightB := s.minAffineLightB - δ, maxAffineLightB := s.maxAffineLightB - δ }

/-- Settings for pictures brighter by `δ` and `β` that belong to given ones: the same, if the light transform is not optimized; otherwise the bounds are
moved and the base picture has to be the same. -/
def SettingsFor (δ β : ℝ) (s s' : Track.Settings) : Prop :=
  (s.optimizeAffineLight = false ∧ s' = s) ∨ (β = 0 ∧ s' = shiftBounds δ s)

end Mdso.Relit
