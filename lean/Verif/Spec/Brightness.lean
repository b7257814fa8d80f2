import Verif.Model.ImmaturePoint

/-!
# Specification for C179: the same scene in another light

Two pictures are taken; one of them shows a point that is traced on the other. Now both pictures are taken with other settings of brightness
and contrast: every intensity `v` of the first picture becomes `f v`, every intensity `v` of the second picture becomes `γ * v + δ`, so
that its gradients become `γ` times as long.
-/

set_option autoImplicit false

namespace Mdso.Relit

open Mdso.Geom Mdso.Trace

/-- What `traceOn` reads, with both pictures taken in the other light. `light'` is the new light transform between the pictures, and the threshold between
small and big differences of intensities is measured in the new unit. -/
noncomputable def relight (f light' : ℝ → ℝ) (γ δ : ℝ) (e : Env) : Env :=
  { e with
    s := { e.s with outlierDiff := γ * e.s.outlierDiff }
    baseIntencities := e.baseIntencities.map f
    light := light'
    interp := fun l x => (γ * (e.interp l x).1 + δ, γ • (e.interp l x).2) }

/-- The new light transform takes the new pixels of the patch to where the old one took the old ones. -/
def Follows (f light' : ℝ → ℝ) (γ δ : ℝ) (e : Env) : Prop :=
  ∀ b ∈ e.baseIntencities, light' (f b) = γ * e.light b + δ

/-- A point whose recorded energies (sums of squared differences of intensities) are in the new unit. Everything else is the same. -/
noncomputable def recount (γ : ℝ) (p : Point) : Point :=
  { p with
    lastEnergy := p.lastEnergy.map fun x => γ ^ 2 * x
    eBeforeSubpixel := p.eBeforeSubpixel.map fun x => γ ^ 2 * x
    eAfterSubpixel := p.eAfterSubpixel.map fun x => x.map fun y => γ ^ 2 * y }

end Mdso.Relit
