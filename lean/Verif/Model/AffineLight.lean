import Mathlib.Analysis.SpecialFunctions.Exp

/-!
# Model of `AffineLightTransform`

Models `include/system/AffineLightTransform.h` over the reals (floating-point rounding is not modelled).
-/

set_option autoImplicit false

namespace Mdso.Light

/-- `data[2]` (include/system/AffineLightTransform.h:51). -/
@[ext] structure AffLight where
  a : ℝ
  b : ℝ

/-- Default constructor (include/system/AffineLightTransform.h:11-12). -/
def AffLight.identity : AffLight := ⟨0, 0⟩

/-- `operator()` (include/system/AffineLightTransform.h:21-23). -/
noncomputable def AffLight.apply (l : AffLight) (x : ℝ) : ℝ := Real.exp l.a * (x + l.b)

/-- `operator*` (include/system/AffineLightTransform.h:25-30). -/
noncomputable def AffLight.mul (first second : AffLight) : AffLight :=
  ⟨first.a + second.a, Real.exp second.a * second.b + first.b⟩

/-- `inverse` (include/system/AffineLightTransform.h:32-34). -/
noncomputable def AffLight.inverse (l : AffLight) : AffLight := ⟨-l.a, -l.b * Real.exp (-l.a)⟩

/-- `normalizeMultiplier` (include/system/AffineLightTransform.h:36-41): the pair
`(toNormalize, relative)` after the call. -/
noncomputable def normalizeMultiplier (toNormalize relative : AffLight) : AffLight × AffLight :=
  (⟨0, toNormalize.b⟩, ⟨relative.a - toNormalize.a, relative.b⟩)

/-- The residual of bundle adjustment for one point (source/system/BundleAdjuster.cpp:71-84): the light
transforms of the two keyframes are normalized, then applied to the two intensities. -/
noncomputable def lightResidual (baseAffLight refAffLight : AffLight)
    (baseIntensity trackedIntensity : ℝ) : ℝ :=
  let n := normalizeMultiplier refAffLight baseAffLight
  n.1.apply trackedIntensity - n.2.apply baseIntensity

end Mdso.Light
