import Verif.Spec.StereoGeometry

/-!
# Specification: the two views exchanged
-/

set_option autoImplicit false

namespace Mdso.StereoSpec

open Mdso.Geom Mdso.Cam Mdso.Stereo

/-- The correspondences with the second picture as the first one. -/
def exchanged (corr : List (V2 × V2)) : List (V2 × V2) := corr.map Prod.swap

/-- The motion from the second view to the first. -/
def back (m : Motion3) : Motion3 := ⟨m.rot.transpose, -(m.rot.transpose.mulVec m.t)⟩

/-- With this motion, the two rays of no correspondence are parallel. -/
def Clear (e : Env) (corr : List (V2 × V2)) (m : Motion3) : Prop :=
  ∀ c ∈ corr, (m.rot.mulVec (rayOf e c.1)).cross (rayOf e c.2) ≠ 0

/-- The correspondences decide which of the motions with the essential matrix `E` is meant: some correspondence agrees with `E`, rays are not parallel, and one motion
has more inliers than any other. -/
structure Decided (e : Env) (corr : List (V2 × V2)) (E : M3) : Prop where
  fits : indices corr (Fits e E) ≠ []
  clear : ∀ m, IsUnitMotion m → HasEssential m E → Clear e corr m
  best : ∃ m, IsUnitMotion m ∧ HasEssential m E ∧
    ∀ m', IsUnitMotion m' → HasEssential m' E → m' = m ∨ (inliers e corr E m').length < (inliers e corr E m).length

/-- The five-point solver treats both views alike: with the rays of every pair exchanged, it finds the transposed matrices. -/
def SolverFair (e : Env) : Prop :=
  ∀ pairs : List (V3 × V3), e.solve5 (pairs.map Prod.swap) = (e.solve5 pairs).map M3.transpose

/-- Every sample drawn leads to matrices, and with each of them the motion is decided. -/
def AllDecided (e : Env) (corr : List (V2 × V2)) (samples : Nat → List Nat) : Prop :=
  ∀ it pairs, SamplePairs e corr (samples it) pairs → e.solve5 pairs ≠ [] ∧ ∀ E ∈ e.solve5 pairs, Decided e corr E

/-- The estimator of the exchanged views. -/
def mirror (g : Estimator) : Estimator :=
  { g with
    imgCorresps := g.imgCorresps.map Prod.swap
    rays := g.rays.map Prod.swap
    depths := g.depths.map Prod.swap
    motion := back g.motion }

end Mdso.StereoSpec
