import Verif.Model.StereoGeometry

/-!
# Specification: relative motion of two views
-/

set_option autoImplicit false

namespace Mdso.StereoSpec

open Mdso.Geom Mdso.Cam Mdso.Stereo

/-- Orthogonal matrix. -/
def IsOrthogonal (m : M3) : Prop := m.mul m.transpose = M3.one

/-- Rotation matrix. -/
def IsRotation (m : M3) : Prop := IsOrthogonal m ∧ m.det = 1

/-- Rigid motion with a translation of length one. -/
def IsUnitMotion (m : Motion3) : Prop := IsRotation m.rot ∧ m.t.sqNorm = 1

/-- The motion `m` has the essential matrix `E`, which is determined up to a factor. -/
def HasEssential (m : Motion3) (E : M3) : Prop := ∃ c : ℝ, c ≠ 0 ∧ toEssential m = M3.scale c E

/-- Diagonal matrix. -/
def diag (a b c : ℝ) : M3 := ⟨⟨a, 0, 0⟩, ⟨0, b, 0⟩, ⟨0, 0, c⟩⟩

/-- What a singular value decomposition gives. -/
def IsSvd (E U V : M3) : Prop :=
  IsOrthogonal U ∧ IsOrthogonal V ∧
    ∃ s1 s2 s3 : ℝ, s1 ≥ s2 ∧ s2 ≥ s3 ∧ s3 ≥ 0 ∧ E = (U.mul (diag s1 s2 s3)).mul V.transpose

/-- The decomposition called gives orthogonal matrices, and for essential matrices is a singular value
decomposition. -/
def SvdCorrect (e : Env) : Prop :=
  ∀ E : M3, IsOrthogonal (e.svd E).1 ∧ IsOrthogonal (e.svd E).2 ∧
    ((∃ m, IsUnitMotion m ∧ HasEssential m E) → IsSvd E (e.svd E).1 (e.svd E).2)

/-- The matrices found by the five-point solver are essential matrices of motions. -/
def SolverCorrect (e : Env) : Prop :=
  ∀ pairs : List (V3 × V3), ∀ E ∈ e.solve5 pairs, ∃ m : Motion3, IsUnitMotion m ∧ HasEssential m E

/-- Every drawing gives five indices of correspondences. -/
def Drawn (n : Nat) (samples : Nat → List Nat) : Prop :=
  ∀ it, (samples it).length = 5 ∧ ∀ i ∈ samples it, i < n

/-- The unit ray through a pixel. -/
noncomputable def rayOf (e : Env) (px : V2) : V3 := (e.unmap px).normalized

/-- `w` is the ray `v` moved into the plane with normal `n`; a ray with a normal of length at most 0.01, which is a
ray close to an epipole, is left as it is. -/
def Corrected (n v w : V3) : Prop :=
  (n.sqNorm ≤ 1 / 10000 ∧ w = v) ∨ (1 / 10000 < n.sqNorm ∧ n.dot w = 0 ∧ ∃ c : ℝ, v = w + c • n)

/-- The correspondence agrees with the essential matrix: in one of the images, the pixel is closer to the image of the
corrected ray than the threshold. -/
def Fits (e : Env) (E : M3) (c : V2 × V2) : Prop :=
  ∃ w1 w2 : V3, Corrected (E.transpose.mulVec (rayOf e c.2)) (rayOf e c.1) w1 ∧
    Corrected (E.mulVec (rayOf e c.1)) (rayOf e c.2) w2 ∧
    (norm2 (e.map w1 - c.1) < e.s.outlierReprojError ∨ norm2 (e.map w2 - c.2) < e.s.outlierReprojError)

/-- Both triangulated depths are positive. -/
def Front (e : Env) (m : Motion3) (c : V2 × V2) : Prop :=
  0 < (e.tri m (rayOf e c.1) (rayOf e c.2)).1 ∧ 0 < (e.tri m (rayOf e c.1) (rayOf e c.2)).2

open Classical in
/-- The indices, in increasing order, of the correspondences with the property `P`. -/
noncomputable def indices (corr : List (V2 × V2)) (P : V2 × V2 → Prop) : List Nat :=
  (List.range corr.length).filter fun i => decide (∃ c, corr[i]? = some c ∧ P c)

/-- The inliers of a motion with the given essential matrix. -/
noncomputable def inliers (e : Env) (corr : List (V2 × V2)) (E : M3) (m : Motion3) : List Nat :=
  indices corr fun c => Fits e E c ∧ Front e m c

/-- The pairs of rays of the sample, by increasing index, second frame first. -/
def SamplePairs (e : Env) (corr : List (V2 × V2)) (sample : List Nat) (pairs : List (V3 × V3)) : Prop :=
  ∃ inds : List Nat, inds.Perm sample ∧ inds.Pairwise (· < ·) ∧
    List.Forall₂ (fun i p => ∃ c, corr[i]? = some c ∧ p = (rayOf e c.2, rayOf e c.1)) inds pairs

/-- `E` is the hypothesis considered for the sample: among the matrices found for it, the first of those with which
most correspondences agree. -/
def IsHypothesis (e : Env) (corr : List (V2 × V2)) (sample : List Nat) (E : M3) : Prop :=
  ∃ pairs before after, SamplePairs e corr sample pairs ∧ e.solve5 pairs = before ++ E :: after ∧
    (∀ E' ∈ before, (indices corr (Fits e E')).length < (indices corr (Fits e E)).length) ∧
    (∀ E' ∈ after, (indices corr (Fits e E')).length ≤ (indices corr (Fits e E)).length)

end Mdso.StereoSpec
