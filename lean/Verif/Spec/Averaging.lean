import Verif.Model.Averaging
import Verif.Spec.StereoGeometry

/-!
# What averaging after RANSAC is meant to minimize
-/

set_option autoImplicit false

namespace Mdso.StereoSpec

open Mdso.Geom Mdso.Cam Mdso.Stereo

/-- `w` is the vector nearest to `v` with the property `P`. -/
def IsNearest (P : V3 → Prop) (v w : V3) : Prop := P w ∧ ∀ w', P w' → (v - w).sqNorm ≤ (v - w').sqNorm

/-- The match is too close to an epipole of the motion: the motion says little about one of its rays. -/
def NearEpipole (e : Env) (m : Motion3) (c : V2 × V2) : Prop :=
  ((toEssential m).mulVec (rayOf e c.1)).sqNorm < 1 / 10000 ∨
    ((toEssential m).transpose.mulVec (rayOf e c.2)).sqNorm < 1 / 10000

/-- The match agrees with the motion exactly: its rays are in one plane with the translation. -/
def Exact (e : Env) (m : Motion3) (c : V2 × V2) : Prop :=
  (rayOf e c.2).dot ((toEssential m).mulVec (rayOf e c.1)) = 0

/-- The displacements of a match: from both pixels to the projections of the nearest rays that agree with the motion
and the other pixel. A match close to an epipole does not count. -/
def Displaced (e : Env) (m : Motion3) (c : V2 × V2) (d : V2 × V2) : Prop :=
  (NearEpipole e m c ∧ d = (⟨0, 0⟩, ⟨0, 0⟩)) ∨
  (¬ NearEpipole e m c ∧ ∃ w1 w2,
    IsNearest (fun w => (rayOf e c.2).dot ((toEssential m).mulVec w) = 0) (rayOf e c.1) w1 ∧
    IsNearest (fun w => w.dot ((toEssential m).mulVec (rayOf e c.1)) = 0) (rayOf e c.2) w2 ∧
    d = (e.map w1 - c.1, e.map w2 - c.2))

open Classical in
/-- Huber's loss of a squared length. -/
noncomputable def huber (δ s : ℝ) : ℝ := if s ≤ δ ^ 2 then s else 2 * δ * Real.sqrt s - δ ^ 2

/-- Squared length of a pair of displacements. -/
def sqLen (d : V2 × V2) : ℝ := d.1.x ^ 2 + d.1.y ^ 2 + d.2.x ^ 2 + d.2.y ^ 2

/-- `s` is the error of a motion on the matches `cs`: half the sum of the Huber losses of their displacements. -/
def HasError (e : Env) (m : Motion3) (cs : List (V2 × V2)) (s : ℝ) : Prop :=
  ∃ ds, List.Forall₂ (Displaced e m) cs ds ∧
    s = 1 / 2 * (ds.map fun d => huber (Real.sqrt 2 * e.s.outlierReprojError) (sqLen d)).sum

/-- What Ceres minimizes. -/
noncomputable def Averaging.cost (P : Averaging) (m : Motion3) : ℝ :=
  1 / 2 * (P.blocks.map fun b => huber P.huber (sqLen (b.eval P.map m))).sum

/-- What is assumed of `ceres::Solve` for these problems: the cost of the result is not larger than that of the start
(steps are monotonic by default). -/
def IsDescent (solve : Averaging → Motion3) : Prop :=
  ∀ P : Averaging, Averaging.cost P (solve P) ≤ Averaging.cost P P.start

/-- The solver of the estimator is `solve`, called with the problem the estimator builds. -/
def CallsSolver (e : Env) (corr : List (V2 × V2)) (solve : Averaging → Motion3) : Prop :=
  ∀ g P, g.imgCorresps = corr → g.rays = corr.map (fun c => (rayOf e c.1, rayOf e c.2)) →
    averaging e g = .ok P → e.solve g.motion g.inliersInds = solve P

/-- The matches with the given indices. -/
def matchesAt (corr : List (V2 × V2)) (inds : List Nat) : List (V2 × V2) := inds.filterMap fun i => corr[i]?

end Mdso.StereoSpec
