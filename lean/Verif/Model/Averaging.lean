import Verif.Model.StereoGeometry

/-!
# Model of the averaging after RANSAC

Models `source/system/StereoGeometryEstimator.cpp:251-302` (`ReprojectionResidual`) and the problem that
`findPreciseMotion` (lines 316-341) hands to Ceres, over the reals. Ceres itself is a parameter.
-/

set_option autoImplicit false

namespace Mdso.Stereo

open Mdso.Geom Mdso.Cam

/-- The members of `ReprojectionResidual` apart from the camera (source/system/StereoGeometryEstimator.cpp:254-260,
304-307): `p`, `q`, `pMapped`, `qMapped`. -/
structure Residual where
  p : V3
  q : V3
  pMapped : V2
  qMapped : V2

open Classical in
/-- `operator()` (source/system/StereoGeometryEstimator.cpp:262-302): the first two and the last two residuals. -/
noncomputable def Residual.eval (r : Residual) (map : V3 → V2) (m : Motion3) : V2 × V2 :=
  let E := (hat m.t).mul m.rot
  let Ep := E.mulVec r.p
  let Etq := E.transpose.mulVec r.q
  if Ep.sqNorm < 1 / 10000 ∨ Etq.sqNorm < 1 / 10000 then (⟨0, 0⟩, ⟨0, 0⟩)
  else
    let pProj := r.p - (r.p.dot Etq / Etq.sqNorm) • Etq
    let qProj := r.q - (r.q.dot Ep / Ep.sqNorm) • Ep
    (map pProj - r.pMapped, map qProj - r.qMapped)

/-- What is handed to Ceres (source/system/StereoGeometryEstimator.cpp:318-341): the start, the residual blocks, and
the parameter of the Huber loss. The parameterizations keep the rotation a rotation and the length of the translation
1; that is an assumption about the solver where it is needed. -/
structure Averaging where
  map : V3 → V2
  start : Motion3
  blocks : List Residual
  huber : ℝ

/-- The residual block of an index (source/system/StereoGeometryEstimator.cpp:332-336). Reading outside the vectors is
undefined. -/
def blockOf (g : Estimator) (i : Nat) : Except Fault Residual :=
  match at' g.rays i with
  | .error f => .error f
  | .ok ray =>
    match at' g.imgCorresps i with
    | .error f => .error f
    | .ok img => .ok ⟨ray.1, ray.2, img.1, img.2⟩

/-- The loop over the inliers (source/system/StereoGeometryEstimator.cpp:331-338). -/
def blocksOf (g : Estimator) : List Nat → Except Fault (List Residual)
  | [] => .ok []
  | i :: is =>
    match blockOf g i with
    | .error f => .error f
    | .ok b =>
      match blocksOf g is with
      | .error f => .error f
      | .ok bs => .ok (b :: bs)

/-- The problem (source/system/StereoGeometryEstimator.cpp:318-338). -/
noncomputable def averaging (e : Env) (g : Estimator) : Except Fault Averaging :=
  match blocksOf g g.inliersInds with
  | .error f => .error f
  | .ok bs => .ok { map := e.map, start := g.motion, blocks := bs, huber := Real.sqrt 2 * e.s.outlierReprojError }

end Mdso.Stereo
