import Verif.Model.Geometry3
import Verif.Model.CameraModel
import Verif.Model.DepthColour
import Mathlib.Analysis.SpecialFunctions.Pow.Real
import Mathlib.Analysis.SpecialFunctions.Log.Basic

/-!
# Model of `StereoGeometryEstimator`

Models `source/system/StereoGeometryEstimator.cpp` over the reals (floating-point rounding is not modelled).
The five-point solver, Eigen's singular value decomposition, the random numbers, the camera and Ceres are
parameters. Logging is left out. The vectors of `inlierVectorsPool` only save allocations: each is emptied before it
is used or copied empty, and is left out (`curInliersInds` of findCoarseMotion is overwritten by every
`findInliersEssential`).
-/

set_option autoImplicit false

namespace Mdso.Stereo

open Mdso.Geom Mdso.Cam

/-- Transposed matrix. -/
def _root_.Mdso.Geom.M3.transpose (m : M3) : M3 :=
  ⟨⟨m.r0.x, m.r1.x, m.r2.x⟩, ⟨m.r0.y, m.r1.y, m.r2.y⟩, ⟨m.r0.z, m.r1.z, m.r2.z⟩⟩

/-- Determinant. -/
def _root_.Mdso.Geom.M3.det (m : M3) : ℝ := m.r0.dot (m.r1.cross m.r2)

/-- Matrix times number. -/
def _root_.Mdso.Geom.M3.scale (c : ℝ) (m : M3) : M3 := ⟨c • m.r0, c • m.r1, c • m.r2⟩

/-- The identity. -/
def _root_.Mdso.Geom.M3.one : M3 := ⟨⟨1, 0, 0⟩, ⟨0, 1, 0⟩, ⟨0, 0, 1⟩⟩

/-- `SE3()`. -/
def _root_.Mdso.Geom.Motion3.one : Motion3 := ⟨M3.one, ⟨0, 0, 0⟩⟩

/-- `Settings::StereoMatcher::StereoGeometryEstimator` (include/util/settings.h:54-73); `minimalSolveN` is 5. -/
structure Settings where
  outlierReprojError : ℝ
  successProb : ℝ
  maxRansacIter : Int
  runMaxRansacIter : Bool

/-- What the estimator calls: the camera, `triangulate` (`Geom.triangulate` where that has a unique solution, the
choice of Eigen's QR solver elsewhere), the five-point solver (at most ten matrices for five pairs of rays), the
matrices `U` and `V` of Eigen's singular value decomposition, and the motion that Ceres returns, given the start and
the indices of the residuals. -/
structure Env where
  s : Settings
  map : V3 → V2
  unmap : V2 → V3
  tri : Motion3 → V3 → V3 → ℝ × ℝ
  solve5 : List (V3 × V3) → List M3
  svd : M3 → M3 × M3
  solve : Motion3 → List Nat → Motion3

/-- The members of `StereoGeometryEstimator` (include/system/StereoGeometryEstimator.h:30-41). -/
structure Estimator where
  imgCorresps : List (V2 × V2)
  rays : List (V3 × V3)
  depths : List (ℝ × ℝ)
  inliersInds : List Nat
  motion : Motion3
  coarseFound : Bool
  preciseFound : Bool
  depthsEvaluated : Bool

/-- The constructor (source/system/StereoGeometryEstimator.cpp:20-39). -/
noncomputable def create (e : Env) (imgCorresps : List (V2 × V2)) : Estimator where
  imgCorresps := imgCorresps
  rays := imgCorresps.map fun c => ((e.unmap c.1).normalized, (e.unmap c.2).normalized)
  depths := imgCorresps.map fun _ => (0, 0)
  inliersInds := []
  motion := Motion3.one
  coarseFound := false
  preciseFound := false
  depthsEvaluated := false

open Classical in
/-- The subtraction of the component along the normal (source/system/StereoGeometryEstimator.cpp:67-72). -/
noncomputable def project (ray normal : V3) : V3 :=
  if normal.sqNorm > 1 / 10000 then ray - (ray.dot normal / normal.sqNorm) • normal else ray

/-- `reprojectionError` (source/system/StereoGeometryEstimator.cpp:62-78). -/
noncomputable def reprojectionError (e : Env) (E : M3) (img : V2 × V2) (ray : V3 × V3) : ℝ :=
  let err1 := norm2 (e.map (project ray.1 (E.transpose.mulVec ray.2)) - img.1)
  let err2 := norm2 (e.map (project ray.2 (E.mulVec ray.1)) - img.2)
  if err2 < err1 then err2 else err1

open Classical in
/-- The test of `findInliersEssential` for one index (source/system/StereoGeometryEstimator.cpp:86-87). Indices are
below `rays.size()`, and `imgCorresps` has the same size. -/
noncomputable def fitsEssential (e : Env) (g : Estimator) (E : M3) (i : Nat) : Bool :=
  match g.imgCorresps[i]?, g.rays[i]? with
  | some img, some ray => decide (reprojectionError e E img ray < e.s.outlierReprojError)
  | _, _ => false

/-- `findInliersEssential` (source/system/StereoGeometryEstimator.cpp:80-93): the new `inliersInds`; the result is its
length. -/
noncomputable def findInliersEssential (e : Env) (g : Estimator) (E : M3) : List Nat :=
  (List.range g.rays.length).filter (fitsEssential e g E)

open Classical in
/-- The test of `findInliersMotion` for one index (source/system/StereoGeometryEstimator.cpp:101-102). -/
noncomputable def inFront (e : Env) (g : Estimator) (motion : Motion3) (i : Nat) : Bool :=
  match g.rays[i]? with
  | some ray => decide ((e.tri motion ray.1 ray.2).1 > 0 ∧ (e.tri motion ray.1 ray.2).2 > 0)
  | none => false

/-- `findInliersMotion` (source/system/StereoGeometryEstimator.cpp:95-108): the new `inliersInds`. -/
noncomputable def findInliersMotion (e : Env) (g : Estimator) (motion : Motion3) (inds : List Nat) : List Nat :=
  inds.filter (inFront e g motion)

/-- The matrix `W` (source/system/StereoGeometryEstimator.cpp:122-127). -/
def W : M3 := ⟨⟨0, -1, 0⟩, ⟨1, 0, 0⟩, ⟨0, 0, 1⟩⟩

/-- `solutions` (source/system/StereoGeometryEstimator.cpp:114-132). The constructor of `SE3` from a matrix checks that
it is a rotation, which is proved. -/
def solutions (e : Env) (E : M3) : List Motion3 :=
  let U := M3.scale (e.svd E).1.det (e.svd E).1
  let V := M3.scale (e.svd E).2.det (e.svd E).2
  let t : V3 := ⟨U.r0.z, U.r1.z, U.r2.z⟩
  let R1 := (U.mul W).mul V.transpose
  let R2 := (U.mul W.transpose).mul V.transpose
  [⟨R1, t⟩, ⟨R1, -t⟩, ⟨R2, t⟩, ⟨R2, -t⟩]

/-- The loop of `extractMotion` (source/system/StereoGeometryEstimator.cpp:148-160): `bestSol` and `bestInliersInds`,
whose length is `bestFrontPointsNum`. -/
noncomputable def bestSolution (e : Env) (g : Estimator) (inds : List Nat) :
    List Motion3 → Motion3 × List Nat → Motion3 × List Nat
  | [], best => best
  | sol :: sols, best =>
    let cur := findInliersMotion e g sol inds
    bestSolution e g inds sols (if cur.length > best.2.length then (sol, cur) else best)

/-- `extractMotion` (source/system/StereoGeometryEstimator.cpp:110-168): the motion and the new `inliersInds`, whose
length is `newInliers`. -/
noncomputable def extractMotion (e : Env) (g : Estimator) (E : M3) (inds : List Nat) : Motion3 × List Nat :=
  bestSolution e g inds (solutions e E) (Motion3.one, [])

/-- The local variables of `findCoarseMotion` that live across iterations
(source/system/StereoGeometryEstimator.cpp:179-193), with `_inliersInds`. Entries of `results` never written are
indeterminate (`none`). -/
structure Loop where
  results : List (Option M3)
  bestInliers : Int
  bestInliersInds : List Nat
  inliersInds : List Nat
  bestMotion : Motion3
  iterNum : Int
  q : ℝ

/-- `est.estimate` writes the matrices found to the beginning of `results`
(source/system/StereoGeometryEstimator.cpp:209). -/
def overwrite (results : List (Option M3)) (found : List M3) : List (Option M3) :=
  found.map some ++ results.drop found.length

/-- The loop over the matrices found (source/system/StereoGeometryEstimator.cpp:210-219): `maxInliers`,
`maxInliersInd`, `bestInliersInds`. -/
noncomputable def bestEssential (e : Env) (g : Estimator) : Nat → List M3 → Nat × Nat × List Nat → Nat × Nat × List Nat
  | _, [], best => best
  | i, E :: Es, best =>
    let cur := findInliersEssential e g E
    bestEssential e g (i + 1) Es (if cur.length > best.1 then (cur.length, i, cur) else best)

/-- `std::log(1 - p) / std::log(1 - std::pow(curQ, N))` cast to `long long`
(source/system/StereoGeometryEstimator.cpp:231-233). With `curQ = 1` the denominator is minus infinity and the
quotient 0; in Lean, dividing by `log 0 = 0` gives 0 as well. -/
noncomputable def newIterNum (p curQ : ℝ) : Int := Util.truncInt (Real.log (1 - p) / Real.log (1 - curQ ^ 5))

/-- The first value of `q` (source/system/StereoGeometryEstimator.cpp:193). -/
noncomputable def firstQ (p : ℝ) (iterNum : Int) : ℝ :=
  (1 - (1 - p) ^ (1 / (iterNum : ℝ))) ^ ((1 : ℝ) / 5)

/-- `isRepeated` (source/system/StereoGeometryEstimator.cpp:199-202): equal neighbours. -/
def isRepeated : List Nat → Bool
  | a :: b :: l => a == b || isRepeated (b :: l)
  | _ => false

/-- The loop filling `hypotesis` (source/system/StereoGeometryEstimator.cpp:205-207): the pairs of rays, the ray of the
second frame first. -/
def hypothesis (rays : List (V3 × V3)) : List Nat → Except Fault (List (V3 × V3))
  | [] => .ok []
  | i :: is =>
    match at' rays i, hypothesis rays is with
    | .ok r, .ok rs => .ok ((r.2, r.1) :: rs)
    | _, _ => .error .ub

open Classical in
/-- One iteration with the random indices `sample` (source/system/StereoGeometryEstimator.cpp:196-234). -/
noncomputable def iteration (e : Env) (g : Estimator) (sample : List Nat) (l : Loop) : Except Fault Loop :=
  let inds := sample.mergeSort (fun a b => decide (a ≤ b))
  if isRepeated inds then .ok l
  else
    match hypothesis g.rays inds with
    | .error f => .error f
    | .ok pairs =>
      let found := e.solve5 pairs
      let results := overwrite l.results found
      let best := bestEssential e g 0 found (0, 0, l.bestInliersInds)
      match results[best.2.1]? with
      | some (some E) =>
        let cur := extractMotion e g E best.2.2
        let n := cur.2.length
        let l1 : Loop :=
          if l.bestInliers < n then
            { l with results := results, bestInliers := n, bestMotion := cur.1, bestInliersInds := l.inliersInds,
                     inliersInds := cur.2 }
          else { l with results := results, bestInliersInds := cur.2 }
        let curQ : ℝ := (n : ℝ) / g.rays.length
        if curQ > l.q then
          .ok { l1 with
            q := curQ
            iterNum := if e.s.runMaxRansacIter then l.iterNum else newIterNum e.s.successProb curQ }
        else .ok l1
      | _ => .error .ub

/-- The loop (source/system/StereoGeometryEstimator.cpp:195-235) with the random indices of each iteration; `none` if
`fuel` iterations do not suffice. The number of iterations is returned as well. -/
noncomputable def ransac (e : Env) (g : Estimator) (samples : Nat → List Nat) :
    Nat → Nat → Loop → Except Fault (Option (Nat × Loop))
  | fuel, it, l =>
    if (it : Int) < l.iterNum then
      match fuel with
      | 0 => .ok none
      | fuel + 1 =>
        match iteration e g (samples it) l with
        | .error f => .error f
        | .ok l' => ransac e g samples fuel (it + 1) l'
    else .ok (some (it, l))

/-- The variables before the loop (source/system/StereoGeometryEstimator.cpp:179-193). -/
noncomputable def start (e : Env) (g : Estimator) : Loop where
  results := List.replicate 10 none
  bestInliers := -1
  bestInliersInds := []
  inliersInds := g.inliersInds
  bestMotion := Motion3.one
  iterNum := e.s.maxRansacIter
  q := firstQ e.s.successProb e.s.maxRansacIter

/-- `findCoarseMotion` (source/system/StereoGeometryEstimator.cpp:170-249): the returned motion and the estimator after
the call. A uniform distribution from 0 to `rays.size() - 1` does not exist without rays. -/
noncomputable def findCoarseMotion (e : Env) (samples : Nat → List Nat) (fuel : Nat) (g : Estimator) :
    Except Fault (Option (Motion3 × Estimator)) :=
  if g.coarseFound || g.preciseFound then .ok (some (g.motion, g))
  else if g.rays.length = 0 then .error .ub
  else
    match ransac e g samples fuel 0 (start e g) with
    | .error f => .error f
    | .ok none => .ok none
    | .ok (some (_, l)) =>
      let r := extractMotion e g (toEssential l.bestMotion) l.inliersInds
      .ok (some (r.1, { g with coarseFound := true, motion := l.bestMotion, inliersInds := r.2 }))

/-- The rest of `findPreciseMotion` (source/system/StereoGeometryEstimator.cpp:316-361). -/
noncomputable def refineMotion (e : Env) (g : Estimator) : Motion3 × Estimator :=
  let motion := e.solve g.motion g.inliersInds
  (motion, { g with
    motion := motion
    inliersInds := findInliersMotion e g motion (findInliersEssential e g (toEssential motion))
    preciseFound := true })

/-- `findPreciseMotion` (source/system/StereoGeometryEstimator.cpp:310-362). -/
noncomputable def findPreciseMotion (e : Env) (samples : Nat → List Nat) (fuel : Nat) (g : Estimator) :
    Except Fault (Option (Motion3 × Estimator)) :=
  if g.preciseFound then .ok (some (g.motion, g))
  else if g.coarseFound then .ok (some (refineMotion e g))
  else
    match findCoarseMotion e samples fuel g with
    | .error f => .error f
    | .ok none => .ok none
    | .ok (some r) => .ok (some (refineMotion e r.2))

/-- The loop of `depths` (source/system/StereoGeometryEstimator.cpp:50-54). -/
noncomputable def fillDepths (e : Env) (g : Estimator) : List Nat → List (ℝ × ℝ) → Except Fault (List (ℝ × ℝ))
  | [], d => .ok d
  | i :: is, d =>
    match at' g.rays i with
    | .error f => .error f
    | .ok ray => fillDepths e g is (d.set i (e.tri g.motion ray.1 ray.2))

/-- `depths` (source/system/StereoGeometryEstimator.cpp:45-58). -/
noncomputable def depths (e : Env) (g : Estimator) : Except Fault (List (ℝ × ℝ) × Estimator) :=
  if g.depthsEvaluated then .ok (g.depths, g)
  else
    match fillDepths e g g.inliersInds g.depths with
    | .error f => .error f
    | .ok d => .ok (d, { g with depthsEvaluated := true, depths := d })

/-- The end of `StereoMatcher::match` (source/system/StereoMatcher.cpp:95-107): the point and the depth of every
inlier, in both frames. `corresps[i]` and `depths()[i]` are subscripts of vectors. -/
noncomputable def report (e : Env) (g : Estimator) : List Nat → Except Fault (List ((V2 × V2) × (ℝ × ℝ)))
  | [] => .ok []
  | i :: is =>
    match depths e g with
    | .error f => .error f
    | .ok d =>
      match at' g.imgCorresps i, at' d.1 i, report e d.2 is with
      | .ok c, .ok z, .ok rest => .ok ((c, z) :: rest)
      | _, _, _ => .error .ub

/-- `StereoMatcher::match` after the features are matched (source/system/StereoMatcher.cpp:63-109): the motion, and
the correspondences with their depths. -/
noncomputable def matchGeometry (e : Env) (samples : Nat → List Nat) (fuel : Nat) (runAveraging : Bool)
    (corresps : List (V2 × V2)) : Except Fault (Option (Motion3 × List ((V2 × V2) × (ℝ × ℝ)))) :=
  match (if runAveraging then findPreciseMotion e samples fuel (create e corresps)
         else findCoarseMotion e samples fuel (create e corresps)) with
  | .error f => .error f
  | .ok none => .ok none
  | .ok (some r) =>
    match report e r.2 r.2.inliersInds with
    | .error f => .error f
    | .ok pts => .ok (some (r.1, pts))

end Mdso.Stereo
