import Mathlib.Analysis.Real.Sqrt
import Verif.Model.Fault

/-!
# Model of `StereoMatcher`

Models `source/system/StereoMatcher.cpp`. Key points and descriptor matches come from OpenCV and are
parameters, and so is the geometry estimator. Key point coordinates are reals (the code has `float`).
-/

set_option autoImplicit false

namespace Mdso.Matcher

/-- `cv::Point2f`. -/
structure Pt where
  x : ℝ
  y : ℝ

/-- `cv::norm(p1 - p2)`. -/
noncomputable def dist (p q : Pt) : ℝ := Real.sqrt ((p.x - q.x) ^ 2 + (p.y - q.y) ^ 2)

/-- `cv::DMatch`: indices of the key points on the first (`trainIdx`) and second (`queryIdx`) frame. -/
structure DMatch where
  trainIdx : Nat
  queryIdx : Nat
deriving DecidableEq

/-- The pair of key points of a match (source/system/StereoMatcher.cpp:30-31, 66-67). -/
def ends (kp0 kp1 : List Pt) (m : DMatch) : Except Fault (Pt × Pt) :=
  match at' kp0 m.trainIdx, at' kp1 m.queryIdx with
  | .ok p, .ok q => .ok (p, q)
  | _, _ => .error .ub

open Classical in
/-- The loop of `std::stable_partition` with the predicate of source/system/StereoMatcher.cpp:29-33:
`(moving, still)`, both in the original order. -/
noncomputable def partition (matchNonMoveDist : ℝ) (kp0 kp1 : List Pt) :
    List DMatch → Except Fault (List DMatch × List DMatch)
  | [] => .ok ([], [])
  | m :: ms =>
    match ends kp0 kp1 m with
    | .error e => .error e
    | .ok (p1, p2) =>
      match partition matchNonMoveDist kp0 kp1 ms with
      | .error e => .error e
      | .ok (moving, still) =>
        if dist p1 p2 > matchNonMoveDist then .ok (m :: moving, still) else .ok (moving, m :: still)

/-- `filterOutStillMatches` (source/system/StereoMatcher.cpp:22-39): `(matches, stillMatches)` after the
call. -/
noncomputable def filterOutStillMatches (matchNonMoveDist : ℝ) (kp0 kp1 : List Pt)
    (ms : List DMatch) : Except Fault (List DMatch × List DMatch) :=
  partition matchNonMoveDist kp0 kp1 ms

/-- What the geometry estimator reports: motion, inlier indices, depths of all correspondences
(source/system/StereoGeometryEstimator.cpp). -/
structure Estimate (M : Type) where
  motion : M
  inliersInds : List Nat
  depths : List (ℝ × ℝ)

/-- The results of `match` (source/system/StereoMatcher.cpp:41-42). -/
structure MatchResult (M : Type) where
  motion : M
  resPoints0 : List (Int × Int)
  resPoints1 : List (Int × Int)
  resDepths0 : List ℝ
  resDepths1 : List ℝ

/-- `toVec2(pt)` (source/util/util.cpp:201): the argument is a `cv::Point`, so the `cv::Point2f` is first
rounded to integers; `round` is OpenCV's `saturate_cast<int>`. -/
def toVec2 (round : ℝ → Int) (p : Pt) : Int × Int := (round p.x, round p.y)

/-- `corresps` (source/system/StereoMatcher.cpp:63-67). -/
def correspsOf (round : ℝ → Int) (kp0 kp1 : List Pt) :
    List DMatch → Except Fault (List ((Int × Int) × (Int × Int)))
  | [] => .ok []
  | m :: ms =>
    match ends kp0 kp1 m with
    | .error e => .error e
    | .ok (p, q) =>
      match correspsOf round kp0 kp1 ms with
      | .error e => .error e
      | .ok cs => .ok ((toVec2 round p, toVec2 round q) :: cs)

/-- The final loop (source/system/StereoMatcher.cpp:103-108). -/
def collect (corresps : List ((Int × Int) × (Int × Int))) (depths : List (ℝ × ℝ)) :
    List Nat → Except Fault (List (((Int × Int) × (Int × Int)) × (ℝ × ℝ)))
  | [] => .ok []
  | i :: is =>
    match at' corresps i, at' depths i with
    | .ok c, .ok d =>
      match collect corresps depths is with
      | .error e => .error e
      | .ok r => .ok ((c, d) :: r)
    | _, _ => .error .ub

/-- `match` (source/system/StereoMatcher.cpp:41-110). `kp0`, `kp1` and `ms` are what OpenCV's detector and
matcher return, `estimate` is the estimator run on the correspondences. Drawing is not modelled. -/
noncomputable def matchFrames {M : Type} (matchNonMoveDist : ℝ) (round : ℝ → Int) (kp0 kp1 : List Pt)
    (ms : List DMatch) (estimate : List ((Int × Int) × (Int × Int)) → Estimate M) :
    Except Fault (MatchResult M) :=
  if kp0.isEmpty || kp1.isEmpty || ms.isEmpty then .error .exception
  else
    match filterOutStillMatches matchNonMoveDist kp0 kp1 ms with
    | .error e => .error e
    | .ok (moving, _) =>
      match correspsOf round kp0 kp1 moving with
      | .error e => .error e
      | .ok corresps =>
        let est := estimate corresps
        match collect corresps est.depths est.inliersInds with
        | .error e => .error e
        | .ok r => .ok
          { motion := est.motion
            resPoints0 := r.map (fun e => e.1.1), resPoints1 := r.map (fun e => e.1.2)
            resDepths0 := r.map (fun e => e.2.1), resDepths1 := r.map (fun e => e.2.2) }

end Mdso.Matcher
