import Verif.Model.DistanceMap
import Mathlib.Analysis.SpecialFunctions.Log.Basic

/-!
# Model of the activation of points

Models `DsoSystem::activateNewOptimizedPoints` (source/system/DsoSystem.cpp:296-359) together with the
constructor of `OptimizedPoint` it uses. The keyframes are a list in the order of the map `keyFrames`; a
pointer to a keyframe is a position in that list. Reprojection into the base keyframe is a parameter. `std::sort`
is a parameter, see `IsSort`.
-/

set_option autoImplicit false

namespace Mdso.Act

open Mdso.DistMap (Settings)

/-- `OptimizedPoint::State` and `ImmaturePoint::State` (include/system/OptimizedPoint.h:17,
include/system/ImmaturePoint.h:20). -/
inductive PState where
  | active
  | oob
  | outlier
  deriving DecidableEq

/-- The fields of `ImmaturePoint` that matter here (include/system/ImmaturePoint.h:52-66). -/
structure Immature where
  p : ℝ × ℝ
  depth : ℝ
  stddev : ℝ
  state : PState

/-- `OptimizedPoint` (include/system/OptimizedPoint.h:39-42). -/
structure Optimized where
  p : ℝ × ℝ
  logInvDepth : ℝ
  stddev : ℝ
  state : PState

/-- `OptimizedPoint(const ImmaturePoint &)` (include/system/OptimizedPoint.h:24-28, 33-36). For a depth that is
not positive the C++ logarithm is not finite; no theorem uses that case. -/
noncomputable def Optimized.ofImmature (ip : Immature) : Optimized :=
  ⟨ip.p, -Real.log ip.depth, ip.stddev, .active⟩

/-- `OptimizedPoint::depth` (include/system/OptimizedPoint.h:38). -/
noncomputable def Optimized.depth (op : Optimized) : ℝ := Real.exp (-op.logInvDepth)

/-- `ImmaturePoint::isReady` (source/system/ImmaturePoint.cpp:77-79). -/
def Immature.isReady (optimizedStddev : ℝ) (ip : Immature) : Prop :=
  ip.state = .active ∧ ip.stddev < optimizedStddev

/-- The points of a keyframe (include/system/KeyFrame.h). -/
structure KeyFrame where
  immature : List Immature
  optimized : List Optimized

/-- What the method is given besides the keyframes: size of the pictures, position of the base keyframe,
reprojection of a point of a keyframe into the base keyframe (source/system/DsoSystem.cpp:303, 322),
threshold of `isReady`. -/
structure Env where
  width : Nat
  height : Nat
  base : Nat
  reproject : Nat → ℝ × ℝ → ℝ → ℝ × ℝ
  optimizedStddev : ℝ

/-- Position of a point of keyframe `k` in the base keyframe (source/system/DsoSystem.cpp:302-304,
321-323). -/
def Env.pos (e : Env) (k : Nat) (p : ℝ × ℝ) (depth : ℝ) : ℝ × ℝ :=
  if k = e.base then p else e.reproject k p depth

/-- `optPoints` (source/system/DsoSystem.cpp:297-307), for the keyframes from position `k` on. -/
noncomputable def optPoints (e : Env) : Nat → List KeyFrame → List (ℝ × ℝ)
  | _, [] => []
  | k, kf :: kfs =>
    ((kf.optimized.filter fun op => op.state = .active).map fun op => e.pos k op.p op.depth)
      ++ optPoints e (k + 1) kfs

open Classical in
/-- The ready points of one keyframe with their indices, from index `ind` on
(source/system/DsoSystem.cpp:318-327). -/
noncomputable def readyOf (e : Env) (k : Nat) : Nat → List Immature → List ((ℝ × ℝ) × (Nat × Nat))
  | _, [] => []
  | ind, ip :: ips =>
    if ip.isReady e.optimizedStddev then (e.pos k ip.p ip.depth, (k, ind)) :: readyOf e k (ind + 1) ips
    else readyOf e k (ind + 1) ips

/-- `projectedImmatures` and `immaturePositions` (source/system/DsoSystem.cpp:311-329), filled in step, for the
keyframes from position `k` on. -/
noncomputable def candidates (e : Env) : Nat → List KeyFrame → List ((ℝ × ℝ) × (Nat × Nat))
  | _, [] => []
  | k, kf :: kfs => readyOf e k 0 kf.immature ++ candidates e (k + 1) kfs

/-- `curOptPoints` (source/system/DsoSystem.cpp:335-338). -/
def curOptPoints (kfs : List KeyFrame) : Nat := (kfs.map fun kf => kf.optimized.length).sum

/-- What the standard promises for `std::sort` of indices by a key, largest key first
(source/system/DsoSystem.cpp:347-351); equal keys may come in any order. -/
def IsSort (sort : List Nat → (Nat → Nat) → List Nat) : Prop :=
  ∀ l key, (sort l key).Perm l ∧ (sort l key).Pairwise fun a b => key b ≤ key a

/-- `std::swap(ip, back()); pop_back()` (source/system/DsoSystem.cpp:356-357). -/
def swapPop {α : Type} (l : List α) (i : Nat) : List α :=
  match l.getLast? with
  | some b => (l.set i b).dropLast
  | none => []

/-- One round of the last loop (source/system/DsoSystem.cpp:353-358) for the keyframe it concerns; an index
outside `immaturePoints` is undefined behaviour. -/
noncomputable def activateOne (kf : KeyFrame) (ind : Nat) : Except Fault KeyFrame :=
  match kf.immature[ind]? with
  | none => .error .ub
  | some ip => .ok ⟨swapPop kf.immature ind, kf.optimized ++ [Optimized.ofImmature ip]⟩

/-- The last loop (source/system/DsoSystem.cpp:353-358) over the positions of the chosen points. -/
noncomputable def activateAll : List (Nat × Nat) → List KeyFrame → Except Fault (List KeyFrame)
  | [], kfs => .ok kfs
  | (k, ind) :: rest, kfs =>
    match kfs[k]? with
    | none => .error .ub
    | some kf =>
      match activateOne kf ind with
      | .error e => .error e
      | .ok kf' => activateAll rest (kfs.set k kf')

/-- `immaturePositions[i].second` (source/system/DsoSystem.cpp:349-350), the key of the sort. -/
def keyOf (positions : List (Nat × Nat)) (i : Nat) : Nat :=
  match positions[i]? with
  | some q => q.2
  | none => 0

/-- Everything after the distance map is built and the points are chosen
(source/system/DsoSystem.cpp:347-358). -/
noncomputable def apply (sort : List Nat → (Nat → Nat) → List Nat) (cands : List ((ℝ × ℝ) × (Nat × Nat)))
    (chosen : List Nat) (kfs : List KeyFrame) : Except Fault (List KeyFrame) :=
  let positions := cands.map Prod.snd
  match (sort chosen (keyOf positions)).mapM (fun i => positions[i]?) with
  | none => .error .ub
  | some l => activateAll l kfs

/-- `activateNewOptimizedPoints` after the construction of the distance map
(source/system/DsoSystem.cpp:311-359), given its outcome. -/
noncomputable def activateWith (nth : List (Nat × Int) → Nat → List (Nat × Int))
    (sort : List Nat → (Nat → Nat) → List Nat) (e : Env) (maxOptimizedPoints : Int) (kfs : List KeyFrame) :
    Except Fault (Option DistMap.Map) → Except Fault (Option (List KeyFrame))
  | .error er => .error er
  | .ok none => .ok none
  | .ok (some m) =>
    match DistMap.choose nth m ((candidates e 0 kfs).map Prod.fst) (maxOptimizedPoints - curOptPoints kfs) with
    | .error er => .error er
    | .ok chosen =>
      match apply sort (candidates e 0 kfs) chosen kfs with
      | .error er => .error er
      | .ok kfs' => .ok (some kfs')

/-- `activateNewOptimizedPoints` (source/system/DsoSystem.cpp:296-359). The distance map is built with its
default settings (line 309). `none` only when the fuel of its construction is used up. -/
noncomputable def activate (nth : List (Nat × Int) → Nat → List (Nat × Int))
    (sort : List Nat → (Nat → Nat) → List Nat) (fuel : Nat) (e : Env) (maxOptimizedPoints : Int)
    (kfs : List KeyFrame) : Except Fault (Option (List KeyFrame)) :=
  activateWith nth sort e maxOptimizedPoints kfs
    (DistMap.build e.width e.height ⟨480, 302⟩ (optPoints e 0 kfs) fuel)

end Mdso.Act
