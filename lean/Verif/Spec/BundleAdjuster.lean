import Verif.Model.BundleAdjuster
import Verif.Spec.BaseProjection

/-!
# What bundle adjustment is meant to do
-/

set_option autoImplicit false

namespace Mdso.BA.Spec

open Mdso.Geom Mdso.Light Mdso.BA

/-- Where the pixel `pix` of the keyframe `base`, at distance `depth`, is in space. -/
noncomputable def inWorld (c : Cam.Cam) (base : Kf) (pix : V2) (depth : ℝ) : V3 :=
  base.thisToWorld.act (depth • (Cam.unmap c pix).normalized)

/-- Where that point is seen in the keyframe `ref`. -/
noncomputable def seenIn (c : Cam.Cam) (base ref : Kf) (pix : V2) (depth : ℝ) : V2 :=
  Cam.map c ((Base.inverse ref.thisToWorld).act (inWorld c base pix depth))

/-- By how much the brightness of the point differs between the two keyframes: both are brought to a common scale by the light transforms
of their keyframes, the difference is given in the scale of `ref`. -/
noncomputable def brightnessError (c : Cam.Cam) (base ref : Kf) (pix : V2) (depth : ℝ) : ℝ :=
  (ref.light.apply (ref.interp (seenIn c base ref pix depth).y (seenIn c base ref pix depth).x) -
    base.light.apply (base.interp pix.y pix.x)) / Real.exp ref.light.a

/-- One observation: a pixel of the pattern around a point of a keyframe, seen in another keyframe. -/
structure Obs where
  base : Nat
  idx : Nat
  ref : Nat
  off : V2

/-- The observations that are used: of every point with a finite depth, in every other keyframe that shows it not too close to the
border of the picture, every pixel of the pattern. -/
def IsObs (c : Cam.Cam) (s : Settings) (kfs : List Kf) (q : Obs) : Prop :=
  ∃ base ref op l, kfs[q.base]? = some base ∧ kfs[q.ref]? = some ref ∧ base.points[q.idx]? = some op ∧ op.logInvDepth = some l ∧
    q.ref ≠ q.base ∧ q.off ∈ s.pattern ∧ Cam.isOnImage c (seenIn c base ref op.p (Real.exp (-l))) s.height

/-- The list contains exactly the observations that are used, each one once if the pattern has no pixel twice. -/
def ListsObs (c : Cam.Cam) (s : Settings) (kfs : List Kf) (obs : List Obs) : Prop :=
  (∀ q, q ∈ obs ↔ IsObs c s kfs q) ∧ (s.pattern.Nodup → obs.Nodup)

/-- The brightness error of an observation. -/
noncomputable def mismatch (c : Cam.Cam) (kfs : List Kf) (q : Obs) : ℝ :=
  (kfs[q.base]?.bind fun base => kfs[q.ref]?.bind fun ref => base.points[q.idx]?.bind fun op => op.logInvDepth.map fun l =>
    brightnessError c base ref (op.p + q.off) (Real.exp (-l))).getD 0

/-- The pixel of the gradient picture under a position. -/
noncomputable def gradAt (base : Kf) (pos : V2) : ℝ := base.gradNorm.px (Util.truncInt pos.y).toNat (Util.truncInt pos.x).toNat

/-- The position is in the gradient picture. -/
def InPicture (base : Kf) (pos : V2) : Prop :=
  0 ≤ Util.truncInt pos.y ∧ 0 ≤ Util.truncInt pos.x ∧ (Util.truncInt pos.y).toNat < base.gradNorm.rows ∧
    (Util.truncInt pos.x).toNat < base.gradNorm.cols

/-- The weight of an observation: less the steeper the brightness around the pixel is. -/
noncomputable def weightOf (s : Settings) (kfs : List Kf) (q : Obs) : ℝ :=
  (kfs[q.base]?.bind fun base => base.points[q.idx]?.map fun op =>
    s.gradWeightingC / Real.sqrt (s.gradWeightingC ^ 2 + gradAt base (op.p + q.off) ^ 2)).getD 0

open Classical in
/-- Huber's loss of a squared residual. -/
noncomputable def huber (δ s : ℝ) : ℝ := if s ≤ δ ^ 2 then s else 2 * δ * Real.sqrt s - δ ^ 2

/-- The photometric error of the keyframes over some observations. -/
noncomputable def photometricError (c : Cam.Cam) (s : Settings) (kfs : List Kf) (obs : List Obs) : ℝ :=
  1 / 2 * (obs.map fun q => weightOf s kfs q * huber s.outlierDiff (mismatch c kfs q ^ 2)).sum

/-! ### Ceres -/

/-- The start values of a problem. -/
noncomputable def start (P : Problem) : Values :=
  { pose := fun k => (P.kfs[k]?.map Kf.thisToWorld).getD ⟨⟨0, 0, 0⟩, 0⟩
    light := fun k => (P.kfs[k]?.map Kf.light).getD AffLight.identity
    logInvDepth := fun k i => (P.kfs[k]?.bind fun kf => kf.points[i]?.bind OptPoint.logInvDepth).getD 0 }

/-- Values that are in the bounds of the problem. -/
def InBounds (P : Problem) (v : Values) : Prop :=
  (∀ k, k < P.kfs.length → P.minA ≤ (v.light k).a ∧ (v.light k).a ≤ P.maxA ∧ P.minB ≤ (v.light k).b ∧ (v.light k).b ≤ P.maxB) ∧
  ∀ k kf i op l, P.kfs[k]? = some kf → kf.points[i]? = some op → op.logInvDepth = some l →
    P.minLogInvDepth ≤ v.logInvDepth k i ∧ v.logInvDepth k i ≤ P.maxLogInvDepth

/-- What Ceres minimizes: half the sum of the weighted losses. -/
noncomputable def cost (P : Problem) (v : Values) : ℝ :=
  1 / 2 * (P.blocks.map fun b => b.weight * huber P.huber
    ((P.kfs[b.ref]?.map fun ref => residual P.cam b ref.interp (v.logInvDepth b.base b.idx) (v.pose b.base) (v.pose b.ref)
      (v.light b.base) (v.light b.ref)).getD 0 ^ 2)).sum

/-- How a translation block may move. -/
def Moves (t t' : V3) : Gauge.TKind → Prop
  | .constant => t' = t
  | .free => True
  | .sphere p => ∃ steps : List (ℝ × ℝ), t' = steps.foldl (Gauge.plus p) t

/-- What is assumed of `ceres::Solve`: constant blocks are not changed, a block with a parameterization moves only through it, and
rotations stay rotations; either the solver gives up and changes nothing, or all blocks end within their bounds; from a start within the
bounds the cost does not grow (steps are monotonic by default). -/
structure IsSolver (solve : Solver) : Prop where
  translation : ∀ P k kf, P.kfs[k]? = some kf → Moves kf.thisToWorld.t ((solve P).pose k).t (P.decl k).t
  rotation_constant : ∀ P k kf, P.kfs[k]? = some kf → (P.decl k).qConst = true → ((solve P).pose k).rot = kf.thisToWorld.rot
  rotation : ∀ P k kf, P.kfs[k]? = some kf → Base.Spec.Orthogonal kf.thisToWorld.rot → Base.Spec.Orthogonal ((solve P).pose k).rot
  light_constant : ∀ P k kf, P.kfs[k]? = some kf → (P.decl k).lConst = true → (solve P).light k = kf.light
  bounds : ∀ P, solve P = start P ∨ InBounds P (solve P)
  descent : ∀ P, InBounds P (start P) → cost P (solve P) ≤ cost P (start P)

/-! ### Keyframes and points before and after -/

/-- Keyframe `k` before and after. -/
def KfPair (kfs out : List Kf) (k : Nat) (kf kf' : Kf) : Prop := kfs[k]? = some kf ∧ out[k]? = some kf'

/-- Point `i` of keyframe `k` before and after. -/
def PointPair (kfs out : List Kf) (k i : Nat) (op op' : OptPoint) : Prop :=
  ∃ kf kf', KfPair kfs out k kf kf' ∧ kf.points[i]? = some op ∧ kf'.points[i]? = some op'

/-- The depth of a point, if it is finite. -/
noncomputable def depthOf (op : OptPoint) : Option ℝ := op.logInvDepth.map fun l => Real.exp (-l)

/-- The light transform of a keyframe and the depths of its points are within the limits of the settings. -/
def WithinLimits (s : Settings) (kf : Kf) : Prop :=
  (s.minAffineLightA ≤ kf.light.a ∧ kf.light.a ≤ s.maxAffineLightA ∧ s.minAffineLightB ≤ kf.light.b ∧ kf.light.b ≤ s.maxAffineLightB) ∧
  ∀ op ∈ kf.points, ∀ d, depthOf op = some d → s.depthMin ≤ d ∧ d ≤ s.depthMax

/-- `m` is the upper median: at most half of the values are smaller, more than half are not greater. -/
def IsUpperMedian (values : List ℝ) (m : ℝ) : Prop :=
  m ∈ values ∧ (values.filter fun v => v < m).length ≤ values.length / 2 ∧ values.length / 2 < (values.filter fun v => v ≤ m).length

/-- No two keyframes have the same address. -/
def Distinct (kfs : List Kf) : Prop := (kfs.map Kf.addr).Nodup

/-- The keyframe at position `k` of the set is the one that was added first. -/
def IsFirst (added kfs : List Kf) (k : Nat) : Prop := ∃ f, added.head? = some f ∧ kfs[k]? = some f

/-- The keyframe at position `k` of the set has the lowest address of all that were not added first. -/
def IsLowest (added kfs : List Kf) (k : Nat) : Prop :=
  ∃ sk, kfs[k]? = some sk ∧ ¬ IsFirst added kfs k ∧ ∀ j kf, kfs[j]? = some kf → ¬ IsFirst added kfs j → sk.addr ≤ kf.addr

/-- The list contains exactly the observations of one point, each one once if the pattern has no pixel twice. -/
def ListsObsOf (c : Cam.Cam) (s : Settings) (kfs : List Kf) (k i : Nat) (obs : List Obs) : Prop :=
  (∀ q, q ∈ obs ↔ IsObs c s kfs q ∧ q.base = k ∧ q.idx = i) ∧ (s.pattern.Nodup → obs.Nodup)

end Mdso.BA.Spec
