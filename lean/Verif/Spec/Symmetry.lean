import Verif.Spec.BundleAdjuster
import Verif.Spec.FrameTracker
import Verif.Model.ImmaturePoint

/-!
# Other coordinates, another unit of length, another brightness scale

What a description of the same scene looks like when the world coordinates, the unit of length and the common scale of brightness are chosen
differently.
-/

set_option autoImplicit false

namespace Mdso.Sym

open Mdso.Geom Mdso.Light Mdso.BA

/-- A change of the world coordinates (`x` becomes `scale • rot x + t`) and of the brightness all keyframes are compared in (`b` becomes
`exp light.a * (b + light.b)`). -/
structure Change where
  rot : M3
  scale : ℝ
  t : V3
  light : AffLight

/-- A rotation (or reflection), and a unit of length. -/
structure Change.Proper (S : Change) : Prop where
  orthogonal : Base.Spec.Orthogonal S.rot
  positive : 0 < S.scale

/-- The new coordinates of a point of the world. -/
def Change.act (S : Change) (x : V3) : V3 := S.scale • S.rot.mulVec x + S.t

/-- The new pose of a frame: where its center is, and how it is turned. -/
def Change.pose (S : Change) (m : Motion3) : Motion3 := ⟨S.rot.mul m.rot, S.act m.t⟩

/-- The light transform to the new common scale of brightness. -/
noncomputable def Change.lightOf (S : Change) (l : AffLight) : AffLight := ⟨S.light.a + l.a, l.b + S.light.b * Real.exp (-l.a)⟩

/-- A point with its depth in the new unit of length. -/
noncomputable def Change.point (S : Change) (p : OptPoint) : OptPoint := { p with logInvDepth := p.logInvDepth.map fun l => l - Real.log S.scale }

/-- A keyframe described anew. -/
noncomputable def Change.kf (S : Change) (k : Kf) : Kf :=
  { k with thisToWorld := S.pose k.thisToWorld, light := S.lightOf k.light, points := k.points.map S.point }

/-- A relative motion in the new unit of length. -/
def scaleMotion (σ : ℝ) (m : Motion3) : Motion3 := ⟨m.rot, σ • m.t⟩

/-- The values found by a solver, described anew. -/
noncomputable def Change.values (S : Change) (v : Values) : Values :=
  ⟨fun k => S.pose (v.pose k), fun k => S.lightOf (v.light k), fun k i => v.logInvDepth k i - Real.log S.scale⟩

/-- A block that may move in the same way in the new coordinates. -/
def SameKind (S : Change) : Gauge.TKind → Gauge.TKind → Prop
  | .constant, .constant => True
  | .free, .free => True
  | .sphere p, .sphere p' => p'.center = S.act p.center ∧ p'.radius = S.scale * p.radius
  | _, _ => False

/-- A problem of Ceres described anew: other start values, the same residual blocks, the same blocks fixed, the sphere described anew. The bounds of the
parameters are settings, so they are the *same numbers* in both descriptions. -/
structure SameProblem (S : Change) (P P' : Problem) : Prop where
  kfs : P'.kfs = P.kfs.map S.kf
  blocks : P'.blocks = P.blocks
  cam : P'.cam = P.cam
  huber : P'.huber = P.huber
  kind : ∀ k, SameKind S (P.decl k).t (P'.decl k).t
  rotation : ∀ k, (P'.decl k).qConst = (P.decl k).qConst
  light : ∀ k, (P'.decl k).lConst = (P.decl k).lConst
  boundsA : P'.minA = P.minA ∧ P'.maxA = P.maxA
  boundsB : P'.minB = P.minB ∧ P'.maxB = P.maxB
  boundsDepth : P'.minLogInvDepth = P.minLogInvDepth ∧ P'.maxLogInvDepth = P.maxLogInvDepth

/-- Two solvers (or one solver) that treat a problem and the problem described anew alike. -/
def SameSolver (S : Change) (solve solve' : Solver) : Prop :=
  ∀ P P' : Problem, SameProblem S P P' → ∀ k kf, P.kfs[k]? = some kf →
    (solve' P').pose k = S.pose ((solve P).pose k) ∧ (solve' P').light k = S.lightOf ((solve P).light k) ∧
      ∀ i op l, kf.points[i]? = some op → op.logInvDepth = some l → (solve' P').logInvDepth k i = (solve P).logInvDepth k i - Real.log S.scale

/-- The same depths in another unit of length; which pixels have a depth is the same. -/
def ScaledDepths (σ : ℝ) (d d' : Pyr.Img ℝ) : Prop :=
  d'.rows = d.rows ∧ d'.cols = d.cols ∧
    ∀ y x, y < d.rows → x < d.cols → (0 < d.px y x → d'.px y x = σ * d.px y x) ∧ (0 < d'.px y x ↔ 0 < d.px y x)

/-- The problem of tracking given to Ceres, in another unit of length. -/
def scaleProblem (σ : ℝ) (P : Track.Problem) : Track.Problem :=
  { P with blocks := P.blocks.map fun b => { b with pos := σ • b.pos }, motion := scaleMotion σ P.motion }

/-- Two solvers (or one solver) that treat a problem of tracking and the same problem in another unit of length alike. -/
def SameTracking (σ : ℝ) (solve solve' : Track.Solver) : Prop :=
  ∀ P, solve' (scaleProblem σ P) = (scaleMotion σ (solve P).1, (solve P).2)

/-- What an observer of tracking is told, in another unit of length: the motion is longer, the residuals are the same. -/
def scaleEvent (σ : ℝ) : Track.Event → Track.Event
  | .levelTracked r => .levelTracked { r with baseToLast := scaleMotion σ r.baseToLast }
  | e => e

/-- A point given to the pyramid of depths, in another unit of length. -/
def scalePt (σ : ℝ) (p : Pyr.Pt) : Pyr.Pt := { p with d := σ * p.d }

/-- A keyframe and its points as seen by the projection onto the base keyframe, described anew. -/
noncomputable def Change.view (S : Change) (k : Base.KfView) : Base.KfView :=
  ⟨S.pose k.thisToWorld, k.points.map fun p => { p with depth := p.depth.map fun d => S.scale * d }⟩

/-- A point that is being traced, with its depths in another unit of length. -/
noncomputable def scalePoint (σ : ℝ) (p : Trace.Point) : Trace.Point :=
  { p with
    minDepth := σ * p.minDepth
    maxDepth := p.maxDepth.map fun d => σ * d
    depth := p.depth.map fun d => σ * d
    depthBeforeSubpixel := p.depthBeforeSubpixel.map fun d => σ * d }

/-- The same two frames in another unit of length: the motion is longer, and so is what is triangulated. -/
noncomputable def scaleEnv (σ : ℝ) (e : Trace.Env) : Trace.Env :=
  { e with
    baseToRef := scaleMotion σ e.baseToRef
    tri := fun v => σ * e.tri v
    infiniteDepth := σ * e.infiniteDepth }

/-- A point that is traced on one frame after the other: what is reported each time, and the point afterwards. -/
noncomputable def traceAll (fuel : Nat) : List Trace.Env → Trace.Point → Except Fault (Option (List Trace.Status × Trace.Point))
  | [], p => .ok (some ([], p))
  | e :: es, p =>
    match Trace.traceOn e fuel p with
    | .error f => .error f
    | .ok none => .ok none
    | .ok (some r) =>
      match traceAll fuel es r.2 with
      | .error f => .error f
      | .ok none => .ok none
      | .ok (some q) => .ok (some (r.1 :: q.1, q.2))

/-- The camera sees directions, not positions. -/
def SeesDirections (e : Trace.Env) : Prop := ∀ (s : ℝ) (v : V3), 0 < s → e.cam.map (s • v) = e.cam.map v

end Mdso.Sym
