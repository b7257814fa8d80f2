import Verif.Model.BaseProjection

/-!
# Which points are projected onto the base keyframe, and where to
-/

set_option autoImplicit false

namespace Mdso.Base.Spec

open Mdso.Geom Mdso.Base

/-- The point `i` of keyframe `k` exists and has the given values. -/
def PointAt (kfs : List KfView) (k i : Nat) (kf : KfView) (pt : PView) : Prop :=
  kfs[k]? = some kf ∧ kf.points[i]? = some pt

/-- Where a point of another keyframe is in space, seen from the base keyframe: `q` in the coordinates of the base keyframe is
the point at distance `d` on the ray of the pixel in the coordinates of its own keyframe. -/
def SeenAs (c : Cam.Cam) (baseKf kf : KfView) (p : V2) (d : ℝ) (q : V3) : Prop :=
  baseKf.thisToWorld.act q = kf.thisToWorld.act (d • (Cam.unmap c p).normalized)

/-- The point `i` of keyframe `k` is to be reported at `pos` with `depth`: a point of the base keyframe if it is active, at its
own pixel and with its own depth; another one if its projection is on the picture, there and with its distance from the base
keyframe. -/
def Reported (c : Cam.Cam) (kfs : List KfView) (base k i : Nat) (pos : V2) (depth : ℝ) : Prop :=
  ∃ kf pt, PointAt kfs k i kf pt ∧
    ((k = base ∧ pt.active = true ∧ pt.depth = some depth ∧ pos = pt.p) ∨
     (k ≠ base ∧ ∃ baseKf d q, kfs[base]? = some baseKf ∧ pt.depth = some d ∧ SeenAs c baseKf kf pt.p d q ∧
        pos = Cam.map c q ∧ depth = q.norm ∧ Cam.isOnImage c pos 0))

/-- The matrix is orthogonal. -/
def Orthogonal (m : M3) : Prop := ∀ v, m.transpose.mulVec (m.mulVec v) = v ∧ m.mulVec (m.transpose.mulVec v) = v

/-- All depths that are read are known. -/
def DepthsKnown (kfs : List KfView) (base : Nat) : Prop :=
  ∀ k i kf pt, PointAt kfs k i kf pt → (k ≠ base ∨ pt.active = true) → pt.depth ≠ none

/-- The base keyframe among `n`. -/
def IsBase (trackFromLastKf : Bool) (n base : Nat) : Prop := base + (if trackFromLastKf then 1 else 2) = n

end Mdso.Base.Spec
