import Verif.Model.Snapshot

/-!
# What a user expects of snapshots
-/

set_option autoImplicit false

namespace Mdso.SnapSpec

open Mdso.Snap

/-- An immature point of a system whose residual pattern has `ps` pixels: one direction, intensity,
gradient and gradient direction per pixel of the pattern. -/
def PatternSized (ps : Nat) (p : Immature) : Prop :=
  p.baseDirections.length = ps ∧ p.baseIntencities.length = ps ∧ p.baseGrad.length = ps ∧
    p.baseGradNorm.length = ps

/-- The same point as far as C32 lists it. -/
def SameImmature (p q : Immature) : Prop :=
  q.p = p.p ∧ q.baseDirections = p.baseDirections ∧ q.baseIntencities = p.baseIntencities ∧
    q.baseGrad = p.baseGrad ∧ q.baseGradNorm = p.baseGradNorm ∧ q.minDepth = p.minDepth ∧
    q.maxDepth = p.maxDepth ∧ q.depth = p.depth ∧ q.bestQuality = p.bestQuality ∧
    q.lastEnergy = p.lastEnergy ∧ q.stddev = p.stddev ∧ q.state = p.state

/-- The same pixel, depth and deviation. -/
def SamePlace (p q : Optimized) : Prop :=
  q.p = p.p ∧ q.logInvDepth = p.logInvDepth ∧ q.depth = p.depth ∧ q.stddev = p.stddev

/-- The same optimized point as far as C32 lists it. -/
def SameOptimized (p q : Optimized) : Prop := SamePlace p q ∧ q.state = p.state

/-- The frame number of a keyframe. -/
def number (kf : KeyFrame) : Int := kf.preKeyFrame.globalFrameNum

/-- The keyframe `k` is the saved keyframe `kf`: frame number, pose, light, tracked frames with their
motions, and the sequences of points (optimized points up to their state, which is C32). -/
def Restored (kf k : KeyFrame) : Prop :=
  k.preKeyFrame = kf.preKeyFrame ∧ k.thisToWorld = kf.thisToWorld ∧
    k.lightWorldToThis = kf.lightWorldToThis ∧ k.trackedFrames = kf.trackedFrames ∧
    List.Forall₂ SameImmature kf.immaturePoints k.immaturePoints ∧
    List.Forall₂ SamePlace kf.optimizedPoints k.optimizedPoints

/-- A keyframe of a running system: points sized by the pattern, and no frame tracked twice. -/
def Regular (ps : Nat) (kf : KeyFrame) : Prop :=
  (∀ p ∈ kf.immaturePoints, PatternSized ps p) ∧
    (kf.trackedFrames.map (·.globalFrameNum)).Nodup

/-- Every frame is tracked from one keyframe only: a frame tracked from keyframes `a` and `b` in two
saves means that `a` and `b` are two versions of one keyframe. -/
def OneBase (saved : List KeyFrame) : Prop :=
  ∀ a ∈ saved, ∀ b ∈ saved, ∀ f ∈ a.trackedFrames, ∀ g ∈ b.trackedFrames,
    f.globalFrameNum = g.globalFrameNum → number a = number b

/-- `kf` is the most recently saved version of its keyframe; `saved` lists all keyframes of all
saves, oldest first. -/
def LastVersion (saved : List KeyFrame) (kf : KeyFrame) : Prop :=
  ∃ before after, saved = before ++ kf :: after ∧ ∀ k ∈ after, number k ≠ number kf

end Mdso.SnapSpec
