import Verif.Spec.DsoSystem

/-!
# What a trajectory file should contain

Independent of the writers' models.
-/

set_option autoImplicit false

namespace Mdso.TrajSpec
open Mdso.Dso

variable {G : Type}

/-- The lines for one keyframe: its own number and pose, then its tracked frames, each with the pose
obtained from the keyframe's pose and the tracked motion from keyframe to frame. -/
def keyFrameLines [Group G] (kf : KeyFrame G) : List (Int × G) :=
  (kf.num, kf.thisToWorld) ::
    kf.trackedFrames.map (fun f => (f.num, kf.thisToWorld * f.baseToThis⁻¹))

/-- The lines for a list of keyframes. -/
def expectedLines [Group G] (kfs : List (KeyFrame G)) : List (Int × G) := kfs.flatMap keyFrameLines

/-- The frame numbers for a list of keyframes: each keyframe, then its tracked frames. -/
def frameNumbers (kfs : List (KeyFrame G)) : List Int :=
  kfs.flatMap (fun kf => kf.num :: kf.trackedFrames.map (·.num))

/-- All keyframes handed over to observers, in order. -/
def handedOver (log : List (Event G)) : List (KeyFrame G) := marginalizedOf log ++ destructedOf log

end Mdso.TrajSpec
