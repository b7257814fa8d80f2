import Verif.Model.DsoSystem
import Verif.Spec.Frames

/-!
# Vocabulary for statements about the life of a `DsoSystem`

Reads the settings as a `FrameSpec.Policy` and reads off lists from the observer calls.
-/

set_option autoImplicit false

namespace Mdso.Dso
open Mdso.FrameSpec

/-- The user-visible policy in the settings (a negative number of frames to skip counts as zero). -/
def policyOf (set : Settings) : Policy :=
  { skip := set.firstFramesSkip.toNat
    shift := set.shiftBetweenKeyFrames
    choose := set.continueChoosingKeyFrames
    fromLast := set.trackFromLastKf }

/-- A keyframe as an entry of the book: its number and its tracked frames' numbers. -/
def entry {G : Type} (kf : KeyFrame G) : Int × List Int := (kf.num, kf.trackedFrames.map (·.num))

/-- The keyframes passed to `keyFramesMarginalized`, in call order. -/
def marginalizedOf {G : Type} (log : List (Event G)) : List (KeyFrame G) :=
  log.flatMap (fun e => match e with | .marginalized kfs => kfs | _ => [])

/-- The keyframes passed to `destructed`. -/
def destructedOf {G : Type} (log : List (Event G)) : List (KeyFrame G) :=
  log.flatMap (fun e => match e with | .destructed kfs => kfs | _ => [])

/-- The frame numbers passed to `newFrame`, in call order. -/
def newFramesOf {G : Type} (log : List (Event G)) : List Int :=
  log.flatMap (fun e => match e with | .newFrame n => [n] | _ => [])

/-- The keyframe numbers passed to `newKeyFrame`, in call order. -/
def announcedOf {G : Type} (log : List (Event G)) : List Int :=
  log.flatMap (fun e => match e with | .newKeyFrame kf => [kf.num] | _ => [])

/-- The keyframe numbers of each `initialized` call, in call order. -/
def initializedOf {G : Type} (log : List (Event G)) : List (List Int) :=
  log.flatMap (fun e => match e with | .initialized kfs => [kfs.map (·.num)] | _ => [])

/-- Settings for which tracking is well defined: a window of at least two keyframes and a non-zero
keyframe distance. The excluded points are covered by separate theorems. -/
structure Valid (set : Settings) : Prop where
  window : 2 ≤ set.maxKeyFrames
  shift : set.shiftBetweenKeyFrames ≠ 0

/-- Frame numbers a caller may feed in this order: positive, increasing and below the largest
`int`. -/
structure Legal (ns : List Int) : Prop where
  increasing : ns.Pairwise (· < ·)
  range : ∀ n ∈ ns, 0 < n ∧ n < intMax

/-- All keyframes the system has created so far: the ones already handed to
`keyFramesMarginalized`, then the ones it still holds. -/
def createdOf {G : Type} (s : State G) : List (KeyFrame G) := marginalizedOf s.log ++ s.keyFrames

/-- The numbers of all created keyframes and of all frames tracked against them. -/
def ownedOf {G : Type} (s : State G) : List Int :=
  (createdOf s).flatMap (fun kf => kf.num :: kf.trackedFrames.map (·.num))

end Mdso.Dso
