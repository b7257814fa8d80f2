import Verif.Spec.DsoSystem
import Verif.Model.Resume

/-!
# What a user expects of a system resumed from a snapshot
-/

set_option autoImplicit false

namespace Mdso.ResumeSpec

open Mdso.Dso

/-- The frames of a window: every keyframe followed by the frames tracked from it. -/
def windowFrames {G : Type} (kfs : List (KeyFrame G)) : List Int :=
  kfs.flatMap (fun kf => kf.num :: kf.trackedFrames.map (·.num))

/-- A window that can be resumed at all: at least two keyframes, all frame numbers legal, and a frame
tracked from one of the two newest keyframes. -/
structure Resumable {G : Type} (kfs : List (KeyFrame G)) : Prop where
  two : 2 ≤ kfs.length
  range : ∀ n ∈ windowFrames kfs, 0 < n ∧ n < intMax
  tracked : ∃ kf ∈ kfs.drop (kfs.length - 2), kf.trackedFrames ≠ []

/-- The poses reported for the frames of the window. -/
def PosesRestored {G : Type} [Group G] (kfs : List (KeyFrame G)) (table : Int → Option G) : Prop :=
  ∀ kf ∈ kfs, table kf.num = some kf.thisToWorld⁻¹ ∧
    ∀ f ∈ kf.trackedFrames, table f.num = some (f.baseToThis * kf.thisToWorld⁻¹)

end Mdso.ResumeSpec
