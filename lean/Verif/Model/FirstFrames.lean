import Verif.Model.Initializer
import Verif.Model.StereoGeometry
import Verif.Model.BaseProjection

/-!
# Model of the initialization from matched pixels

Composes `StereoMatcher::match` after the features are matched with `DelaunayDsoInitializer::createKeyFrames`, over the reals.
-/

set_option autoImplicit false

namespace Mdso.Init

open Mdso.Geom Mdso.Tri Mdso.Cam

/-- A keyframe of the initializer: its points and its pose (source/system/DelaunayDsoInitializer.cpp:58-69). -/
structure First where
  points : List IPoint
  thisToWorld : Motion3

/-- What `match` leaves in `keyPoints[0]`, `depths[0]` (source/system/StereoMatcher.cpp:103-108, source/system/DelaunayDsoInitializer.cpp:47-49). -/
def matched0 (pts : List ((V2 × V2) × (ℝ × ℝ))) : Matched := ⟨pts.map (·.1.1), pts.map (·.2.1)⟩

/-- What `match` leaves in `keyPoints[1]`, `depths[1]` (source/system/StereoMatcher.cpp:103-108, source/system/DelaunayDsoInitializer.cpp:47-49). -/
def matched1 (pts : List ((V2 × V2) × (ℝ × ℝ))) : Matched := ⟨pts.map (·.1.2), pts.map (·.2.2)⟩

/-- `createKeyFrames` from the correspondences of the two frames (source/system/DelaunayDsoInitializer.cpp:46-135): the matcher and the keyframes have the
same camera. -/
noncomputable def fromMatches (S : Setup) (usePlainTriangulation : Bool) (e : Stereo.Env) (samples : Nat → List Nat) (fuel : Nat) (runAveraging : Bool)
    (corresps : List (V2 × V2)) : Except Fault (Option (First × First)) :=
  match Stereo.matchGeometry e samples fuel runAveraging corresps with
  | .error f => .error f
  | .ok none => .ok none
  | .ok (some r) =>
    match createKeyFrames { S with unmap := e.unmap } usePlainTriangulation (matched0 r.2) (matched1 r.2) with
    | .error f => .error f
    | .ok none => .ok none
    | .ok (some l) => .ok (some (⟨l.1, Motion3.one⟩, ⟨l.2, Base.inverse r.1⟩))

end Mdso.Init
