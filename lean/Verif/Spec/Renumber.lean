import Verif.Model.DsoSystem
import Mathlib.Algebra.Group.Hom.Defs

/-!
# Vocabulary for renumbering frames and describing motions anew

Frame `n` gets the number `m * n + c`, a motion `g` the description `σ g`.
-/

set_option autoImplicit false

namespace Mdso.Dso

variable {G H : Type}

/-- A keyframe with all numbers changed by `φ` and all motions by `σ`. -/
def KeyFrame.rename (φ : Int → Int) (σ : G → H) (kf : KeyFrame G) : KeyFrame H :=
  ⟨φ kf.num, σ kf.thisToWorld, kf.trackedFrames.map fun f => ⟨φ f.num, σ f.baseToThis⟩⟩

/-- An observer call with all numbers changed by `φ` and all motions by `σ`. -/
def Event.rename (φ : Int → Int) (σ : G → H) : Event G → Event H
  | .initialized kfs => .initialized (kfs.map (·.rename φ σ))
  | .newFrame n => .newFrame (φ n)
  | .newKeyFrame kf => .newKeyFrame (kf.rename φ σ)
  | .marginalized kfs => .marginalized (kfs.map (·.rename φ σ))
  | .destructed kfs => .destructed (kfs.map (·.rename φ σ))

/-- The same call of `addFrame` after the change. -/
structure Renamed (φ : Int → Int) (σ : G → H) (x : FrameIn G) (y : FrameIn H) : Prop where
  num : y.num = φ x.num
  stereo : y.stereo = σ x.stereo
  track : y.track = σ x.track
  ba : ∀ n, y.ba (φ n) = σ (x.ba n)

/-- Settings that differ in the distance of keyframes, which is `m` times as large in the second ones, and in the initial size of the pose table only. -/
structure SameSettings (m : Int) (set set' : Settings) : Prop where
  shift : set'.shiftBetweenKeyFrames = m * set.shiftBetweenKeyFrames
  window : set'.maxKeyFrames = set.maxKeyFrames
  fromLast : set'.trackFromLastKf = set.trackFromLastKf
  choose : set'.continueChoosingKeyFrames = set.continueChoosingKeyFrames
  skip : set'.firstFramesSkip = set.firstFramesSkip
  ba : set'.runBA = set.runBA

end Mdso.Dso
