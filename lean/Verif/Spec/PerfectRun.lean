import Verif.Model.DsoSystem

/-!
# Vocabulary for runs in which nothing is estimated wrongly
-/

set_option autoImplicit false

namespace Mdso.Dso

variable {G : Type} [Group G]

/-- What the numerical parts return in a call of `addFrame` is right: `T n` is the true motion from the world to frame `n`, `first` the number of the first frame,
`s` the state before the call. Before initialization the motion from the first frame to this one is right, later the motion from the base keyframe to this
frame; bundle adjustment leaves each keyframe with its true pose relative to the first frame. -/
structure TrueCall (set : Settings) (T : Int → G) (first : Int) (s : State G) (x : FrameIn G) : Prop where
  stereo : s.isInitialized = false → x.stereo = T x.num * (T first)⁻¹
  track : ∀ base, baseKeyFrame set s.keyFrames = .ok base → x.track = T x.num * (T base.num)⁻¹
  ba : ∀ n, x.ba n = T first * (T n)⁻¹

/-- All calls of a run return the right results. -/
def TrueRun (set : Settings) (T : Int → G) (s0 : State G) (xs : List (FrameIn G)) : Prop :=
  ∀ first a x b, xs.head? = some first → xs = a ++ x :: b → ∀ s rs, run set s0 a = .ok (s, rs) → TrueCall set T first.num s x

end Mdso.Dso
