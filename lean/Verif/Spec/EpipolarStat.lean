import Verif.Model.EpipolarStat
import Verif.Spec.BaseProjection

/-!
# What the statistics of `stat_epipolar` should be
-/

set_option autoImplicit false

namespace Mdso.Stat.Spec

open Mdso.Geom

variable {S P : Type}

/-- The ranges cover each of the numbers `0, …, n - 1` exactly once. -/
def Splits (n : Nat) (ranges : List (Nat × Nat)) : Prop :=
  (ranges.flatMap fun r => List.range' r.1 (r.2 - r.1)).Perm (List.range n)

/-- `l` is the state of a worker that starts afresh with frame `begin` and has handled all frames before frame `i`. -/
inductive Reaches (e : Env S P) (start : Nat) : Nat → Local S → Prop
  | fresh : Reaches e start start ⟨e.fresh, 0⟩
  | next {i : Nat} {l l' : Local S} {errs : List EpiErr} : Reaches e start i l → body e l (e.startFrame + i) = .ok (l', errs) →
      Reaches e start (i + 1) l'

/-- `errs` are the errors of frame `i` if one worker handles the frames from `start` on. -/
def ErrorsFrom (e : Env S P) (start i : Nat) (errs : List EpiErr) : Prop :=
  ∃ l l', Reaches e start i l ∧ body e l (e.startFrame + i) = .ok (l', errs)

/-- The last frame whose points are traced: the one asked for, or the last one that has a second frame among the 2500 of the data set. -/
def lastFirst (e : Env S P) : Int := min e.endFrame (2500 - e.shift)

/-- `a` is the state of a pixel selector that has selected pixels in the frames from `start` to `i`, `i` not included. -/
inductive SelectorAt (e : Env S P) (start : Nat) : Nat → S → Prop
  | fresh : SelectorAt e start start e.fresh
  | next {i : Nat} {a : S} {r : S × List P} : SelectorAt e start i a → e.select a (e.startFrame + i) = .ok r → SelectorAt e start (i + 1) r.1

/-- `err` tells about the traced point `ip` what it should. The ray of the point and its true depth determine a point `X` of the world; its true place
in the second frame is where `X` is projected to; the place found is where the depth found leads to with the motion used for tracing. -/
structure Judges (e : Env S P) (first : Int) (worldToFirst worldToSecond motion : Motion3) (ip : Traced) (err : EpiErr) : Prop where
  realErr : ∀ X : V3, worldToFirst.act X = e.depths first ip.p • (Cam.unmap e.cam ip.p).normalized →
    err.realErr = Cam.norm2 (Cam.map e.cam (worldToSecond.act X) - Cam.map e.cam (motion.act (ip.depth • (Cam.unmap e.cam ip.p).normalized)))
  realErrBef : ∀ X : V3, worldToFirst.act X = e.depths first ip.p • (Cam.unmap e.cam ip.p).normalized →
    err.realErrBef =
      Cam.norm2 (Cam.map e.cam (worldToSecond.act X) - Cam.map e.cam (motion.act (ip.depthBeforeSubpixel • (Cam.unmap e.cam ip.p).normalized)))
  disparity : err.disparity = Cam.norm2 (Cam.map e.cam (motion.act (ip.depth • (Cam.unmap e.cam ip.p).normalized)) -
    Cam.map e.cam (motion.rot.mulVec (Cam.unmap e.cam ip.p).normalized))
  expectedErr : 0 ≤ ip.lastFullVar → 0 ≤ err.expectedErr ∧ err.expectedErr ^ 2 = ip.lastFullVar
  depthGT : err.depthGT = e.depths first ip.p
  depth : err.depth = ip.depth
  depthBeforeSubpixel : err.depthBeforeSubpixel = ip.depthBeforeSubpixel
  eBeforeSubpixel : err.eBeforeSubpixel = ip.eBeforeSubpixel
  eAfterSubpixel : err.eAfterSubpixel = ip.eAfterSubpixel

end Mdso.Stat.Spec
