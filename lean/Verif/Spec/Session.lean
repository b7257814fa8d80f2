import Verif.Model.Session
import Verif.Spec.DsoSystem

/-!
# Vocabulary for statements about sessions
-/

set_option autoImplicit false

namespace Mdso.Session

open Mdso.Dso Mdso.Light Mdso.FrameSpec

/-- The frame numbers among the user's actions. -/
def numbers {G : Type} (ops : List (Op G)) : List Int :=
  ops.flatMap (fun o => match o with | .frame x => [x.num] | .observer _ => [])

/-- The tracker observers registered by the user's actions. -/
def registered {G : Type} (ops : List (Op G)) : List Nat :=
  ops.flatMap (fun o => match o with | .frame _ => [] | .observer obs => [obs])

/-- The keyframe that frames following a history belong to: the newest one or the one before it. -/
def baseOf (p : Policy) (history : List Int) : Option Int :=
  if p.fromLast then (book p history).keyFrames.getLast? else (book p history).keyFrames.dropLast.getLast?

/-- The system still holds the frame: it is a keyframe of the window or a frame tracked against one of them. -/
def Alive {G : Type} (s : Dso.State G) (n : Int) : Prop :=
  ∃ kf ∈ s.keyFrames, n = kf.num ∨ ∃ f ∈ kf.trackedFrames, n = f.num

/-- `l` is known to be the light from keyframe `b` to frame `n`: they are the same frame and nothing changes, or it is what tracking frame
`n` against keyframe `b` has found. -/
def LightFromTo {G : Type} (calls : List (Call G)) (b n : Int) (l : AffLight) : Prop :=
  (b = n ∧ l = .identity) ∨ ∃ c ∈ calls, c.base = b ∧ c.num = n ∧ c.light = l

end Mdso.Session
