import Verif.Model.PointLife
import Verif.Spec.DsoSystem

/-!
# What the estimates of the points are made of
-/

set_option autoImplicit false

namespace Mdso.Life

open Mdso.FrameSpec

variable {G : Type}

/-- The frames of a history that come after those used for the initialization and after frame `n`. -/
def framesAfter (skip : Nat) (n : Int) (xs : List (FrameIn G)) : List (FrameIn G) :=
  (xs.drop (skip + 2)).filter fun x => n < x.sys.num

/-- A candidate of keyframe `n` after it was looked for in the given frames, once in each, in this order. -/
def tracedThrough (n : Int) (fs : List (FrameIn G)) (ip : Act.Immature) : Act.Immature :=
  fs.foldl (fun ip x => ⟨ip.p, (x.trace n ip).1, (x.trace n ip).2.1, (x.trace n ip).2.2⟩) ip

/-- The frames of a history that became keyframes, from frame `m` on. -/
def keyFramesFrom (P : Policy) (m : Int) (xs : List (FrameIn G)) : List (FrameIn G) :=
  xs.filter fun x => m ≤ x.sys.num ∧ x.sys.num ∈ (book P (xs.map (·.sys.num))).keyFrames

/-- The state of a point after bundle adjustment gave it a mark: out of bounds is forever. -/
def marked : Act.PState → Mark → Act.PState
  | .oob, _ => .oob
  | s, .keep => s
  | _, .oob => .oob
  | _, .outlier => .outlier

/-- An optimized point of keyframe `n` after bundle adjustment at the given keyframes, once at each, in this order; nothing happens if bundle adjustment is switched off. -/
def adjustedThrough (on : Bool) (n : Int) (fs : List (FrameIn G)) (op : Act.Optimized) : Act.Optimized :=
  if on then fs.foldl (fun op x => ⟨op.p, (x.ba n op).1, op.stddev, marked op.state (x.ba n op).2⟩) op else op

/-- How a candidate of keyframe `n` became the optimized point `op` in a history: at a frame `x` that became a keyframe it was ready, after it had been looked for in all
frames up to this one; it was taken with the estimates it had then, and bundle adjustment worked on it at `x` and at every keyframe since. -/
def Became (p : Params) (xs : List (FrameIn G)) (n : Int) (ip : Act.Immature) (op : Act.Optimized) : Prop :=
  ∃ ys x zs, xs = ys ++ x :: zs ∧ x.sys.num ∈ (book (Dso.policyOf p.set) (xs.map (·.sys.num))).keyFrames.drop 2 ∧
    ∃ now, now = tracedThrough n (framesAfter (Dso.policyOf p.set).skip n (ys ++ [x])) ip ∧ now.state = .active ∧ now.stddev < x.env.optimizedStddev ∧
      op = adjustedThrough p.set.runBA n (keyFramesFrom (Dso.policyOf p.set) x.sys.num xs) ⟨now.p, -Real.log now.depth, now.stddev, .active⟩

/-- The points of keyframe `n` are the ones it was made with. Those that are candidates have been looked for in the frames of the history `xs`, and the others became
optimized in the history `ys`. -/
def Explained (p : Params) (xs ys : List (FrameIn G)) (n : Int) (kf : Act.KeyFrame) : Prop :=
  ∃ act cand, (act ++ cand).Perm (p.made n) ∧
    kf.immature.Perm (cand.map (tracedThrough n (framesAfter (Dso.policyOf p.set).skip n xs))) ∧
    List.Forall₂ (Became p ys n) act kf.optimized

/-- The keyframe `n` was handed over at the frame `x` of the history, that is when `maxKeyFrames` newer ones were there; it has the points it had then. -/
def HandedOver (p : Params) (xs : List (FrameIn G)) (n : Int) (kf : Act.KeyFrame) : Prop :=
  ∃ ys x zs, xs = ys ++ x :: zs ∧
    (((book (Dso.policyOf p.set) ((ys ++ [x]).map (·.sys.num))).keyFrames.filter fun m => n < m).length : Int) = p.set.maxKeyFrames ∧
    ((book (Dso.policyOf p.set) (ys.map (·.sys.num))).keyFrames.filter fun m => n < m).length < p.set.maxKeyFrames ∧
    Explained p (ys ++ [x]) ys n kf

end Mdso.Life
