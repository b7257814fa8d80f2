import Verif.Model.DsoSystem
import Verif.Model.Activation

/-!
# Model of the points held by a running system

`Model.DsoSystem` keeps track of frames and keyframes without their points, and `Model.Activation` of one activation of points. Here both are joined: the state holds,
beside that of `Model.DsoSystem`, the keyframes of the window with their candidates and optimized points, through initialization, tracing, the creation of a keyframe,
marginalization, activation and bundle adjustment (source/system/DsoSystem.cpp:381-570). Numerical results are parameters: the estimates that tracing and bundle
adjustment leave, the reprojection used by activation, and the points a keyframe is made with.
-/

set_option autoImplicit false

namespace Mdso.Life

open Mdso (Fault)

/-- What stays the same over a life: the settings (`maxOptimizedPoints`: include/util/settings.h:236-237), what `std::nth_element` and `std::sort` do, and the candidates
the keyframe of a frame gets when it is made (source/system/KeyFrame.cpp:45-61 for a tracked frame, source/system/DelaunayDsoInitializer.cpp:46-190 for the first two
keyframes). A frame is made a keyframe at most once, so this is no restriction. -/
structure Params where
  set : Dso.Settings
  maxOptimizedPoints : Int
  nth : List (Nat × Int) → Nat → List (Nat × Int)
  sort : List Nat → (Nat → Nat) → List Nat
  made : Int → List Act.Immature

/-- What bundle adjustment may do to the state of a point (source/system/BundleAdjuster.cpp:280-293). -/
inductive Mark where
  | keep
  | oob
  | outlier
  deriving DecidableEq

/-- One call of `addFrame`: what `Model.DsoSystem` needs, the estimates left by `traceOn` for a candidate of the keyframe with the given number, the reprojection used by
activation, how many rounds the construction of the distance map may take, and what bundle adjustment leaves for an optimized point. -/
structure FrameIn (G : Type) where
  sys : Dso.FrameIn G
  trace : Int → Act.Immature → ℝ × ℝ × Act.PState
  env : Act.Env
  fuel : Nat
  ba : Int → Act.Optimized → ℝ × Mark

/-- A keyframe of the map `keyFrames`: its number and its points (include/system/KeyFrame.h:48-49). -/
abbrev Entry := Int × Act.KeyFrame

/-- The system: the state of `Model.DsoSystem`, the map `keyFrames` with the points, and the keyframes handed to `keyFramesMarginalized` so far with the points they had
then (source/system/DsoSystem.cpp:285-290). -/
structure State (G : Type) where
  sys : Dso.State G
  window : List Entry
  handed : List Entry

/-- The constructor (source/system/DsoSystem.cpp:15-38): no keyframes. -/
def create {G : Type} (set : Dso.Settings) : Except Dso.Err (State G) :=
  match Dso.create set with
  | .error e => .error e
  | .ok sys => .ok ⟨sys, [], []⟩

/-- `std::map::insert`, see `Dso.mapInsert`. -/
def insert (e : Entry) : List Entry → List Entry
  | [] => [e]
  | k :: ks => if e.1 < k.1 then e :: k :: ks else if e.1 = k.1 then k :: ks else k :: insert e ks

/-- A keyframe as it is made (source/system/KeyFrame.cpp:45-54, source/system/DelaunayDsoInitializer.cpp:59-69): candidates, and no optimized points. -/
def newKeyFrame (p : Params) (num : Int) : Entry := (num, ⟨p.made num, []⟩)

/-- `traceOn` for one candidate (source/system/DsoSystem.cpp:487): its position in the keyframe stays. -/
def traceOn (r : Act.Immature → ℝ × ℝ × Act.PState) (ip : Act.Immature) : Act.Immature :=
  { ip with depth := (r ip).1, stddev := (r ip).2.1, state := (r ip).2.2 }

/-- The loop over all candidates of the window (source/system/DsoSystem.cpp:485-499). -/
def traceAll {G : Type} (x : FrameIn G) (w : List Entry) : List Entry :=
  w.map fun e => (e.1, { e.2 with immature := e.2.immature.map (traceOn (x.trace e.1)) })

/-- `marginalizeFrames` (source/system/DsoSystem.cpp:280-294): the keyframes handed over, and the ones that stay. See `Dso.marginalizeFrames`. -/
def marginalize (set : Dso.Settings) (w : List Entry) : List Entry × List Entry :=
  if 0 ≤ set.maxKeyFrames ∧ (w.length : Int) > set.maxKeyFrames then
    (w.take (w.length - set.maxKeyFrames.toNat), w.drop (w.length - set.maxKeyFrames.toNat))
  else ([], w)

/-- The outcome of activation with the numbers of the keyframes. -/
def withNumbers (nums : List Int) : Except Fault (Option (List Act.KeyFrame)) → Except Fault (Option (List Entry))
  | .error e => .error e
  | .ok none => .ok none
  | .ok (some kfs) => .ok (some (nums.zip kfs))

/-- `activateNewOptimizedPoints` on the window (source/system/DsoSystem.cpp:296-359). -/
noncomputable def activate {G : Type} (p : Params) (x : FrameIn G) (w : List Entry) : Except Fault (Option (List Entry)) :=
  match Dso.baseIndex p.set w.length with
  | none => .error .ub
  | some i => withNumbers (w.map Prod.fst)
      (Act.activate p.nth p.sort x.fuel ⟨x.env.width, x.env.height, i, x.env.reproject, x.env.optimizedStddev⟩ p.maxOptimizedPoints (w.map Prod.snd))

/-- What `BundleAdjuster::adjust` leaves of one optimized point: a depth from the solver, and a mark unless the point is out of bounds already
(source/system/BundleAdjuster.cpp:181-187, 263-293). -/
def adjustPoint (r : Act.Optimized → ℝ × Mark) (op : Act.Optimized) : Act.Optimized :=
  { op with
    logInvDepth := (r op).1
    state := if op.state = .oob then .oob else
      match (r op).2 with
      | .keep => op.state
      | .oob => .oob
      | .outlier => .outlier }

/-- Bundle adjustment on the points of the window (source/system/DsoSystem.cpp:527-532). -/
def adjust {G : Type} (p : Params) (x : FrameIn G) (w : List Entry) : List Entry :=
  if p.set.runBA then w.map fun e => (e.1, { e.2 with optimized := e.2.optimized.map (adjustPoint (x.ba e.1)) }) else w

/-- The kinds of failure of `Model.DsoSystem`. -/
def ofErr : Dso.Err → Fault
  | .ub => .ub
  | .abort => .abort

/-- What follows the activation (source/system/DsoSystem.cpp:527-532), given its outcome. -/
def afterActivation {G : Type} (p : Params) (sys : Dso.State G) (x : FrameIn G) (handed : List Entry) :
    Except Fault (Option (List Entry)) → Except Fault (Option (State G))
  | .error e => .error e
  | .ok none => .ok none
  | .ok (some w) => .ok (some ⟨sys, adjust p x w, handed⟩)

/-- The keyframe branch (source/system/DsoSystem.cpp:515-532), for the points. -/
noncomputable def addKeyFrame {G : Type} (p : Params) (sys : Dso.State G) (x : FrameIn G) (w handed : List Entry) : Except Fault (Option (State G)) :=
  let r := marginalize p.set (insert (newKeyFrame p x.sys.num) w)
  afterActivation p sys x (handed ++ r.1) (activate p x r.2)

/-- `addFrame` (source/system/DsoSystem.cpp:381-570) with the points. A failure of the frame bookkeeping is reported even if it would come after a failure of the
activation. `none`: the construction of the distance map was cut off. -/
noncomputable def addFrame {G : Type} [Group G] (p : Params) (s : State G) (x : FrameIn G) : Except Fault (Option (State G)) :=
  match Dso.addFrame p.set s.sys x.sys with
  | .error e => .error (ofErr e)
  | .ok (sys', _) =>
    if !s.sys.isInitialized then
      let r := s.sys.initializer.addFrame p.set x.sys.num
      if r.2 then
        -- source/system/DsoSystem.cpp:395-403
        let kfs := r.1.createKeyFrames x.sys.num x.sys.stereo
        .ok (some ⟨sys', kfs.foldl (fun w kf => insert (newKeyFrame p kf.num) w) s.window, s.handed⟩)
      else .ok (some ⟨sys', s.window, s.handed⟩)
    else
      let w := traceAll x s.window
      match Dso.doNeedKf p.set s.sys.keyFrames x.sys.num with
      | .error e => .error (ofErr e)
      | .ok need =>
        if p.set.continueChoosingKeyFrames && need then addKeyFrame p sys' x w s.handed
        else .ok (some ⟨sys', w, s.handed⟩)

/-- Go on after a call, given its outcome. -/
def andThen {α β : Type} (f : α → Except Fault (Option β)) : Except Fault (Option α) → Except Fault (Option β)
  | .error e => .error e
  | .ok none => .ok none
  | .ok (some a) => f a

/-- A sequence of calls. -/
noncomputable def run {G : Type} [Group G] (p : Params) (s : State G) : List (FrameIn G) → Except Fault (Option (State G))
  | [] => .ok (some s)
  | x :: xs => andThen (fun s' => run p s' xs) (addFrame p s x)

end Mdso.Life
