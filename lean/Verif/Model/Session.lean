import Verif.Model.Resume
import Verif.Model.AffineLight

/-!
# Model of a session: light estimates and tracker observers around the frame machine

Adds to the model of `DsoSystem` (`Verif/Model/DsoSystem.lean`) the light estimates that are handed from one tracked frame to the next
(`lightKfToLast`, `lightWorldToThis`), the list of `FrameTrackerObserver`s with the copy every `FrameTracker` keeps of it, and a record of
the calls of `FrameTracker::trackFrame`. Also models the pointers `DebugImageDrawer` keeps (source/output/DebugImageDrawer.cpp:27-33, 62).

* Observers are numbers.
* What `FrameTracker::trackFrame` finds is an arbitrary function of the light it starts from; everything else it depends on is fixed at
  the time of the call.
-/

set_option autoImplicit false

namespace Mdso.Session

open Mdso.Dso Mdso.Light

/-- One call of `FrameTracker::trackFrame` (source/system/DsoSystem.cpp:458-459): the frame, the base keyframe, the observers the tracker
knows, the light the search starts from, and the motion and light found. -/
structure Call (G : Type) where
  num : Int
  base : Int
  told : List Nat
  start : AffLight
  motion : G
  light : AffLight

/-- Members of `DsoSystem` (include/system/DsoSystem.h:79-101): those of `Dso.State`, then `lightKfToLast`, the `lightWorldToThis` of the
keyframes by number, the observers in `observers.frameTracker` and the observers of the current `frameTracker` (`none`: null pointer).
`calls` collects the calls of `trackFrame` made so far. -/
structure State (G : Type) where
  sys : Dso.State G
  lightKfToLast : AffLight
  lights : Int → AffLight
  observers : List Nat
  tracker : Option (List Nat)
  calls : List (Call G)

/-- One call of `addFrame` with what the numerical parts return: as in `Dso.FrameIn`, but tracking may depend on the light it starts from,
and bundle adjustment also leaves light transforms behind. -/
structure FrameInput (G : Type) where
  num : Int
  stereo : G
  track : AffLight → G × AffLight
  ba : Int → G
  baLight : Int → AffLight

/-- What a user does with a running system. -/
inductive Op (G : Type) where
  | frame (x : FrameInput G)
  | observer (obs : Nat)

/-- The constructor (source/system/DsoSystem.cpp:15-38). `given` are the tracker observers passed by the caller, `inCreated` those that the
`DsoObserver`s register while their `created` is called (line 36-37). -/
def create {G : Type} (set : Settings) (given inCreated : List Nat) : Except Err (State G) :=
  match Dso.create set with
  | .error e => .error e
  | .ok s => .ok
    { sys := s
      lightKfToLast := .identity
      lights := fun _ => .identity
      observers := given ++ inCreated
      tracker := none
      calls := [] }

/-- The constructor from a snapshot (source/system/DsoSystem.cpp:40-110). The tracker is built from the parameter `observers` (line 108),
which hides the member of the same name. `light` is the light read in lines 81-84, `lights` are those of the loaded keyframes. -/
def resume {G : Type} [Group G] (set : Settings) (given inCreated : List Nat) (dsoObservers : Nat) (kfs : List (KeyFrame G))
    (light : AffLight) (lights : Int → AffLight) : Except Err (State G) :=
  match Dso.resume set dsoObservers kfs with
  | .error e => .error e
  | .ok s => .ok
    { sys := s
      lightKfToLast := light
      lights := lights
      observers := given ++ inCreated
      tracker := some given
      calls := [] }

/-- `addFrameTrackerObserver` (source/system/DsoSystem.cpp:274-278) and `FrameTracker::addObserver`
(source/system/FrameTracker.cpp:72-74). -/
def addFrameTrackerObserver {G : Type} (s : State G) (obs : Nat) : State G :=
  { s with observers := s.observers ++ [obs], tracker := s.tracker.map (· ++ [obs]) }

/-- The light transforms of the keyframes after a frame became a keyframe: that of the new one (source/system/KeyFrame.cpp:30-33), then,
if bundle adjustment runs, what it leaves behind for the keyframes of the window (source/system/DsoSystem.cpp:527-532). -/
noncomputable def newLights {G : Type} (set : Settings) (lights : Int → AffLight) (window : List (KeyFrame G)) (num base : Int) (light : AffLight)
    (baLight : Int → AffLight) : Int → AffLight :=
  fun n =>
    if set.runBA ∧ n ∈ window.map (·.num) then baLight n
    else if n = num then light.mul (lights base) else lights n

/-- `addFrame` before initialization (source/system/DsoSystem.cpp:389-444); a tracker is made when the system gets initialized
(lines 431-433). -/
def frameInit {G : Type} [Group G] (set : Settings) (s : State G) (x : FrameInput G) : Except Err (State G) :=
  match Dso.addFrame set s.sys ⟨x.num, x.stereo, 1, x.ba⟩ with
  | .error e => .error e
  | .ok (sys, _) => .ok
    { s with
      sys := sys
      tracker := if sys.isInitialized then some s.observers else s.tracker }

/-- `addFrame` after initialization (source/system/DsoSystem.cpp:446-567): tracking starts from `lightKfToLast` (line 459), its result
becomes the new `lightKfToLast` (line 474); with a new keyframe a new tracker is made (lines 564-566). -/
noncomputable def frameTrack {G : Type} [Group G] (set : Settings) (s : State G) (x : FrameInput G) : Except Err (State G) :=
  match s.tracker, baseKeyFrame set s.sys.keyFrames, doNeedKf set s.sys.keyFrames x.num,
      Dso.addFrame set s.sys ⟨x.num, x.stereo, (x.track s.lightKfToLast).1, x.ba⟩ with
  | some told, .ok base, .ok need, .ok (sys, _) =>
    .ok
      { sys := sys
        lightKfToLast := (x.track s.lightKfToLast).2
        lights :=
          if need && set.continueChoosingKeyFrames then
            newLights set s.lights sys.keyFrames x.num base.num (x.track s.lightKfToLast).2 x.baLight
          else s.lights
        observers := s.observers
        tracker := if need && set.continueChoosingKeyFrames then some s.observers else s.tracker
        calls := s.calls ++
          [{ num := x.num, base := base.num, told := told, start := s.lightKfToLast
             motion := (x.track s.lightKfToLast).1, light := (x.track s.lightKfToLast).2 }] }
  | _, _, _, .error e => .error e
  | _, _, _, _ => .error .ub

/-- One action of the user. -/
noncomputable def step {G : Type} [Group G] (set : Settings) (s : State G) : Op G → Except Err (State G)
  | .observer obs => .ok (addFrameTrackerObserver s obs)
  | .frame x => if !s.sys.isInitialized then frameInit set s x else frameTrack set s x

/-- A sequence of actions. -/
noncomputable def run {G : Type} [Group G] (set : Settings) (s : State G) : List (Op G) → Except Err (State G)
  | [] => .ok s
  | o :: os =>
    match step set s o with
    | .error e => .error e
    | .ok s' => run set s' os

/-! ## `DebugImageDrawer` -/

/-- The pointers kept by `DebugImageDrawer` (include/output/DebugImageDrawer.h:29-30), as the numbers of the frames. -/
structure Drawer where
  baseFrame : Option Int
  lastFrame : Option Int

/-- `newFrame`, `newKeyFrame` (source/output/DebugImageDrawer.cpp:27-33); the other calls are ignored. -/
def Drawer.observe {G : Type} (d : Drawer) : Event G → Drawer
  | .newFrame n => { d with lastFrame := some n }
  | .newKeyFrame kf => { d with baseFrame := some kf.num }
  | _ => d

/-- The drawer after a sequence of observer calls. -/
def Drawer.after {G : Type} (log : List (Event G)) : Drawer := log.foldl Drawer.observe ⟨none, none⟩

/-- `baseToLast` (source/output/DebugImageDrawer.cpp:62): the `baseToThis` of the last frame, i.e. the motion of the last call of the
tracker. It is applied to the points projected onto the current base keyframe (lines 46-49, 63-65). -/
def baseToLast {G : Type} (s : State G) : Option G := s.calls.getLast?.map (·.motion)

end Mdso.Session
