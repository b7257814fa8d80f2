import Mathlib.Algebra.Group.Defs

/-!
# Model of `DsoSystem`: frame bookkeeping, keyframe window, poses and observer events

Models `source/system/DsoSystem.cpp`, `include/system/DsoSystem.h` and the frame-selection part of
`source/system/DelaunayDsoInitializer.cpp`, as far as frame numbers, keyframes, tracked frames, poses
and observer calls are concerned.

* `G` is the group of rigid motions (`SE3`); only the group laws are used.
* The numerical results of stereo initialization, frame tracking and bundle adjustment are inputs
  (`FrameIn`): theorems hold whatever they return.
* Points, images and light parameters are not part of this model.
* Undefined behaviour is `Err.ub`, a failing `CHECK` is `Err.abort`.
-/

set_option autoImplicit false

namespace Mdso.Dso

/-- Undefined behaviour, or a failed `CHECK`. -/
inductive Err where
  | ub
  | abort
  deriving DecidableEq, Repr

/-- The settings the frame machine reads (include/util/settings.h; `maxKeyFrames` etc. are `int`). -/
structure Settings where
  shiftBetweenKeyFrames : Int
  maxKeyFrames : Int
  trackFromLastKf : Bool
  continueChoosingKeyFrames : Bool
  firstFramesSkip : Int
  initialMaxFrame : Int
  runBA : Bool
  deriving DecidableEq, Repr

/-- `PreKeyFrame` of a tracked frame: its number and the tracked motion
(include/system/PreKeyFrame.h:31-35). -/
structure Tracked (G : Type) where
  num : Int
  baseToThis : G
  deriving DecidableEq, Repr

/-- `KeyFrame`: number, pose, tracked frames in `push_back` order
(include/system/KeyFrame.h:43-51). -/
structure KeyFrame (G : Type) where
  num : Int
  thisToWorld : G
  trackedFrames : List (Tracked G)
  deriving DecidableEq, Repr

/-- Calls to the `DsoObserver`s with the state of their arguments at the time of the call
(include/output/DsoObserver.h:14-29). Every observer gets the same calls in the same order. -/
inductive Event (G : Type) where
  | initialized (kfs : List (KeyFrame G))
  | newFrame (num : Int)
  | newKeyFrame (kf : KeyFrame G)
  | marginalized (kfs : List (KeyFrame G))
  | destructed (kfs : List (KeyFrame G))

/-- The initializer's members (include/system/DelaunayDsoInitializer.h:35-39). -/
structure Initializer where
  hasFirstFrame : Bool
  framesSkipped : Int
  globalFrameNum0 : Int
  deriving DecidableEq, Repr

/-- The modelled members of `DsoSystem` (include/system/DsoSystem.h:79-88).
`keyFrames` is the `std::map`, ordered by number. `worldToFrame n = none` stands for a table
entry never assigned since its default construction (reading it yields the identity);
`tableSize` is the size of that table. `log` collects all observer calls made so far. -/
structure State (G : Type) where
  initializer : Initializer
  isInitialized : Bool
  keyFrames : List (KeyFrame G)
  frameNumbers : List Int
  tableSize : Int
  worldToFrame : Int → Option G
  log : List (Event G)

/-- One call of `addFrame`: the frame number and what the numerical parts return for this frame:
`stereo` the motion found by `StereoMatcher::match`, `track` the motion found by
`FrameTracker::trackFrame`, `ba` the keyframe poses left behind by `BundleAdjuster::adjust`. -/
structure FrameIn (G : Type) where
  num : Int
  stereo : G
  track : G
  ba : Int → G

/-- Largest C++ `int`. -/
def intMax : Int := 2147483647

/-- Constructor (source/system/DsoSystem.cpp:15-38). A negative `initialMaxFrame` makes the vector
constructors of lines 27-28 throw (treated like an abort). -/
def create {G : Type} (set : Settings) : Except Err (State G) :=
  if set.initialMaxFrame < 0 then .error .abort
  else .ok
    { initializer := { hasFirstFrame := false, framesSkipped := 0, globalFrameNum0 := 0 }
      isInitialized := false
      keyFrames := []
      frameNumbers := []
      tableSize := set.initialMaxFrame
      worldToFrame := fun _ => none
      log := [] }

/-- `adjustWorldToFrameSizes` (source/system/DsoSystem.cpp:373-379). `newFrameNum + 1` overflows for
the largest `int`. -/
def adjustWorldToFrameSizes {G : Type} (s : State G) (num : Int) : Except Err (State G) :=
  if ¬ 0 < num then .error .abort
  else if num ≥ s.tableSize then
    if num ≥ intMax then .error .ub
    else .ok { s with tableSize := num + 1 }
  else .ok s

/-- Assignment `worldToFrame[num] = pose`; an index outside the table is undefined behaviour. -/
def writePose {G : Type} (s : State G) (num : Int) (pose : G) : Except Err (State G) :=
  if 0 ≤ num ∧ num < s.tableSize then
    .ok { s with worldToFrame := fun i => if i = num then some pose else s.worldToFrame i }
  else .error .ub

/-- `DelaunayDsoInitializer::addFrame` (source/system/DelaunayDsoInitializer.cpp:27-44). -/
def Initializer.addFrame (set : Settings) (ini : Initializer) (num : Int) : Initializer × Bool :=
  if !ini.hasFirstFrame then
    ({ ini with hasFirstFrame := true, globalFrameNum0 := num }, false)
  else if ini.framesSkipped < set.firstFramesSkip then
    ({ ini with framesSkipped := ini.framesSkipped + 1 }, false)
  else (ini, true)

/-- The keyframes created by `DelaunayDsoInitializer::createKeyFrames`
(source/system/DelaunayDsoInitializer.cpp:59-69): numbers and poses only. -/
def Initializer.createKeyFrames {G : Type} [Group G] (ini : Initializer) (num1 : Int)
    (firstToSecond : G) : List (KeyFrame G) :=
  [{ num := ini.globalFrameNum0, thisToWorld := 1, trackedFrames := [] },
   { num := num1, thisToWorld := firstToSecond⁻¹, trackedFrames := [] }]

/-- `std::map::insert` into the map from numbers to keyframes: keeps the order, and keeps the old
element if the key is present. -/
def mapInsert {G : Type} (kf : KeyFrame G) : List (KeyFrame G) → List (KeyFrame G)
  | [] => [kf]
  | k :: ks =>
    if kf.num < k.num then kf :: k :: ks
    else if kf.num = k.num then k :: ks
    else k :: mapInsert kf ks

/-- Position of `baseKeyFrame()` in the window (include/system/DsoSystem.h:48-56):
the last keyframe, or the one before it. `none`: the iterator would leave the map. -/
def baseIndex (set : Settings) (n : Nat) : Option Nat :=
  if set.trackFromLastKf then (if 1 ≤ n then some (n - 1) else none)
  else (if 2 ≤ n then some (n - 2) else none)

/-- `baseKeyFrame()` (include/system/DsoSystem.h:54-56). -/
def baseKeyFrame {G : Type} (set : Settings) (kfs : List (KeyFrame G)) :
    Except Err (KeyFrame G) :=
  match baseIndex set kfs.length with
  | none => .error .ub
  | some i =>
    match kfs[i]? with
    | some kf => .ok kf
    | none => .error .ub

/-- `lastKeyFrame()` (include/system/DsoSystem.h:48-50). -/
def lastKeyFrame {G : Type} (kfs : List (KeyFrame G)) : Except Err (KeyFrame G) :=
  match kfs.getLast? with
  | some kf => .ok kf
  | none => .error .ub

/-- The initialization branch of `addFrame` (source/system/DsoSystem.cpp:389-444). `s` already
contains the new frame number. Returns the new state and the number of the returned frame. -/
def addFrameInit {G : Type} [Group G] (set : Settings) (s : State G) (x : FrameIn G) :
    Except Err (State G × Option Int) :=
  let r := s.initializer.addFrame set x.num
  let s := { s with initializer := r.1, isInitialized := r.2 }
  if !r.2 then .ok (s, none)
  else
    let kf := r.1.createKeyFrames x.num x.stereo
    -- lines 396-399
    match kf.foldlM (fun s f => writePose s f.num f.thisToWorld⁻¹) s with
    | .error e => .error e
    | .ok s =>
      -- lines 400-403
      let kfs := kf.foldl (fun m f => mapInsert f m) s.keyFrames
      -- lines 405-411, 437-438
      match baseKeyFrame set kfs, lastKeyFrame kfs with
      | .ok base, .ok last =>
        .ok ({ s with keyFrames := kfs, log := s.log ++ [.initialized kfs, .newKeyFrame base] },
          some last.num)
      | _, _ => .error .ub

/-- The two frames whose poses the motion prediction reads (source/system/DsoSystem.cpp:231-266):
last but one and last of the frames before the current one. `frameNumbers[size() - 3]` of a shorter
vector (line 260, evaluated before the `CHECK` in line 232) is undefined behaviour. -/
def predictionFrames (frameNumbers : List Int) : Except Err (Int × Int) :=
  match frameNumbers.reverse with
  | _ :: last :: lbo :: _ => .ok (lbo, last)
  | _ => .error .ub

/-- `doNeedKf` (source/system/DsoSystem.cpp:268-272). C++ `%` truncates; a zero divisor is undefined
behaviour, but only evaluated for `shift > 0`. -/
def doNeedKf {G : Type} (set : Settings) (kfs : List (KeyFrame G)) (num : Int) :
    Except Err Bool :=
  match lastKeyFrame kfs with
  | .error e => .error e
  | .ok last =>
    let shift := num - last.num
    if 0 < shift then
      if set.shiftBetweenKeyFrames = 0 then .error .ub
      else .ok (decide (shift.tmod set.shiftBetweenKeyFrames = 0))
    else .ok false

/-- `baseKeyFrame().trackedFrames.push_back(f)` (source/system/DsoSystem.cpp:513). -/
def pushTracked {G : Type} (set : Settings) (kfs : List (KeyFrame G)) (f : Tracked G) :
    Except Err (List (KeyFrame G)) :=
  match baseIndex set kfs.length with
  | none => .error .ub
  | some i => .ok (kfs.modify i (fun kf => { kf with trackedFrames := kf.trackedFrames ++ [f] }))

/-- `marginalizeFrames` (source/system/DsoSystem.cpp:280-294). The comparison in line 281 converts
a negative `maxKeyFrames` to a huge unsigned number, so nothing happens then. -/
def marginalizeFrames {G : Type} (set : Settings) (s : State G) : State G :=
  if 0 ≤ set.maxKeyFrames ∧ (s.keyFrames.length : Int) > set.maxKeyFrames then
    let count := s.keyFrames.length - set.maxKeyFrames.toNat
    { s with
      keyFrames := s.keyFrames.drop count
      log := s.log ++ [.marginalized (s.keyFrames.take count)] }
  else s

/-- One round of the refresh loop (source/system/DsoSystem.cpp:534-539): the keyframe's entry of the
pose table, then its tracked frames' entries. -/
def refreshKeyFrame {G : Type} [Group G] (s : State G) (kf : KeyFrame G) : Except Err (State G) :=
  match writePose s kf.num kf.thisToWorld⁻¹ with
  | .error e => .error e
  | .ok s => kf.trackedFrames.foldlM
      (fun s f => writePose s f.num (f.baseToThis * kf.thisToWorld⁻¹)) s

/-- Bundle adjustment and the refresh of the pose table (source/system/DsoSystem.cpp:527-540).
`BundleAdjuster::adjust` dereferences a null pointer with a single keyframe
(source/system/BundleAdjuster.cpp:143). -/
def runBundleAdjustment {G : Type} [Group G] (set : Settings) (s : State G) (ba : Int → G) :
    Except Err (State G) :=
  if !set.runBA then .ok s
  else if s.keyFrames.length < 2 then .error .ub
  else
    let kfs := s.keyFrames.map (fun kf => { kf with thisToWorld := ba kf.num })
    kfs.foldlM refreshKeyFrame { s with keyFrames := kfs }

/-- The keyframe branch of `addFrame` (source/system/DsoSystem.cpp:515-567) with the `KeyFrame`
constructor's pose (source/system/KeyFrame.cpp:34-37). Point activation and the new `FrameTracker`
are not part of this model. -/
def addKeyFrame {G : Type} [Group G] (set : Settings) (s : State G) (x : FrameIn G)
    (base : KeyFrame G) : Except Err (State G) :=
  let kf : KeyFrame G :=
    { num := x.num, thisToWorld := base.thisToWorld * x.track⁻¹, trackedFrames := [] }
  let s := { s with keyFrames := mapInsert kf s.keyFrames }
  let s := marginalizeFrames set s
  match baseKeyFrame set s.keyFrames with
  | .error e => .error e
  | .ok base' =>
    let s := { s with log := s.log ++ [.newKeyFrame base'] }
    runBundleAdjustment set s x.ba

/-- The tracking branch of `addFrame` (source/system/DsoSystem.cpp:446-569). -/
def addFrameTrack {G : Type} [Group G] (set : Settings) (s : State G) (x : FrameIn G) :
    Except Err (State G × Option Int) :=
  match baseKeyFrame set s.keyFrames with
  | .error e => .error e
  | .ok base =>
    let s := { s with log := s.log ++ [.newFrame x.num] }
    match predictionFrames s.frameNumbers with
    | .error e => .error e
    | .ok _ =>
      -- lines 467-472
      match writePose s x.num (x.track * base.thisToWorld⁻¹) with
      | .error e => .error e
      | .ok s =>
        match doNeedKf set s.keyFrames x.num with
        | .error e => .error e
        | .ok need =>
          if !need then
            match pushTracked set s.keyFrames { num := x.num, baseToThis := x.track } with
            | .error e => .error e
            | .ok kfs => .ok ({ s with keyFrames := kfs }, some x.num)
          else if set.continueChoosingKeyFrames then
            match addKeyFrame set s x base with
            | .error e => .error e
            | .ok s => .ok (s, some x.num)
          else .ok (s, some x.num)

/-- The condition of the `CHECK` in source/system/DsoSystem.cpp:386. -/
def increasing (frameNumbers : List Int) (num : Int) : Bool :=
  match frameNumbers.getLast? with
  | none => true
  | some l => decide (num > l)

/-- `addFrame` (source/system/DsoSystem.cpp:381-570): the new state and the number of the returned
frame (`none` for a null pointer). -/
def addFrame {G : Type} [Group G] (set : Settings) (s : State G) (x : FrameIn G) :
    Except Err (State G × Option Int) :=
  match adjustWorldToFrameSizes s x.num with
  | .error e => .error e
  | .ok s =>
    if increasing s.frameNumbers x.num then
      let s := { s with frameNumbers := s.frameNumbers ++ [x.num] }
      if !s.isInitialized then addFrameInit set s x else addFrameTrack set s x
    else .error .abort

/-- A sequence of `addFrame` calls: final state and returned frames, oldest first. -/
def run {G : Type} [Group G] (set : Settings) (s : State G) :
    List (FrameIn G) → Except Err (State G × List (Option Int))
  | [] => .ok (s, [])
  | x :: xs =>
    match addFrame set s x with
    | .error e => .error e
    | .ok (s', r) =>
      match run set s' xs with
      | .error e => .error e
      | .ok (s'', rs) => .ok (s'', r :: rs)

/-- Destructor (source/system/DsoSystem.cpp:112-119): the observer calls of the whole life. -/
def destroy {G : Type} (s : State G) : List (Event G) :=
  s.log ++ [.destructed s.keyFrames]

end Mdso.Dso
