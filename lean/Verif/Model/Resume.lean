import Verif.Model.DsoSystem

/-!
# Model of resuming a `DsoSystem` from a snapshot

Models the snapshot constructor of `DsoSystem` (source/system/DsoSystem.cpp:40-110) as far as frame
numbers, the pose table and observer calls are concerned. The loaded keyframes are an input; the
rebuilt depth pyramid and tracker (lines 86-109) are not part of this model.
-/

set_option autoImplicit false

namespace Mdso.Dso

/-- Registration of one frame: its number, room in the pose table, its pose
(source/system/DsoSystem.cpp:64-67 and 72-76). -/
def register {G : Type} (s : State G) (num : Int) (pose : G) : Except Err (State G) :=
  match adjustWorldToFrameSizes { s with frameNumbers := s.frameNumbers ++ [num] } num with
  | .error e => .error e
  | .ok s => writePose s num pose

/-- The loop over the observers of one keyframe (source/system/DsoSystem.cpp:68-78): the tracked frames
are registered inside of it. -/
def registerTracked {G : Type} [Group G] (kf : KeyFrame G) : Nat → State G → Except Err (State G)
  | 0, s => .ok s
  | n + 1, s =>
    match kf.trackedFrames.foldlM
        (fun s f => register s f.num (f.baseToThis * kf.thisToWorld⁻¹)) s with
    | .error e => .error e
    | .ok s => registerTracked kf n s

/-- One round of the loop over the keyframes (source/system/DsoSystem.cpp:63-79). -/
def resumeKeyFrame {G : Type} [Group G] (observers : Nat) (s : State G) (kf : KeyFrame G) :
    Except Err (State G) :=
  match register s kf.num kf.thisToWorld⁻¹ with
  | .error e => .error e
  | .ok s => registerTracked kf observers s

/-- The calls every observer gets for one keyframe (source/system/DsoSystem.cpp:69-71). -/
def resumeEvents {G : Type} (kf : KeyFrame G) : List (Event G) :=
  .newKeyFrame kf :: kf.trackedFrames.map (fun f => .newFrame f.num)

/-- The newest two keyframes have no tracked frames: `back()` of an empty vector in
source/system/DsoSystem.cpp:82. -/
def noTracked {G : Type} (kfs : List (KeyFrame G)) : Bool :=
  match kfs.reverse with
  | last :: lbo :: _ => last.trackedFrames.isEmpty && lbo.trackedFrames.isEmpty
  | _ => true

/-- The snapshot constructor (source/system/DsoSystem.cpp:40-84), `kfs` being the loaded keyframes in
the order of the map and `observers` the number of `DsoObserver`s. The initializer does not exist in
a resumed system and is never used. -/
def resume {G : Type} [Group G] (set : Settings) (observers : Nat) (kfs : List (KeyFrame G)) :
    Except Err (State G) :=
  if set.initialMaxFrame < 0 then .error .abort
  else if kfs.length < 2 then .error .abort
  else
    match kfs.foldlM (resumeKeyFrame observers)
        { initializer := { hasFirstFrame := false, framesSkipped := 0, globalFrameNum0 := 0 }
          isInitialized := true
          keyFrames := kfs
          frameNumbers := []
          tableSize := set.initialMaxFrame
          worldToFrame := fun _ => none
          log := kfs.flatMap resumeEvents } with
    | .error e => .error e
    | .ok s => if noTracked kfs then .error .ub else .ok s

end Mdso.Dso
