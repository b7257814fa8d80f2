import Verif.Model.GenPlyRun
import Verif.Spec.DsoSystem
import Verif.Spec.Frames
import Verif.Spec.TrajectoryWriter

/-!
# What the files of a run of `genply` should be compared with
-/

set_option autoImplicit false

namespace Mdso.GenPlyRun

open Mdso.Dso Mdso.Traj Mdso.FrameSpec

variable {G : Type}

/-- What is in a file; nothing if there is no such file. -/
def content (d : Disk G) (p : Path) : List (Item G) := (d.files p).getD []

/-- So many frames from this one on. -/
def framesFrom (start count : Int) : List Int := (List.range count.toNat).map fun i : Nat => start + (i : Int)

/-- A call of `addFrame`. -/
def callOf (x : Input G) (n : Int) : FrameIn G := ⟨n, x.stereo, x.track, x.ba⟩

/-- The calls of `addFrame` for these frames. -/
def callsOf (wd : World G) (ns : List Int) : List (FrameIn G) := ns.filterMap fun n => (wd.input n).map fun x => callOf x n

/-- Whether a frame becomes a keyframe. -/
def makesKeyFrame (set : Settings) (done : List Int) (n : Int) : Bool :=
  decide ((book (policyOf set) done).length < (book (policyOf set) (done ++ [n])).length)

/-- What a run of `genply` needs to get to its end. -/
structure Ready [Group G] (f : Flags) (wd : World G) : Prop where
  valid : Valid wd.set
  start : 0 < f.start
  range : f.start + f.count ≤ intMax
  truth : ∀ n, f.start ≤ n → n < f.start + f.count → n < wd.gt.length
  readable : ∀ n, f.start ≤ n → n < f.start + f.count → (wd.input n).isSome

end Mdso.GenPlyRun
