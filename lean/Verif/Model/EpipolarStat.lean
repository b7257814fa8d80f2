import Verif.Model.BaseProjection

/-!
# Model of the program `stat_epipolar`

Models `samples/mfov/stat/stat_epipolar/main.cpp:22-202`. The work on the frames is distributed over threads by `tbb::parallel_for`: it splits the
index range `[0, testCount)` into ranges of its choice, and calls a copy of `CollectDisparities` for each of them, in any order and in parallel.
Selecting pixels (see `Verif/Model/PixelSelector.lean`) and tracing them (see `Verif/Model/ImmaturePoint.lean`) are parameters. The
interleaving is modelled with one frame as the unit: the workers have no common memory that is written, apart from the slots of the array
`errors` (and the colour bounds if `show_all` is set, which is not modelled).
-/

set_option autoImplicit false

namespace Mdso.Stat

open Mdso.Geom

/-- What is used of an `ImmaturePoint` after tracing; `hasMaxDepth` is `maxDepth != INF`. -/
structure Traced where
  p : V2
  active : Bool
  hasMaxDepth : Bool
  depth : ℝ
  depthBeforeSubpixel : ℝ
  lastFullVar : ℝ
  eBeforeSubpixel : ℝ
  eAfterSubpixel : ℝ

/-- `EpiErr` (samples/mfov/stat/stat_epipolar/main.cpp:61-68). -/
@[ext] structure EpiErr where
  disparity : ℝ
  expectedErr : ℝ
  realErrBef : ℝ
  realErr : ℝ
  depthGT : ℝ
  depth : ℝ
  depthBeforeSubpixel : ℝ
  eBeforeSubpixel : ℝ
  eAfterSubpixel : ℝ

/-- What a worker keeps from frame to frame (samples/mfov/stat/stat_epipolar/main.cpp:95-96): the state of its pixel selector, and the number of
perturbations drawn from its generator, which is always seeded the same. -/
structure Local (S : Type) where
  selector : S
  drawn : Nat

/-- Flags, data set and the parts of the library that are used. `table` is the list of poses of `MultiFovReader`; `perturb k` is the change of
a motion by the `k`-th group of six numbers of a fresh generator (samples/mfov/stat/stat_epipolar/main.cpp:107-120). -/
structure Env (S P : Type) where
  startFrame : Int
  endFrame : Int
  shift : Int
  precise : Bool
  cam : Cam.Cam
  table : List Motion3
  depths : Int → V2 → ℝ
  fresh : S
  select : S → Int → Except Fault (S × List P)
  trace : Int → Int → Motion3 → List P → List Traced
  perturb : Nat → Motion3 → Motion3

variable {S P : Type}

/-- `totalFrames` (samples/mfov/stat/stat_epipolar/main.cpp:17). -/
def totalFrames : Int := 2500

/-- `testCount` (samples/mfov/stat/stat_epipolar/main.cpp:178-180). -/
def testCount (e : Env S P) : Int := min e.endFrame (totalFrames - e.shift) - e.startFrame + 1

/-- `getWorldToFrameGT` (samples/mfov/reader/MultiFovReader.cpp:92-94): an index outside the table is undefined. -/
def pose (e : Env S P) (n : Int) : Except Fault Motion3 := if 0 ≤ n then at' e.table n.toNat else .error .ub

/-- The errors of a point (samples/mfov/stat/stat_epipolar/main.cpp:142-165). -/
noncomputable def epiErr (e : Env S P) (first : Int) (gt motion : Motion3) (ip : Traced) : EpiErr :=
  let ray := (Cam.unmap e.cam ip.p).normalized
  let depthGT := e.depths first ip.p
  let reprojGT := Cam.map e.cam (gt.act (depthGT • ray))
  let reproj := Cam.map e.cam (motion.act (ip.depth • ray))
  let reprojBef := Cam.map e.cam (motion.act (ip.depthBeforeSubpixel • ray))
  let reprojInfD := Cam.map e.cam (motion.rot.mulVec ray)
  { disparity := Cam.norm2 (reproj - reprojInfD)
    expectedErr := Real.sqrt ip.lastFullVar
    realErrBef := Cam.norm2 (reprojGT - reprojBef)
    realErr := Cam.norm2 (reprojGT - reproj)
    depthGT := depthGT
    depth := ip.depth
    depthBeforeSubpixel := ip.depthBeforeSubpixel
    eBeforeSubpixel := ip.eBeforeSubpixel
    eAfterSubpixel := ip.eAfterSubpixel }

/-- The motion used for tracing and the number of perturbations drawn afterwards (samples/mfov/stat/stat_epipolar/main.cpp:103-120). -/
def motionFor (e : Env S P) (drawn : Nat) (gt : Motion3) : Motion3 × Nat :=
  if e.precise then (gt, drawn) else (e.perturb drawn gt, drawn + 1)

/-- The body of the loop over the frames (samples/mfov/stat/stat_epipolar/main.cpp:98-167) for one first frame: the worker's state afterwards and
the errors pushed. -/
noncomputable def body (e : Env S P) (l : Local S) (first : Int) : Except Fault (Local S × List EpiErr) := do
  let poseSecond ← pose e (first + e.shift)
  let poseFirst ← pose e first
  let gt := Base.compose poseSecond (Base.inverse poseFirst)
  let m := motionFor e l.drawn gt
  let sel ← e.select l.selector first
  let points := e.trace first (first + e.shift) m.1 sel.2
  .ok (⟨sel.1, m.2⟩, (points.filter fun ip => ip.active && ip.hasMaxDepth).map (epiErr e first gt m.1))

/-- A call of `CollectDisparities` in progress (samples/mfov/stat/stat_epipolar/main.cpp:94-98). -/
structure Task (S : Type) where
  next : Nat
  stop : Nat
  loc : Local S

/-- The workers and the array `errors` (samples/mfov/stat/stat_epipolar/main.cpp:182). -/
structure Sys (S : Type) where
  tasks : List (Task S)
  errors : Nat → List EpiErr

/-- The start of the calls for the ranges chosen. -/
def launch (e : Env S P) (ranges : List (Nat × Nat)) : Sys S :=
  ⟨ranges.map fun r => ⟨r.1, r.2, ⟨e.fresh, 0⟩⟩, fun _ => []⟩

/-- Worker `k` handles its next frame, if it is not done (samples/mfov/stat/stat_epipolar/main.cpp:98-167). -/
noncomputable def step (e : Env S P) (k : Nat) (s : Sys S) : Except Fault (Sys S) :=
  match s.tasks[k]? with
  | none => .ok s
  | some t =>
    if t.next < t.stop then do
      let r ← body e t.loc (e.startFrame + t.next)
      .ok ⟨s.tasks.set k ⟨t.next + 1, t.stop, r.1⟩, Function.update s.errors t.next (s.errors t.next ++ r.2)⟩
    else .ok s

/-- A schedule: which worker goes on, one after the other. -/
noncomputable def run (e : Env S P) : List Nat → Sys S → Except Fault (Sys S)
  | [], s => .ok s
  | k :: ks, s => do
    let s' ← step e k s
    run e ks s'

/-- All calls have returned. -/
def Sys.done (s : Sys S) : Prop := ∀ t ∈ s.tasks, t.stop ≤ t.next

/-- `allErr` (samples/mfov/stat/stat_epipolar/main.cpp:195-198), the contents of the file written. -/
def allErr (n : Nat) (s : Sys S) : List EpiErr := (List.range n).flatMap s.errors

/-- `collectEpipolarStat` (samples/mfov/stat/stat_epipolar/main.cpp:171-203) for ranges and a schedule: arrays of variable length must not be empty.
Without `run_parallel` there is one range. -/
noncomputable def collectEpipolarStat (e : Env S P) (ranges : List (Nat × Nat)) (schedule : List Nat) : Except Fault (Sys S) :=
  if testCount e ≤ 0 then .error .ub else run e schedule (launch e ranges)

end Mdso.Stat
