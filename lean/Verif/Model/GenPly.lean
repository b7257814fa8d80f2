import Verif.Model.DataSet
import Verif.Model.PrintInPly
import Verif.Model.BaseProjection

/-!
# Model of the ground truth clouds of `genply`

Models `readPointsInFrameGT` and the branch `gen_gt_only` of `main` (samples/mfov/genply/main.cpp:63-91, 130-150), over the reals. Poses are
rotations with translations, an entry of the table of poses is `none` if it was made of numbers that were not read. `reserve`, the unused
parameter `maxPoints` and output to the console are left out; that `reserve` divides by the step is kept.
-/

set_option autoImplicit false

namespace Mdso.GenPly

open Mdso.Geom Mdso.Reader Mdso.Ply

/-- The flags `start`, `count`, `gt_points` (samples/mfov/genply/main.cpp:17-20). -/
structure Flags where
  start : Int
  count : Int
  gtPoints : Int

open Classical in
/-- `step` (samples/mfov/genply/main.cpp:69-70). Division by zero gives an infinity or no number, the root of a negative number no number; neither
can be converted to `int`. -/
noncomputable def step (f : Flags) (w h : Nat) : Except Fault Int :=
  if f.gtPoints = 0 then .error .ub
  else
    let q : ℝ := (f.count : ℝ) * w * h / f.gtPoints
    if q < 0 then .error .ub else Cam.toInt (⌈Real.sqrt q⌉ : Int)

/-- The values of the counter of `for (int y = 0; y < n; y += step)` from `y` on, for at most `fuel` rounds (samples/mfov/genply/main.cpp:76-77). -/
def counter (n step : Nat) : Nat → Nat → List Nat
  | 0, _ => []
  | fuel + 1, y => if y < n then y :: counter n step fuel (y + step) else []

/-- The pixels in the order of the two loops (samples/mfov/genply/main.cpp:76-77); with a positive step they end after at most `h` and `w` rounds. -/
def pixels (w h step : Nat) : List (Nat × Nat) := (counter h step h 0).flatMap fun y => (counter w step w 0).map fun x => (y, x)

open Classical in
/-- The body of the two loops (samples/mfov/genply/main.cpp:78-86) for a list of pixels. -/
noncomputable def scan (cam : Cam.Cam) (depths : Pyr.Img (Option ℝ)) (frame : Pyr.Img Vec3b) :
    List (Nat × Nat) → List V3 × List Vec3b → Except Fault (List V3 × List Vec3b)
  | [], acc => .ok acc
  | (y, x) :: rest, acc =>
    match depths.px y x with
    | none => .error .ub
    | some d =>
      if d > 10000000000 then scan cam depths frame rest acc
      else
        match frame.read y x with
        | .error e => .error e
        | .ok c => scan cam depths frame rest (acc.1 ++ [d • (Cam.unmap cam ⟨x, y⟩).normalized], acc.2 ++ [c])

/-- What `readPointsInFrameGT` fills: for each frame its points and their colours. -/
structure Tables where
  points : List (List V3)
  colors : List (List Vec3b)

/-- One round of the loop over the frames (samples/mfov/genply/main.cpp:72-87). -/
noncomputable def frameStep {N : Type} (disk : Disk N (Pyr.Img Vec3b)) (r : MultiFovReader Motion3) (stp : Int) (it : Int) (t : Tables) :
    Except Fault Tables :=
  if 0 ≤ it ∧ it < t.points.length ∧ it < t.colors.length then
    if stp = 0 then .error .ub
    else do
      let depths ← getDepths disk r it
      let frame ← getFrame disk r it
      let out ← scan r.cam depths frame (pixels r.cam.width r.cam.height stp.toNat)
        (t.points.getD it.toNat [], t.colors.getD it.toNat [])
      .ok ⟨t.points.set it.toNat out.1, t.colors.set it.toNat out.2⟩
  else .error .ub

/-- The loop over the frames, from `it` on for `n` rounds (samples/mfov/genply/main.cpp:72-88). -/
noncomputable def frames {N : Type} (disk : Disk N (Pyr.Img Vec3b)) (r : MultiFovReader Motion3) (stp : Int) : Nat → Int → Tables → Except Fault Tables
  | 0, _, t => .ok t
  | n + 1, it, t =>
    match frameStep disk r stp it t with
    | .error e => .error e
    | .ok t' => frames disk r stp n (it + 1) t'

/-- `readPointsInFrameGT` (samples/mfov/genply/main.cpp:63-89), with the empty tables it is called with (lines 131-132, 170-171). -/
noncomputable def readPointsInFrameGT {N : Type} (f : Flags) (disk : Disk N (Pyr.Img Vec3b)) (r : MultiFovReader Motion3) : Except Fault Tables := do
  let stp ← step f r.cam.width r.cam.height
  let n := getFrameCount r.table
  frames disk r stp f.count.toNat f.start ⟨List.replicate n [], List.replicate n []⟩

/-- The inner loop of `gen_gt_only` for one frame (samples/mfov/genply/main.cpp:139-143): the points in the world and their colours. -/
noncomputable def worldPoints (pose : Option Motion3) : List V3 → List Vec3b → Except Fault (List (V3 × Vec3b))
  | [], _ => .ok []
  | p :: ps, cs =>
    match pose, cs with
    | some g, c :: cs =>
      match worldPoints pose ps cs with
      | .error e => .error e
      | .ok rest => .ok (((Base.inverse g).act p, c) :: rest)
    | _, _ => .error .ub

/-- The outer loop (samples/mfov/genply/main.cpp:138): poses and tables have the same length. -/
noncomputable def allPoints : List (Option Motion3) → List (List V3) → List (List Vec3b) → Except Fault (List (V3 × Vec3b))
  | g :: gs, ps :: pss, cs :: css =>
    match worldPoints g ps cs with
    | .error e => .error e
    | .ok a =>
      match allPoints gs pss css with
      | .error e => .error e
      | .ok b => .ok (a ++ b)
  | _, [], _ => .ok []
  | _, _ :: _, _ => .error .ub

/-- A point as it is printed. -/
def toPt (v : V3) : Pt ℝ := ⟨v.x, v.y, v.z⟩

/-- The text of `pointsGT.ply` (samples/mfov/genply/main.cpp:130-148). -/
noncomputable def genGtOnly {N : Type} (finite : ℝ → Bool) (fmt : ℝ → List Char) (f : Flags) (disk : Disk N (Pyr.Img Vec3b))
    (r : MultiFovReader Motion3) : Except Fault (List Char) := do
  let t ← readPointsInFrameGT f disk r
  let all ← allPoints r.table t.points t.colors
  match printInPly finite fmt (all.map fun a => toPt a.1) (all.map Prod.snd) with
  | .error _ => .error .ub
  | .ok text => .ok text

end Mdso.GenPly
