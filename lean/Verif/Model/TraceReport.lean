import Verif.Model.ImmaturePoint

/-!
# Model of the report on tracing

Models the part of `DsoSystem::addFrame` that traces all candidates of the window on a new frame and counts what came of it
(source/system/DsoSystem.cpp:481-506).
-/

set_option autoImplicit false

namespace Mdso.Report

open Mdso.Trace

/-- `maxTraced` (source/system/DsoSystem.cpp:482). -/
def maxTraced : Nat := 8

/-- `totalTraced`, `totalGood`, `numTraced` and `numOnLevel` (source/system/DsoSystem.cpp:481-484), which are all logged (source/system/DsoSystem.cpp:500-506). -/
structure Report where
  traced : Nat
  good : Nat
  byNumber : List Nat
  onLevel : List Nat

/-- The counts before the loop (source/system/DsoSystem.cpp:481-484). -/
def start (levelNum : Int) : Report := ⟨0, 0, List.replicate maxTraced 0, List.replicate levelNum.toNat 0⟩

/-- `v[i]++` for a vector; out of range it is undefined. -/
def bump (v : List Nat) (i : Nat) : Except Fault (List Nat) :=
  match v[i]? with
  | none => .error .ub
  | some n => .ok (v.set i (n + 1))

/-- `if (ip->numTraced < maxTraced) numTraced[ip->numTraced]++` (source/system/DsoSystem.cpp:494-495). -/
def bumpNumber (v : List Nat) (p : Point) : Except Fault (List Nat) :=
  if p.numTraced < maxTraced then bump v p.numTraced else .ok v

/-- `if (ip->tracedPyrLevel >= 0) numOnLevel[ip->tracedPyrLevel]++` (source/system/DsoSystem.cpp:496-497). -/
def bumpLevel (v : List Nat) (p : Point) : Except Fault (List Nat) :=
  if p.tracedPyrLevel ≥ 0 then bump v p.tracedPyrLevel.toNat else .ok v

open Classical in
/-- The counts after one candidate (source/system/DsoSystem.cpp:489-497): `st` is the outcome of `traceOn`, `q` the candidate afterwards. -/
noncomputable def tally (s : Settings) (r : Report) (st : Status) (q : Point) : Except Fault Report :=
  match bumpNumber r.byNumber q, bumpLevel r.onLevel q with
  | .ok n, .ok l => .ok ⟨r.traced + (if st = .ok then 1 else 0), r.good + (if isReady s q then 1 else 0), n, l⟩
  | .error f, _ => .error f
  | .ok _, .error f => .error f

/-- The loop over the candidates of all keyframes (source/system/DsoSystem.cpp:485-498): each one with what its call of `traceOn` reads. `none` means that `fuel`
rounds of the search did not suffice for one of them. -/
noncomputable def loop (fuel : Nat) : List (Env × Point) → Report → Except Fault (Option (List Point × Report))
  | [], r => .ok (some ([], r))
  | c :: cs, r =>
    match traceOn c.1 fuel c.2 with
    | .error f => .error f
    | .ok none => .ok none
    | .ok (some o) =>
      match tally c.1.s r o.1 o.2 with
      | .error f => .error f
      | .ok r' =>
        match loop fuel cs r' with
        | .error f => .error f
        | .ok none => .ok none
        | .ok (some z) => .ok (some (o.2 :: z.1, z.2))

/-- The candidates after the frame and the counts logged (source/system/DsoSystem.cpp:481-506). A vector of negative length is an exception. -/
noncomputable def traceWindow (levelNum : Int) (fuel : Nat) (cs : List (Env × Point)) : Except Fault (Option (List Point × Report)) :=
  if levelNum < 0 then .error .exception else loop fuel cs (start levelNum)

/-- A sequence of frames without a new keyframe (source/system/DsoSystem.cpp:481-514 for each of them): the same candidates are traced on each frame. `fs` has for
each frame what the calls of `traceOn` read, in the order of the candidates. The candidates at the end, and all reports. -/
noncomputable def traceFrames (L : Int) (fuel : Nat) : List (List Env) → List Point → Except Fault (Option (List Point × List Report))
  | [], ps => .ok (some (ps, []))
  | es :: fs, ps =>
    match traceWindow L fuel (es.zip ps) with
    | .error f => .error f
    | .ok none => .ok none
    | .ok (some z) =>
      match traceFrames L fuel fs z.1 with
      | .error f => .error f
      | .ok none => .ok none
      | .ok (some w) => .ok (some (w.1, z.2 :: w.2))

end Mdso.Report
