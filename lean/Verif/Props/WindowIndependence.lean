import Verif.Spec.WindowIndependence
import Verif.Props.WindowTrace

/-!
# C197: candidates are traced independently of each other
-/

set_option autoImplicit false

namespace Mdso.Report

open Mdso.Trace Mdso.TraceSpec Mdso.ReportSpec

theorem bumpLevel_lt {v w : List Nat} {q : Point} (h : bumpLevel v q = .ok w) : q.tracedPyrLevel < (v.length : Int) := by
  unfold bumpLevel at h
  by_cases hq : q.tracedPyrLevel ≥ 0
  · rw [if_pos hq] at h
    unfold bump at h
    cases hv : v[q.tracedPyrLevel.toNat]? with
    | none => rw [hv] at h; cases h
    | some n =>
      obtain ⟨hlt, -⟩ := List.getElem?_eq_some_iff.1 hv
      omega
  · omega

/-- What tracing a candidate gives, if it gives anything. -/
noncomputable def result (fuel : Nat) (c : Env × Point) : Status × Point :=
  match traceOn c.1 fuel c.2 with
  | .ok (some o) => o
  | _ => (.ok, c.2)

/-- Tracing the candidate ends well, on one of `n` levels. -/
def Fine (n : Nat) (fuel : Nat) (c : Env × Point) : Prop := traceOn c.1 fuel c.2 = .ok (some (result fuel c)) ∧ (result fuel c).2.tracedPyrLevel < (n : Int)

theorem result_eq {fuel : Nat} {c : Env × Point} {o : Status × Point} (h : traceOn c.1 fuel c.2 = .ok (some o)) : result fuel c = o := by
  unfold result; rw [h]

theorem loop_fine {n fuel : Nat} {cs : List (Env × Point)} {r r' : Report} {qs : List Point} (hl : r.onLevel.length = n) (h : loop fuel cs r = .ok (some (qs, r'))) :
    (∀ c ∈ cs, Fine n fuel c) ∧ qs = cs.map fun c => (result fuel c).2 := by
  induction cs generalizing r qs with
  | nil => rw [loop] at h; cases h; simp
  | cons c cs ih =>
    obtain ⟨o, r1, qs', h1, h2, h3, rfl⟩ := loop_cons h
    obtain ⟨-, -, -, t4⟩ := tally_ok h2
    obtain ⟨i1, i2⟩ := ih ((bumpLevel_length t4).trans hl) h3
    have ho := result_eq h1
    refine ⟨?_, by rw [i2, List.map_cons, ho]⟩
    intro c' hc'
    rcases List.mem_cons.1 hc' with rfl | hm
    · exact ⟨by rw [ho]; exact h1, by rw [ho, ← hl]; exact bumpLevel_lt t4⟩
    · exact i1 c' hm

theorem loop_of_fine {n fuel : Nat} {cs : List (Env × Point)} (hf : ∀ c ∈ cs, Fine n fuel c) {r : Report} (hn : r.byNumber.length = maxTraced) (hl : r.onLevel.length = n) :
    ∃ r', loop fuel cs r = .ok (some (cs.map fun c => (result fuel c).2, r')) := by
  induction cs generalizing r with
  | nil => exact ⟨r, by rw [loop]; rfl⟩
  | cons c cs ih =>
    obtain ⟨h1, h2⟩ := hf c (by simp)
    obtain ⟨r1, t1, t2, t3⟩ := tally_defined (s := c.1.s) (st := (result fuel c).1) hn (by rw [hl]; exact h2)
    obtain ⟨r', h3⟩ := ih (fun c hc => hf c (by simp [hc])) t2 (t3.trans hl)
    refine ⟨r', ?_⟩
    rw [loop]
    simp only [h1, t1, h3, List.map_cons]

/-- The counts for candidates that are all traced well. -/
noncomputable def counts (L : Int) (fuel : Nat) (cs : List (Env × Point)) : Report :=
  ⟨number (fun c => (result fuel c).1 = .ok) cs, number (fun c : Env × Point => isReady c.1.s (result fuel c).2) cs,
    (List.range 8).map (fun k => number (fun c => (result fuel c).2.numTraced = k) cs),
    (List.range L.toNat).map (fun l : Nat => number (fun c => (result fuel c).2.tracedPyrLevel = (l : Int)) cs)⟩

theorem number_map {α β : Type} (f : α → β) (P : β → Prop) (l : List α) : number P (l.map f) = number (fun a => P (f a)) l := by
  classical
  unfold number
  rw [List.filter_map, List.length_map]
  rfl

theorem zip_map_self {α β : Type} (f : α → β) (l : List α) : l.zip (l.map f) = l.map fun a => (a, f a) := by
  induction l with
  | nil => rfl
  | cons a l ih => simp [ih]

theorem window_iff {L : Int} {fuel : Nat} {cs : List (Env × Point)} {qs : List Point} {r : Report} :
    traceWindow L fuel cs = .ok (some (qs, r)) ↔
      0 ≤ L ∧ (∀ c ∈ cs, Fine L.toNat fuel c) ∧ qs = cs.map (fun c => (result fuel c).2) ∧ r = counts L fuel cs := by
  have key : ∀ qs r, traceWindow L fuel cs = .ok (some (qs, r)) →
      0 ≤ L ∧ (∀ c ∈ cs, Fine L.toNat fuel c) ∧ qs = cs.map (fun c => (result fuel c).2) ∧ r = counts L fuel cs := by
    intro qs r h
    obtain ⟨os, h1, h2, h3, h4, h5, h6⟩ := C194_report_partial h
    unfold traceWindow at h
    by_cases hL : L < 0
    · rw [if_pos hL] at h; cases h
    · rw [if_neg hL] at h
      obtain ⟨i1, i2⟩ := loop_fine (n := L.toNat) (by simp [start]) h
      have hos : os = cs.map (result fuel) := by
        clear h2 h3 h4 h5 h6 h i1 i2
        induction h1 with
        | nil => rfl
        | cons h _ ih => rw [List.map_cons, ← ih, result_eq h]
      refine ⟨by omega, i1, i2, ?_⟩
      obtain ⟨a, b, c, d⟩ := r
      simp only at h3 h4 h5 h6
      unfold counts
      rw [h3, h4, h5, h6, hos, i2, number_map, zip_map_self, number_map]
      simp only [number_map]
  constructor
  · exact key qs r
  · rintro ⟨hL, hf, rfl, rfl⟩
    obtain ⟨r', h⟩ := loop_of_fine hf (r := start L) (by simp [start]) (by simp [start])
    have hw : traceWindow L fuel cs = .ok (some (cs.map fun c => (result fuel c).2, r')) := by
      unfold traceWindow; rw [if_neg (by omega)]; exact h
    rw [hw, (key _ _ hw).2.2.2]

theorem number_perm {α : Type} (P : α → Prop) {l l' : List α} (h : l.Perm l') : number P l = number P l' := (h.filter _).length_eq

theorem number_append {α : Type} (P : α → Prop) (l l' : List α) : number P (l ++ l') = number P l + number P l' := by
  unfold number; rw [List.filter_append, List.length_append]

/-- **C197, order.** Candidates traced in another order become the same, and the counts in the log are the same. -/
theorem C197_order {L : Int} {fuel : Nat} {cs cs' : List (Env × Point)} (hp : cs.Perm cs') {qs : List Point} {r : Report}
    (h : traceWindow L fuel cs = .ok (some (qs, r))) :
    ∃ qs', traceWindow L fuel cs' = .ok (some (qs', r)) ∧ (cs.zip qs).Perm (cs'.zip qs') := by
  obtain ⟨h1, h2, rfl, rfl⟩ := window_iff.1 h
  refine ⟨_, window_iff.2 ⟨h1, fun c hc => h2 c (hp.mem_iff.2 hc), rfl, ?_⟩, ?_⟩
  · simp only [counts, number_perm _ hp]
  · rw [zip_map_self, zip_map_self]
    exact hp.map _

/-- **C197, groups.** Candidates may be traced in groups, as those of each keyframe: what they become is the same, and the counts add up. Conversely, all can be traced
if those of each group can. -/
theorem C197_groups {L : Int} {fuel : Nat} {cs cs' : List (Env × Point)} {qs : List Point} {r : Report} :
    traceWindow L fuel (cs ++ cs') = .ok (some (qs, r)) ↔ ∃ q1 r1 q2 r2, traceWindow L fuel cs = .ok (some (q1, r1)) ∧
      traceWindow L fuel cs' = .ok (some (q2, r2)) ∧ qs = q1 ++ q2 ∧ r = together r1 r2 := by
  have hc : counts L fuel (cs ++ cs') = together (counts L fuel cs) (counts L fuel cs') := by
    simp only [counts, together, number_append, List.zipWith_map, List.zipWith_self]
  constructor
  · intro h
    obtain ⟨h1, h2, rfl, rfl⟩ := window_iff.1 h
    exact ⟨_, _, _, _, window_iff.2 ⟨h1, fun c hm => h2 c (by simp [hm]), rfl, rfl⟩, window_iff.2 ⟨h1, fun c hm => h2 c (by simp [hm]), rfl, rfl⟩,
      List.map_append, hc⟩
  · rintro ⟨q1, r1, q2, r2, h1, h2, rfl, rfl⟩
    obtain ⟨h3, h4, rfl, rfl⟩ := window_iff.1 h1
    obtain ⟨-, h6, rfl, rfl⟩ := window_iff.1 h2
    refine window_iff.2 ⟨h3, fun c hm => ?_, List.map_append.symm, hc.symm⟩
    rcases List.mem_append.1 hm with hm | hm
    · exact h4 c hm
    · exact h6 c hm

/-- **C197, alone.** On any sequence of frames each candidate becomes what it becomes if it is the only one. -/
theorem C197_alone {L : Int} {fuel : Nat} {fs : List (List Env)} {ps qs : List Point} {rs : List Report} (hl : ∀ es ∈ fs, es.length = ps.length)
    (h : traceFrames L fuel fs ps = .ok (some (qs, rs))) {i : Nat} {p : Point} (hp : ps[i]? = some p) :
    ∃ q rs', qs[i]? = some q ∧ traceFrames L fuel (fs.map fun es => es[i]?.toList) [p] = .ok (some ([q], rs')) := by
  induction fs generalizing ps rs p with
  | nil => rw [traceFrames] at h; cases h; exact ⟨p, [], hp, rfl⟩
  | cons es fs ih =>
    rw [traceFrames] at h
    cases hw : traceWindow L fuel (es.zip ps) with
    | error f => rw [hw] at h; cases h
    | ok z =>
      cases z with
      | none => rw [hw] at h; cases h
      | some z =>
        rw [hw] at h
        simp only at h
        cases hr : traceFrames L fuel fs z.1 with
        | error f => rw [hr] at h; cases h
        | ok w =>
          cases w with
          | none => rw [hr] at h; cases h
          | some w =>
            rw [hr] at h
            cases h
            obtain ⟨z1, z2⟩ := z
            obtain ⟨h1, h2, rfl, rfl⟩ := window_iff.1 hw
            have hle := hl es (by simp)
            obtain ⟨hi, -⟩ := List.getElem?_eq_some_iff.1 hp
            obtain ⟨e, he⟩ : ∃ e, es[i]? = some e := ⟨es[i]'(by omega), List.getElem?_eq_getElem _⟩
            have hz : (es.zip ps)[i]? = some (e, p) := by rw [List.getElem?_zip_eq_some]; exact ⟨he, hp⟩
            have hq : ((es.zip ps).map fun c => (result fuel c).2)[i]? = some (result fuel (e, p)).2 := by rw [List.getElem?_map, hz]; rfl
            obtain ⟨q, rs', j1, j2⟩ := ih (by intro es' hm; rw [hl es' (by simp [hm])]; simp [hle]) hr hq
            have hone : traceWindow L fuel [(e, p)] = .ok (some ([(result fuel (e, p)).2], counts L fuel [(e, p)])) :=
              window_iff.2 ⟨h1, by intro c hc; rw [List.mem_singleton.1 hc]; exact h2 _ (List.mem_of_getElem? hz), rfl, rfl⟩
            refine ⟨q, counts L fuel [(e, p)] :: rs', j1, ?_⟩
            rw [List.map_cons, traceFrames, he]
            simp only [Option.toList_some, List.zip_cons_cons, List.zip_nil_right, hone, j2]

theorem frames_cons {L : Int} {fuel : Nat} {es : List Env} {fs : List (List Env)} {ps qs : List Point} {rs : List Report}
    (h : traceFrames L fuel (es :: fs) ps = .ok (some (qs, rs))) :
    ∃ ps' r rs', traceWindow L fuel (es.zip ps) = .ok (some (ps', r)) ∧ traceFrames L fuel fs ps' = .ok (some (qs, rs')) ∧ rs = r :: rs' := by
  rw [traceFrames] at h
  cases hw : traceWindow L fuel (es.zip ps) with
  | error f => rw [hw] at h; cases h
  | ok z =>
    cases z with
    | none => rw [hw] at h; cases h
    | some z =>
      rw [hw] at h
      simp only at h
      cases hr : traceFrames L fuel fs z.1 with
      | error f => rw [hr] at h; cases h
      | ok w =>
        cases w with
        | none => rw [hr] at h; cases h
        | some w =>
          rw [hr] at h
          cases h
          exact ⟨z.1, z.2, w.2, rfl, hr, rfl⟩

/-- **C194, sequences.** On any sequence of frames there is a report for each frame, no candidate is lost or created, and the numbers of successes logged add up to
by how much the numbers of traces of all candidates together have grown. -/
theorem C194_frames {L : Int} {fuel : Nat} {fs : List (List Env)} {ps qs : List Point} {rs : List Report} (hl : ∀ es ∈ fs, es.length = ps.length)
    (h : traceFrames L fuel fs ps = .ok (some (qs, rs))) :
    rs.length = fs.length ∧ qs.length = ps.length ∧
      (qs.map fun q => q.numTraced).sum = (ps.map fun p => p.numTraced).sum + (rs.map fun r => r.traced).sum := by
  induction fs generalizing ps rs with
  | nil => rw [traceFrames] at h; cases h; simp
  | cons es fs ih =>
    obtain ⟨ps', r, rs', h1, h2, rfl⟩ := frames_cons h
    have hle := hl es (by simp)
    have hlen : ps'.length = ps.length := by rw [(window_iff.1 h1).2.2.1]; simp [hle]
    obtain ⟨i1, i2, i3⟩ := ih (fun es' hm => by rw [hl es' (by simp [hm]), hlen]) h2
    have hp := C194_progress h1
    have hz : ((es.zip ps).map fun c => c.2.numTraced) = ps.map fun p => p.numTraced := by
      rw [show (fun c : Env × Point => c.2.numTraced) = (fun p : Point => p.numTraced) ∘ Prod.snd from rfl, ← List.map_map, List.map_snd_zip (by omega)]
    rw [hz] at hp
    refine ⟨by simp [i1], by rw [i2, hlen], ?_⟩
    rw [i3, hp, List.map_cons, List.sum_cons]
    omega

/-- Two candidates traced: the one successfully, the other out of bounds. -/
theorem demo_window : ∃ q r, traceWindow 3 6 [(Demo.env ⟨0, 0, 10⟩, Trace.new true), (Demo.env ⟨0, 0, 10⟩, Trace.new false)] = .ok (some ([q, Trace.new false], r)) ∧
    q.numTraced = 1 ∧ r.traced = 1 ∧ r.byNumber = [1, 1, 0, 0, 0, 0, 0, 0] := by
  obtain ⟨q, hq, -, -, h4, -⟩ := Demo.traced ⟨0, 0, 10⟩ (by norm_num) (by rw [Demo.lvl_zero]; norm_num)
  rw [Demo.lvl_zero] at h4
  have hn := (C27_trace hq).2.2.1 rfl
  have h1 : traceOn (Demo.env ⟨0, 0, 10⟩) 6 (Trace.new false) = .ok (some (.wasOob, Trace.new false)) := by simp [traceOn, Trace.new]
  have a1 : bumpNumber (start 3).byNumber q = .ok [0, 1, 0, 0, 0, 0, 0, 0] := by simp [bumpNumber, hn, Trace.new, start, maxTraced, bump]
  have a2 : bumpLevel (start 3).onLevel q = .ok [1, 0, 0] := by simp [bumpLevel, h4, start, bump]
  have b1 : bumpNumber [0, 1, 0, 0, 0, 0, 0, 0] (Trace.new false) = .ok [1, 1, 0, 0, 0, 0, 0, 0] := rfl
  have b2 : bumpLevel [1, 0, 0] (Trace.new false) = .ok [2, 0, 0] := rfl
  simp only [traceWindow, loop, hq, h1, tally, a1, a2, b1, b2]
  exact ⟨q, _, rfl, by rw [hn]; rfl, by simp [start], rfl⟩

/-- Not vacuous: the two in the other order. -/
example : ∃ qs r, traceWindow 3 6 [(Demo.env ⟨0, 0, 10⟩, Trace.new false), (Demo.env ⟨0, 0, 10⟩, Trace.new true)] = .ok (some (qs, r)) ∧ r.traced = 1 := by
  obtain ⟨q, r, h, -, hr, -⟩ := demo_window
  obtain ⟨qs', h', -⟩ := C197_order (List.Perm.swap _ _ _) h
  exact ⟨qs', r, h', hr⟩

/-- Not vacuous: the two as the candidates of two keyframes. -/
example : ∃ q r, traceWindow 3 6 [(Demo.env ⟨0, 0, 10⟩, Trace.new true)] = .ok (some (q, r)) ∧ ∃ r', traceWindow 3 6 [(Demo.env ⟨0, 0, 10⟩, Trace.new false)] = .ok r' := by
  obtain ⟨q, r, h, -⟩ := demo_window
  obtain ⟨q1, r1, q2, r2, h1, h2, -⟩ := (C197_groups (cs := [_]) (cs' := [_])).1 h
  exact ⟨q1, r1, h1, _, h2⟩

/-- Not vacuous: the reports on the two on a frame. -/
example : ∃ q r, traceFrames 3 6 [[Demo.env ⟨0, 0, 10⟩, Demo.env ⟨0, 0, 10⟩]] [Trace.new true, Trace.new false] = .ok (some ([q, Trace.new false], [r])) ∧
    r.traced = 1 ∧ q.numTraced = 1 := by
  obtain ⟨q, r, h, hr, -⟩ := demo_frame
  have := (C194_frames (by simp) h).2.2
  simp [Trace.new, hr] at this
  exact ⟨q, r, h, hr, this⟩

/-- Not vacuous: the first one of the two alone on a frame. -/
example : ∃ q rs, traceFrames 3 6 [[Demo.env ⟨0, 0, 10⟩]] [Trace.new true] = .ok (some ([q], rs)) := by
  obtain ⟨q, r, h, -⟩ := demo_frame
  obtain ⟨q', rs', -, h2⟩ := C197_alone (i := 0) (by simp) h rfl
  exact ⟨q', rs', h2⟩

end Mdso.Report
