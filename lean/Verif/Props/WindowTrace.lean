import Verif.Spec.WindowTrace
import Verif.Props.TraceReport
import Verif.Props.Brightness
import Verif.Props.TraceTurn

/-!
# C196: tracing whole windows on sequences of frames in other units, other light and with another mounting
-/

set_option autoImplicit false

namespace Mdso.Report

open Mdso.Trace Mdso.TraceSpec Mdso.ReportSpec

/-- `φ` describes candidates in the way in which `e'` describes the situation `e`. -/
structure Describes (fuel : Nat) (φ : Point → Point) (e e' : Env) : Prop where
  trace : ∀ p, traceOn e' fuel (φ p) = (traceOn e fuel p).map fun r => r.map fun q => (q.1, φ q.2)
  ready : ∀ p, isReady e'.s (φ p) ↔ isReady e.s p

theorem tally_describes {φ : Point → Point} (hn : ∀ p, (φ p).numTraced = p.numTraced) (hl : ∀ p, (φ p).tracedPyrLevel = p.tracedPyrLevel) {s s' : Settings}
    {q : Point} (hr : isReady s' (φ q) ↔ isReady s q) (r : Report) (st : Status) : tally s' r st (φ q) = tally s r st q := by
  classical
  have h1 : ∀ v, bumpNumber v (φ q) = bumpNumber v q := fun v => by unfold bumpNumber; rw [hn]
  have h2 : ∀ v, bumpLevel v (φ q) = bumpLevel v q := fun v => by unfold bumpLevel; rw [hl]
  unfold tally
  rw [h1, h2]
  have h3 : (if isReady s' (φ q) then 1 else 0) = if isReady s q then 1 else 0 := by
    by_cases h : isReady s q
    · rw [if_pos h, if_pos (hr.2 h)]
    · rw [if_neg h, if_neg fun h' => h (hr.1 h')]
  cases bumpNumber r.byNumber q with
  | error f => rfl
  | ok n =>
    cases bumpLevel r.onLevel q with
    | error f => rfl
    | ok l => simp only [h3]

theorem loop_describes {fuel : Nat} {φ : Point → Point} (hn : ∀ p, (φ p).numTraced = p.numTraced) (hl : ∀ p, (φ p).tracedPyrLevel = p.tracedPyrLevel)
    {es es' : List Env} (h : List.Forall₂ (Describes fuel φ) es es') (ps : List Point) (r : Report) :
    loop fuel (es'.zip (ps.map φ)) r = (loop fuel (es.zip ps) r).map fun z => z.map fun w => (w.1.map φ, w.2) := by
  induction h generalizing ps r with
  | nil => rfl
  | @cons e e' es es' he _ ih =>
    cases ps with
    | nil => rfl
    | cons p ps =>
      rw [List.map_cons, List.zip_cons_cons, List.zip_cons_cons, loop, loop]
      simp only [he.trace p]
      cases traceOn e fuel p with
      | error f => rfl
      | ok o =>
        cases o with
        | none => rfl
        | some o =>
          simp only [Except.map, Option.map_some, tally_describes hn hl (he.ready o.2)]
          cases tally e.s r o.1 o.2 with
          | error f => rfl
          | ok r1 =>
            simp only [ih ps r1]
            cases loop fuel (es.zip ps) r1 with
            | error f => rfl
            | ok z => cases z <;> rfl

theorem frames_describes {L : Int} {fuel : Nat} {φ : Point → Point} (hn : ∀ p, (φ p).numTraced = p.numTraced)
    (hl : ∀ p, (φ p).tracedPyrLevel = p.tracedPyrLevel) {fs fs' : List (List Env)} (h : Redescribed (Describes fuel φ) fs fs') (ps : List Point) :
    traceFrames L fuel fs' (ps.map φ) = (traceFrames L fuel fs ps).map fun z => z.map fun w => (w.1.map φ, w.2) := by
  induction h generalizing ps with
  | nil => rfl
  | @cons es es' fs fs' he _ ih =>
    have hw : traceWindow L fuel (es'.zip (ps.map φ)) = (traceWindow L fuel (es.zip ps)).map fun z => z.map fun w => (w.1.map φ, w.2) := by
      unfold traceWindow
      by_cases hL : L < 0
      · rw [if_pos hL, if_pos hL]; rfl
      · rw [if_neg hL, if_neg hL]; exact loop_describes hn hl he ps _
    rw [traceFrames, traceFrames, hw]
    cases traceWindow L fuel (es.zip ps) with
    | error f => rfl
    | ok z =>
      cases z with
      | none => rfl
      | some z =>
        simp only [Except.map, Option.map_some, ih z.1]
        cases traceFrames L fuel fs z.1 with
        | error f => rfl
        | ok w => cases w <;> rfl

theorem redescribed_mono {R S : Env → Env → Prop} (h : ∀ e e', R e e' → S e e') {fs fs' : List (List Env)} (hf : Redescribed R fs fs') : Redescribed S fs fs' :=
  List.Forall₂.imp (fun _ _ => List.Forall₂.imp h) hf

/-- **C196, unit.** Any number of candidates traced on any sequence of frames: in another unit of length all reports are the same, and the candidates differ only
in that their depths are in the new unit. -/
theorem C196_unit {σ : ℝ} (hσ : 0 < σ) (L : Int) (fuel : Nat) (fs : List (List Env)) (h : ∀ es ∈ fs, ∀ e ∈ es, Sym.SeesDirections e) (ps : List Point) :
    traceFrames L fuel (fs.map fun es => es.map (Sym.scaleEnv σ)) (ps.map (Sym.scalePoint σ)) =
      (traceFrames L fuel fs ps).map fun z => z.map fun w => (w.1.map (Sym.scalePoint σ), w.2) := by
  refine frames_describes (φ := Sym.scalePoint σ) (fun _ => rfl) (fun _ => rfl) ?_ ps
  unfold Redescribed
  rw [List.forall₂_map_right_iff]
  refine List.forall₂_same.2 fun es hes => ?_
  rw [List.forall₂_map_right_iff]
  exact List.forall₂_same.2 fun e he => ⟨fun p => Sym.C141_trace hσ (h es hes e he) fuel p, fun _ => Iff.rfl⟩

/-- **C196, light.** In another light, with the threshold for differences of intensities in the new unit, all reports are the same, and the candidates differ only
in that their recorded energies are in the new unit. -/
theorem C196_light {γ : ℝ} (hγ : 0 < γ) (L : Int) (fuel : Nat) {fs fs' : List (List Env)} (h : Redescribed (InLight γ) fs fs') (ps : List Point) :
    traceFrames L fuel fs' (ps.map (Relit.recount γ)) = (traceFrames L fuel fs ps).map fun z => z.map fun w => (w.1.map (Relit.recount γ), w.2) := by
  refine frames_describes (φ := Relit.recount γ) (fun _ => rfl) (fun _ => rfl) (redescribed_mono ?_ h) ps
  rintro e e' ⟨f, light', δ, hf, rfl⟩
  exact ⟨fun p => Relit.C179_trace hγ hf fuel p, fun _ => Iff.rfl⟩

/-- **C192, windows.** With a camera mounted turned about its axis all candidates and all reports are the same, if positions are not refined or the pyramid has no
more than two levels. -/
theorem C192_window_partial (t : CamSpec.Turn) (c : Geom.V2) (L : Int) (fuel : Nat) {fs fs' : List (List Env)}
    (h : Redescribed (fun e e' => Turned t c e e' ∧ (e.s.gnIter = 0 ∨ e.s.levelNum ≤ 2)) fs fs') (ps : List Point) :
    traceFrames L fuel fs' ps = traceFrames L fuel fs ps := by
  have := frames_describes (L := L) (fuel := fuel) (φ := id) (fun _ => rfl) (fun _ => rfl) (redescribed_mono (S := Describes fuel id) ?_ h) ps
  · rw [List.map_id] at this
    rw [this]
    cases traceFrames L fuel fs ps with
    | error f => rfl
    | ok z => cases z <;> simp [Except.map]
  · rintro e e' ⟨h1, h2⟩
    refine ⟨fun p => ?_, fun p => by rw [h1.settings]; exact Iff.rfl⟩
    rw [id_eq, C192_trace_partial h1 h2]
    cases traceOn e fuel p with
    | error f => rfl
    | ok z => cases z <;> rfl

/-- Two candidates traced on a frame: the one successfully, the other out of bounds. -/
theorem demo_frame : ∃ q r, traceFrames 3 6 [[Demo.env ⟨0, 0, 10⟩, Demo.env ⟨0, 0, 10⟩]] [Trace.new true, Trace.new false] = .ok (some ([q, Trace.new false], [r])) ∧
    r.traced = 1 ∧ r.byNumber = [1, 1, 0, 0, 0, 0, 0, 0] := by
  obtain ⟨q, hq, -, -, h4, -⟩ := Demo.traced ⟨0, 0, 10⟩ (by norm_num) (by rw [Demo.lvl_zero]; norm_num)
  rw [Demo.lvl_zero] at h4
  have hn := (C27_trace hq).2.2.1 rfl
  have h1 : traceOn (Demo.env ⟨0, 0, 10⟩) 6 (Trace.new false) = .ok (some (.wasOob, Trace.new false)) := by simp [traceOn, Trace.new]
  have a1 : bumpNumber (start 3).byNumber q = .ok [0, 1, 0, 0, 0, 0, 0, 0] := by simp [bumpNumber, hn, Trace.new, start, maxTraced, bump]
  have a2 : bumpLevel (start 3).onLevel q = .ok [1, 0, 0] := by simp [bumpLevel, h4, start, bump]
  have b1 : bumpNumber [0, 1, 0, 0, 0, 0, 0, 0] (Trace.new false) = .ok [1, 1, 0, 0, 0, 0, 0, 0] := rfl
  have b2 : bumpLevel [1, 0, 0] (Trace.new false) = .ok [2, 0, 0] := rfl
  simp only [traceFrames, List.zip_cons_cons, List.zip_nil_right, traceWindow, loop, hq, h1, tally, a1, a2, b1, b2]
  exact ⟨q, _, rfl, by simp [start], rfl⟩

/-- Not vacuous: the two candidates in another unit and in another light. -/
example : ∃ q r fs, Redescribed (InLight 2) [[Demo.env ⟨0, 0, 10⟩, Demo.env ⟨0, 0, 10⟩]] fs ∧
    traceFrames 3 6 fs [Trace.new true, Trace.new false] = .ok (some ([Relit.recount 2 q, Trace.new false], [r])) ∧ r.traced = 1 := by
  obtain ⟨q, r, h, hr, -⟩ := demo_frame
  have he : InLight 2 (Demo.env ⟨0, 0, 10⟩) (Relit.relight (fun v => 3 * v + 5) (fun v => 2 * ((v - 5) / 3) + 7) 2 7 (Demo.env ⟨0, 0, 10⟩)) :=
    ⟨_, _, _, fun b hb => by simp [Demo.env], rfl⟩
  have hf := List.Forall₂.cons (List.Forall₂.cons he (List.Forall₂.cons he List.Forall₂.nil)) List.Forall₂.nil
  have h2 := C196_light (γ := 2) (by norm_num) 3 6 hf [Trace.new true, Trace.new false]
  rw [h] at h2
  simp only [List.map_cons, List.map_nil, Relit.recount_new] at h2
  exact ⟨q, r, _, hf, h2.trans (by simp [Except.map, Relit.recount_new]), hr⟩

example : ∃ q r, traceFrames 3 6 [[Sym.scaleEnv 3 (Demo.env ⟨0, 0, 10⟩), Sym.scaleEnv 3 (Demo.env ⟨0, 0, 10⟩)]] [Trace.new true, Trace.new false] =
    .ok (some ([Sym.scalePoint 3 q, Trace.new false], [r])) ∧ r.traced = 1 := by
  obtain ⟨q, r, h, hr, -⟩ := demo_frame
  have he : Sym.SeesDirections (Demo.env ⟨0, 0, 10⟩) := by
    intro s v hs
    have h : ∀ a : ℝ, 10 * (s * a) / (s * v.x + s * v.z) = 10 * a / (v.x + v.z) := by
      intro a
      rw [show 10 * (s * a) = s * (10 * a) by ring, ← mul_add, mul_div_mul_left _ _ hs.ne']
    simp only [Demo.env, Demo.camera, Geom.V3.smul_x, Geom.V3.smul_y, Geom.V3.smul_z, h]
  have h2 := C196_unit (σ := 3) (by norm_num) 3 6 [[Demo.env ⟨0, 0, 10⟩, Demo.env ⟨0, 0, 10⟩]] (by simpa using he) [Trace.new true, Trace.new false]
  rw [h] at h2
  simp only [List.map_cons, List.map_nil, Sym.new_scale] at h2
  exact ⟨q, r, h2.trans (by simp [Except.map, Sym.new_scale]), hr⟩

/-- Not vacuous: the two candidates seen by a camera turned by 90 degrees. -/
example : ∃ q r fs, Redescribed (fun e e' => Turned quarter ⟨3, 4⟩ e e' ∧ (e.s.gnIter = 0 ∨ e.s.levelNum ≤ 2)) [[Demo.env ⟨0, 0, 10⟩, Demo.env ⟨0, 0, 10⟩]] fs ∧
    traceFrames 3 6 fs [Trace.new true, Trace.new false] = .ok (some ([q, Trace.new false], [r])) ∧ r.traced = 1 := by
  obtain ⟨q, r, h, hr, -⟩ := demo_frame
  have he : (fun e e' => Turned quarter ⟨3, 4⟩ e e' ∧ (e.s.gnIter = 0 ∨ e.s.levelNum ≤ 2)) (Demo.env ⟨0, 0, 10⟩) (turnedEnv quarter quarter ⟨3, 4⟩ (Demo.env ⟨0, 0, 10⟩)) :=
    ⟨turned_env _ _ _ _, Or.inl rfl⟩
  have hf : Redescribed (fun e e' => Turned quarter ⟨3, 4⟩ e e' ∧ (e.s.gnIter = 0 ∨ e.s.levelNum ≤ 2)) [[Demo.env ⟨0, 0, 10⟩, Demo.env ⟨0, 0, 10⟩]]
      [[turnedEnv quarter quarter ⟨3, 4⟩ (Demo.env ⟨0, 0, 10⟩), turnedEnv quarter quarter ⟨3, 4⟩ (Demo.env ⟨0, 0, 10⟩)]] := List.Forall₂.cons (List.Forall₂.cons he (List.Forall₂.cons he List.Forall₂.nil)) List.Forall₂.nil
  exact ⟨q, r, _, hf, (C192_window_partial _ _ 3 6 hf _).trans h, hr⟩

end Mdso.Report
