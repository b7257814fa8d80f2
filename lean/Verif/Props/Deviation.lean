import Verif.Spec.Deviation
import Verif.Props.TraceInterval

/-!
# C174: the deviation of a point that is traced
-/

set_option autoImplicit false

namespace Mdso.Trace

open Mdso.Geom Mdso.Cam Mdso.TraceSpec

theorem deviation_eq (e : Env) (dir : V2) : deviation e dir = expected e dir := by
  unfold deviation expected
  have h : e.baseGradNorm.foldl (fun acc g => acc + Geom.dot g dir * Geom.dot g dir) 0 = (e.baseGradNorm.map fun g => (g.x * dir.x + g.y * dir.y) ^ 2).sum := by
    rw [foldl_add (fun g => Geom.dot g dir * Geom.dot g dir), zero_add]
    congr 1
    refine List.map_congr_left fun g _ => ?_
    unfold Geom.dot
    ring
  simp only [h]

theorem expected_nonneg (e : Env) (dir : V2) : 0 ≤ expected e dir := by
  unfold expected
  split
  · exact le_top
  · rw [← WithTop.coe_zero, WithTop.coe_le_coe]
    exact Real.sqrt_nonneg _

/-- How a search can end, with the check made before it. -/
theorem traceOn_checked {e : Env} {fuel : Nat} {p q : Point} {st : Status} {base : V3} {rest : List V3} (hb : e.baseDirections = base :: rest)
    (h : traceOn e fuel p = .ok (some (st, q))) (h0 : p.state ≠ .oob) :
    (st = .bigPredictedError ∧ q = p ∧ e.s.performFullTracing = false ∧ 0 < p.numTraced ∧ isWorse (expected e (direction e p base)) e.s.imprFactor p.stddev) ∨
    (st ≠ .bigPredictedError ∧ ¬ (e.s.performFullTracing = false ∧ 0 < p.numTraced ∧ isWorse (expected e (direction e p base)) e.s.imprFactor p.stddev) ∧
      ((st = .ok ∧ q.stddev = expected e (direction e p base)) ∨ (st ≠ .ok ∧ q.stddev = p.stddev))) := by
  have hd := deviation_eq e (direction e p base)
  unfold direction at hd
  unfold traceOn at h
  rw [if_neg h0, hb] at h
  simp only at h
  rw [hd] at h
  split at h
  · rename_i hc
    cases h
    exact Or.inl ⟨rfl, rfl, hc⟩
  · rename_i hc
    right
    split at h
    · cases h
    · cases h
    · rename_i found hf
      split at h
      · split at h
        · cases h
        · rename_i cs hcs
          cases hj : judge e p (found.map (·.1)) (expected e (normalized2 (e.cam.jacobian (searchEnds e p base).2
                  ((searchEnds e p base).1 - (searchEnds e p base).2)))) cs with
          | error f => rw [hj] at h; cases h
          | ok r =>
            rw [hj] at h
            have hr : r = (st, q) := by
              simp only [Except.map, Except.ok.injEq, Option.some.injEq] at h
              exact h
            subst hr
            obtain ⟨i, best, _, hq | ⟨_, _, _, _, _, _, _, _, hacc⟩⟩ := judge_ok hj
            · refine ⟨?_, hc, Or.inr ⟨hq.1, by rw [hq.2]⟩⟩
              have hst : st ≠ .bigPredictedError := by
                unfold judge at hj
                split at hj
                · cases hj
                · simp only at hj
                  split at hj
                  · cases hj; simp
                  · split at hj
                    · cases hj; simp
                    · split at hj
                      · cases hj; simp
                      · split at hj
                        · cases hj; simp
                        · split at hj
                          · cases hj; simp
                          · split at hj
                            · cases hj; simp
                            · exact absurd (accept_ok hj).1 hq.1
              exact hst
            · obtain ⟨h1, _, _, _, h2, _⟩ := accept_ok hacc
              exact ⟨by rw [h1]; decide, hc, Or.inl ⟨h1, h2⟩⟩
      · cases h
        exact ⟨by decide, hc, Or.inr ⟨by decide, rfl⟩⟩

theorem not_worse {c s : WithTop ℝ} {f : ℝ} (h : ¬ isWorse c f s) (hc : 0 ≤ c) (hf : 1 ≤ f) : c ≤ s ∧ ∀ d : ℝ, c = ((d : ℝ) : WithTop ℝ) → ((d * f : ℝ) : WithTop ℝ) ≤ s := by
  unfold isWorse at h
  rw [not_lt] at h
  cases c with
  | top => exact ⟨h, fun d hd => by cases hd⟩
  | coe c =>
    have h' : ((c * f : ℝ) : WithTop ℝ) ≤ s := h
    refine ⟨le_trans ?_ h', fun d hd => ?_⟩
    · rw [WithTop.coe_le_coe]
      rw [← WithTop.coe_zero, WithTop.coe_le_coe] at hc
      nlinarith
    · rw [WithTop.coe_inj] at hd
      rw [← hd]
      exact h'

/-- **C174, what holds of one trace.** Unless full tracing is on, a trace of a point that was traced before, or that has no deviation yet, does not increase the deviation;
where it succeeds, the new deviation is at least `imprFactor` times smaller. (Missing: points that were never traced but got a deviation from the initializer,
see `C174_initialized_violated`.) -/
theorem C174_trace_partial {e : Env} {fuel : Nat} {p q : Point} {st : Status} (h : traceOn e fuel p = .ok (some (st, q))) (hfull : e.s.performFullTracing = false)
    (hf : 1 ≤ e.s.imprFactor) (hp : 0 < p.numTraced ∨ p.stddev = ⊤) :
    q.stddev ≤ p.stddev ∧ (st = .ok → ∀ d : ℝ, q.stddev = ((d : ℝ) : WithTop ℝ) → ((d * e.s.imprFactor : ℝ) : WithTop ℝ) ≤ p.stddev) := by
  by_cases hst : st = .ok
  · subst hst
    obtain ⟨h0, -⟩ := traceOn_succeeded h
    obtain ⟨base, rest, hb⟩ : ∃ base rest, e.baseDirections = base :: rest := by
      rcases traceOn_ok h with h | h | h | ⟨_, base, rest, _, _, hb, _⟩
      · exact absurd h.1 (by decide)
      · exact absurd h.1 (by decide)
      · exact absurd h.1 (by decide)
      · exact ⟨base, rest, hb⟩
    rcases traceOn_checked hb h h0 with hx | ⟨_, hn, hx | hx⟩
    · exact absurd hx.1 (by decide)
    · rcases hp with hp | hp
      · have hw : ¬ isWorse (expected e (direction e p base)) e.s.imprFactor p.stddev := fun hc => hn ⟨hfull, hp, hc⟩
        obtain ⟨a, b⟩ := not_worse hw (expected_nonneg _ _) hf
        rw [hx.2]
        exact ⟨a, fun _ => b⟩
      · rw [hp]
        exact ⟨le_top, fun _ _ _ => le_top⟩
    · exact absurd rfl hx.1
  · obtain ⟨le, lt, hq⟩ := traceOn_failed h hst
    refine ⟨by rw [hq], fun hc => absurd hc hst⟩

/-- **C174, when a trace is not even tried.** It is refused for its expected deviation exactly if full tracing is off, the point was traced before, and `imprFactor` times
the deviation to be expected exceeds the one it has; then nothing changes. With full tracing the new deviation is the expected one, whatever it was before. -/
theorem C174_refused {e : Env} {fuel : Nat} {p q : Point} {st : Status} {base : V3} {rest : List V3} (hb : e.baseDirections = base :: rest)
    (h0 : p.state ≠ .oob) (h : traceOn e fuel p = .ok (some (st, q))) :
    (st = .bigPredictedError ↔ e.s.performFullTracing = false ∧ 0 < p.numTraced ∧
      ((expected e (direction e p base) = ⊤ ∧ p.stddev ≠ ⊤) ∨ ∃ d : ℝ, expected e (direction e p base) = ((d : ℝ) : WithTop ℝ) ∧ p.stddev < ((d * e.s.imprFactor : ℝ) : WithTop ℝ))) ∧
    (st = .bigPredictedError → q = p) ∧ (st = .ok → q.stddev = expected e (direction e p base)) := by
  have key : ∀ c : WithTop ℝ, isWorse c e.s.imprFactor p.stddev ↔ ((c = ⊤ ∧ p.stddev ≠ ⊤) ∨ ∃ d : ℝ, c = ((d : ℝ) : WithTop ℝ) ∧ p.stddev < ((d * e.s.imprFactor : ℝ) : WithTop ℝ)) := by
    intro c
    unfold isWorse
    cases c with
    | top =>
      constructor
      · intro h; exact Or.inl ⟨rfl, ne_top_of_lt h⟩
      · rintro (⟨_, h⟩ | ⟨d, h, _⟩)
        · exact lt_top_iff_ne_top.2 h
        · cases h
    | coe c =>
      constructor
      · intro h; exact Or.inr ⟨c, rfl, h⟩
      · rintro (⟨h, _⟩ | ⟨d, h, h2⟩)
        · cases h
        · rw [WithTop.coe_inj] at h
          rw [h]
          exact h2
  rw [← key]
  rcases traceOn_checked hb h h0 with ⟨a, b, c⟩ | ⟨a, b, c⟩
  · refine ⟨⟨fun _ => c, fun _ => a⟩, fun _ => b, fun hc => ?_⟩
    rw [a] at hc
    cases hc
  · refine ⟨⟨fun hc => absurd hc a, fun hc => absurd hc b⟩, fun hc => absurd hc a, fun hc => ?_⟩
    rcases c with c | c
    · exact c.2
    · exact absurd hc c.1

/-- **C174, any number of traces.** Unless full tracing is on, the deviation of a point that was traced before, or has none yet, never grows, whatever frames it is traced in,
and once it is ready it stays ready. -/
theorem C174_history_partial {p r : Point} (h : TracesIn (fun e => e.s.performFullTracing = false ∧ 1 ≤ e.s.imprFactor) p r) (hp : 0 < p.numTraced ∨ p.stddev = ⊤) :
    r.stddev ≤ p.stddev ∧ ∀ s, isReady s p → isReady s r := by
  have key : r.stddev ≤ p.stddev ∧ r.state = p.state ∧ (0 < r.numTraced ∨ r.stddev = ⊤) := by
    induction h with
    | none => exact ⟨le_refl _, rfl, hp⟩
    | more e fuel st hE _ ht ih =>
      obtain ⟨i1, i2, i3⟩ := ih
      obtain ⟨t1, -⟩ := C174_trace_partial ht hE.1 hE.2 i3
      obtain ⟨c1, c2, c3, -⟩ := C27_trace ht
      refine ⟨t1.trans i1, c1.trans i2, ?_⟩
      by_cases hst : st = .ok
      · left; rw [c3 hst]; omega
      · obtain ⟨le, lt, hq⟩ := traceOn_failed ht hst
        subst hq
        exact i3
  exact ⟨key.1, fun s hs => ⟨key.2.1.trans hs.1, lt_of_le_of_lt key.1 hs.2⟩⟩

/-! ## Points of the initializer -/

theorem candidatesFrom_stddev (e : Env) (p : Point) (s : WithTop ℝ) (d : Option ℝ) : ∀ (fs : List (V2 × V3)) (i : Nat),
    candidatesFrom e { p with stddev := s, depth := d } i fs = candidatesFrom e p i fs
  | [], _ => rfl
  | f :: fs, i => by
    rw [candidatesFrom, candidatesFrom, candidatesFrom_stddev e p s d fs (i + 1)]
    rfl

/-- A first trace that succeeds does so whatever depth and deviation the point was given, and leaves the same. -/
theorem trace_first {e : Env} {fuel : Nat} {p q : Point} (hn : p.numTraced = 0) (h : traceOn e fuel p = .ok (some (.ok, q))) (s : WithTop ℝ) (d : Option ℝ) :
    traceOn e fuel { p with stddev := s, depth := d } = .ok (some (.ok, q)) := by
  rcases traceOn_ok h with h | h | h | ⟨h0, base, rest, found, cs, hbase, hfound, hlen, hcs, hj⟩
  · exact absurd h.1 (by decide)
  · exact absurd h.1 (by decide)
  · exact absurd h.1 (by decide)
  · obtain ⟨i, best, hb, hq | ⟨bd, sec, hlev, hd, hs, hthr, hbig, hqual, hacc⟩⟩ := judge_ok hj
    · exact absurd rfl hq.1
    · unfold traceOn
      rw [if_neg h0, hbase]
      have e4 : searchEnds e { p with stddev := s, depth := d } base = searchEnds e p base := rfl
      dsimp only
      rw [e4, if_neg (by rintro ⟨_, hc, _⟩; have : 0 < p.numTraced := hc; omega), hfound]
      dsimp only
      rw [if_pos hlen, candidatesFrom_stddev, hcs]
      dsimp only
      have hacc' : accept e { p with stddev := s, depth := d } (found.map (·.1)) (deviation e (normalized2 (e.cam.jacobian (searchEnds e p base).2
        ((searchEnds e p base).1 - (searchEnds e p base).2)))) i best bd (quality sec best.energy) = .ok (.ok, q) := hacc
      have hj' : judge e { p with stddev := s, depth := d } (found.map (·.1)) (deviation e (normalized2 (e.cam.jacobian (searchEnds e p base).2
        ((searchEnds e p base).1 - (searchEnds e p base).2)))) cs = .ok (.ok, q) := by
        rw [← hacc']
        unfold judge
        rw [hb]
        dsimp only
        rw [if_neg hlev, hd]
        show (match secondBest e.s.minSecondBestDistance best.point cs with
          | none => _
          | some second => _) = _
        rw [hs]
        show (if sec ≤ e.s.secondBestEnergyThresFactor * (e.baseDirections.length * e.s.outlierDiff * e.s.outlierDiff) then _
          else if best.energy > e.s.outlierEnergyFactor * (e.baseDirections.length * e.s.outlierDiff * e.s.outlierDiff) then _
          else if ∃ r, quality sec best.energy = some r ∧ r < ((e.s.outlierQuality : ℝ) : WithTop ℝ) then _ else _) = _
        rw [if_neg (not_le.2 hthr), if_neg (not_lt.2 hbig), if_neg]
        rintro ⟨r, h1, h3⟩
        unfold quality at h1
        by_cases hz : best.energy = 0
        · rw [if_pos hz] at h1
          split at h1
          · cases h1
          · cases h1
            exact absurd h3 (by simp)
        · rw [if_neg hz] at h1
          cases h1
          rw [WithTop.coe_lt_coe] at h3
          rcases hqual with h4 | h4
          · exact hz h4
          · linarith
      rw [hj']
      rfl

theorem demo_direction : direction (retune (Demo.env ⟨0, 0, 10⟩) 9 3) (new true) ⟨0, 0, 1⟩ = ⟨1, 0⟩ := by
  unfold direction
  have e4 : searchEnds (retune (Demo.env ⟨0, 0, 10⟩) 9 3) (new true) ⟨0, 0, 1⟩ = searchEnds (Demo.env ⟨0, 0, 10⟩) (new true) ⟨0, 0, 1⟩ := rfl
  rw [e4, Demo.ends]
  have h1 : (retune (Demo.env ⟨0, 0, 10⟩) 9 3).cam.jacobian ⟨0, 0, 1⟩ ((⟨1, 0, 0⟩ : V3) - ⟨0, 0, 1⟩) = ⟨10, 0⟩ := by
    simp [retune, Demo.env, Demo.camera]
  dsimp only
  rw [h1]
  unfold normalized2
  rw [if_pos (by unfold sqNorm; norm_num), Demo.norm2_x]
  ext <;> simp

theorem demo_expected : expected (retune (Demo.env ⟨0, 0, 10⟩) 9 3) ⟨1, 0⟩ = ((3 : ℝ) : WithTop ℝ) := by
  have h3 : ((retune (Demo.env ⟨0, 0, 10⟩) 9 3).baseGradNorm.map fun g => (g.x * (⟨1, 0⟩ : V2).x + g.y * (⟨1, 0⟩ : V2).y) ^ 2).sum = 2 := by
    simp only [retune, Demo.env, List.map_cons, List.map_nil, List.sum_cons, List.sum_nil]
    norm_num
  unfold expected
  rw [h3, if_neg (by norm_num)]
  congr 1
  simp only [retune, Demo.env, List.length_cons, List.length_nil]
  rw [show ((0 + 1 + 1 : Nat) : ℝ) * 9 / 2 = 3 * 3 by norm_num, Real.sqrt_mul_self (by norm_num)]

/-- **C174, violated for points of the initializer.** The initializer gives a point a depth and the deviation 1, so that it is ready with the default threshold 2.4; as it
counts as never traced, the first trace is not refused. Here, with full tracing off and the default `imprFactor`, it succeeds and leaves the deviation 3: the point is not ready
any more. -/
theorem C174_initialized_violated (depth : ℝ) : ∃ (e : Env) (fuel : Nat) (p q : Point), e.s.performFullTracing = false ∧ e.s.imprFactor = 1 ∧ e.s.optimizedStddev = 24 / 10 ∧
    History (fun e' => e' = e) false true p ∧ p.depth = some depth ∧ p.stddev = ((1 : ℝ) : WithTop ℝ) ∧ isReady e.s p ∧
    traceOn e fuel p = .ok (some (.ok, q)) ∧ q.stddev = ((3 : ℝ) : WithTop ℝ) ∧ ¬ isReady e.s q := by
  obtain ⟨q, hq, _⟩ := Demo.traced ⟨0, 0, 10⟩ (by norm_num) (by rw [Demo.lvl_zero]; norm_num)
  obtain ⟨a, _, _, hcs⟩ := Demo.candidates ⟨0, 0, 10⟩ (by norm_num)
  have hfound : pointsToTrace (Demo.env ⟨0, 0, 10⟩) 6 (searchEnds (Demo.env ⟨0, 0, 10⟩) (new true) ⟨0, 0, 1⟩).1
      (searchEnds (Demo.env ⟨0, 0, 10⟩) (new true) ⟨0, 0, 1⟩).2 = .ok (some (Demo.found ⟨0, 0, 10⟩)) := by
    rw [Demo.ends]
    exact Demo.search _
  obtain ⟨q', h', _⟩ := trace_retune (e := Demo.env ⟨0, 0, 10⟩) (by show (2 : Int) ≤ 3; norm_num) rfl 9 (n := 3) (by norm_num) hq rfl hfound hcs (Demo.levels hcs).1
  have hstd : q'.stddev = ((3 : ℝ) : WithTop ℝ) := by
    have := (C174_refused (base := ⟨0, 0, 1⟩) rfl (by simp [new]) h').2.2 rfl
    rw [this, demo_direction, demo_expected]
  have h2 := trace_first rfl h' ((1 : ℝ) : WithTop ℝ) (some depth)
  refine ⟨retune (Demo.env ⟨0, 0, 10⟩) 9 3, 6, { new true with stddev := ((1 : ℝ) : WithTop ℝ), depth := some depth }, q', rfl, rfl, rfl, ?_, rfl, rfl, ⟨rfl, ?_⟩, h2, hstd, ?_⟩
  · exact History.initialise true depth (History.create true)
  · show ((1 : ℝ) : WithTop ℝ) < ((24 / 10 : ℝ) : WithTop ℝ)
    rw [WithTop.coe_lt_coe]; norm_num
  · rintro ⟨_, hc⟩
    rw [hstd] at hc
    have hc' : ((3 : ℝ) : WithTop ℝ) < ((24 / 10 : ℝ) : WithTop ℝ) := hc
    rw [WithTop.coe_lt_coe] at hc'
    norm_num at hc'

/-- The hypotheses of the other theorems are met: the first trace of a new point, in the same situation, leaves the deviation 3. -/
example : ∃ q, traceOn (retune (Demo.env ⟨0, 0, 10⟩) 9 3) 6 (new true) = .ok (some (.ok, q)) ∧ q.stddev ≤ (new true).stddev ∧ 0 < q.numTraced := by
  obtain ⟨q, hq, _⟩ := Demo.traced ⟨0, 0, 10⟩ (by norm_num) (by rw [Demo.lvl_zero]; norm_num)
  obtain ⟨a, _, _, hcs⟩ := Demo.candidates ⟨0, 0, 10⟩ (by norm_num)
  have hfound : pointsToTrace (Demo.env ⟨0, 0, 10⟩) 6 (searchEnds (Demo.env ⟨0, 0, 10⟩) (new true) ⟨0, 0, 1⟩).1
      (searchEnds (Demo.env ⟨0, 0, 10⟩) (new true) ⟨0, 0, 1⟩).2 = .ok (some (Demo.found ⟨0, 0, 10⟩)) := by
    rw [Demo.ends]
    exact Demo.search _
  obtain ⟨q', h', _⟩ := trace_retune (e := Demo.env ⟨0, 0, 10⟩) (by show (2 : Int) ≤ 3; norm_num) rfl 9 (n := 3) (by norm_num) hq rfl hfound hcs (Demo.levels hcs).1
  refine ⟨q', h', (C174_trace_partial h' rfl le_rfl (Or.inr rfl)).1, ?_⟩
  rw [(C27_trace h').2.2.1 rfl]
  omega

end Mdso.Trace
