import Verif.Lemmas.TraceLife

/-!
# Properties of tracing

C27-C31 and C74-C78.
-/

set_option autoImplicit false

namespace Mdso.Trace

open Mdso.Geom Mdso.Cam Mdso.TraceSpec

/-! ## C27: a failed trace leaves the depth estimate untouched -/

/-- One call of `traceOn`, on any point and any frame. -/
theorem C27_trace {e : Env} {fuel : Nat} {p q : Point} {st : Status} (h : traceOn e fuel p = .ok (some (st, q))) :
    q.state = p.state ∧ (st ≠ .ok → SameEstimate p q) ∧ (st = .ok → q.numTraced = p.numTraced + 1) ∧
      (p.state = .oob → st = .wasOob ∧ q = p) := by
  by_cases hst : st = .ok
  · subst hst
    obtain ⟨h1, h2, h3, _⟩ := traceOn_succeeded h
    exact ⟨h2, fun hn => absurd rfl hn, fun _ => h3, fun ho => absurd ho h1⟩
  · obtain ⟨le, lt, hq⟩ := traceOn_failed h hst
    refine ⟨by rw [hq], fun _ => by rw [hq]; exact ⟨rfl, rfl, rfl, rfl, rfl, rfl, rfl, rfl⟩,
      fun hok => absurd hok hst, fun ho => ?_⟩
    rcases traceOn_ok h with h | h | h | h
    · exact ⟨h.1, h.2.1⟩
    · exact absurd ho h.2.2
    · exact absurd ho h.2.2
    · exact absurd ho h.1

/-- Any number of calls: the count of traces grows by the number of successes, and the estimate is the one left by
the last success. -/
theorem C27_history {p r : Point} {sts : List Status} (h : Traces p sts r) :
    r.state = p.state ∧ r.numTraced = p.numTraced + sts.count .ok ∧ (Status.ok ∉ sts → SameEstimate p r) := by
  induction h with
  | none => exact ⟨rfl, by simp, fun _ => ⟨rfl, rfl, rfl, rfl, rfl, rfl, rfl, rfl⟩⟩
  | @more q r sts e fuel st _ h ih =>
    obtain ⟨h1, h2, h3⟩ := ih
    obtain ⟨h4, h5, h6, _⟩ := C27_trace h
    refine ⟨h4.trans h1, ?_, ?_⟩
    · by_cases hst : st = .ok
      · rw [h6 hst, h2, hst]; simp; omega
      · have := (h5 hst).2.2.2.2.2.1
        rw [this, h2]; simp [List.count_append, hst]
    · intro hno
      simp only [List.mem_append, List.mem_singleton, not_or] at hno
      have ha := h3 hno.1
      have hb := h5 (Ne.symm hno.2)
      unfold SameEstimate at ha hb ⊢
      simp only [hb, ha, and_self]

/-- Not vacuous: a new point is traced successfully, then its state is the same. -/
example : ∃ q, Traces (new true) [.ok] q ∧ q.numTraced = 1 ∧ q.depth = some (70 / 3) := by
  obtain ⟨q, hq, _, _, _, _, _, h, _⟩ := Demo.traced ⟨0, 0, 10⟩ (by norm_num) (by rw [Demo.lvl_zero]; norm_num)
  exact ⟨q, .more _ _ _ (.none _) hq, (C27_trace hq).2.2.1 rfl, h rfl⟩

/-- Not vacuous: a point out of bounds. -/
example : Traces (new false) [.wasOob] (new false) :=
  .more (Demo.env ⟨0, 0, 10⟩) 6 _ (.none _) (by simp [traceOn, new])

/-! ## C28: the depth chosen minimises the energy -/

/-- The candidates are those of `pointsToTrace` (about which see C75 and C76); `cs` says what is known about them. -/
theorem C28_best {e : Env} {fuel : Nat} {p q : Point} (h : traceOn e fuel p = .ok (some (.ok, q))) :
    ∃ (base : V3) (rest : List V3) (found : List (V2 × V3)) (cs : List Cand) (i : Nat) (best second : Cand),
      e.baseDirections = base :: rest ∧
      pointsToTrace e fuel (searchEnds e p base).1 (searchEnds e p base).2 = .ok (some found) ∧
      cs.length = found.length ∧
      (∀ (k : Nat) (f : V2 × V3) (c : Cand), found[k]? = some f → cs[k]? = some c → IsCandidate e p k f c) ∧
      cs[i]? = some best ∧ IsFirstMin (cs.map (·.energy)) i ∧
      q.lastEnergy = ((best.energy : ℝ) : WithTop ℝ) ∧ q.eBeforeSubpixel = some best.energy ∧
      q.tracedPyrLevel = best.level ∧ q.depthBeforeSubpixel = some (e.tri (e.cam.unmap best.point)) ∧
      (∃ d : ℝ, best.depth = ((d : ℝ) : WithTop ℝ) ∧ (e.s.gnIter = 0 → q.depth = some d)) ∧
      second ∈ cs ∧ e.s.minSecondBestDistance ≤ distance second.point best.point ∧
      (∀ c ∈ cs, e.s.minSecondBestDistance ≤ distance c.point best.point → second.energy ≤ c.energy) ∧
      (best.energy = 0 ∨ e.s.outlierQuality ≤ second.energy / best.energy) ∧
      best.energy ≤ e.s.outlierEnergyFactor * (e.baseDirections.length * e.s.outlierDiff * e.s.outlierDiff) ∧
      e.s.secondBestEnergyThresFactor * (e.baseDirections.length * e.s.outlierDiff * e.s.outlierDiff) <
        second.energy := by
  rcases traceOn_ok h with h | h | h | ⟨_, base, rest, found, cs, hbase, hfound, _, hcs, hj⟩
  · exact absurd h.1 (by decide)
  · exact absurd h.1 (by decide)
  · exact absurd h.1 (by decide)
  · obtain ⟨i, best, hb, hq | ⟨d, s, _, hd, hs, hthr, hbig, hqual, hacc⟩⟩ := judge_ok hj
    · exact absurd rfl hq.1
    · obtain ⟨_, _, _, _, _, hlev, hle, hbef, hdb, _, hdep, _, _⟩ := accept_ok hacc
      obtain ⟨hlen, hcand⟩ := candidatesFrom_ok hcs
      obtain ⟨hbi, hmin⟩ := bestFrom_spec hb
      obtain ⟨⟨second, hsm, hsd, hse⟩, hsmin⟩ := secondBest_some hs
      refine ⟨base, rest, found, cs, i, best, second, hbase, hfound, hlen, ?_, hbi, ⟨best.energy, ?_, ?_⟩, hle, hbef,
        hlev, hdb, ⟨d, hd, hdep⟩, hsm, hsd, ?_, ?_, hbig, ?_⟩
      · intro k f c hf hc
        have := candidate_ok (hcand k f c hf hc)
        rwa [Nat.zero_add] at this
      · simp [List.getElem?_map, hbi]
      · intro j y hy
        rw [List.getElem?_map] at hy
        obtain ⟨c, hc, hcy⟩ := Option.map_eq_some_iff.1 hy
        rw [← hcy]
        exact hmin j c hc
      · intro c hc hcd; rw [hse]; exact hsmin c hc hcd
      · rw [hse]; exact hqual
      · rw [hse]; exact hthr

/-- Not vacuous. -/
example : ∃ q, traceOn (Demo.env ⟨2, 0, 10⟩) 6 (new true) = .ok (some (.ok, q)) := by
  obtain ⟨q, hq, _⟩ := Demo.traced ⟨2, 0, 10⟩ (by norm_num) (by rw [Demo.lvl_zero]; norm_num)
  exact ⟨q, hq⟩

/-! ## C29: subpixel refinement never leaves the neighbourhood and never worsens the energy

The full statement says that this holds for any image. It does if the refinement returns; on an image without
gradient along the search direction, it does not. -/

/-- For any image, patch, threshold, neighbours and number of iterations. -/
theorem C29_refinement_partial {s : Settings} (hth : 0 ≤ s.outlierDiff) {img : V2 → ℝ × V2} {frm dst : V2}
    {patch : List (ℝ × V2)} {g : GN} (h : tracePrecise s img frm dst patch = .ok g) :
    (∃ d : ℝ, |d| ≤ 1 ∧ g.point = (1 / 2 : ℝ) • (frm + dst) + d • normalized2 (dst - frm)) ∧
    distance g.point ((1 / 2 : ℝ) • (frm + dst)) ≤ 1 ∧
    g.energy = ((patchEnergy s.outlierDiff (fun x => (img (g.point + x)).1) patch : ℝ) : WithTop ℝ) ∧
    patchEnergy s.outlierDiff (fun x => (img (g.point + x)).1) patch ≤
      patchEnergy s.outlierDiff (fun x => (img ((1 / 2 : ℝ) • (frm + dst) + x)).1) patch := by
  obtain ⟨d, hd, hp, he, hle⟩ := tracePrecise_ok hth h
  have hen : ∀ x : V2, energyAt s img patch x = patchEnergy s.outlierDiff (fun y => (img (x + y)).1) patch := by
    intro x
    unfold energyAt patchEnergy
    rw [List.map_map]
    rfl
  refine ⟨⟨d, hd, hp⟩, ?_, by rw [← hen]; exact he, by rw [← hen, ← hen]; exact hle⟩
  rw [hp]
  exact distance_along _ _ _ hd (normalized2_le _)

/-- The step taken in the subpixel refinement is never against the Gauss-Newton step nor longer than it. -/
theorem C29_step_direction {displ step : ℝ} (h : |displ| ≤ 1) :
    0 ≤ clampStep displ step * step ∧ |clampStep displ step| ≤ |step| := by
  obtain ⟨h1, h2⟩ := abs_le.1 h
  unfold clampStep
  by_cases h3 : displ + step > 1
  · rw [if_pos h3]
    have : 0 < step := by linarith
    rw [abs_of_nonneg (by linarith), abs_of_pos this]
    exact ⟨mul_nonneg (by linarith) this.le, by linarith⟩
  · rw [if_neg h3]
    by_cases h4 : displ + step < -1
    · rw [if_pos h4]
      have : step < 0 := by linarith
      rw [abs_of_nonpos (by linarith), abs_of_neg this]
      exact ⟨mul_nonneg_of_nonpos_of_nonpos (by linarith) this.le, by linarith⟩
    · rw [if_neg h4]
      exact ⟨mul_self_nonneg _, le_refl _⟩

/-- A clamped step. -/
example : clampStep (1 / 2) 3 = 1 / 4 := by norm_num [clampStep]

/-- It returns if the gradient along the search direction does not vanish on the whole patch anywhere. -/
theorem C29_returns {s : Settings} (hth : 0 < s.outlierDiff) {img : V2 → ℝ × V2} {frm dst : V2}
    {patch : List (ℝ × V2)}
    (h : ∀ x : V2, ∃ i ∈ patch, Geom.dot (img (x + i.2)).2 (normalized2 (dst - frm)) ≠ 0) :
    ∃ g, tracePrecise s img frm dst patch = .ok g := tracePrecise_returns hth h

/-- If it vanishes on the patch at the midpoint, the step is `0 / 0` and the image is evaluated there. -/
theorem C29_flat_violated {s : Settings} (hn : 0 < s.gnIter) {img : V2 → ℝ × V2} {frm dst : V2}
    {patch : List (ℝ × V2)}
    (h : ∀ i ∈ patch, Geom.dot (img ((1 / 2 : ℝ) • (frm + dst) + i.2)).2 (normalized2 (dst - frm)) = 0) :
    tracePrecise s img frm dst patch = .error .ub := tracePrecise_flat hn h

/-- Not vacuous: with any number of iterations, an image with a kink between the neighbours. -/
example (n : Nat) : ∃ g, tracePrecise (Demo.settings ⟨n, 0, 10⟩) (fun p => (|p.x|, ⟨if 0 ≤ p.x then 1 else -1, 0⟩))
    ⟨-1, 0⟩ ⟨1, 0⟩ [(3, ⟨0, 0⟩), (2, ⟨1, 1⟩)] = .ok g := by
  apply C29_returns (by norm_num [Demo.settings])
  intro x
  refine ⟨(3, ⟨0, 0⟩), by simp, ?_⟩
  have hd : normalized2 ((⟨1, 0⟩ : V2) - ⟨-1, 0⟩) = ⟨1, 0⟩ := by
    have : (⟨1, 0⟩ : V2) - ⟨-1, 0⟩ = ⟨2, 0⟩ := by ext <;> norm_num
    rw [this]
    unfold normalized2
    rw [if_pos (by unfold sqNorm; norm_num), Demo.norm2_x]
    ext <;> simp
  rw [hd]
  simp only [Geom.dot]
  split <;> norm_num

/-- Not vacuous: an image of constant brightness. -/
example : tracePrecise (Demo.settings ⟨1, 0, 10⟩) (fun _ => (7, ⟨0, 0⟩)) ⟨-1, 0⟩ ⟨1, 0⟩ [(3, ⟨0, 0⟩)] = .error .ub :=
  C29_flat_violated (by norm_num [Demo.settings]) (by simp [Geom.dot])

/-! ## C30: refinement in the coordinates of the candidate's pyramid level

The position found by `tracePrecise` starts from full-resolution neighbours, but is evaluated in, and scaled up from,
the coordinates of the pyramid level. -/

/-- On the finest level, the refined position is within `s + 1` of the candidate if its neighbours are within `s`. The
neighbours are those in the list of candidates, which lists every candidate twice (C75). -/
theorem C30_finest_partial {e : Env} (hth : 0 ≤ e.s.outlierDiff) {points : List V2} {bestInd : Nat} {best : V2}
    {bestDepth s : ℝ} {r : V2 × WithTop ℝ}
    (hnear : ∀ (j : Nat) (x : V2), points[j]? = some x → bestInd - 1 ≤ j → j ≤ bestInd + 1 → distance x best ≤ s)
    (h : refine e points bestInd best bestDepth 0 = .ok r) : distance r.1 best ≤ s + 1 := by
  obtain ⟨frm, dst, x, hf, hd, hx, hr, _⟩ := refine_ok hth h
  have h1 := hnear _ _ hf (by omega) (by omega)
  have h2 : distance dst best ≤ s := by
    by_cases hl : bestInd + 1 ≤ points.length - 1
    · rw [min_eq_right hl] at hd
      exact hnear _ _ hd (by omega) (by omega)
    · rw [min_eq_left (by omega)] at hd
      by_cases hb : bestInd - 1 ≤ points.length - 1
      · exact hnear _ _ hd hb (by omega)
      · have := (List.getElem?_eq_some_iff.1 hf).1
        omega
  have h3 := distance_mid frm dst best
  have h4 := distance_triangle x ((1 / 2 : ℝ) • (frm + dst)) best
  have hrx : r.1 = x := by rw [hr]; ext <;> simp
  rw [hrx]
  linarith

/-- A point traced on level 1: the best candidate has depth `70 / 3` and position `(103, 0)`, the refined position
is found at `x` between 102 and 104, and doubled, so that the depth is negative, with any number of iterations. -/
theorem C30_level_violated (n : Nat) (hn : 0 < n) :
    ∃ q, traceOn (Demo.env ⟨n, 100, 4⟩) 6 (new true) = .ok (some (.ok, q)) ∧ q.tracedPyrLevel = 1 ∧
      q.depthBeforeSubpixel = some (70 / 3) ∧ ∃ d : ℝ, q.depth = some d ∧ d < 0 := by
  have hl := Demo.lvl_one n 100
  obtain ⟨q, hq, _, _, h1, _, h2, _, h3⟩ := Demo.traced ⟨n, 100, 4⟩ (by norm_num) (by rw [hl]; norm_num)
  obtain ⟨pos, x, hd, hx1, hx2, hpos⟩ := h3 hn
  refine ⟨q, hq, by rw [h1, hl], h2, _, hd, ?_⟩
  rw [hl] at hpos
  simp only [zpow_one] at hpos
  simp only at hx1 hx2
  have hu : ((Demo.env ⟨n, 100, 4⟩).cam.unmap pos).x = (pos.x - 100) / 10 := rfl
  have hz : ((Demo.env ⟨n, 100, 4⟩).cam.unmap pos).z = 1 - (pos.x - 100) / 10 := rfl
  simp only [Demo.env] at hu hz ⊢
  rw [hu, hz, if_neg (by rw [hpos]; intro h; linarith)]
  apply div_neg_of_neg_of_pos <;> rw [hpos] <;> linarith

/-- Not vacuous: on the finest level, candidates one pixel apart. -/
example (n : Nat) : ∃ r, refine (Demo.env ⟨n, 0, 10⟩) (Demo.spots ⟨n, 0, 10⟩) 3 ⟨3, 0⟩ (70 / 3) 0 = .ok r ∧
    distance r.1 ⟨3, 0⟩ ≤ 2 := by
  obtain ⟨r, _, hr, _⟩ := Demo.refine_eq ⟨n, 0, 10⟩ 0
  rw [Demo.depth3] at hr
  have h3 : (⟨0 + ((3 : Nat) : ℝ), 0⟩ : V2) = ⟨3, 0⟩ := by norm_num
  rw [h3] at hr
  refine ⟨r, hr, ?_⟩
  have := C30_finest_partial (s := 1) (by norm_num [Demo.env, Demo.settings]) ?_ hr
  · linarith
  · intro j x hj h1 h2
    obtain rfl | rfl | rfl : j = 2 ∨ j = 3 ∨ j = 4 := by omega
    all_goals
     
      simp only [Demo.spots, Demo.found, List.map_cons, List.map_nil, List.getElem?_cons_succ,
        List.getElem?_cons_zero, Option.some.injEq, Demo.spot] at hj
      subst hj
      unfold distance
      norm_num

/-! ## C31: only points with a depth are used as having one -/

/-- What a history says about the depth. -/
theorem history_depth {E : Env → Prop} {t g : Bool} {p : Point} (h : History E t g p) :
    (p.depth ≠ none → t = true ∨ g = true) ∧ (p.state ≠ .oob → p.stddev ≠ ⊤ → p.depth ≠ none) ∧
    (0 < p.numTraced → t = true ∧ p.depth ≠ none) ∧ (p.maxDepth ≠ ⊤ → t = true ∧ p.depth ≠ none) := by
  induction h with
  | create o => simp [new]
  | traceOk e fuel _ _ h ih =>
    have := (traceOn_succeeded h).2.2.2.1
    have hd := Option.isSome_iff_ne_none.1 this
    exact ⟨fun _ => Or.inl rfl, fun _ _ => hd, fun _ => ⟨rfl, hd⟩, fun _ => ⟨rfl, hd⟩⟩
  | traceFailed e fuel st _ _ h hst ih =>
    obtain ⟨le, lt, hq⟩ := traceOn_failed h hst
    subst hq
    exact ih
  | initialise r d _ ih =>
    refine ⟨fun _ => Or.inr rfl, fun _ _ => by simp, fun h => ⟨(ih.2.2.1 h).1, by simp⟩,
      fun h => ⟨(ih.2.2.2 h).1, by simp⟩⟩
  | putOut r _ ih => exact ⟨ih.1, fun h => absurd rfl h, ih.2.2.1, ih.2.2.2⟩
  | deactivate o d => simp [new]
  | @reload t g p _ ih =>
    refine ⟨ih.1, ih.2.1, ?_, ih.2.2.2⟩
    intro h
    by_cases hm : p.maxDepth = ⊤
    · simp [restore, hm] at h
    · exact ih.2.2.2 hm

/-- Whatever happened to a point: if it is ready, its depth was set by a successful trace or by somebody else who knew
it. -/
theorem C31_ready {E : Env → Prop} {t g : Bool} {p : Point} (h : History E t g p) (s : Settings)
    (hr : isReady s p) : (∃ d, p.depth = some d) ∧ (t = true ∨ g = true) := by
  obtain ⟨h1, h2, _⟩ := history_depth h
  have hd := h2 (by rw [hr.1]; decide) (ne_top_of_lt hr.2)
  exact ⟨Option.ne_none_iff_exists'.1 hd, h1 hd⟩

/-- A point written to a cloud as immature (`numTraced > 0`, source/output/CloudWriter.cpp:23) or drawn with its
depth (`maxDepth != INF`, source/system/KeyFrame.cpp:93) was traced successfully and has a depth. -/
theorem C31_written {E : Env → Prop} {t g : Bool} {p : Point} (h : History E t g p)
    (hw : 0 < p.numTraced ∨ p.maxDepth ≠ ⊤) : (∃ d, p.depth = some d) ∧ t = true := by
  obtain ⟨_, _, h3, h4⟩ := history_depth h
  rcases hw with hw | hw
  · exact ⟨Option.ne_none_iff_exists'.1 (h3 hw).2, (h3 hw).1⟩
  · exact ⟨Option.ne_none_iff_exists'.1 (h4 hw).2, (h4 hw).1⟩

/-- Not vacuous: a traced point that is ready. -/
example : ∃ q, History (fun _ => True) true false q ∧ isReady (Demo.settings ⟨3, 0, 10⟩) q ∧ 0 < q.numTraced := by
  obtain ⟨q, hq, _, _, _, hs, _⟩ := Demo.traced ⟨3, 0, 10⟩ (by norm_num) (by rw [Demo.lvl_zero]; norm_num)
  refine ⟨q, .traceOk _ _ trivial (.create true) hq, ⟨?_, ?_⟩, ?_⟩
  · rw [(C27_trace hq).1]; rfl
  · rw [hs, WithTop.coe_lt_coe]; norm_num [Demo.settings]
  · rw [(C27_trace hq).2.2.1 rfl]; omega

/-! ## C74: after a successful trace the depth lies in the depth interval

It does not: the interval is taken around the index of the best candidate in the list, which lists all candidates
twice, so that following the list towards smaller depths leads from the last candidate to the first. -/

/-- With any number of refinement steps, the lower bound of the depth is 90, and the depth at most 40. -/
theorem C74_interval_violated (n : Nat) :
    ∃ (q : Point) (d : ℝ), traceOn (Demo.env ⟨n, 0, 10⟩) 6 (new true) = .ok (some (.ok, q)) ∧
      q.depth = some d ∧ d < q.minDepth := by
  have hl := Demo.lvl_zero n 0
  obtain ⟨q, hq, hmin, _, _, _, _, h0, h1⟩ := Demo.traced ⟨n, 0, 10⟩ (by norm_num) (by rw [hl]; norm_num)
  by_cases hn : n = 0
  · exact ⟨q, _, hq, h0 hn, by rw [hmin]; norm_num⟩
  · obtain ⟨pos, x, hd, hx1, hx2, hpos⟩ := h1 (by change 0 < n; omega)
    refine ⟨q, _, hq, hd, ?_⟩
    rw [hl] at hpos
    simp only [zpow_zero, one_mul] at hpos
    simp only [zero_add] at hx1 hx2
    rw [hmin]
    have hu : ((Demo.env ⟨n, 0, 10⟩).cam.unmap pos).x = (pos.x - 0) / 10 := rfl
    have hz : ((Demo.env ⟨n, 0, 10⟩).cam.unmap pos).z = 1 - (pos.x - 0) / 10 := rfl
    simp only [Demo.env] at hu hz ⊢
    rw [hu, hz, if_neg (by rw [hpos]; intro h; linarith), div_lt_iff₀ (by rw [hpos]; linarith), hpos]
    linarith

/-! ## C75: candidates lie on the epipolar curve between the depth bounds, each listed once

The first half holds. Every candidate is listed twice. -/

/-- Every candidate is the projection of a direction between those of the two ends of the search. -/
theorem C75_between_partial {e : Env} (hcount : 2 ≤ e.s.onImageTestCount) {fuel : Nat} {dirMin dirMax : V3}
    {found : List (V2 × V3)} (hfull : e.s.performFullTracing = false)
    (h : pointsToTrace e fuel dirMin dirMax = .ok (some found)) :
    ∀ f ∈ found, f.1 = e.cam.map f.2 ∧ Between dirMax dirMin f.2 := by
  unfold pointsToTrace at h
  rw [hfull] at h
  simp only [Bool.false_eq_true, if_false] at h
  split at h
  · cases h; simp
  · simp only [Except.ok.injEq] at h
    exact searchLoop_on hcount h (by intro a ha; cases ha; exact le_rfl) (by simp)

/-- With full tracing, the ends are those that remain of the segment after intersecting it with the part of the sphere
that the camera sees. -/
theorem C75_between_full_partial {e : Env} (hcount : 2 ≤ e.s.onImageTestCount) {fuel : Nat} {dirMin dirMax : V3}
    {found : List (V2 × V3)} (hfull : e.s.performFullTracing = true)
    (h : pointsToTrace e fuel dirMin dirMax = .ok (some found)) :
    found = [] ∨ ∃ dirMin' dirMax', intersectOnSphere e.cam.maxAngle dirMin dirMax = .ok (true, dirMin', dirMax') ∧
      ∀ f ∈ found, f.1 = e.cam.map f.2 ∧ Between dirMax' dirMin' f.2 := by
  unfold pointsToTrace at h
  rw [hfull] at h
  simp only [if_true] at h
  split at h
  · cases h; exact Or.inl rfl
  · split at h
    · cases h
    · rename_i r hr
      split at h
      · rename_i h1
        simp only [Except.ok.injEq] at h
        refine Or.inr ⟨r.2.1, r.2.2, ?_, searchLoop_on hcount h (by intro a ha; cases ha; exact le_rfl) (by simp)⟩
        rw [hr, ← h1]
      · cases h; exact Or.inl rfl

/-- Whenever the search finds anything, without full tracing, the list consists of two copies of a shorter one. -/
theorem C75_twice_violated {e : Env} (hfull : e.s.performFullTracing = false) (fuel : Nat) (dirMin dirMax : V3)
    (hfuel : 0 < fuel) (hn : maxSearchCount e ≤ (fuel : Nat)) {found : List (V2 × V3)}
    (h : pointsToTrace e fuel dirMin dirMax = .ok (some found)) : ∃ l, found = l ++ l := by
  obtain ⟨l, hl, _⟩ := pointsToTrace_short hfull dirMin dirMax fuel hfuel hn
  rw [hl] at h
  exact ⟨l, by simpa using h.symm⟩

/-- Not vacuous, for all three: six candidates, listed twice. -/
example : ∃ found, pointsToTrace (Demo.env ⟨0, 0, 10⟩) 6 ⟨1, 0, 0⟩ ⟨0, 0, 1⟩ = .ok (some found) ∧
    found.length = 12 := ⟨_, Demo.search _, rfl⟩

/-! ## C76: the search ends -/

/-- Without full tracing, after at most `maxSearchCount` rounds (or one), with at most twice as many candidates. -/
theorem C76_ends {e : Env} (hfull : e.s.performFullTracing = false) (p : Point) (fuel : Nat) (hfuel : 0 < fuel)
    (hn : maxSearchCount e ≤ (fuel : Nat)) :
    traceOn e fuel p ≠ .ok none ∧ ∀ dirMin dirMax found, pointsToTrace e fuel dirMin dirMax = .ok (some found) →
      ((found.length : Nat) : Int) ≤ 2 * max 1 (maxSearchCount e) := by
  constructor
  · unfold traceOn
    split
    · simp
    · split
      · simp
      · simp only
        split
        · simp
        · rename_i base rest _ _
          obtain ⟨l, hl, _⟩ := pointsToTrace_short hfull (searchEnds e p base).1 (searchEnds e p base).2 fuel hfuel hn
          rw [hl]
          simp only
          split
          · split
            · simp
            · intro h
              rename_i cs _
              cases hj : judge e p ((l ++ l).map (·.1)) _ cs with
              | error f => rw [hj] at h; cases h
              | ok r => rw [hj] at h; cases h
          · simp
  · intro dirMin dirMax found h
    obtain ⟨l, hl, hlen⟩ := pointsToTrace_short hfull dirMin dirMax fuel hfuel hn
    rw [hl] at h
    have : found = l ++ l := by simpa using h.symm
    rw [this, List.length_append]
    push_cast
    omega

/-- With full tracing, it ends if the projection is tested at least at both ends and moves at a bounded speed on the
searched segment. -/
theorem C76_ends_full {e : Env} (hcount : 2 ≤ e.s.onImageTestCount) (hfull : e.s.performFullTracing = true)
    (dirMin dirMax : V3)
    (hM : ∀ a b : V3, intersectOnSphere e.cam.maxAngle dirMin dirMax = .ok (true, b, a) →
      ∃ M : Nat, ∀ v : V3, Between a b v → norm2 (e.cam.jacobian v (a - b)) ≤ M) :
    ∃ fuel r, pointsToTrace e fuel dirMin dirMax = r ∧ r ≠ .ok none := by
  obtain ⟨c, hc⟩ : ∃ c : Nat, e.s.onImageTestCount = c := ⟨e.s.onImageTestCount.toNat, by omega⟩
  by_cases hi : ∃ a b, intersectOnSphere e.cam.maxAngle dirMin dirMax = .ok (true, b, a)
  · obtain ⟨a, b, hab⟩ := hi
    obtain ⟨M, hM⟩ := hM a b hab
    have key : ∃ l, searchLoop e a b (c + (M + 1) + 2) (some 0) [] = some l := by
      apply searchLoop_ends_full (M := M + 1) (k := c) (fun v hv => by have := hM v hv; push_cast; linarith)
        (by omega) hcount
      · intro x hx
        cases hx
        refine ⟨le_rfl, ?_⟩
        have hpos : (0 : ℝ) < ((e.s.onImageTestCount - 1 : Int) : ℝ) := by exact_mod_cast (by omega)
        rw [sub_lt_iff_lt_add, zero_add, one_lt_div hpos, hc]
        push_cast
        linarith
      · omega
    obtain ⟨l, hl⟩ := key
    refine ⟨c + (M + 1) + 2, _, rfl, ?_⟩
    unfold pointsToTrace
    rw [hfull, hab]
    simp only [if_true, hl]
    split <;> simp
  · refine ⟨1, _, rfl, ?_⟩
    unfold pointsToTrace
    rw [hfull]
    simp only [if_true]
    split
    · simp
    · split
      · simp
      · rename_i r hr
        split
        · rename_i h1
          exact absurd ⟨r.2.2, r.2.1, by rw [hr, ← h1]⟩ hi
        · simp

/-- Not vacuous. -/
example : maxSearchCount (Demo.env ⟨0, 0, 10⟩) ≤ ((6 : Nat) : Int) ∧
    (Demo.env ⟨0, 0, 10⟩).s.performFullTracing = false := ⟨by rw [Demo.maxSearchCount_eq]; norm_num, rfl⟩

/-- Not vacuous: an orthographic camera, for any two ends. -/
example (dirMin dirMax : V3) : ∃ e : Env, 2 ≤ e.s.onImageTestCount ∧ e.s.performFullTracing = true ∧
    ∀ a b : V3, intersectOnSphere e.cam.maxAngle dirMin dirMax = .ok (true, b, a) →
      ∃ M : Nat, ∀ v : V3, Between a b v → norm2 (e.cam.jacobian v (a - b)) ≤ M := by
  refine ⟨{ Demo.env ⟨0, 0, 10⟩ with
    s := { Demo.settings ⟨0, 0, 10⟩ with performFullTracing := true }
    cam := { Demo.camera ⟨0, 0, 10⟩ with map := fun v => ⟨v.x, v.y⟩, jacobian := fun _ w => ⟨w.x, w.y⟩ } }, ?_, rfl, ?_⟩
  · norm_num [Demo.settings]
  · intro a b _
    exact ⟨⌈norm2 ⟨(a - b).x, (a - b).y⟩⌉₊, fun v _ => Nat.le_ceil (norm2 ⟨(a - b).x, (a - b).y⟩)⟩

/-! ## C77: the pyramid level of the last trace is one of the levels -/

/-- Whatever happened to a point: it can be used as an index into an array of `levelNum` elements
(source/system/DsoSystem.cpp:497). -/
theorem C77_level {L : Int} (hL : 1 ≤ L) {t g : Bool} {p : Point} (h : History (fun e => e.s.levelNum = L) t g p) :
    0 ≤ p.tracedPyrLevel ∧ p.tracedPyrLevel < L := by
  induction h with
  | create o => exact ⟨le_rfl, by simp [new]; omega⟩
  | traceOk e fuel he _ h ih =>
    obtain ⟨_, _, _, _, h1, h2⟩ := traceOn_succeeded h
    rw [he] at h2
    exact ⟨h1, by omega⟩
  | traceFailed e fuel st _ _ h hst ih =>
    obtain ⟨le, lt, hq⟩ := traceOn_failed h hst
    subst hq
    exact ih
  | initialise r d _ ih => exact ih
  | putOut r _ ih => exact ih
  | deactivate o d => exact ⟨le_rfl, by simp [new]; omega⟩
  | reload _ _ => exact ⟨le_rfl, by simp [restore]; omega⟩

/-- Not vacuous: a point traced on level 1 of 3. -/
example : ∃ q, History (fun e => e.s.levelNum = 3) true false q ∧ q.tracedPyrLevel = 1 := by
  obtain ⟨q, hq, h1, _⟩ := C30_level_violated 1 (by norm_num)
  exact ⟨q, .traceOk _ _ rfl (.create true) hq, h1⟩

/-! ## C78: points can be traced with any number of pyramid levels

Not with one: the only level is also the one that is too coarse. -/

/-- With a single level, no trace of any point ever succeeds. -/
theorem C78_single_level_violated {e : Env} (h1 : e.s.levelNum = 1) (fuel : Nat) (p q : Point) :
    traceOn e fuel p ≠ .ok (some (.ok, q)) := by
  intro h
  obtain ⟨_, _, _, _, h2, h3⟩ := traceOn_succeeded h
  omega

/-- Not vacuous: the same point is traced successfully with three levels, on the finest. -/
example : ∃ (e : Env) (fuel : Nat) (q : Point), e.s.levelNum = 3 ∧
    traceOn e fuel (new true) = .ok (some (.ok, q)) ∧ q.tracedPyrLevel = 0 := by
  obtain ⟨q, hq, _, _, h, _⟩ := Demo.traced ⟨0, 0, 10⟩ (by norm_num) (by rw [Demo.lvl_zero]; norm_num)
  exact ⟨_, _, q, rfl, hq, by rw [h, Demo.lvl_zero]⟩

end Mdso.Trace
