import Verif.Props.ImmaturePoint
import Verif.Props.Geometry

/-!
# C74 and C78: what does hold of the depth interval and of the number of pyramid levels
-/

set_option autoImplicit false

namespace Mdso.Trace

open Mdso.Geom Mdso.Cam Mdso.TraceSpec

/-- Following the curve of examined positions from the parameter `lo` to `hi`, the triangulated depth does not grow. -/
def FallsAlong (e : Env) (positions : List V2) (lo hi : ℝ) : Prop :=
  ∀ (a b : ℝ) (pa pb : V2), lo ≤ a → a ≤ b → b ≤ hi → approxOnCurve positions a = .ok pa → approxOnCurve positions b = .ok pb →
    e.tri (e.cam.unmap pb) ≤ e.tri (e.cam.unmap pa)

theorem firstMin_unique {es : List ℝ} {i j : Nat} (hi : IsFirstMin es i) (hj : IsFirstMin es j) : i = j := by
  obtain ⟨x, hx, h1⟩ := hi
  obtain ⟨y, hy, h2⟩ := hj
  rcases Nat.lt_trichotomy i j with h | h | h
  · have a := (h1 j y hy).1
    have b := (h2 i x hx).2 h
    linarith
  · exact h
  · have a := (h2 i x hx).1
    have b := (h1 j y hy).2 h
    linarith

/-- **C74, what holds.** After a successful trace the depth of the best candidate lies in the depth interval, if within two deviations of that candidate
the triangulated depth does not grow along the curve of examined positions. (Missing: that it does not grow. As every position is listed twice, it does
where the list starts over.) -/
theorem C74_interval_partial {e : Env} {fuel : Nat} {p q : Point} {base : V3} {rest : List V3} {found : List (V2 × V3)} {cs : List Cand} {i : Nat} {dev : ℝ}
    (h : traceOn e fuel p = .ok (some (.ok, q))) (hbase : e.baseDirections = base :: rest)
    (hfound : pointsToTrace e fuel (searchEnds e p base).1 (searchEnds e p base).2 = .ok (some found))
    (hcs : candidatesFrom e p 0 found = .ok cs) (hi : IsFirstMin (cs.map (·.energy)) i)
    (hdev : q.stddev = ((dev : ℝ) : WithTop ℝ)) (hfall : FallsAlong e (found.map (·.1)) (i - 2 * dev) (i + 2 * dev)) :
    ∃ d, q.depthBeforeSubpixel = some d ∧ q.minDepth ≤ d ∧ ((d : ℝ) : WithTop ℝ) ≤ q.maxDepth := by
  rcases traceOn_ok h with h | h | h | ⟨_, base', rest', found', cs', hbase', hfound', hlen, hcs', hj⟩
  · exact absurd h.1 (by decide)
  · exact absurd h.1 (by decide)
  · exact absurd h.1 (by decide)
  · rw [hbase] at hbase'
    cases hbase'
    rw [hfound] at hfound'
    cases hfound'
    rw [hcs] at hcs'
    cases hcs'
    obtain ⟨i', best, hb, hq | ⟨d, s, _, hd, hs, hthr, hbig, hqual, hacc⟩⟩ := judge_ok hj
    · exact absurd rfl hq.1
    · obtain ⟨_, _, _, _, hstd, _, _, _, hdb, _, _, _, hint⟩ := accept_ok hacc
      obtain ⟨hl, hcand⟩ := candidatesFrom_ok hcs
      obtain ⟨hbi, hmin⟩ := bestFrom_spec hb
      have hi' : IsFirstMin (cs.map (·.energy)) i' := by
        refine ⟨best.energy, by simp [List.getElem?_map, hbi], ?_⟩
        intro j y hy
        rw [List.getElem?_map] at hy
        obtain ⟨c, hc, hcy⟩ := Option.map_eq_some_iff.1 hy
        rw [← hcy]
        exact hmin j c hc
      have := firstMin_unique hi hi'
      subst this
      rw [hdev] at hstd
      rw [← hstd] at hint
      have hdev0 : 0 ≤ dev := by
        have := hstd
        unfold deviation at this
        simp only at this
        split at this
        · exact absurd this.symm (by simp)
        · rw [WithTop.coe_eq_coe] at this
          rw [this]
          exact Real.sqrt_nonneg _
      obtain ⟨f, hf⟩ : ∃ f, found[i]? = some f := by
        have : i < cs.length := (List.getElem?_eq_some_iff.1 hbi).1
        exact ⟨found[i]'(by omega), List.getElem?_eq_getElem _⟩
      have hpt : best.point = f.1 := by
        have := candidate_ok (hcand i f best hf hbi)
        rw [Nat.zero_add] at this
        exact this.1
      obtain ⟨htotal, _, hnode, _⟩ := C47_curve (points := found.map (·.1)) (by rw [List.length_map]; exact hlen)
      have hpos : approxOnCurve (found.map (·.1)) (i : ℝ) = .ok best.point := hnode i best.point (by simp [List.getElem?_map, hf, hpt])
      refine ⟨_, hdb, ?_, ?_⟩
      · rw [interval_coe] at hint
        obtain ⟨r, hr⟩ := htotal (i + 2 * dev)
        rw [hr] at hint
        have hm : q.minDepth = e.tri (e.cam.unmap r) := by
          simp only at hint
          split at hint
          · injection hint with hint
            exact (Prod.mk.inj hint).1.symm
          · split at hint
            · cases hint
            · injection hint with hint
              exact (Prod.mk.inj hint).1.symm
        rw [hm]
        exact hfall i (i + 2 * dev) _ _ (by linarith) (by linarith) le_rfl hpos hr
      · rw [interval_coe] at hint
        obtain ⟨r, hr⟩ := htotal (i + 2 * dev)
        obtain ⟨r', hr'⟩ := htotal (i - 2 * dev)
        rw [hr] at hint
        simp only at hint
        split at hint
        · injection hint with hint
          rw [← (Prod.mk.inj hint).2]
          exact le_top
        · rw [hr'] at hint
          injection hint with hint
          rw [← (Prod.mk.inj hint).2, WithTop.coe_le_coe]
          exact hfall (i - 2 * dev) i _ _ le_rfl (by linarith) (by linarith) hr' hpos

/-! ## A trace with other settings -/

/-- The same situation with another assumed variance of positions and another number of pyramid levels. -/
def retune (e : Env) (v : ℝ) (n : Int) : Env := { e with s := { e.s with positionVariance := v, levelNum := n } }

theorem sweep_retune (e : Env) (v : ℝ) (n : Int) (a b : V3) : ∀ (fuel : Nat) (al : ℝ) (k : Nat), sweep (retune e v n) a b fuel al k = sweep e a b fuel al k
  | 0, _, _ => rfl
  | fuel + 1, al, k => by
    rw [sweep, sweep]
    simp only [sweep_retune e v n a b fuel]
    rfl

theorem sweeps_retune (e : Env) (v : ℝ) (n : Int) (a b : V3) (fuel : Nat) (al : ℝ) : ∀ (k : Nat) (f : List (V2 × V3)) (o : Option ℝ),
    sweeps (retune e v n) a b fuel al k f o = sweeps e a b fuel al k f o
  | 0, _, _ => rfl
  | k + 1, f, o => by
    rw [sweeps, sweeps, sweep_retune]
    cases sweep e a b fuel al 0 with
    | none => rfl
    | some r => exact sweeps_retune e v n a b fuel al k _ _

theorem search_retune (e : Env) (v : ℝ) (n : Int) (a b : V3) : ∀ (fuel : Nat) (al : Option ℝ) (f : List (V2 × V3)),
    searchLoop (retune e v n) a b fuel al f = searchLoop e a b fuel al f
  | 0, _, _ => rfl
  | fuel + 1, none, _ => rfl
  | fuel + 1, some al, f => by
    rw [searchLoop, searchLoop]
    simp only [sweeps_retune, search_retune e v n a b fuel]
    rfl

theorem points_retune (e : Env) (v : ℝ) (n : Int) (fuel : Nat) (a b : V3) : pointsToTrace (retune e v n) fuel a b = pointsToTrace e fuel a b := by
  unfold pointsToTrace
  simp only [search_retune]
  rfl

theorem level_retune {e : Env} (h2 : 2 ≤ e.s.levelNum) (v : ℝ) {n : Int} (hn : 2 ≤ n) {dist : ℝ} (h : pyrLevelOf e dist = .ok 0) :
    pyrLevelOf (retune e v n) dist = .ok 0 := by
  unfold pyrLevelOf at h ⊢
  by_cases hd : 0 < dist / e.s.height
  · rw [if_pos hd] at h
    rw [if_pos (by exact hd)]
    simp only [Except.ok.injEq] at h ⊢
    show (if (if round (Real.logb 2 (dist / e.s.height)) < 0 then 0 else round (Real.logb 2 (dist / e.s.height))) ≥ n then n - 1
      else if round (Real.logb 2 (dist / e.s.height)) < 0 then 0 else round (Real.logb 2 (dist / e.s.height))) = 0
    generalize round (Real.logb 2 (dist / e.s.height)) = l at h
    by_cases h0 : l < 0
    · rw [if_pos h0, if_neg (by omega)]
    · rw [if_neg h0] at h ⊢
      by_cases hl : l ≥ e.s.levelNum
      · rw [if_pos hl] at h
        omega
      · rw [if_neg hl] at h
        rw [if_neg (by omega)]
        exact h
  · rw [if_neg hd] at h
    cases h

theorem candidate_retune {e : Env} (h2 : 2 ≤ e.s.levelNum) (v : ℝ) {n : Int} (hn : 2 ≤ n) {p : Point} {i : Nat} {f : V2 × V3} {c : Cand}
    (h : candidate e p i f = .ok c) (h0 : c.level = 0) : candidate (retune e v n) p i f = .ok c := by
  obtain ⟨d, hd⟩ : ∃ d : WithTop ℝ, d = (if p.maxDepth = ⊤ ∧ i = 0 then (⊤ : WithTop ℝ) else ((e.tri f.2.normalized : ℝ) : WithTop ℝ)) := ⟨_, rfl⟩
  unfold candidate at h ⊢
  dsimp only at h ⊢
  have e1 : (retune e v n).tri = e.tri := rfl
  have e2 : ∀ x, reprojections (retune e v n) x = reprojections e x := fun _ => rfl
  have e3 : ∀ l x, energyOf (retune e v n) l x = energyOf e l x := fun _ _ => rfl
  rw [← hd] at h
  rw [e1, ← hd, e2]
  cases hl : pyrLevelOf e (maxReprojDist f.1 (reprojections e d)) with
  | error f => rw [hl] at h; cases h
  | ok l =>
    rw [hl] at h
    dsimp only at h
    by_cases hl0 : l < 0
    · rw [if_pos hl0] at h
      cases h
    · rw [if_neg hl0] at h
      injection h with h
      have : l = 0 := by rw [← h] at h0; exact h0
      subst this
      rw [level_retune h2 v hn hl]
      dsimp only
      rw [if_neg (by omega), e3, h]

theorem candidates_retune {e : Env} (h2 : 2 ≤ e.s.levelNum) (v : ℝ) {n : Int} (hn : 2 ≤ n) (p : Point) : ∀ (fs : List (V2 × V3)) (i : Nat) (cs : List Cand),
    candidatesFrom e p i fs = .ok cs → (∀ c ∈ cs, c.level = 0) → candidatesFrom (retune e v n) p i fs = .ok cs
  | [], _, cs, h, _ => h
  | f :: fs, i, cs, h, h0 => by
    rw [candidatesFrom] at h ⊢
    cases h1 : candidate e p i f with
    | error g => rw [h1] at h; cases h
    | ok c =>
      cases h3 : candidatesFrom e p (i + 1) fs with
      | error g => rw [h1, h3] at h; cases h
      | ok cs' =>
        rw [h1, h3] at h
        cases h
        rw [candidate_retune h2 v hn h1 (h0 c (List.mem_cons_self ..)),
          candidates_retune h2 v hn p fs (i + 1) cs' h3 (fun c hc => h0 c (List.mem_cons_of_mem _ hc))]

/-- A trace of a new point that succeeds without refinement, all candidates being on the finest level, also succeeds with another assumed variance and any
other number of levels, at least two. -/
theorem trace_retune {e : Env} (h2 : 2 ≤ e.s.levelNum) (hgn : e.s.gnIter = 0) (v : ℝ) {n : Int} (hn : 2 ≤ n) {fuel : Nat} {q : Point}
    (h : traceOn e fuel (new true) = .ok (some (.ok, q))) {base : V3} {rest : List V3} (hbase : e.baseDirections = base :: rest)
    {found : List (V2 × V3)} (hfound : pointsToTrace e fuel (searchEnds e (new true) base).1 (searchEnds e (new true) base).2 = .ok (some found))
    {cs : List Cand} (hcs : candidatesFrom e (new true) 0 found = .ok cs) (hl : ∀ c ∈ cs, c.level = 0) :
    ∃ q', traceOn (retune e v n) fuel (new true) = .ok (some (.ok, q')) ∧ q'.depth = q.depth ∧ q'.tracedPyrLevel = q.tracedPyrLevel ∧
      q'.stddev = deviation (retune e v n) (normalized2 (e.cam.jacobian (searchEnds e (new true) base).2
        ((searchEnds e (new true) base).1 - (searchEnds e (new true) base).2))) := by
  rcases traceOn_ok h with h | h | h | ⟨_, base', rest', found', cs', hbase', hfound', hlen, hcs', hj⟩
  · exact absurd h.1 (by decide)
  · exact absurd h.1 (by decide)
  · exact absurd h.1 (by decide)
  · rw [hbase] at hbase'
    cases hbase'
    rw [hfound] at hfound'
    cases hfound'
    rw [hcs] at hcs'
    cases hcs'
    obtain ⟨i, best, hb, hq | ⟨d, s, hlev, hd, hs, hthr, hbig, hqual, hacc⟩⟩ := judge_ok hj
    · exact absurd rfl hq.1
    · have hbest0 : best.level = 0 := hl best (List.mem_of_getElem? (bestFrom_spec hb).1)
      obtain ⟨_, _, _, _, _, hlv, _, _, _, _, hdep, _, _⟩ := accept_ok hacc
      obtain ⟨dev, hdev⟩ : ∃ dev, dev = deviation (retune e v n) (normalized2 (e.cam.jacobian (searchEnds e (new true) base).2
        ((searchEnds e (new true) base).1 - (searchEnds e (new true) base).2))) := ⟨_, rfl⟩
      obtain ⟨htotal, _⟩ := C47_curve (points := found.map (·.1)) (by rw [List.length_map]; exact hlen)
      obtain ⟨r, hr⟩ : ∃ r, interval (retune e v n) (found.map (·.1)) i dev = .ok r := by
        cases dev with
        | top => exact ⟨_, rfl⟩
        | coe dev =>
          rw [interval_coe]
          obtain ⟨r, hr⟩ := htotal (i + 2 * dev)
          obtain ⟨r', hr'⟩ := htotal (i - 2 * dev)
          rw [hr, hr']
          dsimp only
          split <;> exact ⟨_, rfl⟩
      have hacc' : ∃ q', accept (retune e v n) (new true) (found.map (·.1)) dev i best d (quality s best.energy) = .ok (.ok, q') := by
        unfold accept
        rw [hr]
        dsimp only
        rw [if_neg (by show ¬ e.s.gnIter > 0; omega)]
        exact ⟨_, rfl⟩
      obtain ⟨q', hq'⟩ := hacc'
      obtain ⟨_, _, _, _, hstd, hlv', _, _, _, _, hdep', _, _⟩ := accept_ok hq'
      refine ⟨q', ?_, by rw [hdep hgn, hdep' hgn], by rw [hlv, hlv'], by rw [hstd, hdev]⟩
      have hj' : judge (retune e v n) (new true) (found.map (·.1)) dev cs = .ok (.ok, q') := by
        rw [← hq']
        unfold judge
        rw [hb]
        dsimp only
        have e1 : (retune e v n).s.levelNum = n := rfl
        rw [e1, if_neg (by omega), hd]
        have e2 : secondBest (retune e v n).s.minSecondBestDistance best.point cs = ((s : ℝ) : WithTop ℝ) := hs
        rw [e2]
        show (if s ≤ e.s.secondBestEnergyThresFactor * (e.baseDirections.length * e.s.outlierDiff * e.s.outlierDiff) then _
          else if best.energy > e.s.outlierEnergyFactor * (e.baseDirections.length * e.s.outlierDiff * e.s.outlierDiff) then _
          else if ∃ r, quality s best.energy = some r ∧ r < ((e.s.outlierQuality : ℝ) : WithTop ℝ) then _ else _) = _
        rw [if_neg (not_le.2 hthr), if_neg (not_lt.2 hbig), if_neg]
        rintro ⟨r, h1, h3⟩
        unfold quality at h1
        by_cases hz : best.energy = 0
        · rw [if_pos hz] at h1
          split at h1
          · cases h1
          · cases h1
            exact absurd h3 (by simp)
        · rw [if_neg hz] at h1
          cases h1
          rw [WithTop.coe_lt_coe] at h3
          rcases hqual with h4 | h4
          · exact hz h4
          · linarith
      unfold traceOn
      rw [if_neg (by simp [new])]
      have e3 : (retune e v n).baseDirections = base :: rest := hbase
      rw [e3]
      have e4 : searchEnds (retune e v n) (new true) base = searchEnds e (new true) base := rfl
      dsimp only
      rw [e4, if_neg (by simp [new]), points_retune, hfound]
      dsimp only
      rw [if_pos hlen, candidates_retune h2 v hn _ _ _ _ hcs hl]
      dsimp only
      have e5 : (retune e v n).cam = e.cam := rfl
      rw [e5, ← hdev, hj']
      rfl

namespace Demo

theorem lvl_le {x : ℝ} (h0 : 0 < x) (h10 : x ≤ 10) : lvl ⟨0, 0, 10⟩ x = 0 := by
  unfold lvl pyrLevelOf
  have hs : (((env ⟨0, 0, 10⟩).s.height : Int) : ℝ) = 10 := by simp [env, settings]
  have hlev : (env ⟨0, 0, 10⟩).s.levelNum = 3 := rfl
  rw [hs, if_pos (by positivity)]
  simp only [hlev]
  have hl : Real.logb 2 (x / 10) ≤ 0 := Real.logb_nonpos (by norm_num) (by positivity) (by linarith)
  have hr : round (Real.logb 2 (x / 10)) ≤ 0 := by
    rw [round_eq]
    have h2 := Int.floor_lt.2 (show Real.logb 2 (x / 10) + 1 / 2 < ((1 : Int) : ℝ) by push_cast; linarith)
    omega
  split <;> split <;> omega

theorem again_level (i : Nat) {a : Cand} (h : candidate (env ⟨0, 0, 10⟩) (new true) (i + 1) (spot ⟨0, 0, 10⟩ 0) = .ok a) : a.level = 0 := by
  obtain ⟨P, hP⟩ : ∃ P : Par, P = ⟨0, 0, 10⟩ := ⟨_, rfl⟩
  rw [← hP] at h
  unfold candidate at h
  simp only [tri_spot] at h
  rw [if_neg (by omega)] at h
  have hr : reprojections (env P) ((depthAt 0 : ℝ) : WithTop ℝ) = [⟨P.off + 10 / 3, 20 / 3⟩] := by
    change List.map _ _ = _
    simp only [depthAt, if_true, env, List.tail_cons, List.map_cons, List.map_nil, Motion3.act, M3.mulVec, V3.dot,
      camera, V3.smul_x, V3.smul_y, V3.smul_z, V3.add_x, V3.add_y, V3.add_z, List.cons.injEq, and_true, V2.mk.injEq]
    norm_num
  have hsub : (⟨P.off + 10 / 3, 20 / 3⟩ : V2) - (spot P 0).1 = ⟨10 / 3, 20 / 3⟩ := by ext <;> simp [spot]
  have hn : 0 < norm2 (⟨10 / 3, 20 / 3⟩ : V2) := by
    unfold norm2 sqNorm
    apply Real.sqrt_pos.2; norm_num
  have hn10 : norm2 (⟨10 / 3, 20 / 3⟩ : V2) ≤ 10 := by
    unfold norm2 sqNorm
    apply Real.sqrt_le_iff.2; norm_num
  have hd : maxReprojDist (spot P 0).1 [⟨P.off + 10 / 3, 20 / 3⟩] = norm2 (⟨10 / 3, 20 / 3⟩ : V2) := by
    simp only [maxReprojDist, List.foldl_cons, List.foldl_nil, hsub]
    rw [if_pos (by linarith [hn])]
  have hh : 0 < P.height := by rw [hP]; norm_num
  rw [hr, hd, (level_eq P hh _ hn).1] at h
  simp only at h
  rw [if_neg (not_lt.2 (level_eq P hh _ hn).2)] at h
  injection h with h
  rw [← h]
  show lvl P _ = 0
  rw [hP]
  exact lvl_le hn hn10

theorem cand_level (k : Nat) (hk : k ≤ 5) (d : WithTop ℝ) : (cand ⟨0, 0, 10⟩ k d).level = 0 := by
  have hk5 : (k : ℝ) ≤ 5 := by exact_mod_cast hk
  have hk0 : (0 : ℝ) ≤ k := Nat.cast_nonneg k
  exact lvl_le (by linarith) (by linarith)

theorem levels {cs : List Cand} (hcs : candidatesFrom (env ⟨0, 0, 10⟩) (new true) 0 (found ⟨0, 0, 10⟩) = .ok cs) :
    (∀ c ∈ cs, c.level = 0) ∧ IsFirstMin (cs.map (·.energy)) 3 := by
  obtain ⟨P, hP⟩ : ∃ P : Par, P = ⟨0, 0, 10⟩ := ⟨_, rfl⟩
  have hh : 0 < P.height := by rw [hP]; norm_num
  obtain ⟨a, ha, h1, h2⟩ := candidate_again P hh 5
  have hl := again_level 5 (hP ▸ ha)
  rw [← hP] at hcs
  unfold found at hcs
  simp only [candidatesFrom, candidate_first P hh, Nat.zero_add, ha,
    candidate_other P hh 0 1 (by norm_num) (by norm_num), candidate_other P hh 1 2 (by norm_num) (by norm_num),
    candidate_other P hh 2 3 (by norm_num) (by norm_num), candidate_other P hh 3 4 (by norm_num) (by norm_num),
    candidate_other P hh 4 5 (by norm_num) (by norm_num),
    candidate_other P hh 6 1 (by norm_num) (by norm_num), candidate_other P hh 7 2 (by norm_num) (by norm_num),
    candidate_other P hh 8 3 (by norm_num) (by norm_num), candidate_other P hh 9 4 (by norm_num) (by norm_num),
    candidate_other P hh 10 5 (by norm_num) (by norm_num)] at hcs
  injection hcs with hcs
  subst hcs
  constructor
  · intro c hc
    simp only [List.mem_cons, List.not_mem_nil, or_false] at hc
    rcases hc with h | h | h | h | h | h | h | h | h | h | h | h <;> subst h
    all_goals first
      | exact hl
      | (subst hP; exact cand_level _ (by norm_num) _)
  · refine ⟨2, by simp [energy3], ?_⟩
    intro j y hy
    rcases j with _ | _ | _ | _ | _ | _ | _ | _ | _ | _ | _ | _ | j
    all_goals
      simp only [List.map_cons, List.map_nil, List.getElem?_cons_succ, List.getElem?_cons_zero, List.getElem?_nil, Option.some.injEq,
        energy0, energy1, energy2, energy3, energy4, energy5, reduceCtorEq] at hy
    all_goals first
      | (subst hy; constructor <;> first | linarith | (intro; linarith) | (intro; omega))

theorem falls (v : ℝ) (n : Int) : FallsAlong (retune (env ⟨0, 0, 10⟩) v n) ((found ⟨0, 0, 10⟩).map (·.1)) (3 - 1) (3 + 1) := by
  have key : ∀ x y : ℝ, 2 ≤ x → x ≤ y → y ≤ 4 →
      (retune (env ⟨0, 0, 10⟩) v n).tri ((retune (env ⟨0, 0, 10⟩) v n).cam.unmap ⟨y, 0⟩) ≤
        (retune (env ⟨0, 0, 10⟩) v n).tri ((retune (env ⟨0, 0, 10⟩) v n).cam.unmap ⟨x, 0⟩) := by
    intro x y h2 hxy h4
    simp only [retune, env, camera]
    rw [if_neg (by simp; linarith), if_neg (by simp; linarith)]
    rw [div_le_div_iff₀ (by norm_num; linarith) (by norm_num; linarith)]
    nlinarith
  obtain ⟨_, hseg, _⟩ := C47_curve (points := (found ⟨0, 0, 10⟩).map (·.1)) (by simp [found])
  have hpos : ∀ (x : ℝ) (r : V2), 2 ≤ x → x ≤ 4 → approxOnCurve ((found ⟨0, 0, 10⟩).map (·.1)) x = .ok r → r = ⟨x, 0⟩ := by
    intro x r h2 h4 h
    by_cases h3 : x ≤ 3
    · have := hseg 2 ⟨2, 0⟩ ⟨3, 0⟩ (by simp [found, spot]) (by simp [found, spot]) (x - 2) (by linarith) (by linarith)
      rw [show ((2 : Nat) : ℝ) + (x - 2) = x by push_cast; ring, h] at this
      injection this with this
      rw [this]
      ext <;> simp [GeomSpec.along] <;> ring
    · have := hseg 3 ⟨3, 0⟩ ⟨4, 0⟩ (by simp [found, spot]) (by simp [found, spot]) (x - 3) (by linarith) (by linarith)
      rw [show ((3 : Nat) : ℝ) + (x - 3) = x by push_cast; ring, h] at this
      injection this with this
      rw [this]
      ext <;> simp [GeomSpec.along] <;> ring
  intro a b pa pb ha hab hb hpa hpb
  rw [hpos a pa (by linarith) (by linarith) hpa, hpos b pb (by linarith) (by linarith) hpb]
  exact key a b (by linarith) hab (by linarith)

end Demo

/-- **C78, what holds.** With any number of levels but one a point can be traced successfully. -/
theorem C78_levels_partial (n : Int) (hn : 2 ≤ n) : ∃ (e : Env) (fuel : Nat) (q : Point), e.s.levelNum = n ∧ traceOn e fuel (new true) = .ok (some (.ok, q)) := by
  obtain ⟨q, hq, _⟩ := Demo.traced ⟨0, 0, 10⟩ (by norm_num) (by rw [Demo.lvl_zero]; norm_num)
  obtain ⟨a, _, _, hcs⟩ := Demo.candidates ⟨0, 0, 10⟩ (by norm_num)
  have hfound : pointsToTrace (Demo.env ⟨0, 0, 10⟩) 6 (searchEnds (Demo.env ⟨0, 0, 10⟩) (new true) ⟨0, 0, 1⟩).1
      (searchEnds (Demo.env ⟨0, 0, 10⟩) (new true) ⟨0, 0, 1⟩).2 = .ok (some (Demo.found ⟨0, 0, 10⟩)) := by
    rw [Demo.ends]
    exact Demo.search _
  obtain ⟨q', h', _⟩ := trace_retune (e := Demo.env ⟨0, 0, 10⟩) (by show (2 : Int) ≤ 3; norm_num) rfl 4 hn hq rfl hfound hcs (Demo.levels hcs).1
  exact ⟨_, _, q', rfl, h'⟩

/-- The hypotheses of `C74_interval_partial` are met: with an assumed variance of a quarter, the depth of the best candidate, the fourth, falls along the
curve within two deviations, that is between the third and the fifth candidate. -/
example : ∃ q, traceOn (retune (Demo.env ⟨0, 0, 10⟩) (1 / 4) 3) 6 (new true) = .ok (some (.ok, q)) ∧ q.depth = some (70 / 3) ∧
    ∃ d, q.depthBeforeSubpixel = some d ∧ q.minDepth ≤ d ∧ ((d : ℝ) : WithTop ℝ) ≤ q.maxDepth := by
  obtain ⟨q, hq, _, _, _, _, _, hdep, _⟩ := Demo.traced ⟨0, 0, 10⟩ (by norm_num) (by rw [Demo.lvl_zero]; norm_num)
  obtain ⟨a, _, _, hcs⟩ := Demo.candidates ⟨0, 0, 10⟩ (by norm_num)
  have hfound : pointsToTrace (Demo.env ⟨0, 0, 10⟩) 6 (searchEnds (Demo.env ⟨0, 0, 10⟩) (new true) ⟨0, 0, 1⟩).1
      (searchEnds (Demo.env ⟨0, 0, 10⟩) (new true) ⟨0, 0, 1⟩).2 = .ok (some (Demo.found ⟨0, 0, 10⟩)) := by
    rw [Demo.ends]
    exact Demo.search _
  obtain ⟨q', h', hd', _, hs'⟩ := trace_retune (e := Demo.env ⟨0, 0, 10⟩) (by show (2 : Int) ≤ 3; norm_num) rfl (1 / 4) (n := 3) (by norm_num) hq rfl hfound hcs
    (Demo.levels hcs).1
  refine ⟨q', h', by rw [hd', hdep rfl], C74_interval_partial (dev := 1 / 2) h' rfl (by rw [points_retune]; exact hfound)
    (candidates_retune (by show (2 : Int) ≤ 3; norm_num) _ (by norm_num) _ _ _ _ hcs (Demo.levels hcs).1) (Demo.levels hcs).2 ?_ ?_⟩
  · rw [hs', Demo.ends]
    have h1 : (Demo.env ⟨0, 0, 10⟩).cam.jacobian ⟨0, 0, 1⟩ ((⟨1, 0, 0⟩ : V3) - ⟨0, 0, 1⟩) = ⟨10, 0⟩ := by
      simp [Demo.env, Demo.camera]
    have h2 : normalized2 ⟨10, 0⟩ = ⟨1, 0⟩ := by
      unfold normalized2
      rw [if_pos (by unfold sqNorm; norm_num), Demo.norm2_x]
      ext <;> simp
    dsimp only
    rw [h1, h2]
    have h3 : (retune (Demo.env ⟨0, 0, 10⟩) (1 / 4) 3).baseGradNorm.foldl (fun acc g => acc + Geom.dot g ⟨1, 0⟩ * Geom.dot g ⟨1, 0⟩) 0 = 2 := by
      simp only [retune, Demo.env, List.foldl_cons, List.foldl_nil, Geom.dot]
      norm_num
    unfold deviation
    simp only [h3]
    rw [if_neg (by norm_num)]
    congr 1
    simp only [retune, Demo.env, List.length_cons, List.length_nil]
    rw [show ((0 + 1 + 1 : Nat) : ℝ) * (1 / 4) / 2 = 1 / 2 * (1 / 2) by norm_num, Real.sqrt_mul_self (by norm_num)]
  · have := Demo.falls (1 / 4) 3
    norm_num at this ⊢
    exact this

end Mdso.Trace
