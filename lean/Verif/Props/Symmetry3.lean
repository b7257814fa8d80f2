import Verif.Props.Symmetry2
import Verif.Props.ImmaturePoint

/-!
# Tracing a point in another unit of length: C141
-/

set_option autoImplicit false

namespace Mdso.Sym

open Mdso.Geom Mdso.Trace

/-- Triangulation with a longer motion gives longer distances. -/
theorem C141_triangulate (σ : ℝ) (m : Motion3) (r1 r2 : V3) :
    triangulate (scaleMotion σ m) r1 r2 = (triangulate m r1 r2).map fun q => (σ * q.1, σ * q.2) := by
  unfold triangulate lsq2 scaleMotion
  dsimp only
  split
  · rfl
  · simp only [Option.map_some, Option.some.injEq, Prod.mk.injEq]
    constructor <;> (simp [V3.dot]; ring)

/-- A candidate in another unit of length. -/
noncomputable def scaleCand (σ : ℝ) (c : Cand) : Cand := { c with depth := c.depth.map fun d => σ * d }

theorem act_scale_mul (σ : ℝ) (m : Motion3) (d : ℝ) (b : V3) : (scaleMotion σ m).act ((σ * d) • b) = σ • m.act (d • b) := by
  rw [mul_smul3, scale_act]

theorem normalized_smul {σ : ℝ} (hσ : 0 < σ) (v : V3) : (σ • v).normalized = v.normalized := by
  by_cases hv : v = 0
  · subst hv
    congr 1
    ext <;> simp
  · have hv' : σ • v ≠ 0 := by
      intro h0
      apply hv
      have hx := congrArg V3.x h0
      have hy := congrArg V3.y h0
      have hz := congrArg V3.z h0
      simp only [V3.smul_x, V3.smul_y, V3.smul_z] at hx hy hz
      ext
      · exact (mul_eq_zero.1 hx).resolve_left hσ.ne'
      · exact (mul_eq_zero.1 hy).resolve_left hσ.ne'
      · exact (mul_eq_zero.1 hz).resolve_left hσ.ne'
    rw [V3.normalized_eq hv', V3.normalized_eq hv, V3.norm_smul hσ.le]
    have hn : v.norm ≠ 0 := (V3.norm_pos hv).ne'
    rw [← mul_smul3]
    congr 1
    field_simp

theorem ends_scale {σ : ℝ} (hσ : 0 < σ) (e : Env) (p : Point) (b : V3) : searchEnds (scaleEnv σ e) (scalePoint σ p) b = searchEnds e p b := by
  unfold searchEnds scaleEnv scalePoint
  dsimp only
  rw [act_scale_mul, normalized_smul hσ]
  congr 1
  cases p.maxDepth with
  | top => rfl
  | coe d =>
    show ((scaleMotion σ e.baseToRef).act ((σ * d) • b)).normalized = ((e.baseToRef.act (d • b))).normalized
    rw [act_scale_mul, normalized_smul hσ]

theorem reprojections_scale {σ : ℝ} (hσ : 0 < σ) {e : Env} (he : SeesDirections e) (d : WithTop ℝ) :
    reprojections (scaleEnv σ e) (d.map fun d => σ * d) = reprojections e d := by
  unfold reprojections scaleEnv
  cases d with
  | top => rfl
  | coe d =>
    show e.baseDirections.tail.map (fun b => e.cam.map ((scaleMotion σ e.baseToRef).act ((σ * d) • b))) =
      e.baseDirections.tail.map fun b => e.cam.map (e.baseToRef.act (d • b))
    simp only [act_scale_mul, he _ _ hσ]

theorem candidate_scale {σ : ℝ} (hσ : 0 < σ) {e : Env} (he : SeesDirections e) (p : Point) (i : Nat) (c : V2 × V3) :
    candidate (scaleEnv σ e) (scalePoint σ p) i c = (candidate e p i c).map (scaleCand σ) := by
  unfold candidate
  have h1 : (scalePoint σ p).maxDepth = ⊤ ↔ p.maxDepth = ⊤ := by
    unfold scalePoint
    cases p.maxDepth with
    | top => exact Iff.rfl
    | coe d => exact ⟨fun h => absurd h (WithTop.coe_ne_top), fun h => absurd h (WithTop.coe_ne_top)⟩
  have h2 : (if (scalePoint σ p).maxDepth = ⊤ ∧ i = 0 then (⊤ : WithTop ℝ) else (((scaleEnv σ e).tri c.2.normalized : ℝ) : WithTop ℝ)) =
      (if p.maxDepth = ⊤ ∧ i = 0 then (⊤ : WithTop ℝ) else ((e.tri c.2.normalized : ℝ) : WithTop ℝ)).map fun d => σ * d := by
    by_cases h : p.maxDepth = ⊤ ∧ i = 0
    · rw [if_pos h, if_pos ⟨h1.2 h.1, h.2⟩]
      rfl
    · rw [if_neg h, if_neg (fun hh => h ⟨h1.1 hh.1, hh.2⟩)]
      rfl
  dsimp only
  rw [h2, reprojections_scale hσ he]
  generalize (if p.maxDepth = ⊤ ∧ i = 0 then (⊤ : WithTop ℝ) else ((e.tri c.2.normalized : ℝ) : WithTop ℝ)) = d
  show (match pyrLevelOf e (maxReprojDist c.1 (reprojections e d)) with
    | .error f => Except.error f
    | .ok level => if level < 0 then .error .ub else .ok (Cand.mk c.1 (d.map fun d => σ * d) level (energyOf e level (c.1 :: reprojections e d)))) = _
  cases pyrLevelOf e (maxReprojDist c.1 (reprojections e d)) with
  | error f => rfl
  | ok level =>
    dsimp only
    split <;> rfl

theorem candidates_scale {σ : ℝ} (hσ : 0 < σ) {e : Env} (he : SeesDirections e) (p : Point) : ∀ (cs : List (V2 × V3)) (i : Nat),
    candidatesFrom (scaleEnv σ e) (scalePoint σ p) i cs = (candidatesFrom e p i cs).map fun l => l.map (scaleCand σ)
  | [], _ => rfl
  | c :: cs, i => by
    rw [candidatesFrom, candidatesFrom, candidate_scale hσ he, candidates_scale hσ he p cs (i + 1)]
    cases candidate e p i c with
    | error f => rfl
    | ok a => cases candidatesFrom e p (i + 1) cs <;> rfl

theorem best_scale (σ : ℝ) : ∀ (cs : List Cand) (i : Nat) (b : Option (Nat × Cand)),
    bestFrom i (cs.map (scaleCand σ)) (b.map fun q => (q.1, scaleCand σ q.2)) = (bestFrom i cs b).map fun q => (q.1, scaleCand σ q.2)
  | [], _, _ => by simp [bestFrom]
  | c :: cs, i, none => by
    rw [List.map_cons, Option.map_none, bestFrom, bestFrom]
    exact best_scale σ cs (i + 1) (some (i, c))
  | c :: cs, i, some b => by
    rw [List.map_cons, Option.map_some, bestFrom, bestFrom, ← best_scale σ cs (i + 1)]
    congr 1
    show (if c.energy < b.2.energy then _ else _) = _
    split <;> rfl

theorem second_scale (σ δ : ℝ) (best : V2) (cs : List Cand) : secondBest δ best (cs.map (scaleCand σ)) = secondBest δ best cs := by
  unfold secondBest
  rw [List.foldl_map]
  rfl

theorem refine_scale {σ : ℝ} (hσ : 0 < σ) {e : Env} (he : SeesDirections e) (points : List V2) (i : Nat) (best : V2) (d : ℝ) (l : Int) :
    refine (scaleEnv σ e) points i best (σ * d) l = refine e points i best d l := by
  unfold refine
  have h : refinePatch (scaleEnv σ e) best (σ * d) l = refinePatch e best d l := by
    unfold refinePatch scaleEnv
    dsimp only
    simp only [act_scale_mul, he _ _ hσ]
  rw [h]
  rfl

theorem interval_scale (σ : ℝ) (e : Env) (points : List V2) (i : Nat) (dev : WithTop ℝ) :
    interval (scaleEnv σ e) points i dev = (interval e points i dev).map fun r => (σ * r.1, r.2.map fun d => σ * d) := by
  unfold interval
  cases dev with
  | top => rfl
  | coe dev =>
    show (match approxOnCurve points (i + 2 * dev) with
      | .error f => _ | .ok minPos => _) = Except.map _ (match approxOnCurve points (i + 2 * dev) with
      | .error f => _ | .ok minPos => _)
    cases approxOnCurve points (i + 2 * dev) with
    | error f => rfl
    | ok minPos =>
      dsimp only
      by_cases h : (i : ℝ) - 2 * dev ≤ 0
      · rw [if_pos h, if_pos h]
        rfl
      · rw [if_neg h, if_neg h]
        cases approxOnCurve points (i - 2 * dev) <;> rfl

theorem accept_scale {σ : ℝ} (hσ : 0 < σ) {e : Env} (he : SeesDirections e) (p : Point) (points : List V2) (dev : WithTop ℝ) (i : Nat) (best : Cand)
    (d : ℝ) (q : Option (WithTop ℝ)) :
    accept (scaleEnv σ e) (scalePoint σ p) points dev i (scaleCand σ best) (σ * d) q =
      (accept e p points dev i best d q).map fun r => (r.1, scalePoint σ r.2) := by
  unfold accept
  rw [interval_scale]
  have h : (if (scaleEnv σ e).s.gnIter > 0 then
        (refine (scaleEnv σ e) points i (scaleCand σ best).point (σ * d) (scaleCand σ best).level).map
          fun r => ((scaleEnv σ e).tri ((scaleEnv σ e).cam.unmap r.1), r.2)
      else .ok (σ * d, (((scaleCand σ best).energy : ℝ) : WithTop ℝ))) =
      (if e.s.gnIter > 0 then (refine e points i best.point d best.level).map fun r => (e.tri (e.cam.unmap r.1), r.2)
        else .ok (d, ((best.energy : ℝ) : WithTop ℝ))).map fun r : ℝ × WithTop ℝ => (σ * r.1, r.2) := by
    show (if e.s.gnIter > 0 then _ else _) = _
    by_cases hg : e.s.gnIter > 0
    · rw [if_pos hg, if_pos hg, refine_scale hσ he]
      show _ = Except.map _ (Except.map _ (refine e points i best.point d best.level))
      show Except.map _ (refine e points i best.point d best.level) = _
      cases refine e points i best.point d best.level <;> rfl
    · rw [if_neg hg, if_neg hg]
      rfl
  dsimp only
  rw [h]
  generalize (if e.s.gnIter > 0 then (refine e points i best.point d best.level).map fun r => (e.tri (e.cam.unmap r.1), r.2)
        else .ok (d, ((best.energy : ℝ) : WithTop ℝ))) = r
  cases r with
  | error f => rfl
  | ok r => cases interval e points i dev <;> rfl

theorem judge_scale {σ : ℝ} (hσ : 0 < σ) {e : Env} (he : SeesDirections e) (p : Point) (points : List V2) (dev : WithTop ℝ) (cs : List Cand) :
    judge (scaleEnv σ e) (scalePoint σ p) points dev (cs.map (scaleCand σ)) = (judge e p points dev cs).map fun r => (r.1, scalePoint σ r.2) := by
  unfold judge
  have h := best_scale σ cs 0 none
  rw [Option.map_none] at h
  rw [h]
  cases bestFrom 0 cs none with
  | none => rfl
  | some b =>
    obtain ⟨i, best⟩ := b
    simp only [Option.map_some]
    rw [second_scale, show (scaleEnv σ e).s = e.s from rfl, show (scaleEnv σ e).baseDirections = e.baseDirections from rfl,
      show (scaleCand σ best).level = best.level from rfl, show (scaleCand σ best).point = best.point from rfl,
      show (scaleCand σ best).energy = best.energy from rfl]
    by_cases h1 : best.level = e.s.levelNum - 1
    · rw [if_pos h1, if_pos h1]
      rfl
    · rw [if_neg h1, if_neg h1]
      cases hd : best.depth with
      | top =>
        have e1 : (scaleCand σ best).depth = ⊤ := by simp [scaleCand, hd]
        rw [e1]
        rfl
      | coe d =>
        have e1 : (scaleCand σ best).depth = ((σ * d : ℝ) : WithTop ℝ) := by simp [scaleCand, hd]
        rw [e1]
        cases hsb : secondBest e.s.minSecondBestDistance best.point cs with
        | top => rfl
        | coe second =>
          show (if second ≤ e.s.secondBestEnergyThresFactor * (e.baseDirections.length * e.s.outlierDiff * e.s.outlierDiff) then _ else _) =
            Except.map _ (if second ≤ e.s.secondBestEnergyThresFactor * (e.baseDirections.length * e.s.outlierDiff * e.s.outlierDiff) then _ else _)
          split
          · rfl
          · split
            · rfl
            · split
              · rfl
              · exact accept_scale hσ he p points dev i best d _

theorem sweep_scale (σ : ℝ) (e : Env) (a b : V3) : ∀ (fuel : Nat) (al : ℝ) (n : Nat), sweep (scaleEnv σ e) a b fuel al n = sweep e a b fuel al n
  | 0, _, _ => rfl
  | fuel + 1, al, n => by
    rw [sweep, sweep]
    simp only [sweep_scale σ e a b fuel]
    rfl

theorem sweeps_scale (σ : ℝ) (e : Env) (a b : V3) (fuel : Nat) (al : ℝ) : ∀ (n : Nat) (f : List (V2 × V3)) (o : Option ℝ),
    sweeps (scaleEnv σ e) a b fuel al n f o = sweeps e a b fuel al n f o
  | 0, _, _ => rfl
  | n + 1, f, o => by
    rw [sweeps, sweeps, sweep_scale]
    cases sweep e a b fuel al 0 with
    | none => rfl
    | some r => exact sweeps_scale σ e a b fuel al n _ _

theorem search_scale (σ : ℝ) (e : Env) (a b : V3) : ∀ (fuel : Nat) (al : Option ℝ) (f : List (V2 × V3)),
    searchLoop (scaleEnv σ e) a b fuel al f = searchLoop e a b fuel al f
  | 0, _, _ => rfl
  | fuel + 1, none, _ => rfl
  | fuel + 1, some al, f => by
    rw [searchLoop, searchLoop]
    simp only [sweeps_scale, search_scale σ e a b fuel]
    rfl

/-- **C141.** Tracing a point does not depend on the unit of length: with a longer motion between the frames and a longer interval of depths, the same is
reported, and the point differs only in that its depths are in the other unit. -/
theorem C141_trace {σ : ℝ} (hσ : 0 < σ) {e : Env} (he : SeesDirections e) (fuel : Nat) (p : Point) :
    traceOn (scaleEnv σ e) fuel (scalePoint σ p) = (traceOn e fuel p).map fun r => r.map fun q => (q.1, scalePoint σ q.2) := by
  unfold traceOn
  rw [show (scalePoint σ p).state = p.state from rfl, show (scaleEnv σ e).baseDirections = e.baseDirections from rfl]
  by_cases h0 : p.state = .oob
  · rw [if_pos h0, if_pos h0]
    rfl
  · rw [if_neg h0, if_neg h0]
    cases e.baseDirections with
    | nil => rfl
    | cons b bs =>
      dsimp only
      rw [ends_scale hσ, show (scaleEnv σ e).s = e.s from rfl, show (scaleEnv σ e).cam = e.cam from rfl,
        show (scalePoint σ p).numTraced = p.numTraced from rfl, show (scalePoint σ p).stddev = p.stddev from rfl]
      have e1 : ∀ v, deviation (scaleEnv σ e) v = deviation e v := fun _ => rfl
      rw [e1]
      split
      · rfl
      · have e2 : ∀ a b, pointsToTrace (scaleEnv σ e) fuel a b = pointsToTrace e fuel a b := by
          intro a b
          unfold pointsToTrace
          simp only [search_scale]
          rfl
        rw [e2]
        cases pointsToTrace e fuel (searchEnds e p b).1 (searchEnds e p b).2 with
        | error f => rfl
        | ok r =>
          cases r with
          | none => rfl
          | some found =>
            dsimp only
            split
            · rw [candidates_scale hσ he]
              cases candidatesFrom e p 0 found with
              | error f => rfl
              | ok cs =>
                simp only [Except.map]
                rw [judge_scale hσ he]
                cases judge e p (found.map (·.1)) _ cs <;> rfl
            · rfl

theorem traceAll_scale {σ : ℝ} (hσ : 0 < σ) (fuel : Nat) : ∀ (es : List Env) (_ : ∀ e ∈ es, SeesDirections e) (p : Point),
    traceAll fuel (es.map (scaleEnv σ)) (scalePoint σ p) = (traceAll fuel es p).map fun r => r.map fun q => (q.1, scalePoint σ q.2)
  | [], _, _ => rfl
  | e :: es, h, p => by
    rw [List.map_cons, traceAll, traceAll, C141_trace hσ (h e (List.mem_cons_self ..))]
    cases traceOn e fuel p with
    | error f => rfl
    | ok r =>
      cases r with
      | none => rfl
      | some r =>
        simp only [Except.map, Option.map_some]
        rw [traceAll_scale hσ fuel es (fun e' h' => h e' (List.mem_cons_of_mem _ h')) r.2]
        cases traceAll fuel es r.2 with
        | error f => rfl
        | ok q => cases q <;> rfl

theorem new_scale (σ : ℝ) (b : Bool) : scalePoint σ (Trace.new b) = Trace.new b := by
  simp [scalePoint, Trace.new]

/-- **C141, the whole life of a point.** A new point that is traced on any sequence of frames goes through the same states in every unit of length, and is
ready for activation in one if and only if it is in the other; its depth is the same length. -/
theorem C141_life {σ : ℝ} (hσ : 0 < σ) (fuel : Nat) (es : List Env) (h : ∀ e ∈ es, SeesDirections e) (onImage : Bool) :
    traceAll fuel (es.map (scaleEnv σ)) (Trace.new onImage) =
      (traceAll fuel es (Trace.new onImage)).map fun r => r.map fun q => (q.1, scalePoint σ q.2) := by
  have := traceAll_scale hσ fuel es h (Trace.new onImage)
  rwa [new_scale] at this

theorem C141_ready (σ : ℝ) (s : Trace.Settings) (p : Point) : isReady s (scalePoint σ p) ↔ isReady s p := Iff.rfl

/-- The cameras of the system see directions. -/
theorem C141_camera (c : Cam.Cam) (e : Env) (h : e.cam.map = Cam.map c) : SeesDirections e := by
  intro s v hs
  rw [h]
  exact Cam.C38_direction c v s hs

/-- The camera of the example of `Verif/Lemmas/TraceDemo.lean` sees directions, and a point is traced successfully in both units. -/
example : ∃ q, traceOn (Demo.env ⟨2, 0, 10⟩) 6 (Trace.new true) = .ok (some (.ok, q)) ∧
    traceOn (scaleEnv 3 (Demo.env ⟨2, 0, 10⟩)) 6 (Trace.new true) = .ok (some (.ok, scalePoint 3 q)) := by
  obtain ⟨q, hq, _⟩ := Demo.traced ⟨2, 0, 10⟩ (by norm_num) (by rw [Demo.lvl_zero]; norm_num)
  have he : SeesDirections (Demo.env ⟨2, 0, 10⟩) := by
    intro s v hs
    have h : ∀ a : ℝ, 10 * (s * a) / (s * v.x + s * v.z) = 10 * a / (v.x + v.z) := by
      intro a
      rw [show 10 * (s * a) = s * (10 * a) by ring, ← mul_add, mul_div_mul_left _ _ hs.ne']
    simp only [Demo.env, Demo.camera, V3.smul_x, V3.smul_y, V3.smul_z, h]
  have h := C141_trace (σ := 3) (by norm_num) he 6 (Trace.new true)
  rw [new_scale, hq] at h
  exact ⟨q, hq, h⟩

end Mdso.Sym
