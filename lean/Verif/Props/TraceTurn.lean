import Verif.Lemmas.Turn
import Verif.Lemmas.ImmaturePoint
import Verif.Lemmas.Matrix3
import Verif.Lemmas.TraceDemo

/-!
# Tracing with a camera that is mounted turned about its axis
-/

set_option autoImplicit false

namespace Mdso.Trace

open Mdso.Geom Mdso.Cam Mdso.CamSpec Mdso.TraceSpec Mdso.Turning

/-- A position of the search and its direction, turned. -/
def turnSpot (t : Turn) (c : V2) (f : V2 × V3) : V2 × V3 := (t.pos c f.1, t.ray f.2)

/-- A candidate at its turned position. -/
def turnCand (t : Turn) (c : V2) (a : Cand) : Cand := { a with point := t.pos c a.point }

/-- The state of the refinement at its turned position. -/
def turnGN (t : Turn) (c : V2) (g : GN) : GN := { g with point := t.pos c g.point }

section

variable {t0 t : Turn} {c : V2} {e e' : Env} (h : TurnedBy t0 t c e e')

include h

theorem act_turn (v : V3) : e'.baseToRef.act (t0.ray v) = t.ray (e.baseToRef.act v) := by
  unfold Motion3.act
  rw [h.rotation, h.translation, turn_add]

theorem ends_turn (p : Point) (b : V3) :
    searchEnds e' p (t0.ray b) = (t.ray (searchEnds e p b).1, t.ray (searchEnds e p b).2) := by
  unfold searchEnds
  rw [← ray_smul, act_turn h, ray_normalized]
  cases p.maxDepth with
  | top => exact Prod.ext rfl (h.rotation b)
  | coe d =>
    refine Prod.ext rfl ?_
    show (e'.baseToRef.act (d • t0.ray b)).normalized = t.ray (e.baseToRef.act (d • b)).normalized
    rw [← ray_smul, act_turn h, ray_normalized]

theorem deviation_turn (iso : ∀ d : V2, e.baseGradNorm.foldl (fun acc g => acc + Geom.dot (t0.vec g) (t.vec d)
      * Geom.dot (t0.vec g) (t.vec d)) 0 = e.baseGradNorm.foldl (fun acc g => acc + Geom.dot g d * Geom.dot g d) 0)
    (d : V2) : deviation e' (t.vec d) = deviation e d := by
  unfold deviation
  rw [h.gradients, h.directions, h.settings, List.foldl_map, List.length_map]
  simp only [iso]

theorem onImage_turn (a b : V3) (al : ℝ) : e'.cam.isOnImage (e'.cam.map (dirAt (t.ray a) (t.ray b) al))
    ↔ e.cam.isOnImage (e.cam.map (dirAt a b al)) := by
  rw [turn_dirAt, h.map, h.onImage]

theorem sweep_turn (a b : V3) : ∀ (fuel : Nat) (al : ℝ) (n : Nat), sweep e' (t.ray a) (t.ray b) fuel al n
    = (sweep e a b fuel al n).map fun r => (r.1.map (turnSpot t c), r.2)
  | 0, _, _ => rfl
  | fuel + 1, al, n => by
    rw [sweep, sweep]
    simp only [sweep_turn a b fuel, turn_dirAt, ray_sub, h.jacobian, norm_vec, h.map, h.onImage, h.settings]
    have hm : maxSearchCount e' = maxSearchCount e := by unfold maxSearchCount; rw [h.settings, h.size]
    rw [hm]
    split
    · rfl
    · obtain ⟨a', ha'⟩ : ∃ x : Option ℝ, x = (if norm2 (e.cam.jacobian (dirAt a b al) (a - b)) = 0 then none
        else some (al + 1 / norm2 (e.cam.jacobian (dirAt a b al) (a - b)))) := ⟨_, rfl⟩
      rw [← ha']
      cases a' with
      | none => rfl
      | some x =>
        dsimp only
        by_cases hx : 0 ≤ x ∧ x ≤ 1 ∧ e.cam.isOnImage (e.cam.map (dirAt a b al))
        · rw [if_pos hx, if_pos ⟨hx.1, hx.2.1, (onImage_turn h a b al).2 hx.2.2⟩]
          cases sweep e a b fuel x (n + 1) <;> rfl
        · rw [if_neg hx, if_neg fun hh => hx ⟨hh.1, hh.2.1, (onImage_turn h a b al).1 hh.2.2⟩]
          rfl

theorem sweeps_turn (a b : V3) (fuel : Nat) (al : ℝ) : ∀ (n : Nat) (f : List (V2 × V3)) (o : Option ℝ),
    sweeps e' (t.ray a) (t.ray b) fuel al n (f.map (turnSpot t c)) o
      = (sweeps e a b fuel al n f o).map fun r => (r.1.map (turnSpot t c), r.2)
  | 0, _, _ => rfl
  | n + 1, f, o => by
    rw [sweeps, sweeps, sweep_turn h]
    cases sweep e a b fuel al 0 with
    | none => rfl
    | some r =>
      have ih := sweeps_turn a b fuel al n (f ++ r.1) r.2
      rw [List.map_append] at ih
      exact ih

theorem search_turn (a b : V3) : ∀ (fuel : Nat) (al : Option ℝ) (f : List (V2 × V3)),
    searchLoop e' (t.ray a) (t.ray b) fuel al (f.map (turnSpot t c))
      = (searchLoop e a b fuel al f).map fun r => r.map (turnSpot t c)
  | 0, _, _ => rfl
  | fuel + 1, none, _ => rfl
  | fuel + 1, some al, f => by
    rw [searchLoop, searchLoop]
    simp only [turn_dirAt, h.map, h.onImage, h.settings, sweeps_turn h]
    have hs : ∀ o, stepFrom e' o = stepFrom e o := by intro o; unfold stepFrom; rw [h.settings]
    split
    · by_cases hx : e.cam.isOnImage (e.cam.map (dirAt a b al))
      · rw [if_pos hx, if_pos ((onImage_turn h a b al).2 hx)]
        cases sweeps e a b (fuel + 1) al 2 f none with
        | none => rfl
        | some r =>
          simp only [Option.map_some]
          split
          · rfl
          · rw [hs]; exact search_turn a b fuel _ r.1
      · rw [if_neg hx, if_neg fun hh => hx ((onImage_turn h a b al).1 hh)]
        split
        · rfl
        · rw [hs]; exact search_turn a b fuel _ f
    · rfl

theorem points_turn (fuel : Nat) (a b : V3) : pointsToTrace e' fuel (t.ray a) (t.ray b)
    = (pointsToTrace e fuel a b).map fun o => o.map fun r => r.map (turnSpot t c) := by
  unfold pointsToTrace
  rw [angle_ray, h.settings, h.maxAngle, intersect_ray]
  have hs := fun x y => search_turn h x y fuel (some 0) []
  rw [List.map_nil] at hs
  split
  · rfl
  · split
    · cases intersectOnSphere e.cam.maxAngle a b with
      | error f => rfl
      | ok r =>
        obtain ⟨r1, r2, r3⟩ := r
        simp only [Except.map, hs]
        cases r1 <;> rfl
    · rw [hs]; rfl

theorem reprojections_turn (d : WithTop ℝ) : reprojections e' d = (reprojections e d).map (t.pos c) := by
  unfold reprojections
  rw [h.directions, ← List.map_tail]
  cases d with
  | top =>
    show (e.baseDirections.tail.map t0.ray).map (fun b => e'.cam.map (e'.baseToRef.rot.mulVec b)) =
      (e.baseDirections.tail.map fun b => e.cam.map (e.baseToRef.rot.mulVec b)).map (t.pos c)
    rw [List.map_map, List.map_map]
    refine List.map_congr_left fun b _ => ?_
    simp only [Function.comp, h.rotation, h.map]
  | coe d =>
    show (e.baseDirections.tail.map t0.ray).map (fun b => e'.cam.map (e'.baseToRef.act (d • b))) =
      (e.baseDirections.tail.map fun b => e.cam.map (e.baseToRef.act (d • b))).map (t.pos c)
    rw [List.map_map, List.map_map]
    refine List.map_congr_left fun b _ => ?_
    simp only [Function.comp, ← ray_smul, act_turn h, h.map]

omit h in
theorem dist_turn (x : V2) (l : List V2) : maxReprojDist (t.pos c x) (l.map (t.pos c)) = maxReprojDist x l := by
  unfold maxReprojDist
  rw [List.foldl_map]
  simp only [pos_sub, norm_vec]

theorem energy_turn (l : Int) (r : List V2) : energyOf e' l (r.map (t.pos c)) = energyOf e l r := by
  unfold energyOf
  rw [h.intencities, h.light, h.settings, List.zip_map_right, List.foldl_map]
  simp only [Prod.map, id, pos_smul, h.picture]

theorem candidate_turn (p : Point) (i : Nat) (f : V2 × V3) :
    candidate e' p i (turnSpot t c f) = (candidate e p i f).map (turnCand t c) := by
  unfold candidate
  have ht : e'.tri (turnSpot t c f).2.normalized = e.tri f.2.normalized := by
    show e'.tri (t.ray f.2).normalized = _
    rw [ray_normalized, h.tri]
  dsimp only
  rw [ht, reprojections_turn h]
  generalize (if p.maxDepth = ⊤ ∧ i = 0 then (⊤ : WithTop ℝ) else ((e.tri f.2.normalized : ℝ) : WithTop ℝ)) = d
  have h1 : (turnSpot t c f).1 = t.pos c f.1 := rfl
  have hl : ∀ x, pyrLevelOf e' x = pyrLevelOf e x := by intro x; unfold pyrLevelOf; rw [h.settings]
  rw [h1, dist_turn, hl]
  cases pyrLevelOf e (maxReprojDist f.1 (reprojections e d)) with
  | error f => rfl
  | ok l =>
    dsimp only
    have he := energy_turn h l (f.1 :: reprojections e d)
    rw [List.map_cons] at he
    rw [he]
    split <;> rfl

theorem candidates_turn (p : Point) : ∀ (cs : List (V2 × V3)) (i : Nat),
    candidatesFrom e' p i (cs.map (turnSpot t c)) = (candidatesFrom e p i cs).map fun l => l.map (turnCand t c)
  | [], _ => rfl
  | f :: cs, i => by
    rw [List.map_cons, candidatesFrom, candidatesFrom, candidate_turn h, candidates_turn p cs (i + 1)]
    cases candidate e p i f with
    | error f => rfl
    | ok a => cases candidatesFrom e p (i + 1) cs <;> rfl

omit h in
theorem best_turn (t : Turn) (c : V2) : ∀ (cs : List Cand) (i : Nat) (b : Option (Nat × Cand)),
    bestFrom i (cs.map (turnCand t c)) (b.map fun q => (q.1, turnCand t c q.2))
      = (bestFrom i cs b).map fun q => (q.1, turnCand t c q.2)
  | [], _, _ => by simp [bestFrom]
  | a :: cs, i, none => by
    rw [List.map_cons, Option.map_none, bestFrom, bestFrom]
    exact best_turn t c cs (i + 1) (some (i, a))
  | a :: cs, i, some b => by
    rw [List.map_cons, Option.map_some, bestFrom, bestFrom, ← best_turn t c cs (i + 1)]
    congr 1
    show (if a.energy < b.2.energy then _ else _) = _
    split <;> rfl

omit h in
theorem second_turn (t : Turn) (c : V2) (δ : ℝ) (best : V2) (cs : List Cand) :
    secondBest δ (t.pos c best) (cs.map (turnCand t c)) = secondBest δ best cs := by
  unfold secondBest
  rw [List.foldl_map]
  congr 1
  funext acc a
  have hh : norm2 ((turnCand t c a).point - t.pos c best) = norm2 (a.point - best) := by
    show norm2 (t.pos c a.point - t.pos c best) = _
    rw [pos_sub, norm_vec]
  rw [hh]
  rfl

omit h in
theorem gnSums_turn (s : Settings) {img img' : V2 → ℝ × V2}
    (hi : ∀ p, img' (t.pos c p) = ((img p).1, t.vec (img p).2)) (dir cur : V2) (patch : List (ℝ × V2)) :
    gnSums s img' (t.vec dir) (t.pos c cur) (patch.map fun i => (i.1, t.vec i.2)) = gnSums s img dir cur patch := by
  unfold gnSums
  rw [List.foldl_map]
  simp only [gnTerm, pos_add, hi, dot_vec]

omit h in
theorem gnLoop_turn (s : Settings) {img img' : V2 → ℝ × V2}
    (hi : ∀ p, img' (t.pos c p) = ((img p).1, t.vec (img p).2)) (dir : V2) (patch : List (ℝ × V2)) :
    ∀ (n : Nat) (g : GN), gnLoop s img' (t.vec dir) (patch.map fun i => (i.1, t.vec i.2)) n (turnGN t c g)
      = (gnLoop s img dir patch n g).map (turnGN t c)
  | 0, _ => rfl
  | n + 1, g => by
    have hr : gnRound s img' (t.vec dir) (patch.map fun i => (i.1, t.vec i.2)) (turnGN t c g)
        = (gnRound s img dir patch g).map (turnGN t c) := by
      unfold gnRound
      have hs : (turnGN t c g).step = g.step := rfl
      rw [hs]
      cases g.step with
      | none => rfl
      | some st =>
        have hp : (turnGN t c g).point + st • t.vec dir = t.pos c (g.point + st • dir) := by
          show t.pos c g.point + st • t.vec dir = _
          rw [← turn_smul, pos_add]
        dsimp only
        rw [hp, gnSums_turn s hi]
        have he : (turnGN t c g).energy = g.energy := rfl
        rw [he]
        split <;> rfl
    rw [gnLoop, gnLoop, hr]
    cases gnRound s img dir patch g with
    | error f => rfl
    | ok g' => exact gnLoop_turn s hi dir patch n g'

theorem refine_turn (points : List V2) (i : Nat) (best : V2) (d : ℝ) :
    refine e' (points.map (t.pos c)) i (t.pos c best) d 0
      = (refine e points i best d 0).map fun r => (t.pos c r.1, r.2) := by
  have hi : ∀ p, e'.interp 0 (t.pos c p) = ((e.interp 0 p).1, t.vec (e.interp 0 p).2) := by
    intro p
    have := h.picture 0 p
    have hc : (1 / (2 : ℝ) ^ (0 : Int)) • c = c := by ext <;> simp
    rwa [hc] at this
  have hp : refinePatch e' (t.pos c best) d 0 = (refinePatch e best d 0).map fun i => (i.1, t.vec i.2) := by
    unfold refinePatch
    have hz : (⟨0, 0⟩ : V2) = t.vec ⟨0, 0⟩ := by ext <;> simp [Turn.vec]
    rw [h.intencities, h.light, h.directions, ← List.map_tail, List.map_map]
    have hl : (⟨0, 0⟩ : V2) :: e.baseDirections.tail.map ((fun b => (1 / (2 : ℝ) ^ (0 : Int)) •
          (e'.cam.map (e'.baseToRef.act (d • b)) - t.pos c best)) ∘ t0.ray)
        = ((⟨0, 0⟩ : V2) :: e.baseDirections.tail.map fun b => (1 / (2 : ℝ) ^ (0 : Int)) •
          (e.cam.map (e.baseToRef.act (d • b)) - best)).map t.vec := by
      rw [List.map_cons, ← hz, List.map_map]
      congr 1
      refine List.map_congr_left fun b _ => ?_
      simp only [Function.comp, ← ray_smul, act_turn h, h.map, pos_sub, turn_smul]
    rw [hl, List.zip_map_right]
    rfl
  unfold refine
  rw [at_map, at_map, List.length_map, hp, h.settings]
  cases at' points (i - 1) with
  | error f => rfl
  | ok frm =>
    cases at' points (min (points.length - 1) (i + 1)) with
    | error f => rfl
    | ok dst =>
      have hg : tracePrecise e.s (e'.interp 0) (t.pos c frm) (t.pos c dst)
          ((refinePatch e best d 0).map fun i => (i.1, t.vec i.2))
          = (tracePrecise e.s (e.interp 0) frm dst (refinePatch e best d 0)).map (turnGN t c) := by
        unfold tracePrecise
        rw [pos_sub, turn_normalized, pos_middle]
        exact gnLoop_turn e.s hi _ _ _ ⟨(1 / 2 : ℝ) • (frm + dst), ⊤, 0, some 0⟩
      simp only [Except.map] at hg ⊢
      rw [hg]
      cases tracePrecise e.s (e.interp 0) frm dst (refinePatch e best d 0) with
      | error f => rfl
      | ok g =>
        have h1 : ∀ q : V2, (2 : ℝ) ^ (0 : Int) • q = q := by intro q; ext <;> simp
        simp only [h1]
        rfl

theorem interval_turn (points : List V2) (i : Nat) (dev : WithTop ℝ) :
    interval e' (points.map (t.pos c)) i dev = interval e points i dev := by
  unfold interval
  rw [h.infiniteDepth]
  cases dev with
  | top => rfl
  | coe dev =>
    show (match approxOnCurve (points.map (t.pos c)) (i + 2 * dev) with
      | .error f => _ | .ok minPos => _) = (match approxOnCurve points (i + 2 * dev) with
      | .error f => _ | .ok minPos => _)
    rw [curve_pos]
    cases approxOnCurve points (i + 2 * dev) with
    | error f => rfl
    | ok minPos =>
      simp only [Except.map, h.unmap, h.tri]
      by_cases hd : (i : ℝ) - 2 * dev ≤ 0
      · rw [if_pos hd, if_pos hd]
      · rw [if_neg hd, if_neg hd, curve_pos]
        cases approxOnCurve points (i - 2 * dev) with
        | error f => rfl
        | ok maxPos => simp only [Except.map, h.unmap, h.tri]

theorem accept_turn (p : Point) (points : List V2) (dev : WithTop ℝ) (i : Nat) (best : Cand) (d : ℝ)
    (q : Option (WithTop ℝ)) (hl : e.s.gnIter = 0 ∨ best.level = 0) :
    accept e' p (points.map (t.pos c)) dev i (turnCand t c best) d q = accept e p points dev i best d q := by
  unfold accept
  rw [interval_turn h, h.settings]
  have hr : (if e.s.gnIter > 0 then
        (refine e' (points.map (t.pos c)) i (turnCand t c best).point d (turnCand t c best).level).map
          fun r => (e'.tri (e'.cam.unmap r.1), r.2)
      else .ok (d, (((turnCand t c best).energy : ℝ) : WithTop ℝ))) =
      (if e.s.gnIter > 0 then (refine e points i best.point d best.level).map fun r => (e.tri (e.cam.unmap r.1), r.2)
        else .ok (d, ((best.energy : ℝ) : WithTop ℝ))) := by
    by_cases hg : e.s.gnIter > 0
    · have h0 : best.level = 0 := hl.resolve_left (by omega)
      rw [if_pos hg, if_pos hg, show (turnCand t c best).level = best.level from rfl, h0,
        show (turnCand t c best).point = t.pos c best.point from rfl, refine_turn h]
      cases refine e points i best.point d 0 with
      | error f => rfl
      | ok r => simp only [Except.map, h.unmap, h.tri]
    · rw [if_neg hg, if_neg hg]
      rfl
  have hu : e'.tri (e'.cam.unmap (turnCand t c best).point) = e.tri (e.cam.unmap best.point) := by
    show e'.tri (e'.cam.unmap (t.pos c best.point)) = _
    rw [h.unmap, h.tri]
  dsimp only
  rw [hr, hu]
  rfl

omit h in
theorem accept_level {p : Point} {points : List V2} {dev : WithTop ℝ} {i : Nat} {best : Cand} {d : ℝ}
    {q : Option (WithTop ℝ)} {st : Status} {r : Point} (ha : accept e p points dev i best d q = .ok (st, r)) :
    st = .ok ∧ r.tracedPyrLevel = best.level := by
  unfold accept at ha
  dsimp only at ha
  split at ha
  · cases ha
  · cases ha
  · cases ha
    exact ⟨rfl, rfl⟩

theorem judge_turn (p : Point) (points : List V2) (dev : WithTop ℝ) (cs : List Cand)
    (hl : ∀ (i : Nat) (best : Cand) (d : ℝ) (q : Option (WithTop ℝ)), best ∈ cs → best.level ≠ e.s.levelNum - 1 →
      judge e p points dev cs = accept e p points dev i best d q → e.s.gnIter = 0 ∨ best.level = 0) :
    judge e' p (points.map (t.pos c)) dev (cs.map (turnCand t c)) = judge e p points dev cs := by
  have hj : ∀ (i : Nat) (best : Cand) (d second : ℝ), bestFrom 0 cs none = some (i, best) →
      best.level ≠ e.s.levelNum - 1 → best.depth = ((d : ℝ) : WithTop ℝ) →
      secondBest e.s.minSecondBestDistance best.point cs = ((second : ℝ) : WithTop ℝ) →
      ¬ second ≤ e.s.secondBestEnergyThresFactor * (e.baseDirections.length * e.s.outlierDiff * e.s.outlierDiff) →
      ¬ best.energy > e.s.outlierEnergyFactor * (e.baseDirections.length * e.s.outlierDiff * e.s.outlierDiff) →
      ¬ (∃ r, quality second best.energy = some r ∧ r < ((e.s.outlierQuality : ℝ) : WithTop ℝ)) →
      judge e p points dev cs = accept e p points dev i best d (quality second best.energy) := by
    intro i best d second h1 h2 h3 h4 h5 h6 h7
    unfold judge
    rw [h1]
    dsimp only
    rw [if_neg h2, h3, h4]
    show (if second ≤ e.s.secondBestEnergyThresFactor * (e.baseDirections.length * e.s.outlierDiff * e.s.outlierDiff) then _ else _) = _
    rw [if_neg h5, if_neg h6, if_neg h7]
  have hb := best_turn t c cs 0 none
  rw [Option.map_none] at hb
  cases hbest : bestFrom 0 cs none with
  | none =>
    unfold judge
    rw [hb, hbest]
    rfl
  | some b =>
    obtain ⟨i, best⟩ := b
    have hmem : best ∈ cs := List.mem_of_getElem? (bestFrom_spec hbest).1
    by_cases h1 : best.level = e.s.levelNum - 1
    · unfold judge
      rw [hb, hbest]
      simp only [Option.map_some]
      rw [h.settings, show (turnCand t c best).level = best.level from rfl, if_pos h1, if_pos h1]
      rfl
    have hj := fun d second => hj i best d second hbest h1
    have hl := fun d q => hl i best d q hmem h1
    generalize hJ : judge e p points dev cs = J at hj hl
    rw [← hJ]
    unfold judge
    rw [hb, hbest]
    simp only [Option.map_some]
    rw [show (turnCand t c best).point = t.pos c best.point from rfl, second_turn, h.settings,
      show (turnCand t c best).level = best.level from rfl, show (turnCand t c best).depth = best.depth from rfl,
      show (turnCand t c best).energy = best.energy from rfl, h.directions, List.length_map]
    rw [if_neg h1, if_neg h1]
    cases hd : best.depth with
    | top => rfl
    | coe d =>
      cases hs : secondBest e.s.minSecondBestDistance best.point cs with
      | top => rfl
      | coe second =>
        show (if second ≤ e.s.secondBestEnergyThresFactor * (e.baseDirections.length * e.s.outlierDiff * e.s.outlierDiff) then _ else _) =
          (if second ≤ e.s.secondBestEnergyThresFactor * (e.baseDirections.length * e.s.outlierDiff * e.s.outlierDiff) then _ else _)
        split
        · rfl
        · rename_i h5
          split
          · rfl
          · rename_i h6
            split
            · rfl
            · rename_i h7
              exact accept_turn h p points dev i best d _ (hl d _ (hj d second hd hs h5 h6 h7))

/-- Tracing in the turned situation, up to what is done with the candidates. -/
theorem trace_turn (hdev : ∀ d, deviation e' (t.vec d) = deviation e d) (fuel : Nat) (p : Point)
    (hl : ∀ (found : List (V2 × V3)) (cs : List Cand) (dev : WithTop ℝ), candidatesFrom e p 0 found = .ok cs →
      traceOn e fuel p = (judge e p (found.map (·.1)) dev cs).map some →
      ∀ (i : Nat) (best : Cand) (d : ℝ) (q : Option (WithTop ℝ)), best ∈ cs → best.level ≠ e.s.levelNum - 1 →
      judge e p (found.map (·.1)) dev cs = accept e p (found.map (·.1)) dev i best d q →
      e.s.gnIter = 0 ∨ best.level = 0) :
    traceOn e' fuel p = traceOn e fuel p := by
  generalize hT : traceOn e fuel p = T at hl
  rw [← hT]
  unfold traceOn
  unfold traceOn at hT
  by_cases h0 : p.state = .oob
  · rw [if_pos h0, if_pos h0]
  · rw [if_neg h0] at hT
    rw [if_neg h0, if_neg h0, h.directions]
    cases hb : e.baseDirections with
    | nil => rfl
    | cons b bs =>
      rw [hb] at hT
      rw [List.map_cons]
      dsimp only at hT ⊢
      rw [ends_turn h, h.settings]
      dsimp only
      rw [ray_sub, h.jacobian, turn_normalized, hdev, points_turn h]
      split
      · rfl
      · rename_i hn
        rw [if_neg hn] at hT
        cases hp : pointsToTrace e fuel (searchEnds e p b).1 (searchEnds e p b).2 with
        | error f => rfl
        | ok r =>
          rw [hp] at hT
          cases r with
          | none => rfl
          | some found =>
            simp only [Except.map, Option.map_some, List.length_map]
            dsimp only at hT
            split
            · rename_i hlen
              rw [if_pos hlen] at hT
              rw [candidates_turn h]
              cases hc : candidatesFrom e p 0 found with
              | error f => rfl
              | ok cs =>
                rw [hc] at hT
                dsimp only at hT
                simp only [Except.map]
                have hm : (found.map (turnSpot t c)).map (·.1) = (found.map (·.1)).map (t.pos c) := by
                  rw [List.map_map, List.map_map]; rfl
                rw [hm, judge_turn h _ _ _ _ (hl found cs _ hc hT.symm)]
            · rfl

theorem finest_turn (hdev : ∀ d, deviation e' (t.vec d) = deviation e d) (fuel : Nat) (p q : Point) (st : Status)
    (ht : traceOn e fuel p = .ok (some (st, q))) (fine : st = .ok → q.tracedPyrLevel = 0) :
    traceOn e' fuel p = .ok (some (st, q)) := by
  rw [← ht]
  refine trace_turn h hdev fuel p ?_
  intro found cs dev hc hT i best d qq _ _ hj
  right
  rw [hj, ht] at hT
  cases ha : accept e p (found.map (·.1)) dev i best d qq with
  | error f => rw [ha] at hT; cases hT
  | ok r =>
    obtain ⟨st', q'⟩ := r
    rw [ha] at hT
    cases hT
    obtain ⟨h1, h2⟩ := accept_level ha
    rw [← h2]
    exact fine h1

theorem all_turn (hdev : ∀ d, deviation e' (t.vec d) = deviation e d) (one : e.s.gnIter = 0 ∨ e.s.levelNum ≤ 2) (fuel : Nat) (p : Point) :
    traceOn e' fuel p = traceOn e fuel p := by
  refine trace_turn h hdev fuel p ?_
  intro found cs dev hc _ i best d qq ha hne _
  refine one.imp_right fun h2 => ?_
  obtain ⟨hlen, hall⟩ := candidatesFrom_ok hc
  obtain ⟨k, hk⟩ := List.getElem?_of_mem ha
  have hk' : k < found.length := by
    have := (List.getElem?_eq_some_iff.1 hk).1
    omega
  have := candidate_ok (hall k found[k] best (List.getElem?_eq_getElem hk') hk)
  obtain ⟨-, l0, l1, -⟩ := this
  omega

end

theorem same_deviation {t : Turn} {c : V2} {e e' : Env} (h : Turned t c e e') (d : V2) :
    deviation e' (t.vec d) = deviation e d := by
  refine deviation_turn h (fun d => ?_) d
  simp only [dot_vec]

/-- **C192.** A point that is traced by a camera mounted turned about its axis, or looking into a mirror, ends exactly
as with the camera in its usual position: with the same status, depth, interval of depths and deviation. Assumed is
that if it is accepted, then on the finest level of the pyramid: on the others the code refines from positions of the
full resolution (C30). -/
theorem C192_finest_partial {t : Turn} {c : V2} {e e' : Env} (h : Turned t c e e') (fuel : Nat) (p q : Point)
    (st : Status) (ht : traceOn e fuel p = .ok (some (st, q))) (fine : st = .ok → q.tracedPyrLevel = 0) :
    traceOn e' fuel p = .ok (some (st, q)) :=
  finest_turn h (same_deviation h) fuel p q st ht fine

/-- **C192.** If positions are not refined, or the pyramid has no more than two levels, of which the coarser one is
never accepted, then all executions end in the same way with the turned camera, also those that fail. -/
theorem C192_trace_partial {t : Turn} {c : V2} {e e' : Env} (h : Turned t c e e')
    (one : e.s.gnIter = 0 ∨ e.s.levelNum ≤ 2) (fuel : Nat) (p : Point) : traceOn e' fuel p = traceOn e fuel p :=
  all_turn h (same_deviation h) one fuel p

/-! ## Turned situations -/

theorem back_vec (t : Turn) (p : V2) : t.back.vec (t.vec p) = p := by
  have h1 := t.unit
  have h2 := t.sided
  ext
  · simp only [Turn.back, Turn.vec]
    linear_combination p.x * h1 + (t.sin ^ 2 * p.x + t.side * t.sin * t.cos * p.y) * h2
  · simp only [Turn.back, Turn.vec]
    linear_combination (t.side ^ 2 * p.y) * h1 + p.y * h2

theorem back_ray (t : Turn) (v : V3) : t.back.ray (t.ray v) = v := by
  have h := back_vec t ⟨v.x, v.y⟩
  ext
  · exact congrArg V2.x h
  · exact congrArg V2.y h
  · rfl

theorem back_pos (t : Turn) (c p : V2) : t.back.pos c (t.pos c p) = p := by
  have h : t.pos c p - c = t.vec (p - c) := by
    ext <;> simp [Turn.pos]
  unfold Turn.pos at h ⊢
  rw [h, back_vec]
  ext <;> simp

theorem turnMatrix_ray (t : Turn) (v : V3) : (turnMatrix t).mulVec v = t.ray v := by
  ext <;> simp [turnMatrix, M3.mulVec, V3.dot, Turn.ray] <;> ring

/-- Every situation can be turned. -/
theorem turned_env (t0 t : Turn) (c : V2) (e : Env) : TurnedBy t0 t c e (turnedEnv t0 t c e) where
  settings := rfl
  map v := by simp only [turnedEnv, back_ray]
  unmap p := by simp only [turnedEnv, back_pos]
  jacobian r v := by simp only [turnedEnv, back_ray]
  onImage p := by simp only [turnedEnv, back_pos]
  maxAngle := rfl
  size := rfl
  directions := rfl
  intencities := rfl
  gradients := rfl
  rotation v := by
    simp only [turnedEnv]
    rw [M3.mulVec_mul, M3.mulVec_mul, turnMatrix_ray, turnMatrix_ray, back_ray]
  translation := rfl
  light := rfl
  picture l p := by simp only [turnedEnv, back_pos]
  tri v := by simp only [turnedEnv, back_ray]
  infiniteDepth := rfl

/-- **C192, the camera of the system.** Turning the situation does not change the camera: a camera of the system that is
turned about its axis projects like before. -/
theorem C192_camera (k : Cam.Cam) (hs : k.scale ≠ 0) (PH : Int) (t0 t : Turn) (e : Env) (he : e.cam = asTraced k PH) :
    (turnedEnv t0 t (getImgCenter k) e).cam.map = map k ∧ (turnedEnv t0 t (getImgCenter k) e).cam.unmap = unmap k ∧
      (turnedEnv t0 t (getImgCenter k) e).cam.jacobian = jacobianTimes k := by
  have fr : ∀ v, t.ray (t.back.ray v) = v := by
    intro v
    have h1 := t.unit
    have h2 := t.sided
    ext
    · simp only [Turn.back, Turn.ray]
      linear_combination (v.x * 1) * h1 + t.sin ^ 2 * v.x * h2
    · simp only [Turn.back, Turn.ray]
      linear_combination v.y * h1 + (t.cos ^ 2 * v.y + t.sin ^ 2 * v.y - t.sin * t.cos * v.x) * h2
    · rfl
  have fv : ∀ v, t.vec (t.back.vec v) = v := by
    intro v
    have h := fr ⟨v.x, v.y, 0⟩
    ext
    · exact congrArg V3.x h
    · exact congrArg V3.y h
  have fp : ∀ c p, t.pos c (t.back.pos c p) = p := by
    intro c p
    have h : t.back.pos c p - c = t.back.vec (p - c) := by
      ext <;> simp [Turn.pos]
    unfold Turn.pos at h ⊢
    rw [h, fv]
    ext <;> simp
  refine ⟨?_, ?_, ?_⟩
  · funext v
    simp only [turnedEnv, he, asTraced]
    rw [← C191_map, fr]
  · funext p
    simp only [turnedEnv, he, asTraced]
    rw [← C191_unmap k hs, fp]
  · funext r v
    simp only [turnedEnv, he, asTraced]
    rw [← C191_jacobian, fr, fr]

/-- **C192, triangulation.** With turned rays and a turned motion, the same distances are triangulated. -/
theorem C192_triangulate (t0 t : Turn) (m m' : Motion3)
    (hr : ∀ v, m'.rot.mulVec (t0.ray v) = t.ray (m.rot.mulVec v)) (ht : m'.t = t.ray m.t) (r1 r2 : V3) :
    triangulate m' (t0.ray r1) (t.ray r2) = triangulate m r1 r2 := by
  have hn : ∀ v : V3, -t.ray v = t.ray (-v) := by
    intro v
    ext
    · simp only [Turn.ray, V3.neg_x, V3.neg_y]; ring
    · simp only [Turn.ray, V3.neg_x, V3.neg_y]; ring
    · simp only [Turn.ray, V3.neg_z]
  unfold triangulate
  rw [hr, ht, hn, hn, lsq2_ray]

/-- A quarter turn. -/
def quarter : Turn := ⟨0, 1, 1, by norm_num, by norm_num⟩

/-- A point is traced on the finest level with the camera of `Verif/Lemmas/TraceDemo.lean`, with two steps of
refinement; with the camera turned by 90 degrees about `(3, 4)` it ends in the same way. -/
example : ∃ q, traceOn (Demo.env ⟨2, 0, 10⟩) 6 (Trace.new true) = .ok (some (.ok, q)) ∧
    traceOn (turnedEnv quarter quarter ⟨3, 4⟩ (Demo.env ⟨2, 0, 10⟩)) 6 (Trace.new true) = .ok (some (.ok, q)) := by
  obtain ⟨q, hq, -, -, hl, -⟩ := Demo.traced ⟨2, 0, 10⟩ (by norm_num) (by rw [Demo.lvl_zero]; norm_num)
  rw [Demo.lvl_zero] at hl
  exact ⟨q, hq, C192_finest_partial (turned_env _ _ _ _) _ _ _ _ hq fun _ => hl⟩

/-- Half a turn. -/
def half : Turn := ⟨-1, 0, 1, by norm_num, by norm_num⟩

/-- **C192 is violated on coarser levels.** A point is traced on level 1 with refinement. If the camera is mounted turned
by 180 degrees about the center `(1000, 0)` of the picture, it does not end in the same way. -/
theorem C192_level_violated (n : Nat) (hn : 0 < n) :
    ∃ (e e' : Env) (q : Point), Turned half ⟨1000, 0⟩ e e' ∧ e.s.gnIter = n ∧
      traceOn e 6 (Trace.new true) = .ok (some (.ok, q)) ∧ traceOn e' 6 (Trace.new true) ≠ .ok (some (.ok, q)) := by
  have hl := Demo.lvl_one n 100
  obtain ⟨q, hq, -, -, hlev, -, -, -, h3⟩ := Demo.traced ⟨n, 100, 4⟩ (by norm_num) (by rw [hl]; norm_num)
  obtain ⟨pos, x, hd, hx1, hx2, hpos⟩ := h3 hn
  rw [hl] at hlev hpos
  simp only [zpow_one] at hpos
  simp only at hx1 hx2
  obtain ⟨e, he⟩ : ∃ e, e = Demo.env ⟨n, 100, 4⟩ := ⟨_, rfl⟩
  have ht := turned_env half half ⟨1000, 0⟩ e
  have htri : ∀ y : V2, (y.x - 100) / 10 ≠ 0 → e.tri (e.cam.unmap y) = 10 / ((y.x - 100) / 10) - 10 := by
    intro y hy
    have : e.tri (e.cam.unmap y) = if (y.x - 100) / 10 = 0 then 20 else 10 * (1 - (y.x - 100) / 10) / ((y.x - 100) / 10) := by
      rw [he]; rfl
    have hu : ∀ u : ℝ, u ≠ 0 → 10 * (1 - u) / u = 10 / u - 10 := by
      intro u hu
      field_simp
    rw [this, if_neg hy, hu _ hy]
  have hs : e.s.outlierDiff = 12 := by rw [he]; rfl
  have hg : e.s.gnIter = n := by rw [he]; rfl
  rw [← he] at hq hd
  refine ⟨e, turnedEnv half half ⟨1000, 0⟩ e, q, ht, hg, hq, fun hq' => ?_⟩
  rcases traceOn_ok hq' with h | h | h | ⟨-, base', rest', found', cs, hb, hp, -, -, hj⟩
  · exact absurd h.1 (by decide)
  · exact absurd h.1 (by decide)
  · exact absurd h.1 (by decide)
  have hbase : base' = half.ray ⟨0, 0, 1⟩ := by
    have : (turnedEnv half half ⟨1000, 0⟩ e).baseDirections = half.ray ⟨0, 0, 1⟩ :: [half.ray ⟨0, 1, 1⟩] := by rw [he]; rfl
    rw [this] at hb
    exact (List.cons.inj hb).1.symm
  have hfound : found' = (Demo.found ⟨n, 100, 4⟩).map (turnSpot half ⟨1000, 0⟩) := by
    rw [hbase, ends_turn ht] at hp
    have hends : searchEnds e (Trace.new true) ⟨0, 0, 1⟩ = (⟨1, 0, 0⟩, ⟨0, 0, 1⟩) := by rw [he]; exact Demo.ends _
    rw [hends] at hp
    have hse : pointsToTrace e 6 ⟨1, 0, 0⟩ ⟨0, 0, 1⟩ = .ok (some (Demo.found ⟨n, 100, 4⟩)) := by
      rw [he]; exact Demo.search _
    rw [points_turn ht, hse] at hp
    simp only [Except.map, Option.map_some, Except.ok.injEq, Option.some.injEq] at hp
    exact hp.symm
  obtain ⟨i, best, -, hcase⟩ := judge_ok hj
  rcases hcase with ⟨h, -⟩ | ⟨bd, second, -, -, -, -, -, -, hacc⟩
  · exact h rfl
  obtain ⟨-, -, -, -, -, hlev', -, -, -, -, -, href, -⟩ := accept_ok hacc
  obtain ⟨r, hr, hdep, -⟩ := href (by rw [show (turnedEnv half half ⟨1000, 0⟩ e).s = e.s from rfl, hg]; exact hn)
  obtain ⟨frm, dst, y, hf, hds, hy, hry, -⟩ := refine_ok
    (by rw [show (turnedEnv half half ⟨1000, 0⟩ e).s = e.s from rfl, hs]; norm_num) hr
  have range : ∀ z : V2, z ∈ found'.map (·.1) → 1895 ≤ z.x := by
    intro z hz
    rw [hfound] at hz
    simp only [Demo.found, Demo.spot, List.map_cons, List.map_nil, turnSpot, List.mem_cons, List.not_mem_nil,
      or_false] at hz
    rcases hz with h | h | h | h | h | h | h | h | h | h | h | h <;>
      (rw [h]; norm_num [Turn.pos, Turn.vec, half])
  have f1 := range frm (List.mem_of_getElem? hf)
  have f2 := range dst (List.mem_of_getElem? hds)
  have hyx : 1894 ≤ y.x := by
    unfold TraceSpec.distance at hy
    have h1 := (Real.sqrt_le_iff.1 hy).2
    simp only [smul_x, smul_y, add_x, add_y] at h1
    have h2 : (y.x - 1 / 2 * (frm.x + dst.x)) ^ 2 ≤ 1 := by nlinarith [sq_nonneg (y.y - 1 / 2 * (frm.y + dst.y))]
    have h3 := (abs_le.1 ((sq_le_one_iff_abs_le_one _).1 h2)).1
    linarith
  rw [← hlev', hlev] at hry
  have hrx : 3788 ≤ r.1.x := by
    rw [hry]
    simp only [zpow_one, smul_x]
    linarith
  obtain ⟨w, hw⟩ : ∃ w, w = half.back.pos ⟨1000, 0⟩ r.1 := ⟨_, rfl⟩
  have hwx : w.x = 2000 - r.1.x := by
    rw [hw]; simp [Turn.pos, Turn.vec, Turn.back, half]; ring
  have hdep' : (turnedEnv half half ⟨1000, 0⟩ e).tri ((turnedEnv half half ⟨1000, 0⟩ e).cam.unmap r.1)
      = e.tri (e.cam.unmap w) := by
    simp only [turnedEnv, back_ray, hw]
  rw [hdep', htri w (by rw [hwx]; intro h; linarith)] at hdep
  rw [hd, htri pos (by rw [hpos]; intro h; linarith)] at hdep
  have hfin := Option.some.inj hdep
  have p1 : 0 < 10 / ((pos.x - 100) / 10) := by
    apply div_pos (by norm_num); rw [hpos]; linarith
  have p2 : 10 / ((w.x - 100) / 10) < 0 := by
    apply div_neg_of_pos_of_neg (by norm_num); rw [hwx]; linarith
  linarith

/-! ## C193: the camera turns between the pictures -/

theorem even_deviation {t0 t : Turn} {c : V2} {e e' : Env} (h : TurnedBy t0 t c e e') (even : EvenGradients e.baseGradNorm)
    (d : V2) : deviation e' (t.vec d) = deviation e d := by
  obtain ⟨s, hs⟩ := even
  have key : ∀ w : V2, e.baseGradNorm.foldl (fun acc g => acc + Geom.dot g w * Geom.dot g w) 0
      = s * (w.x ^ 2 + w.y ^ 2) := by
    intro w
    rw [foldl_add (fun g => Geom.dot g w * Geom.dot g w), zero_add, ← hs w]
    congr 1
    refine List.map_congr_left fun g _ => ?_
    unfold Geom.dot
    ring
  refine deviation_turn h (fun d => ?_) d
  have hd : ∀ g, Geom.dot (t0.vec g) (t.vec d) = Geom.dot g (t0.back.vec (t.vec d)) := by
    intro g
    have := dot_vec t0.back (t0.vec g) (t.vec d)
    rw [back_vec] at this
    exact this.symm
  simp only [hd]
  rw [key, key]
  have hl : ∀ (u : Turn) (w : V2), (u.vec w).x ^ 2 + (u.vec w).y ^ 2 = w.x ^ 2 + w.y ^ 2 := by
    intro u w
    have := dot_vec u w w
    unfold Geom.dot at this
    linarith
  rw [hl, hl]

/-- **C193.** If the camera is turned about its axis between the two pictures, tracing a point whose patch has equally
strong gradients in all directions ends exactly as without that turn, unless it is accepted on a coarser level of the
pyramid (C192). -/
theorem C193_even_partial {t0 t : Turn} {c : V2} {e e' : Env} (h : TurnedBy t0 t c e e') (even : EvenGradients e.baseGradNorm)
    (fuel : Nat) (p q : Point) (st : Status) (ht : traceOn e fuel p = .ok (some (st, q)))
    (fine : st = .ok → q.tracedPyrLevel = 0) : traceOn e' fuel p = .ok (some (st, q)) :=
  finest_turn h (even_deviation h even) fuel p q st ht fine

/-- No turn. -/
def still : Turn := ⟨1, 0, 1, by norm_num, by norm_num⟩

/-- **C193 is violated.** A point is traced on the finest level without
refinement. If the camera is turned by 90 degrees when it takes the second picture, the point does not end in the same
way: the gradients of the first picture are compared with a direction in the second. -/
theorem C193_roll_violated : ∃ (e e' : Env) (q : Point), TurnedBy still quarter ⟨0, 0⟩ e e' ∧ e.s.gnIter = 0 ∧
    q.tracedPyrLevel = 0 ∧ traceOn e 6 (Trace.new true) = .ok (some (.ok, q)) ∧
    traceOn e' 6 (Trace.new true) ≠ .ok (some (.ok, q)) := by
  obtain ⟨q, hq, -, -, hl, hdev, -⟩ := Demo.traced ⟨0, 0, 10⟩ (by norm_num) (by rw [Demo.lvl_zero]; norm_num)
  rw [Demo.lvl_zero] at hl
  obtain ⟨e, he⟩ : ∃ e, e = Demo.env ⟨0, 0, 10⟩ := ⟨_, rfl⟩
  rw [← he] at hq
  have ht := turned_env still quarter ⟨0, 0⟩ e
  refine ⟨e, turnedEnv still quarter ⟨0, 0⟩ e, q, ht, by rw [he]; rfl, hl, hq, fun hq' => ?_⟩
  rcases traceOn_ok hq' with h | h | h | ⟨-, base', rest', found', cs, hb, -, -, -, hj⟩
  · exact absurd h.1 (by decide)
  · exact absurd h.1 (by decide)
  · exact absurd h.1 (by decide)
  have hbase : base' = still.ray ⟨0, 0, 1⟩ := by
    have : (turnedEnv still quarter ⟨0, 0⟩ e).baseDirections = still.ray ⟨0, 0, 1⟩ :: [still.ray ⟨0, 1, 1⟩] := by
      rw [he]; rfl
    rw [this] at hb
    exact (List.cons.inj hb).1.symm
  have hends : searchEnds e (Trace.new true) ⟨0, 0, 1⟩ = (⟨1, 0, 0⟩, ⟨0, 0, 1⟩) := by rw [he]; exact Demo.ends _
  rw [hbase, ends_turn ht, hends] at hj
  dsimp only at hj
  rw [ray_sub, ht.jacobian, turn_normalized] at hj
  obtain ⟨i, best, -, hcase⟩ := judge_ok hj
  rcases hcase with ⟨h, -⟩ | ⟨bd, second, -, -, -, -, -, -, hacc⟩
  · exact h rfl
  obtain ⟨-, -, -, -, hst, -⟩ := accept_ok hacc
  have hjac : e.cam.jacobian ⟨0, 0, 1⟩ ((⟨1, 0, 0⟩ : V3) - ⟨0, 0, 1⟩) = ⟨10, 0⟩ := by
    rw [he]; simp [Demo.env, Demo.camera]
  have hn : normalized2 ⟨10, 0⟩ = ⟨1, 0⟩ := by
    unfold normalized2
    rw [if_pos (by unfold sqNorm; norm_num), Demo.norm2_x]
    ext <;> simp
  rw [hjac, hn, hdev] at hst
  have htop : deviation (turnedEnv still quarter ⟨0, 0⟩ e) (quarter.vec ⟨1, 0⟩) = ⊤ := by
    have hg : (turnedEnv still quarter ⟨0, 0⟩ e).baseGradNorm = [still.vec ⟨1, 0⟩, still.vec ⟨1, 0⟩] := by rw [he]; rfl
    unfold deviation
    rw [hg]
    simp [Geom.dot, Turn.vec, still, quarter]
  rw [htop] at hst
  exact WithTop.coe_ne_top hst

/-- The example of `Verif/Lemmas/TraceDemo.lean` with gradients of equal strength in two perpendicular directions. -/
noncomputable def evenEnv : Env := { Demo.env ⟨0, 0, 10⟩ with baseGradNorm := [⟨1, 0⟩, ⟨0, 1⟩] }

/-- A point that has been traced with a deviation of 1 before. -/
noncomputable def traced1 : Point := { Trace.new true with numTraced := 1, stddev := ((1 : ℝ) : WithTop ℝ) }

/-- The expected error is too large to trace the point again, also if the camera is turned by 90 degrees between the
pictures. -/
example : EvenGradients evenEnv.baseGradNorm ∧ traceOn evenEnv 6 traced1 = .ok (some (.bigPredictedError, traced1)) ∧
    traceOn (turnedEnv still quarter ⟨0, 0⟩ evenEnv) 6 traced1 = .ok (some (.bigPredictedError, traced1)) := by
  have hev : EvenGradients evenEnv.baseGradNorm := ⟨1, fun d => by simp [evenEnv]⟩
  have ht : traceOn evenEnv 6 traced1 = .ok (some (.bigPredictedError, traced1)) := by
    have hends : searchEnds evenEnv traced1 ⟨0, 0, 1⟩ = (⟨1, 0, 0⟩, ⟨0, 0, 1⟩) := Demo.ends ⟨0, 0, 10⟩
    have hjac : evenEnv.cam.jacobian ⟨0, 0, 1⟩ ((⟨1, 0, 0⟩ : V3) - ⟨0, 0, 1⟩) = ⟨10, 0⟩ := by
      simp [evenEnv, Demo.env, Demo.camera]
    have hn : normalized2 ⟨10, 0⟩ = ⟨1, 0⟩ := by
      unfold normalized2
      rw [if_pos (by unfold sqNorm; norm_num), Demo.norm2_x]
      ext <;> simp
    have hdev : deviation evenEnv ⟨1, 0⟩ = ((Real.sqrt 8 : ℝ) : WithTop ℝ) := by
      have h3 : evenEnv.baseGradNorm.foldl (fun acc g => acc + Geom.dot g ⟨1, 0⟩ * Geom.dot g ⟨1, 0⟩) 0 = 1 := by
        simp only [evenEnv, List.foldl_cons, List.foldl_nil, Geom.dot]; norm_num
      unfold deviation
      simp only [h3]
      rw [if_neg (by norm_num)]
      congr 2
      simp only [evenEnv, Demo.env, Demo.settings, List.length_cons, List.length_nil]
      norm_num
    have hb : evenEnv.baseDirections = ⟨0, 0, 1⟩ :: [⟨0, 1, 1⟩] := rfl
    have h8 : (1 : ℝ) < Real.sqrt 8 * 1 := by
      rw [mul_one]
      exact (Real.lt_sqrt (by norm_num)).2 (by norm_num)
    unfold traceOn
    rw [if_neg (show ¬ traced1.state = .oob by simp [traced1, Trace.new]), hb]
    dsimp only
    rw [hends]
    dsimp only
    rw [hjac, hn, hdev, if_pos]
    refine ⟨rfl, by simp [traced1], ?_⟩
    unfold isWorse
    exact WithTop.coe_lt_coe.2 h8
  exact ⟨hev, ht, C193_even_partial (turned_env _ _ _ _) hev _ _ _ _ ht fun h => absurd h (by decide)⟩

end Mdso.Trace
