import Verif.Lemmas.Refine

/-!
# A worked example of tracing

A camera in a scene: the point is seen in direction `(0, 0, 1)`, the second camera is displaced by 10 along `x` and
looks in direction `(1, 0, 1)`. The image has a minimum of the energy at the fourth candidate.
-/

set_option autoImplicit false

namespace Mdso.Trace.Demo

open Mdso.Geom Mdso.Cam Mdso.TraceSpec Mdso.Trace

/-- What varies: number of refinement steps, column of the first candidate, height of the residual pattern. -/
structure Par where
  gnIter : Nat
  off : ℝ
  height : Int

/-- Settings: as by default, except for a position variance of 4 and a search of 6 candidates. -/
noncomputable def settings (P : Par) : Settings where
  levelNum := 3
  height := P.height
  outlierDiff := 12
  performFullTracing := false
  onImageTestCount := 100
  maxSearchRel := 1
  positionVariance := 4
  minSecondBestDistance := 3
  imprFactor := 1
  outlierEnergyFactor := 444 / 1000
  secondBestEnergyThresFactor := 4 / 1000
  outlierQuality := 3
  optimizedStddev := 24 / 10
  gnIter := P.gnIter
  useAltHWeighting := true

/-- A pinhole camera looking in direction `(1, 0, 1)`. -/
noncomputable def camera (P : Par) : Camera where
  map v := ⟨P.off + 10 * v.x / (v.x + v.z), 10 * v.y / (v.x + v.z)⟩
  unmap p := ⟨(p.x - P.off) / 10, p.y / 10, 1 - (p.x - P.off) / 10⟩
  jacobian v w := ⟨10 * (w.x * (v.x + v.z) - v.x * (w.x + w.z)) / ((v.x + v.z) * (v.x + v.z)),
    10 * (w.y * (v.x + v.z) - v.y * (w.x + w.z)) / ((v.x + v.z) * (v.x + v.z))⟩
  isOnImage p := |p.x - P.off| ≤ 100 ∧ |p.y| ≤ 100
  maxAngle := 1
  size := 6

open Classical in
/-- The environment. Rays parallel to the point's direction have no triangulation; a QR solver returns something. -/
noncomputable def env (P : Par) : Env where
  s := settings P
  cam := camera P
  baseDirections := [⟨0, 0, 1⟩, ⟨0, 1, 1⟩]
  baseIntencities := [0, 0]
  baseGradNorm := [⟨1, 0⟩, ⟨1, 0⟩]
  baseToRef := ⟨⟨⟨1, 0, 0⟩, ⟨0, 1, 0⟩, ⟨0, 0, 1⟩⟩, ⟨10, 0, 0⟩⟩
  light := id
  interp l p := (1 + 2 * |(2 : ℝ) ^ l * p.x - P.off - 3|, ⟨2, 0⟩)
  tri ray := if ray.x = 0 then 20 else 10 * ray.z / ray.x
  infiniteDepth := 0

theorem norm2_x (a : ℝ) : norm2 ⟨a, 0⟩ = |a| := by
  unfold norm2 sqNorm; simp [Real.sqrt_mul_self_eq_abs]

theorem norm2_y (a : ℝ) : norm2 ⟨0, a⟩ = |a| := by
  unfold norm2 sqNorm; simp [Real.sqrt_mul_self_eq_abs]

theorem ends (P : Par) : searchEnds (env P) (new true) ⟨0, 0, 1⟩ = (⟨1, 0, 0⟩, ⟨0, 0, 1⟩) := by
  unfold searchEnds
  simp only [new, Prod.mk.injEq]
  constructor
  · have h : (env P).baseToRef.act ((0 : ℝ) • (⟨0, 0, 1⟩ : V3)) = ⟨10, 0, 0⟩ := by
      simp [env, Motion3.act, M3.mulVec, V3.dot]
      ext <;> simp
    rw [h]
    have hn : (⟨10, 0, 0⟩ : V3).norm = 10 := by
      unfold V3.norm V3.sqNorm
      rw [show (10 : ℝ) * 10 + 0 * 0 + 0 * 0 = 10 * 10 by ring, Real.sqrt_mul_self (by norm_num)]
    unfold V3.normalized
    rw [if_pos (by unfold V3.sqNorm; norm_num), hn]
    ext <;> simp
  · change (env P).baseToRef.rot.mulVec ⟨0, 0, 1⟩ = _
    simp [env, M3.mulVec, V3.dot]

theorem dirAt_eq (a : ℝ) : dirAt ⟨0, 0, 1⟩ ⟨1, 0, 0⟩ a = ⟨a, 0, 1 - a⟩ := by
  unfold dirAt; ext <;> simp

theorem map_eq (P : Par) (a : ℝ) : (camera P).map ⟨a, 0, 1 - a⟩ = ⟨P.off + 10 * a, 0⟩ := by
  simp [camera]

theorem speed_eq (P : Par) (a : ℝ) :
    norm2 ((env P).cam.jacobian ⟨a, 0, 1 - a⟩ ((⟨0, 0, 1⟩ : V3) - ⟨1, 0, 0⟩)) = 10 := by
  have : (env P).cam.jacobian ⟨a, 0, 1 - a⟩ ((⟨0, 0, 1⟩ : V3) - ⟨1, 0, 0⟩) = ⟨-10, 0⟩ := by
    simp [env, camera]
  rw [this, norm2_x]; norm_num

theorem maxSearchCount_eq (P : Par) : maxSearchCount (env P) = 6 := by
  unfold maxSearchCount
  simp only [env, settings, camera]
  rw [show (1 : ℝ) * ((6 : Nat) : ℝ) = ((6 : Int) : ℝ) by norm_num]
  unfold Util.truncInt
  simp

/-- The `k`-th candidate. -/
noncomputable def spot (P : Par) (k : Nat) : V2 × V3 := (⟨P.off + k, 0⟩, ⟨k / 10, 0, 1 - k / 10⟩)

theorem map_spot (P : Par) (k : Nat) :
    (env P).cam.map ⟨(k : ℝ) / 10, 0, 1 - (k : ℝ) / 10⟩ = ⟨P.off + k, 0⟩ := by
  change (camera P).map _ = _
  rw [map_eq]; congr 1; ring

theorem sweep_step (P : Par) (fuel k : Nat) (hk : k < 5) :
    sweep (env P) ⟨0, 0, 1⟩ ⟨1, 0, 0⟩ (fuel + 1) ((k : ℝ) / 10) k =
      (sweep (env P) ⟨0, 0, 1⟩ ⟨1, 0, 0⟩ fuel (((k + 1 : Nat) : ℝ) / 10) (k + 1)).map
        fun r => (spot P k :: r.1, r.2) := by
  have hk' : (k : ℝ) ≤ 4 := by exact_mod_cast Nat.lt_succ_iff.1 hk
  have hk0 : (0 : ℝ) ≤ k := Nat.cast_nonneg k
  rw [sweep]
  simp only [dirAt_eq, speed_eq, maxSearchCount_eq]
  rw [if_neg (by omega)]
  rw [if_neg (by norm_num)]
  have hnext : (k : ℝ) / 10 + 1 / 10 = ((k + 1 : Nat) : ℝ) / 10 := by push_cast; ring
  simp only [map_spot, hnext]
  rw [if_pos]
  · rfl
  · refine ⟨by positivity, by push_cast; linarith, ?_⟩
    rw [dirAt_eq, map_spot]
    constructor
    · simp only [env, camera]; rw [add_sub_cancel_left, abs_of_nonneg hk0]; linarith
    · norm_num

theorem sweep_last (P : Par) (fuel : Nat) : sweep (env P) ⟨0, 0, 1⟩ ⟨1, 0, 0⟩ (fuel + 1) (((5 : Nat) : ℝ) / 10) 5 =
    some ([spot P 5], some (6 / 10)) := by
  rw [sweep]
  simp only [dirAt_eq, speed_eq, maxSearchCount_eq]
  rw [if_pos ⟨rfl, by norm_num⟩, if_neg (by norm_num)]
  simp only [map_spot]
  unfold spot
  norm_num

theorem sweep_all (P : Par) : sweep (env P) ⟨0, 0, 1⟩ ⟨1, 0, 0⟩ 6 0 0 =
    some ([spot P 0, spot P 1, spot P 2, spot P 3, spot P 4, spot P 5], some (6 / 10)) := by
  have h0 : sweep (env P) ⟨0, 0, 1⟩ ⟨1, 0, 0⟩ 6 0 0 =
      sweep (env P) ⟨0, 0, 1⟩ ⟨1, 0, 0⟩ 6 (((0 : Nat) : ℝ) / 10) 0 := by norm_num
  rw [h0, sweep_step P 5 0 (by norm_num), sweep_step P 4 1 (by norm_num), sweep_step P 3 2 (by norm_num),
    sweep_step P 2 3 (by norm_num), sweep_step P 1 4 (by norm_num)]
  rw [show (4 + 1 : Nat) = 5 from rfl, sweep_last P 0]
  rfl

/-- The candidates: each of the six positions is listed twice. -/
noncomputable def found (P : Par) : List (V2 × V3) :=
  [spot P 0, spot P 1, spot P 2, spot P 3, spot P 4, spot P 5,
    spot P 0, spot P 1, spot P 2, spot P 3, spot P 4, spot P 5]

theorem angle_eq : Geom.angle ⟨1, 0, 0⟩ ⟨0, 0, 1⟩ = Real.pi / 2 := by
  unfold Geom.angle
  have h1 : (⟨1, 0, 0⟩ : V3).normalized = ⟨1, 0, 0⟩ := V3.normalized_of_unit (by simp [V3.sqNorm])
  have h2 : (⟨0, 0, 1⟩ : V3).normalized = ⟨0, 0, 1⟩ := V3.normalized_of_unit (by simp [V3.sqNorm])
  rw [h1, h2]
  simp only [V3.dot]
  norm_num

theorem search (P : Par) : pointsToTrace (env P) 6 ⟨1, 0, 0⟩ ⟨0, 0, 1⟩ = .ok (some (found P)) := by
  unfold pointsToTrace
  rw [angle_eq, if_neg (by have := Real.two_le_pi; push Not; linarith)]
  rw [if_neg (by simp [env, settings])]
  unfold searchLoop
  rw [if_pos zero_le_one]
  rw [if_pos]
  · have h2 : sweeps (env P) ⟨0, 0, 1⟩ ⟨1, 0, 0⟩ 6 0 2 [] none = some (found P, some (6 / 10)) := by
      simp [sweeps, sweep_all, found]
    simp only [h2]
    rw [if_pos (show (env P).s.performFullTracing = false from rfl)]
  · rw [dirAt_eq]
    change (camera P).isOnImage ((camera P).map _)
    rw [map_eq]
    simp [camera]

/-- Pyramid level chosen for a patch of radius `x`. -/
noncomputable def lvl (P : Par) (x : ℝ) : Int :=
  match pyrLevelOf (env P) x with
  | .ok l => l
  | .error _ => 0

theorem level_eq (P : Par) (hh : 0 < P.height) (x : ℝ) (h0 : 0 < x) :
    pyrLevelOf (env P) x = .ok (lvl P x) ∧ 0 ≤ lvl P x := by
  have hs : (env P).s.height = P.height := rfl
  have hp : (0 : ℝ) < P.height := by exact_mod_cast hh
  have hl3 : (env P).s.levelNum = 3 := rfl
  have : ∃ l : Int, pyrLevelOf (env P) x = .ok l ∧ 0 ≤ l := by
    unfold pyrLevelOf
    rw [hs, if_pos (by positivity)]
    refine ⟨_, rfl, ?_⟩
    rw [hl3]
    split <;> split <;> omega
  obtain ⟨l, hl, hl0⟩ := this
  unfold lvl
  rw [hl]
  exact ⟨rfl, hl0⟩

theorem lvl_zero (n : Nat) (off : ℝ) : lvl ⟨n, off, 10⟩ 7 = 0 := by
  unfold lvl pyrLevelOf
  have hs : (((env ⟨n, off, 10⟩).s.height : Int) : ℝ) = 10 := by simp [env, settings]
  have hlev : (env ⟨n, off, 10⟩).s.levelNum = 3 := rfl
  rw [hs, if_pos (by norm_num)]
  simp only [hlev]
  have hl : Real.logb 2 (7 / 10) ≤ 0 := Real.logb_nonpos (by norm_num) (by norm_num) (by norm_num)
  have hr : round (Real.logb 2 (7 / 10)) ≤ 0 := by
    rw [round_eq]
    have h2 := Int.floor_lt.2 (show Real.logb 2 (7 / 10) + 1 / 2 < ((1 : Int) : ℝ) by push_cast; linarith)
    omega
  split <;> split <;> omega

theorem lvl_one (n : Nat) (off : ℝ) : lvl ⟨n, off, 4⟩ 7 = 1 := by
  unfold lvl pyrLevelOf
  have hs : (((env ⟨n, off, 4⟩).s.height : Int) : ℝ) = 4 := by simp [env, settings]
  have hlev : (env ⟨n, off, 4⟩).s.levelNum = 3 := rfl
  rw [hs, if_pos (by norm_num)]
  simp only [hlev]
  have h1 : 1 / 2 ≤ Real.logb 2 (7 / 4) := by
    rw [Real.le_logb_iff_rpow_le (by norm_num) (by norm_num), ← Real.sqrt_eq_rpow]
    apply Real.sqrt_le_iff.2; norm_num
  have h2 : Real.logb 2 (7 / 4) < 1 := by
    rw [Real.logb_lt_iff_lt_rpow (by norm_num) (by norm_num)]; norm_num
  have hr : round (Real.logb 2 (7 / 4)) = 1 := by
    rw [round_eq, Int.floor_eq_iff]; constructor <;> push_cast <;> linarith
  rw [hr]
  norm_num

/-- What is known about the candidate at `x = k`. -/
noncomputable def cand (P : Par) (k : Nat) (depth : WithTop ℝ) : Cand :=
  ⟨⟨P.off + k, 0⟩, depth, lvl P (10 - k), 2 * ((1 + 2 * |(k : ℝ) - 3|) * (1 + 2 * |(k : ℝ) - 3|))⟩

theorem energy_eq (P : Par) (l : Int) (k : Nat) (hk : k ≤ 5) (y : ℝ) :
    energyOf (env P) l [⟨P.off + k, 0⟩, ⟨P.off + k, y⟩] =
      2 * ((1 + 2 * |(k : ℝ) - 3|) * (1 + 2 * |(k : ℝ) - 3|)) := by
  have hk5 : (k : ℝ) ≤ 5 := by exact_mod_cast hk
  have hk0 : (0 : ℝ) ≤ k := Nat.cast_nonneg k
  have ha : |(k : ℝ) - 3| ≤ 3 := abs_le.2 ⟨by linarith, by linarith⟩
  have ha0 := abs_nonneg ((k : ℝ) - 3)
  have hx : (2 : ℝ) ^ l * (1 / (2 : ℝ) ^ l * (P.off + k)) - P.off - 3 = k - 3 := by
    have : (2 : ℝ) ^ l ≠ 0 := by positivity
    field_simp; ring
  have hh : Trace.huber 12 |(id (0 : ℝ)) - (1 + 2 * |(k : ℝ) - 3|)| =
      (1 + 2 * |(k : ℝ) - 3|) * (1 + 2 * |(k : ℝ) - 3|) := by
    have : |(id (0 : ℝ)) - (1 + 2 * |(k : ℝ) - 3|)| = 1 + 2 * |(k : ℝ) - 3| := by
      simp only [id]
      rw [zero_sub, abs_neg, abs_of_nonneg (by linarith)]
    rw [this]
    unfold Trace.huber
    rw [if_neg (by push Not; linarith)]
  unfold energyOf
  simp only [env, settings, List.zip_cons_cons, List.zip_nil_right, List.foldl_cons, List.foldl_nil, smul_x, hx]
  rw [hh]
  ring

theorem candidate_first (P : Par) (hh : 0 < P.height) :
    candidate (env P) (new true) 0 (spot P 0) = .ok (cand P 0 ⊤) := by
  unfold candidate
  simp only [new, and_self, if_true]
  have hr : reprojections (env P) ⊤ = [⟨P.off + ((0 : Nat) : ℝ), 10⟩] := by
    change List.map _ _ = _
    simp [env, camera, M3.mulVec, V3.dot]
  have hd : maxReprojDist (spot P 0).1 [⟨P.off + ((0 : Nat) : ℝ), 10⟩] = 10 - ((0 : Nat) : ℝ) := by
    have : (⟨P.off + ((0 : Nat) : ℝ), 10⟩ : V2) - (spot P 0).1 = ⟨0, 10⟩ := by ext <;> simp [spot]
    simp only [maxReprojDist, List.foldl_cons, List.foldl_nil, this, norm2_y]
    norm_num
  rw [hr, hd, (level_eq P hh _ (by norm_num)).1]
  simp only
  rw [if_neg (not_lt.2 (level_eq P hh _ (by norm_num)).2)]
  unfold cand
  rw [← energy_eq P (lvl P (10 - ((0 : Nat) : ℝ))) 0 (by norm_num) 10]
  simp [spot]

/-- Depth triangulated from the candidate at `x = k`. -/
noncomputable def depthAt (k : Nat) : ℝ := if k = 0 then 20 else 10 * (1 - k / 10) / (k / 10)

theorem tri_scaled (P : Par) (c : ℝ) (hc : 0 < c) (k : Nat) :
    (env P).tri (c • (spot P k).2) = depthAt k := by
  unfold depthAt
  by_cases h : k = 0
  · subst h; simp [env, spot]
  · have hk : (k : ℝ) ≠ 0 := by exact_mod_cast h
    have : c * ((k : ℝ) / 10) ≠ 0 := by positivity
    simp only [env, spot, V3.smul_x, V3.smul_z]
    rw [if_neg this, if_neg h]
    field_simp

theorem spot_ne (P : Par) (k : Nat) : (spot P k).2 ≠ 0 := by
  intro h
  have hx := congrArg V3.x h
  have hz := congrArg V3.z h
  simp only [spot, V3.zero_x, V3.zero_z] at hx hz
  linarith

theorem tri_spot (P : Par) (k : Nat) : (env P).tri (spot P k).2.normalized = depthAt k := by
  rw [V3.normalized_eq (spot_ne P k)]
  exact tri_scaled P _ (by have := V3.norm_pos (spot_ne P k); positivity) k

theorem tri_unmap (P : Par) (k : Nat) : (env P).tri ((env P).cam.unmap ⟨P.off + k, 0⟩) = depthAt k := by
  have : (env P).cam.unmap ⟨P.off + k, 0⟩ = (1 : ℝ) • (spot P k).2 := by
    ext <;> simp [env, camera, spot]
  rw [this]; exact tri_scaled P 1 one_pos k

/-- The candidate at `x = k`, `0 < k`. -/
theorem candidate_other (P : Par) (hh : 0 < P.height) (i k : Nat) (hk : 0 < k) (hk5 : k ≤ 5) :
    candidate (env P) (new true) (i + 1) (spot P k) = .ok (cand P k ((depthAt k : ℝ) : WithTop ℝ)) := by
  unfold candidate
  simp only [tri_spot]
  rw [if_neg (by omega)]
  have hk' : (0 : ℝ) < k := by exact_mod_cast hk
  have hk5' : (k : ℝ) ≤ 5 := by exact_mod_cast hk5
  have hdv : depthAt k = 10 * (10 - k) / k := by
    unfold depthAt; rw [if_neg (by omega)]; field_simp
  have hr : reprojections (env P) ((depthAt k : ℝ) : WithTop ℝ) = [⟨P.off + k, 10 - k⟩] := by
    change List.map _ _ = _
    rw [hdv]
    simp only [env, List.tail_cons, List.map_cons, List.map_nil, Motion3.act, M3.mulVec, V3.dot, camera,
      V3.smul_x, V3.smul_y, V3.smul_z, V3.add_x, V3.add_y, V3.add_z, List.cons.injEq, and_true, V2.mk.injEq]
    constructor
    · congr 1; field_simp; ring
    · field_simp; ring
  have hd : maxReprojDist (spot P k).1 [⟨P.off + k, 10 - k⟩] = 10 - k := by
    have : (⟨P.off + (k : ℝ), 10 - k⟩ : V2) - (spot P k).1 = ⟨0, 10 - k⟩ := by ext <;> simp [spot]
    simp only [maxReprojDist, List.foldl_cons, List.foldl_nil, this, norm2_y]
    rw [abs_of_nonneg (by linarith), if_pos (by linarith)]
  rw [hr, hd, (level_eq P hh _ (by linarith)).1]
  simp only
  rw [if_neg (not_lt.2 (level_eq P hh _ (by linarith)).2)]
  have := energy_eq P (lvl P (10 - k)) k hk5 (10 - k)
  unfold cand
  rw [← this]
  simp [spot]

/-- The second listing of the first position gets the meaningless depth 20. -/
theorem candidate_again (P : Par) (hh : 0 < P.height) (i : Nat) :
    ∃ a, candidate (env P) (new true) (i + 1) (spot P 0) = .ok a ∧ a.point = ⟨P.off, 0⟩ ∧ 49 ≤ a.energy := by
  unfold candidate
  simp only [tri_spot]
  rw [if_neg (by omega)]
  have hr : reprojections (env P) ((depthAt 0 : ℝ) : WithTop ℝ) = [⟨P.off + 10 / 3, 20 / 3⟩] := by
    change List.map _ _ = _
    simp only [depthAt, if_true, env, List.tail_cons, List.map_cons, List.map_nil, Motion3.act, M3.mulVec, V3.dot,
      camera, V3.smul_x, V3.smul_y, V3.smul_z, V3.add_x, V3.add_y, V3.add_z, List.cons.injEq, and_true, V2.mk.injEq]
    norm_num
  have hsub : (⟨P.off + 10 / 3, 20 / 3⟩ : V2) - (spot P 0).1 = ⟨10 / 3, 20 / 3⟩ := by ext <;> simp [spot]
  have hn : 0 < norm2 (⟨10 / 3, 20 / 3⟩ : V2) := by
    unfold norm2 sqNorm
    apply Real.sqrt_pos.2; norm_num
  have hd : maxReprojDist (spot P 0).1 [⟨P.off + 10 / 3, 20 / 3⟩] = norm2 (⟨10 / 3, 20 / 3⟩ : V2) := by
    simp only [maxReprojDist, List.foldl_cons, List.foldl_nil, hsub]
    rw [if_pos (by linarith [hn])]
  rw [hr, hd, (level_eq P hh _ hn).1]
  simp only
  rw [if_neg (not_lt.2 (level_eq P hh _ hn).2)]
  refine ⟨_, rfl, by simp [spot], ?_⟩
  have h2 : (2 : ℝ) ^ lvl P (norm2 ⟨10 / 3, 20 / 3⟩) ≠ 0 := by positivity
  have hx1 : (2 : ℝ) ^ lvl P (norm2 ⟨10 / 3, 20 / 3⟩) *
      (1 / (2 : ℝ) ^ lvl P (norm2 ⟨10 / 3, 20 / 3⟩) * (P.off + ((0 : Nat) : ℝ))) - P.off - 3 = -3 := by
    field_simp; simp
  have hx2 : (2 : ℝ) ^ lvl P (norm2 ⟨10 / 3, 20 / 3⟩) *
      (1 / (2 : ℝ) ^ lvl P (norm2 ⟨10 / 3, 20 / 3⟩) * (P.off + 10 / 3)) - P.off - 3 = 1 / 3 := by
    rw [← mul_assoc, mul_one_div_cancel h2]; ring
  unfold energyOf
  simp only [env, settings, spot, List.zip_cons_cons, List.zip_nil_right, List.foldl_cons, List.foldl_nil,
    smul_x, Trace.huber, id, hx1, hx2]
  norm_num [abs_of_pos, abs_of_neg]

/-- All candidates. -/
theorem candidates (P : Par) (hh : 0 < P.height) : ∃ a : Cand, a.point = ⟨P.off, 0⟩ ∧ 49 ≤ a.energy ∧
    candidatesFrom (env P) (new true) 0 (found P) = .ok
      [cand P 0 ⊤, cand P 1 (depthAt 1 : ℝ), cand P 2 (depthAt 2 : ℝ), cand P 3 (depthAt 3 : ℝ),
        cand P 4 (depthAt 4 : ℝ), cand P 5 (depthAt 5 : ℝ), a, cand P 1 (depthAt 1 : ℝ), cand P 2 (depthAt 2 : ℝ),
        cand P 3 (depthAt 3 : ℝ), cand P 4 (depthAt 4 : ℝ), cand P 5 (depthAt 5 : ℝ)] := by
  obtain ⟨a, ha, h1, h2⟩ := candidate_again P hh 5
  refine ⟨a, h1, h2, ?_⟩
  unfold found
  simp only [candidatesFrom, candidate_first P hh, Nat.zero_add, ha,
    candidate_other P hh 0 1 (by norm_num) (by norm_num), candidate_other P hh 1 2 (by norm_num) (by norm_num),
    candidate_other P hh 2 3 (by norm_num) (by norm_num), candidate_other P hh 3 4 (by norm_num) (by norm_num),
    candidate_other P hh 4 5 (by norm_num) (by norm_num),
    candidate_other P hh 6 1 (by norm_num) (by norm_num), candidate_other P hh 7 2 (by norm_num) (by norm_num),
    candidate_other P hh 8 3 (by norm_num) (by norm_num), candidate_other P hh 9 4 (by norm_num) (by norm_num),
    candidate_other P hh 10 5 (by norm_num) (by norm_num)]

theorem energy0 (P : Par) (d : WithTop ℝ) : (cand P 0 d).energy = 98 := by simp only [cand]; norm_num
theorem energy1 (P : Par) (d : WithTop ℝ) : (cand P 1 d).energy = 50 := by simp only [cand]; norm_num
theorem energy2 (P : Par) (d : WithTop ℝ) : (cand P 2 d).energy = 18 := by simp only [cand]; norm_num
theorem energy3 (P : Par) (d : WithTop ℝ) : (cand P 3 d).energy = 2 := by simp only [cand]; norm_num
theorem energy4 (P : Par) (d : WithTop ℝ) : (cand P 4 d).energy = 18 := by simp only [cand]; norm_num
theorem energy5 (P : Par) (d : WithTop ℝ) : (cand P 5 d).energy = 50 := by simp only [cand]; norm_num

theorem deviation_eq (P : Par) : deviation (env P) (normalized2 ((env P).cam.jacobian ⟨0, 0, 1⟩
    ((⟨1, 0, 0⟩ : V3) - ⟨0, 0, 1⟩))) = ((2 : ℝ) : WithTop ℝ) := by
  have h1 : (env P).cam.jacobian ⟨0, 0, 1⟩ ((⟨1, 0, 0⟩ : V3) - ⟨0, 0, 1⟩) = ⟨10, 0⟩ := by
    simp [env, camera]
  have h2 : normalized2 ⟨10, 0⟩ = ⟨1, 0⟩ := by
    unfold normalized2
    rw [if_pos (by unfold sqNorm; norm_num), norm2_x]
    ext <;> simp
  rw [h1, h2]
  have h3 : (env P).baseGradNorm.foldl (fun acc g => acc + Geom.dot g ⟨1, 0⟩ * Geom.dot g ⟨1, 0⟩) 0 = 2 := by
    simp only [env, List.foldl_cons, List.foldl_nil, Geom.dot]; norm_num
  unfold deviation
  simp only [h3]
  rw [if_neg (by norm_num)]
  congr 1
  simp only [env, settings, List.length_cons, List.length_nil]
  rw [show ((0 + 1 + 1 : Nat) : ℝ) * 4 / 2 = 2 * 2 by norm_num]
  rw [Real.sqrt_mul_self (by norm_num)]

theorem norm2_cand (P : Par) (k : Nat) (d : WithTop ℝ) (l : ℝ) :
    norm2 ((cand P k d).point - ⟨P.off + l, 0⟩) = |(k : ℝ) - l| := by
  have : (cand P k d).point - ⟨P.off + l, 0⟩ = ⟨k - l, 0⟩ := by ext <;> simp [cand]
  rw [this, norm2_x]

/-- The candidates as positions. -/
noncomputable def spots (P : Par) : List V2 := (found P).map (·.1)

theorem interval_eq (P : Par) : interval (env P) (spots P) 3 ((2 : ℝ) : WithTop ℝ) = .ok (depthAt 1, ⊤) := by
  have h : approxOnCurve (spots P) (((3 : Nat) : ℝ) + 2 * 2) = .ok ⟨P.off + ((1 : Nat) : ℝ), 0⟩ := by
    rw [show ((3 : Nat) : ℝ) + 2 * 2 = ((7 : Int) : ℝ) by norm_num]
    have ht : Util.truncInt ((7 : Int) : ℝ) = 7 := by unfold Util.truncInt; simp
    unfold approxOnCurve
    rw [if_pos (by simp [spots, found]), if_neg (by norm_num), if_neg (by simp [spots, found]; norm_num)]
    simp only [ht]
    rw [if_neg (by norm_num)]
    simp only [spots, found, at', List.map_cons, List.map_nil]
    simp only [show Int.toNat 7 = 7 from rfl, List.getElem?_cons_succ, List.getElem?_cons_zero]
    congr 1
    ext <;> simp [spot]
  rw [interval_coe, h]
  simp only
  rw [if_pos (by norm_num), tri_unmap]

theorem depth3 : depthAt 3 = 70 / 3 := by unfold depthAt; norm_num

theorem depth1 : depthAt 1 = 90 := by unfold depthAt; norm_num

theorem dir_eq (P : Par) :
    normalized2 ((⟨P.off + ((4 : Nat) : ℝ), 0⟩ : V2) - ⟨P.off + ((2 : Nat) : ℝ), 0⟩) = ⟨1, 0⟩ := by
  have : (⟨P.off + ((4 : Nat) : ℝ), 0⟩ : V2) - ⟨P.off + ((2 : Nat) : ℝ), 0⟩ = ⟨2, 0⟩ := by ext <;> norm_num
  rw [this]
  unfold normalized2
  rw [if_pos (by unfold sqNorm; norm_num), norm2_x]
  ext <;> simp

/-- The refinement of the best candidate finds a position between its neighbours, but the position used for the depth
is multiplied by the scale of the level. -/
theorem refine_eq (P : Par) (l : Int) : ∃ (r : V2 × WithTop ℝ) (x : ℝ),
    refine (env P) (spots P) 3 ⟨P.off + ((3 : Nat) : ℝ), 0⟩ (depthAt 3) l = .ok r ∧
    P.off + 2 ≤ x ∧ x ≤ P.off + 4 ∧ r.1.x = (2 : ℝ) ^ l * x := by
  have h2 : at' (spots P) 2 = .ok ⟨P.off + ((2 : Nat) : ℝ), 0⟩ := rfl
  have h4 : at' (spots P) 4 = .ok ⟨P.off + ((4 : Nat) : ℝ), 0⟩ := rfl
  obtain ⟨g, hg⟩ := tracePrecise_returns (s := (env P).s) (img := (env P).interp l)
    (frm := ⟨P.off + ((2 : Nat) : ℝ), 0⟩) (dst := ⟨P.off + ((4 : Nat) : ℝ), 0⟩)
    (patch := refinePatch (env P) ⟨P.off + ((3 : Nat) : ℝ), 0⟩ (depthAt 3) l)
    (by simp [env, settings]) (by
      intro x
      refine ⟨(0, ⟨0, 0⟩), by simp [refinePatch, env], ?_⟩
      rw [dir_eq]
      simp [env, Geom.dot])
  have hr : refine (env P) (spots P) 3 ⟨P.off + ((3 : Nat) : ℝ), 0⟩ (depthAt 3) l =
      .ok ((2 : ℝ) ^ l • g.point, g.energy) := by
    unfold refine
    rw [show (3 - 1 : Nat) = 2 from rfl, show min ((spots P).length - 1) (3 + 1) = 4 from rfl, h2, h4]
    simp only [hg]
  obtain ⟨frm, dst, x, hf, hd, hx, hrx, _⟩ := refine_ok (by simp [env, settings]) hr
  have hf' : frm = ⟨P.off + ((2 : Nat) : ℝ), 0⟩ := by
    have : (spots P)[2]? = some ⟨P.off + ((2 : Nat) : ℝ), 0⟩ := rfl
    rw [show (3 - 1 : Nat) = 2 from rfl, this] at hf
    exact (Option.some.inj hf).symm
  have hd' : dst = ⟨P.off + ((4 : Nat) : ℝ), 0⟩ := by
    have : (spots P)[4]? = some ⟨P.off + ((4 : Nat) : ℝ), 0⟩ := rfl
    rw [show min ((spots P).length - 1) (3 + 1) = 4 from rfl, this] at hd
    exact (Option.some.inj hd).symm
  subst hf'; subst hd'
  have hxx : |x.x - (P.off + 3)| ≤ 1 := by
    unfold distance at hx
    have h1 := (Real.sqrt_le_iff.1 hx).2
    simp only [smul_x, smul_y, add_x, add_y] at h1
    have hm : (1 / 2 : ℝ) * (P.off + ((2 : Nat) : ℝ) + (P.off + ((4 : Nat) : ℝ))) = P.off + 3 := by
      push_cast; ring
    rw [hm] at h1
    have : (x.x - (P.off + 3)) ^ 2 ≤ 1 := by nlinarith [sq_nonneg (x.y - 1 / 2 * (0 + 0))]
    rw [← sq_abs] at this
    nlinarith [abs_nonneg (x.x - (P.off + 3))]
  have := abs_le.1 hxx
  refine ⟨_, x.x, hr, by linarith [this.1], by linarith [this.2], ?_⟩
  rw [hrx]
  rfl

/-- The point is traced successfully, with any number of refinement steps. Its lower depth bound is 90. Its depth is
`70 / 3` without refinement, and with refinement the one triangulated from a position near the best candidate
multiplied by the scale of the level. -/
theorem traced (P : Par) (hh : 0 < P.height) (hlv : lvl P 7 ≠ 2) :
    ∃ q : Point, traceOn (env P) 6 (new true) = .ok (some (.ok, q)) ∧
    q.minDepth = 90 ∧ q.maxDepth = ⊤ ∧ q.tracedPyrLevel = lvl P 7 ∧ q.stddev = ((2 : ℝ) : WithTop ℝ) ∧
    q.depthBeforeSubpixel = some (70 / 3) ∧
    (P.gnIter = 0 → q.depth = some (70 / 3)) ∧
    (0 < P.gnIter → ∃ (pos : V2) (x : ℝ), q.depth = some ((env P).tri ((env P).cam.unmap pos)) ∧
      P.off + 2 ≤ x ∧ x ≤ P.off + 4 ∧ pos.x = (2 : ℝ) ^ lvl P 7 * x) := by
  obtain ⟨a, ha1, ha2, hcs⟩ := candidates P hh
  obtain ⟨cs, hcsdef⟩ : ∃ cs, cs = [cand P 0 ⊤, cand P 1 (depthAt 1 : ℝ), cand P 2 (depthAt 2 : ℝ),
      cand P 3 (depthAt 3 : ℝ), cand P 4 (depthAt 4 : ℝ), cand P 5 (depthAt 5 : ℝ), a, cand P 1 (depthAt 1 : ℝ),
      cand P 2 (depthAt 2 : ℝ), cand P 3 (depthAt 3 : ℝ), cand P 4 (depthAt 4 : ℝ), cand P 5 (depthAt 5 : ℝ)] :=
    ⟨_, rfl⟩
  rw [← hcsdef] at hcs
  have hbest : bestFrom 0 cs none = some (3, cand P 3 (depthAt 3 : ℝ)) := by
    rw [hcsdef]
    have hl : ∀ (i : Nat) (c : Cand) (cs : List Cand) (b : Nat × Cand), c.energy < b.2.energy →
        bestFrom i (c :: cs) (some b) = bestFrom (i + 1) cs (some (i, c)) := by
      intro i c cs b h; rw [bestFrom, if_pos h]
    have hg : ∀ (i : Nat) (c : Cand) (cs : List Cand) (b : Nat × Cand), b.2.energy ≤ c.energy →
        bestFrom i (c :: cs) (some b) = bestFrom (i + 1) cs (some b) := by
      intro i c cs b h; rw [bestFrom, if_neg (not_lt.2 h)]
    rw [bestFrom, hl, hl, hl, hg, hg, hg, hg, hg, hg, hg, hg, bestFrom] <;>
      simp only [energy0, energy1, energy2, energy3, energy4, energy5] <;> first | linarith | (norm_num; done)
  have hsec : secondBest (env P).s.minSecondBestDistance (cand P 3 (depthAt 3 : ℝ)).point cs =
      ((min 98 a.energy : ℝ) : WithTop ℝ) := by
    rw [hcsdef]
    have hp : (cand P 3 (depthAt 3 : ℝ)).point = ⟨P.off + 3, 0⟩ := by simp [cand]
    have hap : norm2 (a.point - ⟨P.off + 3, 0⟩) = 3 := by
      have : a.point - ⟨P.off + 3, 0⟩ = ⟨-3, 0⟩ := by rw [ha1]; ext <;> simp
      rw [this, norm2_x]; norm_num
    have hm : (env P).s.minSecondBestDistance = 3 := rfl
    rw [hp]
    unfold secondBest
    simp only [hm, List.foldl_cons, List.foldl_nil, norm2_cand, hap, energy0, WithTop.coe_lt_top, if_true]
    norm_num
    by_cases h98 : (a.energy : WithTop ℝ) < 98
    · rw [if_pos h98, min_eq_right h98.le]
    · rw [if_neg h98, min_eq_left (not_lt.1 h98)]
  have hlen : (env P).baseDirections.length = 2 := rfl
  have hdev := deviation_eq P
  have hmin49 : 49 ≤ min 98 a.energy := le_min (by norm_num) ha2
  have hlevel : (cand P 3 (depthAt 3 : ℝ)).level = lvl P 7 := by simp only [cand]; norm_num
  have hjudge : judge (env P) (new true) (spots P) ((2 : ℝ) : WithTop ℝ) cs =
        accept (env P) (new true) (spots P) ((2 : ℝ) : WithTop ℝ) 3 (cand P 3 (depthAt 3 : ℝ)) (depthAt 3)
          (quality (min 98 a.energy) (cand P 3 (depthAt 3 : ℝ)).energy) := by
    unfold judge
    rw [hbest]
    simp only [hsec]
    rw [if_neg (by rw [hlevel]; simpa [env, settings] using hlv)]
    change (if _ then _ else if _ then _ else if _ then _ else _) = _
    rw [if_neg, if_neg, if_neg]
    · rintro ⟨q, hq, hlt⟩
      unfold quality at hq
      rw [energy3, if_neg (by norm_num)] at hq
      cases hq
      rw [WithTop.coe_lt_coe] at hlt
      have : (env P).s.outlierQuality = 3 := rfl
      rw [this, div_lt_iff₀ (by norm_num)] at hlt
      linarith
    · rw [energy3, hlen]
      simp only [env, settings]
      norm_num
    · rw [hlen]
      simp only [env, settings]
      push Not
      have : (4 : ℝ) / 1000 * (((2 : Nat) : ℝ) * 12 * 12) < 49 := by norm_num
      linarith
  have hbefore : (env P).tri ((env P).cam.unmap (cand P 3 (depthAt 3 : ℝ)).point) = 70 / 3 := by
    rw [← depth3]; exact tri_unmap P 3
  obtain ⟨r, x, hr, hx2, hx4, hrx⟩ := refine_eq P (lvl P 7)
  have hacc : ∃ q : Point, accept (env P) (new true) (spots P) ((2 : ℝ) : WithTop ℝ) 3
      (cand P 3 (depthAt 3 : ℝ)) (depthAt 3) (quality (min 98 a.energy) (cand P 3 (depthAt 3 : ℝ)).energy) =
        .ok (.ok, q) ∧
      q.minDepth = 90 ∧ q.maxDepth = ⊤ ∧ q.tracedPyrLevel = lvl P 7 ∧ q.stddev = ((2 : ℝ) : WithTop ℝ) ∧
      q.depthBeforeSubpixel = some (70 / 3) ∧
      (P.gnIter = 0 → q.depth = some (70 / 3)) ∧
      (0 < P.gnIter → ∃ (pos : V2) (x : ℝ), q.depth = some ((env P).tri ((env P).cam.unmap pos)) ∧
        P.off + 2 ≤ x ∧ x ≤ P.off + 4 ∧ pos.x = (2 : ℝ) ^ lvl P 7 * x) := by
    unfold accept
    simp only [interval_eq]
    have hgn : (env P).s.gnIter = P.gnIter := rfl
    by_cases hn : P.gnIter = 0
    · rw [if_neg (by rw [hgn, hn]; simp)]
      exact ⟨_, rfl, depth1, rfl, hlevel, rfl, congrArg some hbefore, fun _ => congrArg some depth3,
        fun h => absurd hn (by omega)⟩
    · rw [if_pos (by rw [hgn]; omega)]
      have hr' : refine (env P) (spots P) 3 (cand P 3 (depthAt 3 : ℝ)).point (depthAt 3)
          (cand P 3 (depthAt 3 : ℝ)).level = .ok r := by rw [hlevel]; exact hr
      rw [hr']
      exact ⟨_, rfl, depth1, rfl, hlevel, rfl, congrArg some hbefore, fun h => absurd h hn,
        fun _ => ⟨r.1, x, rfl, hx2, hx4, hrx⟩⟩
  obtain ⟨q, hq, hrest⟩ := hacc
  refine ⟨q, ?_, hrest⟩
  unfold traceOn
  rw [if_neg (by simp [new])]
  split
  · rename_i h; simp [env] at h
  rename_i base rest hb
  have hbase : base = ⟨0, 0, 1⟩ := by
    simp only [env, List.cons.injEq] at hb; exact hb.1.symm
  subst hbase
  simp only [ends, hdev]
  rw [if_neg (by simp [new])]
  simp only [search]
  rw [if_pos (by simp [found])]
  simp only [hcs]
  change (judge (env P) (new true) (spots P) _ _).map some = _
  rw [hjudge, hq]
  rfl

end Mdso.Trace.Demo
