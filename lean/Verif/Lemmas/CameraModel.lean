import Verif.Model.CameraModel
import Verif.Spec.CameraModel
import Mathlib.Tactic.Linarith
import Mathlib.Algebra.BigOperators.Field
import Mathlib.Tactic.Ring
import Mathlib.Tactic.FieldSimp
import Mathlib.Tactic.LinearCombination

/-!
# Lemmas about the camera model
-/

set_option autoImplicit false

namespace Mdso.Cam

open Mdso.Geom Mdso.CamSpec

/-! ## Polynomials -/

theorem sum_cons (p : ℝ) (ps : List ℝ) (f : Nat → ℝ) :
    (∑ i ∈ Finset.range (p :: ps).length, (p :: ps).getD i 0 * f i)
      = p * f 0 + ∑ i ∈ Finset.range ps.length, ps.getD i 0 * f (i + 1) := by
  rw [List.length_cons, Finset.sum_range_succ']
  simp [add_comm]

theorem polyLoop_eq (r : ℝ) (ps : List ℝ) (rN res : ℝ) :
    polyLoop r ps rN res = res + ∑ i ∈ Finset.range ps.length, ps.getD i 0 * (rN * r ^ i) := by
  induction ps generalizing rN res with
  | nil => simp [polyLoop]
  | cons p ps ih =>
    rw [polyLoop, ih, sum_cons]
    have : ∀ i, rN * r * r ^ i = rN * r ^ (i + 1) := fun i => by ring
    simp only [this]
    ring

theorem calcUnmapPoly_eq (p0 : ℝ) (ps : List ℝ) (r : ℝ) : calcUnmapPoly p0 ps r = depthPoly p0 ps r := by
  unfold calcUnmapPoly depthPoly
  rw [polyLoop_eq]
  congr 1
  apply Finset.sum_congr rfl
  intro i _
  ring

theorem polyLoop_poly (t m0 : ℝ) (ms : List ℝ) : polyLoop t ms t m0 = poly m0 ms t := by
  unfold poly
  rw [polyLoop_eq]
  congr 1
  apply Finset.sum_congr rfl
  intro i _
  ring

theorem unmapLoop_eq {rho1 rho2 : ℝ} (h : rho1 * rho1 = rho2) (ps : List ℝ) (rhoN z : ℝ) :
    unmapLoop rho1 rho2 ps rhoN z = z + ∑ i ∈ Finset.range ps.length, ps.getD i 0 * (rhoN * rho1 ^ i) := by
  induction ps, rhoN, z using unmapLoop.induct (rho1 := rho1) (rho2 := rho2) with
  | case1 => simp [unmapLoop]
  | case2 p rhoN z => simp [unmapLoop]; ring
  | case3 p q ps rhoN z ih =>
    rw [unmapLoop, ih, sum_cons, sum_cons]
    have : ∀ i, rhoN * rho2 * rho1 ^ i = rhoN * rho1 ^ (i + 1 + 1) := fun i => by rw [← h]; ring
    simp only [this]
    ring

/-! ## Planar vectors -/

theorem sqNorm_nonneg (p : V2) : 0 ≤ sqNorm p := by
  unfold sqNorm; nlinarith [mul_self_nonneg p.x, mul_self_nonneg p.y]

theorem norm2_len (p : V2) : norm2 p = len p := by
  unfold norm2 len sqNorm; congr 1; ring

theorem len_nonneg (p : V2) : 0 ≤ len p := Real.sqrt_nonneg _

theorem len_sq (p : V2) : len p ^ 2 = p.x ^ 2 + p.y ^ 2 := Real.sq_sqrt (by positivity)

theorem len_zero_iff (p : V2) : len p = 0 ↔ p.x = 0 ∧ p.y = 0 := by
  constructor
  · intro h
    have := len_sq p
    rw [h] at this
    constructor <;> nlinarith [sq_nonneg p.x, sq_nonneg p.y]
  · rintro ⟨h1, h2⟩
    simp [len, h1, h2]

theorem sqNorm_pos_iff (p : V2) : 0 < sqNorm p ↔ 0 < len p := by
  unfold len sqNorm
  rw [Real.sqrt_pos]
  ring_nf

theorem normalized2_pos {p : V2} (h : 0 < len p) : normalized2 p = (1 / len p) • p := by
  unfold normalized2
  rw [if_pos ((sqNorm_pos_iff p).2 h), norm2_len]

theorem normalized2_zero {p : V2} (h : ¬ 0 < len p) : normalized2 p = ⟨0, 0⟩ := by
  have h0 : len p = 0 := le_antisymm (not_lt.1 h) (len_nonneg p)
  obtain ⟨h1, h2⟩ := (len_zero_iff p).1 h0
  unfold normalized2
  rw [if_neg (fun h' => h ((sqNorm_pos_iff p).1 h'))]
  ext
  · exact h1
  · exact h2

theorem len_smul {s : ℝ} (hs : 0 ≤ s) (p : V2) : len (s • p) = s * len p := by
  unfold len
  have : (s • p).x ^ 2 + (s • p).y ^ 2 = s ^ 2 * (p.x ^ 2 + p.y ^ 2) := by simp; ring
  rw [this, Real.sqrt_mul (sq_nonneg s), Real.sqrt_sq hs]

theorem normalized2_smul {s : ℝ} (hs : 0 < s) (p : V2) : normalized2 (s • p) = normalized2 p := by
  have hl := len_smul hs.le p
  by_cases h : 0 < len p
  · have h' : 0 < len (s • p) := by rw [hl]; positivity
    rw [normalized2_pos h, normalized2_pos h', hl]
    ext <;> simp <;> field_simp
  · have h' : ¬ 0 < len (s • p) := by
      rw [hl]; intro hh; exact h (pos_of_mul_pos_right hh hs.le)
    rw [normalized2_zero h, normalized2_zero h']

/-! ## Angles -/

theorem atan2_angle (v : V3) (h : v ≠ 0) : atan2 (norm2 ⟨v.x, v.y⟩) v.z = angleToAxis v := by
  unfold atan2 angleToAxis
  have hn : norm2 ⟨v.x, v.y⟩ = Real.sqrt (v.x ^ 2 + v.y ^ 2) := by rw [norm2_len]; rfl
  have hne : (⟨v.z, norm2 ⟨v.x, v.y⟩⟩ : ℂ) ≠ 0 := by
    intro hc
    apply h
    have h1 : v.z = 0 := congrArg Complex.re hc
    have h2 : norm2 ⟨v.x, v.y⟩ = 0 := congrArg Complex.im hc
    rw [norm2_len] at h2
    obtain ⟨h3, h4⟩ := (len_zero_iff _).1 h2
    ext
    · exact h3
    · exact h4
    · exact h1
  rw [Complex.arg_of_im_nonneg_of_ne_zero (by rw [hn]; exact Real.sqrt_nonneg _) hne]
  congr 2
  rw [Complex.norm_def, Complex.normSq_apply, hn, Real.mul_self_sqrt (by positivity)]
  congr 1
  ring

theorem atan2_smul {s : ℝ} (hs : 0 < s) (y x : ℝ) : atan2 (s * y) (s * x) = atan2 y x := by
  unfold atan2
  have : (⟨s * x, s * y⟩ : ℂ) = (s : ℂ) * ⟨x, y⟩ := by
    apply Complex.ext <;> simp
  rw [this, Complex.arg_real_mul _ hs]

/-! ## Projection -/

theorem unmap_eq (c : Cam) (p : V2) : unmap c p = ray c.scale c.center c.p0 c.ps p := by
  unfold unmap ray normalisedPixel
  have hpt : (⟨p.x / c.scale, p.y / c.scale⟩ : V2) - c.center
      = ⟨p.x / c.scale - c.center.x, p.y / c.scale - c.center.y⟩ := rfl
  simp only [hpt]
  obtain ⟨q, hq⟩ : ∃ q : V2, q = ⟨p.x / c.scale - c.center.x, p.y / c.scale - c.center.y⟩ := ⟨_, rfl⟩
  rw [← hq]
  have h1 : Real.sqrt (sqNorm q) = len q := norm2_len q
  have h2 : Real.sqrt (sqNorm q) * Real.sqrt (sqNorm q) = sqNorm q := Real.mul_self_sqrt (sqNorm_nonneg q)
  ext
  · rfl
  · rfl
  · simp only
    rw [unmapLoop_eq h2, ← h1]
    unfold depthPoly
    congr 1
    apply Finset.sum_congr rfl
    intro i _
    have h3 : sqNorm q * Real.sqrt (sqNorm q) ^ i = Real.sqrt (sqNorm q) ^ (i + 2) := by
      rw [pow_add, sq, h2]; ring
    rw [h3]

theorem map_eq (c : Cam) (v : V3) : map c v
    = c.scale • (poly c.m0 c.ms (atan2 (norm2 ⟨v.x, v.y⟩) v.z) • normalized2 ⟨v.x, v.y⟩ + c.center) := by
  unfold map
  simp only [polyLoop_poly]

theorem distance_smul {s : ℝ} (hs : 0 ≤ s) (p q : V2) : distance (s • p) (s • q) = s * distance p q := by
  unfold distance
  have : ((s • p).x - (s • q).x) ^ 2 + ((s • p).y - (s • q).y) ^ 2
      = s ^ 2 * ((p.x - q.x) ^ 2 + (p.y - q.y) ^ 2) := by simp; ring
  rw [this, Real.sqrt_mul (sq_nonneg s), Real.sqrt_sq hs]

/-! ## Normalization -/

theorem scaleLoop_length (s : ℝ) (ps : List ℝ) (sK : ℝ) : (scaleLoop s ps sK).length = ps.length := by
  induction ps generalizing sK with
  | nil => rfl
  | cons p ps ih => simp [scaleLoop, ih]

theorem scaleLoop_getD (s : ℝ) (ps : List ℝ) (sK : ℝ) (i : Nat) :
    (scaleLoop s ps sK).getD i 0 = ps.getD i 0 * (sK * s ^ i) := by
  induction ps generalizing sK i with
  | nil => simp [scaleLoop]
  | cons p ps ih =>
    cases i with
    | zero => simp [scaleLoop]
    | succ i =>
      simp only [scaleLoop, List.getD_cons_succ]
      rw [ih]
      ring

theorem depthPoly_scaled {s : ℝ} (hs : s ≠ 0) (p0 : ℝ) (ps : List ℝ) (ρ : ℝ) :
    depthPoly (p0 * (1 / s)) (scaleLoop s ps s) (ρ / s) = depthPoly p0 ps ρ / s := by
  unfold depthPoly
  rw [scaleLoop_length, add_div, Finset.sum_div]
  congr 1
  · ring
  · apply Finset.sum_congr rfl
    intro i _
    rw [scaleLoop_getD]
    have : s * s ^ i * (ρ / s) ^ (i + 2) = ρ ^ (i + 2) / s := by
      rw [div_pow]
      field_simp
      ring
    rw [mul_assoc, this]
    ring

theorem unmap_normalize (c : Cam) (hs : 0 < c.scale)
    (hn : 0 < farthestCorner c.width c.height (c.scale • c.center)) (p : V2) :
    unmap (normalize c) p
      = (c.scale / farthestCorner c.width c.height (c.scale • c.center)) • ray c.scale c.center c.p0 c.ps p := by
  rw [unmap_eq]
  unfold normalize
  simp only
  obtain ⟨n, hn'⟩ : ∃ n, n = farthestCorner c.width c.height (c.scale • c.center) := ⟨_, rfl⟩
  rw [← hn'] at hn ⊢
  have hs' : n / c.scale ≠ 0 := by positivity
  have hq : normalisedPixel n ⟨c.center.x / (n / c.scale), c.center.y / (n / c.scale)⟩ p
      = (c.scale / n) • normalisedPixel c.scale c.center p := by
    unfold normalisedPixel
    ext <;> simp <;> field_simp
  unfold ray
  simp only [hq]
  have hl : len ((c.scale / n) • normalisedPixel c.scale c.center p)
      = len (normalisedPixel c.scale c.center p) / (n / c.scale) := by
    rw [len_smul (by positivity)]; field_simp
  have e : c.scale / n = 1 / (n / c.scale) := by field_simp
  ext
  · simp
  · simp
  · simp only [hl, V3.smul_z]
    have := depthPoly_scaled hs' c.p0 c.ps (len (normalisedPixel c.scale c.center p))
    rw [e, this]
    ring

/-- Every point of the picture is at most as far from the center as the farthest corner. -/
theorem len_le_farthest (w h : Nat) (k : V2) (p : V2) (hx0 : 0 ≤ p.x) (hx : p.x ≤ w) (hy0 : 0 ≤ p.y)
    (hy : p.y ≤ h) : len (p - k) ≤ farthestCorner w h k := by
  have sqle : ∀ a b c t : ℝ, a ≤ t → t ≤ b → (t - c) ^ 2 ≤ max ((a - c) ^ 2) ((b - c) ^ 2) := by
    intro a b c t h1 h2
    rcases le_total t c with h | h
    · exact le_max_of_le_left (by nlinarith)
    · exact le_max_of_le_right (by nlinarith)
  have h1 := sqle 0 w k.x p.x hx0 hx
  have h2 := sqle 0 h k.y p.y hy0 hy
  unfold farthestCorner
  simp only [norm2_len]
  have key : ∀ q : V2, (p.x - k.x) ^ 2 ≤ (q.x - k.x) ^ 2 → (p.y - k.y) ^ 2 ≤ (q.y - k.y) ^ 2 →
      len (p - k) ≤ len (q - k) := by
    intro q ha hb
    unfold len
    apply Real.sqrt_le_sqrt
    simp only [sub_x, sub_y]
    linarith
  rcases le_max_iff.1 h1 with a | a <;> rcases le_max_iff.1 h2 with b | b
  · exact le_trans (key ⟨0, 0⟩ a b) (le_trans (le_max_left _ _) (le_max_left _ _))
  · exact le_trans (key ⟨0, h⟩ a b) (le_trans (le_max_left _ _) (le_max_right _ _))
  · exact le_trans (key ⟨w, 0⟩ a b) (le_trans (le_max_right _ _) (le_max_left _ _))
  · exact le_trans (key ⟨w, h⟩ a b) (le_trans (le_max_right _ _) (le_max_right _ _))

theorem farthest_pos {w h : Nat} (hw : 0 < w) (k : V2) : 0 < farthestCorner w h k := by
  have h0 := len_le_farthest w h k ⟨0, 0⟩ le_rfl (Nat.cast_nonneg _) le_rfl (Nat.cast_nonneg _)
  have h1 := len_le_farthest w h k ⟨w, 0⟩ (Nat.cast_nonneg _) le_rfl le_rfl (Nat.cast_nonneg _)
  by_contra hc
  have z0 : len ((⟨0, 0⟩ : V2) - k) = 0 := le_antisymm (by linarith [not_lt.1 hc]) (len_nonneg _)
  have z1 : len ((⟨w, 0⟩ : V2) - k) = 0 := le_antisymm (by linarith [not_lt.1 hc]) (len_nonneg _)
  have a := ((len_zero_iff _).1 z0).1
  have b := ((len_zero_iff _).1 z1).1
  simp only [sub_x] at a b
  have : (0 : ℝ) < w := Nat.cast_pos.2 hw
  linarith

/-! ## Constructors -/

theorem setMap_ok {solve : List (ℝ × ℝ) → Nat → ℝ × List ℝ} {deg : Nat} {samples : List ℝ} {c d : Cam}
    (h : setMapPolyCoeffs solve deg samples c = .ok d) :
    ∃ graph : List (ℝ × ℝ), graph.Perm (samples.map (graphPoint c)) ∧ nonDecreasing graph ∧
      d = { c with m0 := (solve graph deg).1, ms := (solve graph deg).2 } := by
  unfold setMapPolyCoeffs at h
  simp only at h
  split at h
  · rename_i hn
    cases h
    exact ⟨_, (List.mergeSort_perm _ _).map _, hn, rfl⟩
  · cases h

theorem ofPoly_ok {solve : List (ℝ × ℝ) → Nat → ℝ × List ℝ} {deg : Nat} {samples : List ℝ} {w h : Nat}
    {scale : ℝ} {center : V2} {cs : List ℝ} {d : Cam}
    (hd : ofPoly solve deg samples w h scale center cs = .ok d) :
    ∃ p0 ps, cs = p0 :: ps ∧ setMapPolyCoeffs solve deg samples
      (normalize ⟨w, h, p0, ps, center, scale, 0, 0, 0, 0, []⟩) = .ok d := by
  cases cs with
  | nil => cases hd
  | cons p0 ps => exact ⟨p0, ps, rfl, hd⟩

end Mdso.Cam
