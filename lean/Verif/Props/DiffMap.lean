import Verif.Model.DiffMap
import Verif.Spec.DiffMap
import Verif.Lemmas.CameraModel
import Verif.Lemmas.TraceDemo
import Mathlib.Analysis.SpecialFunctions.Sqrt
import Mathlib.Analysis.SpecialFunctions.Trigonometric.ArctanDeriv
import Mathlib.Analysis.Calculus.FDeriv.Mul
import Mathlib.Analysis.Calculus.Deriv.Inv

/-!
# The Jacobian of the projection
-/

set_option autoImplicit false

namespace Mdso.Cam

open Mdso.Geom Mdso.CamSpec

theorem lin_apply (g : V3) (q : ℝ × ℝ × ℝ) : lin g q = g.x * q.1 + g.y * q.2.1 + g.z * q.2.2 := by
  simp [lin]

theorem lin_add (v w : V3) : lin (v + w) = lin v + lin w := by
  apply ContinuousLinearMap.ext; intro q
  simp only [ContinuousLinearMap.add_apply, lin_apply, V3.add_x, V3.add_y, V3.add_z]; ring

theorem lin_sub (v w : V3) : lin (v - w) = lin v - lin w := by
  apply ContinuousLinearMap.ext; intro q
  simp only [ContinuousLinearMap.sub_apply, lin_apply, V3.sub_x, V3.sub_y, V3.sub_z]; ring

theorem lin_smul (s : ℝ) (v : V3) : lin (s • v) = s • lin v := by
  apply ContinuousLinearMap.ext; intro q
  simp only [ContinuousLinearMap.smul_apply, lin_apply, V3.smul_x, V3.smul_y, V3.smul_z, smul_eq_mul]; ring

theorem lin_zero : lin 0 = 0 := by
  apply ContinuousLinearMap.ext; intro q
  simp [lin_apply]

/-- A dual number is the value and the gradient of a function at a point. -/
def Tracks (j : Jet) (f : ℝ × ℝ × ℝ → ℝ) (p : ℝ × ℝ × ℝ) : Prop :=
  j.a = f p ∧ ∃ v, j.v = some v ∧ HasFDerivAt f (lin v) p

theorem tracks_const (s : ℝ) (p : ℝ × ℝ × ℝ) : Tracks (Jet.const s) (fun _ => s) p :=
  ⟨rfl, 0, rfl, by rw [lin_zero]; exact hasFDerivAt_const s p⟩

theorem tracks_add {j k : Jet} {f g : ℝ × ℝ × ℝ → ℝ} {p : ℝ × ℝ × ℝ} (hj : Tracks j f p) (hk : Tracks k g p) :
    Tracks (Jet.add j k) (fun q => f q + g q) p := by
  obtain ⟨ja, v, jv, hv⟩ := hj
  obtain ⟨ka, w, kv, hw⟩ := hk
  refine ⟨by simp [Jet.add, ja, ka], v + w, by simp [Jet.add, jv, kv, Jet.lift2], ?_⟩
  rw [lin_add]; exact hv.add hw

theorem tracks_mul {j k : Jet} {f g : ℝ × ℝ × ℝ → ℝ} {p : ℝ × ℝ × ℝ} (hj : Tracks j f p) (hk : Tracks k g p) :
    Tracks (Jet.mul j k) (fun q => f q * g q) p := by
  obtain ⟨ja, v, jv, hv⟩ := hj
  obtain ⟨ka, w, kv, hw⟩ := hk
  refine ⟨by simp [Jet.mul, ja, ka], f p • w + g p • v, by simp [Jet.mul, jv, kv, Jet.lift2, ja, ka], ?_⟩
  rw [lin_add, lin_smul, lin_smul]; exact hv.mul hw

theorem tracks_div {j k : Jet} {f g : ℝ × ℝ × ℝ → ℝ} {p : ℝ × ℝ × ℝ} (hj : Tracks j f p) (hk : Tracks k g p)
    (h0 : g p ≠ 0) : Tracks (Jet.div j k) (fun q => f q / g q) p := by
  obtain ⟨ja, v, jv, hv⟩ := hj
  obtain ⟨ka, w, kv, hw⟩ := hk
  refine ⟨by simp [Jet.div, ja, ka], (1 / g p) • (v - (f p / g p) • w),
    by simp [Jet.div, jv, kv, Jet.lift2, ja, ka, h0], ?_⟩
  have hi : HasFDerivAt (fun q => (g q)⁻¹) ((-(g p ^ 2)⁻¹) • lin w) p :=
    (hasDerivAt_inv h0).comp_hasFDerivAt p hw
  have hm := hv.mul hi
  have he : lin ((1 / g p) • (v - (f p / g p) • w)) = f p • ((-(g p ^ 2)⁻¹) • lin w) + (g p)⁻¹ • lin v := by
    apply ContinuousLinearMap.ext; intro q
    rw [lin_smul, lin_sub, lin_smul]
    simp only [ContinuousLinearMap.smul_apply, ContinuousLinearMap.sub_apply, ContinuousLinearMap.add_apply,
      smul_eq_mul]
    field_simp
    ring
  rw [he]
  exact hm

theorem tracks_sqrt {j : Jet} {f : ℝ × ℝ × ℝ → ℝ} {p : ℝ × ℝ × ℝ} (hj : Tracks j f p) (h0 : 0 < f p) :
    Tracks (Jet.sqrt j) (fun q => Real.sqrt (f q)) p := by
  obtain ⟨ja, v, jv, hv⟩ := hj
  have hs : Real.sqrt (f p) ≠ 0 := (Real.sqrt_pos.2 h0).ne'
  refine ⟨by simp [Jet.sqrt, ja], (1 / (2 * Real.sqrt (f p))) • v, by simp [Jet.sqrt, ja, jv, hs], ?_⟩
  rw [lin_smul]
  exact hv.sqrt h0.ne'

/-- For points above the axis of `x` the argument is given by the arctangent. -/
theorem atan2_arctan {n : ℝ} (z : ℝ) (hn : 0 < n) : atan2 n z = Real.pi / 2 - Real.arctan (z / n) := by
  unfold atan2
  have hs : 0 < Real.sqrt (1 + (z / n) ^ 2) := Real.sqrt_pos.2 (by positivity)
  have h1 := Real.neg_pi_div_two_lt_arctan (z / n)
  have h2 := Real.arctan_lt_pi_div_two (z / n)
  have key := Complex.arg_mul_cos_add_sin_mul_I (r := n * Real.sqrt (1 + (z / n) ^ 2)) (by positivity)
    (θ := Real.pi / 2 - Real.arctan (z / n)) ⟨by linarith [Real.pi_pos], by linarith⟩
  rw [← key]
  congr 1
  apply Complex.ext
  · have : Real.sqrt (1 + (z / n) ^ 2) * (z / n / Real.sqrt (1 + (z / n) ^ 2)) = z / n := by field_simp
    simp only [← Complex.ofReal_cos, ← Complex.ofReal_sin, Real.cos_pi_div_two_sub, Real.sin_pi_div_two_sub,
      Real.sin_arctan, Real.cos_arctan]
    simp only [Complex.add_re, Complex.ofReal_re, Complex.mul_re, Complex.I_re, mul_zero,
      Complex.ofReal_im, zero_mul, sub_zero, add_zero]
    rw [mul_assoc, this]; field_simp
  · have : Real.sqrt (1 + (z / n) ^ 2) * (1 / Real.sqrt (1 + (z / n) ^ 2)) = 1 := by field_simp
    simp only [← Complex.ofReal_cos, ← Complex.ofReal_sin, Real.cos_pi_div_two_sub, Real.sin_pi_div_two_sub,
      Real.sin_arctan, Real.cos_arctan]
    simp only [Complex.add_im, Complex.ofReal_im, Complex.mul_im, Complex.I_im, mul_one,
      Complex.ofReal_re, Complex.I_re, mul_zero, zero_add, add_zero]
    rw [mul_assoc, this]; ring

theorem tracks_atan2 {j k : Jet} {f g : ℝ × ℝ × ℝ → ℝ} {p : ℝ × ℝ × ℝ} (hj : Tracks j f p) (hk : Tracks k g p)
    (h0 : 0 < f p) : Tracks (Jet.atan2 j k) (fun q => atan2 (f q) (g q)) p := by
  obtain ⟨ja, v, jv, hv⟩ := hj
  obtain ⟨ka, w, kv, hw⟩ := hk
  have hd : g p * g p + f p * f p ≠ 0 := by nlinarith [mul_self_nonneg (g p), mul_pos h0 h0]
  refine ⟨by simp [Jet.atan2, ja, ka], (1 / (g p * g p + f p * f p)) • ((-(f p)) • w + g p • v),
    by simp [Jet.atan2, jv, kv, Jet.lift2, ja, ka, hd], ?_⟩
  have hq : HasFDerivAt (fun q => g q / f q) (lin ((1 / f p) • (w - (g p / f p) • v))) p := by
    obtain ⟨-, u, hu, hd⟩ := tracks_div (j := k) (k := j) ⟨ka, w, kv, hw⟩ ⟨ja, v, jv, hv⟩ h0.ne'
    have : u = (1 / f p) • (w - (g p / f p) • v) := by
      have h2 : (Jet.div k j).v = some ((1 / f p) • (w - (g p / f p) • v)) := by
        simp [Jet.div, jv, kv, Jet.lift2, ja, ka, h0.ne']
      rw [h2] at hu; exact (Option.some.inj hu).symm
    rw [← this]; exact hd
  have ha := hq.arctan
  have hs := ha.const_sub (Real.pi / 2)
  have he : lin ((1 / (g p * g p + f p * f p)) • ((-(f p)) • w + g p • v))
      = -((1 / (1 + (g p / f p) ^ 2)) • lin ((1 / f p) • (w - (g p / f p) • v))) := by
    apply ContinuousLinearMap.ext; intro q
    simp only [lin_smul, lin_sub, lin_add, ContinuousLinearMap.smul_apply, ContinuousLinearMap.sub_apply,
      ContinuousLinearMap.add_apply, ContinuousLinearMap.neg_apply, smul_eq_mul]
    have hd2 : f p ^ 2 + g p ^ 2 ≠ 0 := by nlinarith [sq_nonneg (g p), mul_pos h0 h0]
    have hd3 : g p ^ 2 + f p ^ 2 ≠ 0 := by rw [add_comm]; exact hd2
    field_simp
    ring
  rw [he]
  refine hs.congr_of_eventuallyEq ?_
  have hc : ContinuousAt f p := hv.continuousAt
  filter_upwards [hc.eventually_const_lt h0] with q hq
  exact atan2_arctan (g q) hq

theorem tracks_polyLoop {j : Jet} {f : ℝ × ℝ × ℝ → ℝ} {p : ℝ × ℝ × ℝ} (hj : Tracks j f p) (ms : List ℝ) {k r : Jet}
    {g h : ℝ × ℝ × ℝ → ℝ} (hk : Tracks k g p) (hr : Tracks r h p) :
    Tracks (Jet.polyLoop j ms k r) (fun q => polyLoop (f q) ms (g q) (h q)) p := by
  induction ms generalizing k r g h with
  | nil => exact hr
  | cons m ms ih =>
    simp only [Jet.polyLoop, polyLoop]
    exact ih (tracks_mul hk hj) (tracks_add hr (tracks_mul (tracks_const m p) hk))

theorem tracks_ray (v : V3) : Tracks (rayJet v).1 (fun q => q.1) (v.x, v.y, v.z) ∧
    Tracks (rayJet v).2.1 (fun q => q.2.1) (v.x, v.y, v.z) ∧
    Tracks (rayJet v).2.2 (fun q => q.2.2) (v.x, v.y, v.z) := by
  have h1 : lin ⟨1, 0, 0⟩ = ContinuousLinearMap.fst ℝ ℝ (ℝ × ℝ) := by
    apply ContinuousLinearMap.ext; intro q; simp [lin_apply]
  have h2 : lin ⟨0, 1, 0⟩ = (ContinuousLinearMap.fst ℝ ℝ ℝ).comp (ContinuousLinearMap.snd ℝ ℝ (ℝ × ℝ)) := by
    apply ContinuousLinearMap.ext; intro q; simp [lin_apply]
  have h3 : lin ⟨0, 0, 1⟩ = (ContinuousLinearMap.snd ℝ ℝ ℝ).comp (ContinuousLinearMap.snd ℝ ℝ (ℝ × ℝ)) := by
    apply ContinuousLinearMap.ext; intro q; simp [lin_apply]
  refine ⟨⟨rfl, _, rfl, ?_⟩, ⟨rfl, _, rfl, ?_⟩, ⟨rfl, _, rfl, ?_⟩⟩
  · rw [h1]; exact hasFDerivAt_fst
  · rw [h2]; exact ((ContinuousLinearMap.fst ℝ ℝ ℝ).comp (ContinuousLinearMap.snd ℝ ℝ (ℝ × ℝ))).hasFDerivAt
  · rw [h3]; exact ((ContinuousLinearMap.snd ℝ ℝ ℝ).comp (ContinuousLinearMap.snd ℝ ℝ (ℝ × ℝ))).hasFDerivAt

/-- The two coordinates of `map`, written with quotients. -/
theorem map_coords (c : Cam) (q : V3) (h : 0 < q.x * q.x + q.y * q.y) :
    map c q = ⟨(q.x / Real.sqrt (q.x * q.x + q.y * q.y) * polyLoop (atan2 (Real.sqrt (q.x * q.x + q.y * q.y)) q.z) c.ms
        (atan2 (Real.sqrt (q.x * q.x + q.y * q.y)) q.z) c.m0 + c.center.x) * c.scale,
      (q.y / Real.sqrt (q.x * q.x + q.y * q.y) * polyLoop (atan2 (Real.sqrt (q.x * q.x + q.y * q.y)) q.z) c.ms
        (atan2 (Real.sqrt (q.x * q.x + q.y * q.y)) q.z) c.m0 + c.center.y) * c.scale⟩ := by
  have hn : normalized2 ⟨q.x, q.y⟩ = (1 / Real.sqrt (q.x * q.x + q.y * q.y)) • (⟨q.x, q.y⟩ : V2) := by
    unfold normalized2
    rw [if_pos (show 0 < sqNorm ⟨q.x, q.y⟩ from h)]; rfl
  simp only [map, hn, norm2, sqNorm]
  ext <;> simp only [smul_x, smul_y, add_x, add_y] <;> ring

theorem tracks_map (c : Cam) (v : V3) (h : 0 < v.x * v.x + v.y * v.y) :
    let j := mapJ c (rayJet v).1 (rayJet v).2.1 (rayJet v).2.2
    Tracks j.1 (fun q => (map c ⟨q.1, q.2.1, q.2.2⟩).x) (v.x, v.y, v.z) ∧
    Tracks j.2 (fun q => (map c ⟨q.1, q.2.1, q.2.2⟩).y) (v.x, v.y, v.z) := by
  obtain ⟨hx, hy, hz⟩ := tracks_ray v
  have hsq := tracks_add (tracks_mul hx hx) (tracks_mul hy hy)
  have hs := tracks_sqrt hsq h
  have hspos : 0 < Real.sqrt (v.x * v.x + v.y * v.y) := Real.sqrt_pos.2 h
  have ha := tracks_atan2 hs hz hspos
  have hr := tracks_polyLoop ha c.ms ha (tracks_const c.m0 _)
  have hd1 := tracks_div hx hs hspos.ne'
  have hd2 := tracks_div hy hs hspos.ne'
  have hx' := tracks_mul (tracks_add (tracks_mul hd1 hr) (tracks_const c.center.x _)) (tracks_const c.scale _)
  have hy' := tracks_mul (tracks_add (tracks_mul hd2 hr) (tracks_const c.center.y _)) (tracks_const c.scale _)
  have hval : 0 < (sqNormJ (rayJet v).1 (rayJet v).2.1).a := h
  have hev : ∀ᶠ q : ℝ × ℝ × ℝ in nhds (v.x, v.y, v.z), 0 < q.1 * q.1 + q.2.1 * q.2.1 := by
    have hc : ContinuousAt (fun q : ℝ × ℝ × ℝ => q.1 * q.1 + q.2.1 * q.2.1) (v.x, v.y, v.z) := by fun_prop
    exact hc.eventually_const_lt h
  have fin : ∀ {j : Jet} {f g : ℝ × ℝ × ℝ → ℝ}, Tracks j f (v.x, v.y, v.z) →
      (∀ q : ℝ × ℝ × ℝ, 0 < q.1 * q.1 + q.2.1 * q.2.1 → g q = f q) → Tracks j g (v.x, v.y, v.z) := by
    intro j f g ht he
    obtain ⟨e, w, ew, hw⟩ := ht
    refine ⟨by rw [e, he _ h], w, ew, hw.congr_of_eventuallyEq ?_⟩
    filter_upwards [hev] with q hq
    exact he q hq
  simp only [mapJ, normalizedJ, hval, if_true]
  exact ⟨fin hx' fun q hq => by rw [map_coords c _ hq], fin hy' fun q hq => by rw [map_coords c _ hq]⟩

/-- **C125.** For every camera and every ray off the axis of the camera, `diffMap` returns the position `map` gives
for the ray, and numbers that are the exact derivatives of both coordinates of `map` at the ray. -/
theorem C125_jacobian_partial (c : Cam) (ray : V3) (off : ¬ (ray.x = 0 ∧ ray.y = 0)) :
    (diffMap c ray).1 = map c ray ∧
    ∃ gx gy, (diffMap c ray).2 = (some gx, some gy) ∧
      HasGradient (fun q => (map c q).x) gx ray ∧ HasGradient (fun q => (map c q).y) gy ray := by
  have h : 0 < ray.x * ray.x + ray.y * ray.y := by
    rcases not_and_or.1 off with hx | hy
    · nlinarith [mul_self_pos.2 hx, mul_self_nonneg ray.y]
    · nlinarith [mul_self_pos.2 hy, mul_self_nonneg ray.x]
  obtain ⟨⟨ex, gx, vx, hx⟩, ⟨ey, gy, vy, hy⟩⟩ := tracks_map c ray h
  refine ⟨?_, gx, gy, ?_, hx, hy⟩
  · ext
    · exact ex
    · exact ey
  · exact Prod.ext vx vy

/-- A camera to which all rays belong, and a ray off its axis. -/
example : ¬ ((⟨1, 0, 1⟩ : V3).x = 0 ∧ (⟨1, 0, 1⟩ : V3).y = 0) := by norm_num

/-- **C125, the position.** Also on the axis the position is that of `map`. -/
theorem C125_position (c : Cam) (ray : V3) : (diffMap c ray).1 = map c ray := by
  by_cases off : ray.x = 0 ∧ ray.y = 0
  · obtain ⟨hx, hy⟩ := off
    ext
    · simp [diffMap, mapJ, rayJet, normalizedJ, sqNormJ, Jet.mul, Jet.add, Jet.const, hx, hy, map, normalized2, sqNorm,
        mul_comm]
    · simp [diffMap, mapJ, rayJet, normalizedJ, sqNormJ, Jet.mul, Jet.add, Jet.const, hx, hy, map, normalized2, sqNorm,
        mul_comm]
  · exact (C125_jacobian_partial c ray off).1

/-- A camera that maps angles linearly to radii. -/
def plainCam : Cam := ⟨2, 2, 1, [], ⟨0, 0⟩, 1, 1, 0, 0, 0, [1]⟩

/-- **C125 is violated on the axis.** For a camera that maps angles linearly to radii, `map` has all partial
derivatives at the ray `(0, 0, 1)`, but those `diffMap` returns are not numbers. -/
theorem C125_axis_violated : (diffMap plainCam ⟨0, 0, 1⟩).2 = (none, none) ∧
    HasDerivAt (fun t => (map plainCam ⟨t, 0, 1⟩).x) 1 0 ∧ HasDerivAt (fun t => (map plainCam ⟨t, 0, 1⟩).y) 0 0 ∧
    HasDerivAt (fun t => (map plainCam ⟨0, t, 1⟩).x) 0 0 ∧ HasDerivAt (fun t => (map plainCam ⟨0, t, 1⟩).y) 1 0 ∧
    HasDerivAt (fun t => (map plainCam ⟨0, 0, t⟩).x) 0 1 ∧ HasDerivAt (fun t => (map plainCam ⟨0, 0, t⟩).y) 0 1 := by
  have hat : ∀ t : ℝ, 0 < t * t → 1 / Real.sqrt (t * t) * t * atan2 (Real.sqrt (t * t)) 1 = Real.arctan t := by
    intro t ht
    have hs : Real.sqrt (t * t) = |t| := Real.sqrt_mul_self_eq_abs t
    rw [hs]
    have ht0 : t ≠ 0 := by rintro rfl; simp at ht
    have hp : 0 < |t| := abs_pos.2 ht0
    rw [atan2_arctan 1 hp, one_div |t|, Real.arctan_inv_of_pos hp]
    rcases lt_or_gt_of_ne ht0 with hn | hn
    · rw [abs_of_neg hn, Real.arctan_neg]; field_simp; ring
    · rw [abs_of_pos hn]; field_simp; ring
  have hx : ∀ t : ℝ, map plainCam ⟨t, 0, 1⟩ = ⟨Real.arctan t, 0⟩ := by
    intro t
    by_cases ht : 0 < t * t
    · have := hat t ht
      ext
      · simp only [map, normalized2, norm2, sqNorm, plainCam, polyLoop, mul_zero, add_zero, ht, if_true, smul_x, add_x]
        rw [← this]; ring
      · simp [map, normalized2, norm2, sqNorm, plainCam, polyLoop]
        split <;> simp
    · have h0 : t = 0 := by
        by_contra hne; exact ht (mul_self_pos.2 hne)
      subst h0
      ext <;> simp [map, normalized2, sqNorm, plainCam, polyLoop]
  have hy : ∀ t : ℝ, map plainCam ⟨0, t, 1⟩ = ⟨0, Real.arctan t⟩ := by
    intro t
    by_cases ht : 0 < t * t
    · have := hat t ht
      ext
      · simp [map, normalized2, norm2, sqNorm, plainCam, polyLoop]
        split <;> simp
      · simp only [map, normalized2, norm2, sqNorm, plainCam, polyLoop, mul_zero, zero_add, add_zero, ht, if_true,
          smul_y, add_y]
        rw [← this]; ring
    · have h0 : t = 0 := by
        by_contra hne; exact ht (mul_self_pos.2 hne)
      subst h0
      ext <;> simp [map, normalized2, sqNorm, plainCam, polyLoop]
  have hz : ∀ t : ℝ, map plainCam ⟨0, 0, t⟩ = ⟨0, 0⟩ := by
    intro t
    ext <;> simp [map, normalized2, sqNorm, plainCam]
  have h1 : HasDerivAt Real.arctan 1 0 := by
    have := Real.hasDerivAt_arctan 0
    simpa using this
  refine ⟨?_, ?_, ?_, ?_, ?_, ?_, ?_⟩
  · simp [diffMap, mapJ, rayJet, normalizedJ, sqNormJ, Jet.mul, Jet.add, Jet.const, Jet.sqrt, Jet.atan2, Jet.polyLoop,
      Jet.lift2, plainCam]
  · simpa only [hx] using h1
  · simpa only [hx] using hasDerivAt_const (0 : ℝ) (0 : ℝ)
  · simpa only [hy] using hasDerivAt_const (0 : ℝ) (0 : ℝ)
  · simpa only [hy] using h1
  · simpa only [hz] using hasDerivAt_const (1 : ℝ) (0 : ℝ)
  · simpa only [hz] using hasDerivAt_const (1 : ℝ) (0 : ℝ)

theorem polyLoop_none (j : Jet) (ms : List ℝ) (k r : Jet) (hr : r.v = none) : (Jet.polyLoop j ms k r).v = none := by
  induction ms generalizing k r with
  | nil => exact hr
  | cons m ms ih =>
    simp only [Jet.polyLoop]
    apply ih
    simp [Jet.add, Jet.lift2, hr]

/-- On the axis the derivatives are never numbers. -/
theorem axis_none (c : Cam) (hms : c.ms ≠ []) (ray : V3) (hx : ray.x = 0) (hy : ray.y = 0) :
    (diffMap c ray).2 = (none, none) := by
  have hang : (Jet.atan2 (Jet.sqrt (sqNormJ (rayJet ray).1 (rayJet ray).2.1)) (rayJet ray).2.2).v = none := by
    simp [sqNormJ, rayJet, Jet.mul, Jet.add, Jet.sqrt, Jet.atan2, Jet.lift2, hx, hy]
  have hr : ∀ j : Jet, j.v = none → (Jet.polyLoop j c.ms j (Jet.const c.m0)).v = none := by
    intro j hj
    cases hc : c.ms with
    | nil => exact absurd hc hms
    | cons m ms =>
      simp only [Jet.polyLoop]
      apply polyLoop_none
      simp [Jet.add, Jet.mul, Jet.lift2, Jet.const, hj]
  have hr := hr _ hang
  have hm : ∀ (j k : Jet), k.v = none → (Jet.mul j k).v = none := by
    intro j k hk
    unfold Jet.mul Jet.lift2
    rw [hk]; cases j.v <;> rfl
  have hm2 : ∀ (j k : Jet), j.v = none → (Jet.mul j k).v = none := by
    intro j k hk
    unfold Jet.mul Jet.lift2
    rw [hk]
  have ha : ∀ (j k : Jet), j.v = none → (Jet.add j k).v = none := by
    intro j k hk
    unfold Jet.add Jet.lift2
    rw [hk]
  exact Prod.ext (hm2 _ _ (ha _ _ (hm _ _ hr))) (hm2 _ _ (ha _ _ (hm _ _ hr)))

theorem jacobianTimes_axis (c : Cam) (hms : c.ms ≠ []) (ray v : V3) (hx : ray.x = 0) (hy : ray.y = 0) :
    jacobianTimes c ray v = ⟨0, 0⟩ := by
  unfold jacobianTimes
  rw [axis_none c hms ray hx hy]

/-- The chain rule along a straight line of directions. -/
theorem curve_deriv {f : V3 → ℝ} {g : V3} (dirMax dirMin : V3) (a : ℝ)
    (h : HasGradient f g (Trace.dirAt dirMax dirMin a)) :
    HasDerivAt (fun t => f (Trace.dirAt dirMax dirMin t)) (g.dot (dirMin - dirMax)) a := by
  have hl : HasDerivAt (fun t : ℝ => ((Trace.dirAt dirMax dirMin t).x, (Trace.dirAt dirMax dirMin t).y,
      (Trace.dirAt dirMax dirMin t).z)) (dirMin.x - dirMax.x, dirMin.y - dirMax.y, dirMin.z - dirMax.z) a := by
    have one : ∀ p q : ℝ, HasDerivAt (fun t : ℝ => (1 - t) * p + t * q) (q - p) a := by
      intro p q
      have h1 := ((hasDerivAt_id a).const_sub 1).mul_const p
      have h2 := (hasDerivAt_id a).mul_const q
      exact (h1.add h2).congr_deriv (by ring)
    exact (one _ _).prodMk ((one _ _).prodMk (one _ _))
  have h' : HasFDerivAt (fun q : ℝ × ℝ × ℝ => f ⟨q.1, q.2.1, q.2.2⟩) (lin g)
      ((fun t : ℝ => ((Trace.dirAt dirMax dirMin t).x, (Trace.dirAt dirMax dirMin t).y,
        (Trace.dirAt dirMax dirMin t).z)) a) := h
  exact (h'.comp_hasDerivAt a hl).congr_deriv (by rw [lin_apply])

/-- **C126.** Every position the epipolar search examines in one sweep is the projection of a direction between the
two ends of the curve, and from each to the next the projection moves by exactly one pixel as far as the derivative
of the curve tells. -/
theorem C126_one_pixel_partial (c : Cam) (hms : c.ms ≠ []) (e : Trace.Env) (PH : Int) (he : e.cam = asTraced c PH)
    (dirMax dirMin : V3) (fuel : Nat) (alpha : ℝ) (cnt : Nat) (found : List (V2 × V3)) (last : Option ℝ)
    (hsweep : Trace.sweep e dirMax dirMin fuel alpha cnt = some (found, last)) :
    ∃ alphas : List ℝ, alphas.head? = some alpha ∧
      found = alphas.map (fun a => (map c (Trace.dirAt dirMax dirMin a), Trace.dirAt dirMax dirMin a)) ∧
      alphas.IsChain (OnePixel fun t => map c (Trace.dirAt dirMax dirMin t)) := by
  induction fuel generalizing alpha cnt found last with
  | zero => simp [Trace.sweep] at hsweep
  | succ fuel ih =>
    have hmap : e.cam.map = map c := by rw [he]; rfl
    have hjac : e.cam.jacobian = jacobianTimes c := by rw [he]; rfl
    have single : ∃ alphas : List ℝ, alphas.head? = some alpha ∧
        [(map c (Trace.dirAt dirMax dirMin alpha), Trace.dirAt dirMax dirMin alpha)]
          = alphas.map (fun a => (map c (Trace.dirAt dirMax dirMin a), Trace.dirAt dirMax dirMin a)) ∧
        alphas.IsChain (OnePixel fun t => map c (Trace.dirAt dirMax dirMin t)) :=
      ⟨[alpha], rfl, rfl, by simp⟩
    simp only [Trace.sweep, hmap, hjac] at hsweep
    by_cases hc : e.s.performFullTracing = false ∧ ((cnt + 1 : Nat) : Int) ≥ Trace.maxSearchCount e
    · rw [if_pos hc] at hsweep
      obtain ⟨rfl, -⟩ := Prod.mk.inj (Option.some.inj hsweep)
      exact single
    · rw [if_neg hc] at hsweep
      by_cases hs : norm2 (jacobianTimes c (Trace.dirAt dirMax dirMin alpha) (dirMax - dirMin)) = 0
      · simp only [hs, if_true] at hsweep
        obtain ⟨rfl, -⟩ := Prod.mk.inj (Option.some.inj hsweep)
        exact single
      · simp only [hs, if_false] at hsweep
        split at hsweep
        · obtain ⟨speed, hspeed⟩ : ∃ v, v = norm2 (jacobianTimes c (Trace.dirAt dirMax dirMin alpha) (dirMax - dirMin)) :=
            ⟨_, rfl⟩
          rw [← hspeed] at hsweep hs
          cases hrec : Trace.sweep e dirMax dirMin fuel (alpha + 1 / speed) (cnt + 1) with
          | none => rw [hrec] at hsweep; simp at hsweep
          | some r =>
            rw [hrec] at hsweep
            obtain ⟨rfl, -⟩ := Prod.mk.inj (Option.some.inj hsweep)
            obtain ⟨alphas, hhead, hfound, hchain⟩ := ih _ _ r.1 r.2 hrec
            cases alphas with
            | nil => simp at hhead
            | cons b rest =>
              have hb : b = alpha + 1 / speed := by simpa using hhead
              refine ⟨alpha :: b :: rest, rfl, by rw [hfound]; rfl, ?_⟩
              rw [List.isChain_cons_cons]
              refine ⟨?_, hchain⟩
              have off : ¬ ((Trace.dirAt dirMax dirMin alpha).x = 0 ∧ (Trace.dirAt dirMax dirMin alpha).y = 0) := by
                rintro ⟨hx, hy⟩
                apply hs
                rw [hspeed, jacobianTimes_axis c hms _ _ hx hy]
                simp [norm2, sqNorm]
              obtain ⟨-, gx, gy, hg, hgx, hgy⟩ := C125_jacobian_partial c _ off
              have hsp : speed = Real.sqrt ((gx.dot (dirMax - dirMin)) * (gx.dot (dirMax - dirMin))
                  + (gy.dot (dirMax - dirMin)) * (gy.dot (dirMax - dirMin))) := by
                rw [hspeed]; unfold jacobianTimes; rw [hg]; rfl
              have hpos : 0 < speed := lt_of_le_of_ne (by rw [hsp]; exact Real.sqrt_nonneg _) (Ne.symm hs)
              have hsq : speed * speed = (gx.dot (dirMax - dirMin)) * (gx.dot (dirMax - dirMin))
                  + (gy.dot (dirMax - dirMin)) * (gy.dot (dirMax - dirMin)) := by
                rw [hsp]; exact Real.mul_self_sqrt (add_nonneg (mul_self_nonneg _) (mul_self_nonneg _))
              have flip : ∀ g : V3, g.dot (dirMin - dirMax) = - g.dot (dirMax - dirMin) := by
                intro g; simp only [V3.dot, V3.sub_x, V3.sub_y, V3.sub_z]; ring
              refine ⟨?_, _, _, curve_deriv dirMax dirMin alpha hgx, curve_deriv dirMax dirMin alpha hgy, ?_⟩
              · rw [hb]; have := one_div_pos.2 hpos; linarith
              · rw [hb, flip, flip]
                have : alpha + 1 / speed - alpha = 1 / speed := by ring
                rw [this]
                field_simp
                linarith
        · obtain ⟨rfl, -⟩ := Prod.mk.inj (Option.some.inj hsweep)
          exact single

/-- **C126 is violated on the axis.** When the curve starts at a ray on the axis of the camera, the sweep ends after
one position, however long the curve is. -/
theorem C126_axis_violated (c : Cam) (hms : c.ms ≠ []) (e : Trace.Env) (PH : Int) (he : e.cam = asTraced c PH)
    (dirMax dirMin : V3) (hx : dirMax.x = 0) (hy : dirMax.y = 0) (fuel : Nat) :
    ∃ last, Trace.sweep e dirMax dirMin (fuel + 1) 0 0 = some ([(map c dirMax, dirMax)], last) := by
  have hd : Trace.dirAt dirMax dirMin 0 = dirMax := by
    ext <;> simp [Trace.dirAt]
  have hmap : e.cam.map = map c := by rw [he]; rfl
  have hjac : e.cam.jacobian = jacobianTimes c := by rw [he]; rfl
  have hz : norm2 (⟨0, 0⟩ : V2) = 0 := by simp [norm2, sqNorm]
  simp only [Trace.sweep, hmap, hjac, hd, jacobianTimes_axis c hms _ _ hx hy, hz, if_true]
  split
  · exact ⟨_, rfl⟩
  · exact ⟨_, rfl⟩

/-- The same kind of camera with a picture of 200 by 200 pixels. -/
def wideCam : Cam := ⟨200, 200, 1, [], ⟨1, 1⟩, 100, 1, 0, 0, 0, [1]⟩

/-- An environment with that camera, and a search of two positions. -/
noncomputable def wideEnv : Trace.Env :=
  { Trace.Demo.env ⟨0, 0, 10⟩ with
    cam := asTraced wideCam 0
    s := { Trace.Demo.settings ⟨0, 0, 10⟩ with maxSearchRel := 2 / 400 } }

theorem wide_jacobian : jacobianTimes wideCam ⟨1, 0, 1⟩ ⟨1 / 2, 0, 0⟩ = ⟨25, 0⟩ := by
  simp [jacobianTimes, diffMap, mapJ, rayJet, normalizedJ, sqNormJ, Jet.mul, Jet.add, Jet.const, Jet.sqrt, Jet.atan2,
    Jet.polyLoop, Jet.lift2, Jet.div, wideCam, V3.dot]
  norm_num

/-- A search from the ray `(1, 0, 1)` to the ray `(1/2, 0, 1)` examines two positions: the hypotheses of C126 can be
met. -/
example : ∃ found last, Trace.sweep wideEnv ⟨1, 0, 1⟩ ⟨1 / 2, 0, 1⟩ 2 0 0 = some (found, last) ∧ found.length = 2 := by
  have hcount : Trace.maxSearchCount wideEnv = 2 := by
    have : (2 / 400 : ℝ) * ((200 + 200 : Nat) : ℝ) = ((2 : Int) : ℝ) := by norm_num
    show Util.truncInt ((2 / 400 : ℝ) * ((200 + 200 : Nat) : ℝ)) = 2
    rw [this]; simp [Util.truncInt]
  have hfull : wideEnv.s.performFullTracing = false := rfl
  have hd : Trace.dirAt ⟨1, 0, 1⟩ ⟨1 / 2, 0, 1⟩ 0 = ⟨1, 0, 1⟩ := by ext <;> simp [Trace.dirAt]
  have hdiff : (⟨1, 0, 1⟩ : V3) - ⟨1 / 2, 0, 1⟩ = ⟨1 / 2, 0, 0⟩ := by ext <;> norm_num
  have hj : wideEnv.cam.jacobian ⟨1, 0, 1⟩ ⟨1 / 2, 0, 0⟩ = ⟨25, 0⟩ := wide_jacobian
  have hn : norm2 (⟨25, 0⟩ : V2) = 25 := by
    simp only [norm2, sqNorm]
    rw [show (25 : ℝ) * 25 + 0 * 0 = 25 ^ 2 by norm_num]
    exact Real.sqrt_sq (by norm_num)
  have hat : atan2 1 1 = Real.pi / 4 := by
    rw [atan2_arctan 1 one_pos]; simp; ring
  have hon : wideEnv.cam.isOnImage (wideEnv.cam.map ⟨1, 0, 1⟩) := by
    have hm : map wideCam ⟨1, 0, 1⟩ = ⟨(Real.pi / 4 + 1) * 100, 100⟩ := by
      rw [map_coords _ _ (by norm_num)]
      simp [wideCam, polyLoop, hat]
    show isOnImage wideCam (map wideCam ⟨1, 0, 1⟩) 0
    rw [hm]
    have h1 := Real.pi_pos
    have h2 := Real.pi_le_four
    refine ⟨?_, ?_, ?_, ?_⟩ <;> norm_num [wideCam] <;> linarith
  rw [Trace.sweep]
  simp only [hd, hdiff, hj, hn, hcount, hfull, hon]
  norm_num
  rw [Trace.sweep]
  simp only [hcount, hfull]
  norm_num
  exact ⟨_, ⟨_, _, ⟨rfl, rfl⟩, rfl⟩, rfl⟩

end Mdso.Cam
