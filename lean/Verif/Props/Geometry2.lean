import Verif.Props.Geometry
import Mathlib.Tactic.Positivity

/-!
# C64, C65: convex quadrilaterals and points near a segment
-/

set_option autoImplicit false

namespace Mdso.Geom
open Mdso.GeomSpec

/-! ## C64 -/

/-- C64. For four points no three of which lie on a line, `isABCDConvex` holds exactly if the diagonals `ac`
and `bd` cross, i.e. if `abcd` is a convex quadrilateral with the corners in this order. -/
theorem C64_convex {a b c d : V2} (h1 : Proper a b c) (h2 : Proper b c d) (h3 : Proper c d a)
    (h4 : Proper d a b) : isABCDConvex a b c d ↔ Cross a c b d := by
  rw [proper_iff] at h1 h2 h3 h4
  rw [← cross_iff]
  unfold isABCDConvex isSameSide
  simp only [cross_area, ge_iff_le, not_le]
  have e1 : area a b d = area d a b := by unfold area; ring
  have e2 : area b c a = area a b c := by unfold area; ring
  have e3 : area c d b = area b c d := by unfold area; ring
  have e4 : area d a c = area c d a := by unfold area; ring
  have e5 : area a c b = -area a b c := by unfold area; ring
  have e6 : area a c d = area c d a := by unfold area; ring
  have e7 : area b d a = area d a b := by unfold area; ring
  have e8 : area b d c = -area b c d := by unfold area; ring
  rw [e1, e2, e3, e4, e5, e6, e7, e8]
  have hsum : area a b c + area c d a = area d a b + area b c d := by unfold area; ring
  generalize area a b c = p at *
  generalize area b c d = q at *
  generalize area c d a = r at *
  generalize area d a b = s at *
  clear e1 e2 e3 e4 e5 e6 e7 e8
  constructor
  · rintro ⟨hps, hpq, hrq, hsr⟩
    constructor
    · rcases lt_or_gt_of_ne h1 with hp | hp
      · have hr : r < 0 := by
          have hq : q < 0 := by
            rcases lt_or_gt_of_ne h2 with hq | hq
            · exact hq
            · nlinarith
          rcases lt_or_gt_of_ne h3 with hr | hr
          · exact hr
          · nlinarith
        nlinarith [mul_pos_of_neg_of_neg hp hr]
      · have hr : 0 < r := by
          have hq : 0 < q := by
            rcases lt_or_gt_of_ne h2 with hq | hq
            · nlinarith
            · exact hq
          rcases lt_or_gt_of_ne h3 with hr | hr
          · nlinarith
          · exact hr
        nlinarith [mul_pos hp hr]
    · rcases lt_or_gt_of_ne h1 with hp | hp
      · have hq : q < 0 := by
          rcases lt_or_gt_of_ne h2 with hq | hq
          · exact hq
          · nlinarith
        have hs : s < 0 := by
          rcases lt_or_gt_of_ne h4 with hs | hs
          · exact hs
          · nlinarith
        nlinarith [mul_pos_of_neg_of_neg hq hs]
      · have hq : 0 < q := by
          rcases lt_or_gt_of_ne h2 with hq | hq
          · nlinarith
          · exact hq
        have hs : 0 < s := by
          rcases lt_or_gt_of_ne h4 with hs | hs
          · nlinarith
          · exact hs
        nlinarith [mul_pos hq hs]
  · rintro ⟨hpr, hsq⟩
    have hpr' : 0 < p * r := by linarith
    have hsq' : 0 < s * q := by linarith
    rcases lt_or_gt_of_ne h1 with hp | hp
    · have hr : r < 0 := by by_contra hr; push Not at hr; nlinarith
      have hs : s < 0 := by
        by_contra hs; push Not at hs
        have hs' : 0 < s := lt_of_le_of_ne hs (Ne.symm h4)
        have : 0 < q := by by_contra hq; push Not at hq; nlinarith
        linarith
      have hq : q < 0 := by by_contra hq; push Not at hq; nlinarith
      refine ⟨?_, ?_, ?_, ?_⟩ <;> exact (mul_pos_of_neg_of_neg (by assumption) (by assumption)).le
    · have hr : 0 < r := by by_contra hr; push Not at hr; nlinarith
      have hs : 0 < s := by
        by_contra hs; push Not at hs
        have hs' : s < 0 := lt_of_le_of_ne hs h4
        have : q < 0 := by by_contra hq; push Not at hq; nlinarith
        linarith
      have hq : 0 < q := by by_contra hq; push Not at hq; nlinarith
      refine ⟨?_, ?_, ?_, ?_⟩ <;> exact (mul_pos (by assumption) (by assumption)).le

example : isABCDConvex ⟨0, 0⟩ ⟨1, 0⟩ ⟨1, 1⟩ ⟨0, 1⟩ := by
  refine (C64_convex ?_ ?_ ?_ ?_).2 ⟨⟨1 / 2, 1 / 2, by norm_num, by norm_num, by norm_num, by norm_num, ?_⟩,
    by norm_num⟩
  · rw [proper_iff]; norm_num [area]
  · rw [proper_iff]; norm_num [area]
  · rw [proper_iff]; norm_num [area]
  · rw [proper_iff]; norm_num [area]
  · unfold along; norm_num

/-! ## C65 -/

/-- Decomposition along and across the segment. -/
theorem contain_iff {a b p : V2} {eps : ℝ} (h : a ≠ b) :
    doesABcontain a b p eps ↔
      |area a b p| < eps * Real.sqrt (d2 a b) ∧
        -eps * Real.sqrt (d2 a b) ≤ dot (b - a) (p - a) ∧
        dot (b - a) (p - a) ≤ d2 a b + eps * Real.sqrt (d2 a b) := by
  have hd : sqNorm (b - a) = d2 a b := by unfold sqNorm d2; simp only [sub_x, sub_y]; ring
  have hpos : 0 < d2 a b := by
    by_contra hc
    push Not at hc
    unfold d2 at hc
    apply h
    have h1 : a.x - b.x = 0 := by nlinarith [sq_nonneg (a.x - b.x), sq_nonneg (a.y - b.y)]
    have h2 : a.y - b.y = 0 := by nlinarith [sq_nonneg (a.x - b.x), sq_nonneg (a.y - b.y)]
    exact V2.ext (by linarith) (by linarith)
  have hs : 0 < Real.sqrt (d2 a b) := Real.sqrt_pos.2 hpos
  have hss : Real.sqrt (d2 a b) * Real.sqrt (d2 a b) = d2 a b := Real.mul_self_sqrt hpos.le
  unfold doesABcontain
  rw [hd]
  generalize Real.sqrt (d2 a b) = n at *
  simp only [dot]
  have k1 : (p - a).x * ((b - a).y / n) + (p - a).y * -((b - a).x / n) = -(area a b p / n) := by
    unfold area; simp only [sub_x, sub_y]; field_simp; ring
  have k2 : (b - a).x / n * (p - a).x + (b - a).y / n * (p - a).y =
      ((b - a).x * (p - a).x + (b - a).y * (p - a).y) / n := by field_simp
  rw [k1, k2, abs_neg, abs_div, abs_of_pos hs, div_lt_iff₀ hs, ge_iff_le, le_div_iff₀ hs, div_le_iff₀ hs,
    add_mul, hss]
  exact ⟨fun hh => hh.2, fun hh => ⟨hs.ne', hh⟩⟩

/-- C65. For every proper segment and every positive tolerance: every point closer to the segment than the
tolerance is accepted (in particular the points of the segment), and every accepted point is within √2 times
the tolerance of the segment. -/
theorem C65_contains {a b : V2} (h : a ≠ b) {eps : ℝ} (he : 0 < eps) (p : V2) :
    ((∃ t, 0 ≤ t ∧ t ≤ 1 ∧ d2 p (along a b t) < eps ^ 2) → doesABcontain a b p eps) ∧
    (doesABcontain a b p eps → ∃ t, 0 ≤ t ∧ t ≤ 1 ∧ d2 p (along a b t) < 2 * eps ^ 2) := by
  rw [contain_iff h]
  have hpos : 0 < d2 a b := by
    by_contra hc
    push Not at hc
    unfold d2 at hc
    apply h
    have h1 : a.x - b.x = 0 := by nlinarith [sq_nonneg (a.x - b.x), sq_nonneg (a.y - b.y)]
    have h2 : a.y - b.y = 0 := by nlinarith [sq_nonneg (a.x - b.x), sq_nonneg (a.y - b.y)]
    exact V2.ext (by linarith) (by linarith)
  have hs : 0 < Real.sqrt (d2 a b) := Real.sqrt_pos.2 hpos
  have hss : Real.sqrt (d2 a b) * Real.sqrt (d2 a b) = d2 a b := Real.mul_self_sqrt hpos.le
  -- the square of the distance times the squared length, split along and across
  have split : ∀ t, d2 p (along a b t) * d2 a b =
      area a b p ^ 2 + (dot (b - a) (p - a) - t * d2 a b) ^ 2 := by
    intro t; unfold d2 along area dot; simp only [sub_x, sub_y]; ring
  generalize Real.sqrt (d2 a b) = n at *
  generalize dot (b - a) (p - a) = q at *
  generalize area a b p = w at *
  constructor
  · rintro ⟨t, t0, t1, ht⟩
    have hsp := split t
    have hbound : w ^ 2 + (q - t * d2 a b) ^ 2 < (eps * n) ^ 2 := by
      rw [← hsp, mul_pow, pow_two n, hss]
      exact mul_lt_mul_of_pos_right ht hpos
    have hen : 0 < eps * n := by positivity
    have hw : |w| < eps * n := abs_lt_of_sq_lt_sq (by nlinarith [sq_nonneg (q - t * d2 a b)]) hen.le
    have hq : |q - t * d2 a b| < eps * n := abs_lt_of_sq_lt_sq (by nlinarith [sq_nonneg w]) hen.le
    rw [abs_lt] at hq
    refine ⟨hw, by nlinarith [mul_nonneg t0 hpos.le], by nlinarith⟩
  · rintro ⟨hw, hq1, hq2⟩
    have hen : 0 < eps * n := by positivity
    have hw2 : w ^ 2 < eps ^ 2 * d2 a b := by
      rw [← hss]
      have := abs_lt.1 hw
      nlinarith
    have fin : ∀ t, (q - t * d2 a b) ^ 2 ≤ eps ^ 2 * d2 a b → d2 p (along a b t) < 2 * eps ^ 2 := by
      intro t ht
      have := split t
      by_contra hc
      push Not at hc
      nlinarith
    by_cases h0 : q < 0
    · refine ⟨0, le_refl _, zero_le_one, fin 0 ?_⟩
      rw [← hss]; nlinarith
    · by_cases h1 : d2 a b < q
      · refine ⟨1, zero_le_one, le_refl _, fin 1 ?_⟩
        have : eps ^ 2 * d2 a b = (eps * n) ^ 2 := by rw [mul_pow, pow_two n, hss]
        rw [this]; nlinarith
      · push Not at h0 h1
        refine ⟨q / d2 a b, div_nonneg h0 hpos.le, (div_le_one hpos).2 h1, fin _ ?_⟩
        rw [div_mul_cancel₀ _ hpos.ne']
        have : (0 : ℝ) ≤ eps ^ 2 * d2 a b := by positivity
        simpa using this

example : doesABcontain ⟨0, 0⟩ ⟨4, 0⟩ ⟨1, 0⟩ 1e-9 :=
  (C65_contains (by simp) (by norm_num) _).1 ⟨1 / 4, by norm_num, by norm_num, by
    norm_num [d2, along]⟩

/-- C65, outside the claim: a segment of length zero contains nothing, not even its end. -/
theorem C65_degenerate (a p : V2) (eps : ℝ) : ¬ doesABcontain a a p eps := by
  rintro ⟨h, _⟩
  apply h
  have : sqNorm (a - a) = 0 := by unfold sqNorm; simp
  rw [this, Real.sqrt_zero]

end Mdso.Geom
