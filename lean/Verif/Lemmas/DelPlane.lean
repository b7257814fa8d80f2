import Verif.Lemmas.TriPosition

/-!
# Plane geometry for the empty circles of a triangulation
-/

set_option autoImplicit false

namespace Mdso.Tri

open Mdso.Geom Mdso.Tri.Spec

/-- The point at `t` on the way from `u` to `w`. -/
def lin (u w : V2) (t : ℝ) : V2 := ⟨u.x + t * (w.x - u.x), u.y + t * (w.y - u.y)⟩

theorem area_lin (a b u w : V2) (t : ℝ) : area a b (lin u w t) = (1 - t) * area a b u + t * area a b w := by
  unfold area lin; ring

theorem area_lin' (a c u w : V2) (t : ℝ) : area a (lin u w t) c = (1 - t) * area a u c + t * area a w c := by
  unfold area lin; ring

theorem area_lin'' (b c u w : V2) (t : ℝ) : area (lin u w t) b c = (1 - t) * area u b c + t * area w b c := by
  unfold area lin; ring

theorem lin_zero (u w : V2) : lin u w 0 = u := by unfold lin; ext <;> simp

theorem lin_one (u w : V2) : lin u w 1 = w := by unfold lin; ext <;> simp

/-- The three-term relation between the areas at a common point. -/
theorem plucker (o a b c d : V2) :
    area o a b * area o c d - area o a c * area o b d + area o a d * area o b c = 0 := by
  unfold area; ring

theorem area_other (a b q : V2) : area a q b = -area a b q := by unfold area; ring

/-! ### The power of a point -/

/-- The power of `q` with respect to the circle through `a`, `b` and `c`. -/
noncomputable def pow (a b c q : V2) : ℝ :=
  sqNorm q - (sqNorm a * area q b c + sqNorm b * area a q c + sqNorm c * area a b q) / area a b c

theorem pow_affine {a b c : V2} (h : area a b c ≠ 0) :
    ∃ α β γ : ℝ, (∀ q, pow a b c q = sqNorm q - (α * q.x + β * q.y + γ)) ∧ pow a b c a = 0 ∧ pow a b c b = 0 ∧
      pow a b c c = 0 := by
  refine ⟨(sqNorm a * (b.y - c.y) + sqNorm b * (c.y - a.y) + sqNorm c * (a.y - b.y)) / area a b c,
    (sqNorm a * (c.x - b.x) + sqNorm b * (a.x - c.x) + sqNorm c * (b.x - a.x)) / area a b c,
    (sqNorm a * (b.x * c.y - b.y * c.x) + sqNorm b * (c.x * a.y - c.y * a.x) + sqNorm c * (a.x * b.y - a.y * b.x)) /
      area a b c, ?_, ?_, ?_, ?_⟩
  · intro q
    unfold pow
    rw [div_mul_eq_mul_div, div_mul_eq_mul_div, ← add_div, ← add_div]
    congr 2
    unfold area
    ring
  · unfold pow
    rw [area_self', show area a a c = 0 from by unfold area; ring, mul_zero, mul_zero, add_zero, add_zero,
      mul_div_assoc, div_self h]
    ring
  · unfold pow
    rw [area_self, show area b b c = 0 from by unfold area; ring, mul_zero, mul_zero, add_zero, zero_add,
      mul_div_assoc, div_self h]
    ring
  · unfold pow
    rw [area_self, show area c b c = 0 from by unfold area; ring, mul_zero, mul_zero, add_zero, zero_add,
      mul_div_assoc, div_self h]
    ring

theorem pow_swap (a b c q : V2) : pow b a c q = pow a b c q := by
  unfold pow
  rw [show area b a c = -area a b c from by unfold area; ring, div_neg, ← neg_div]
  congr 2
  unfold area
  ring

theorem pow_rot (a b c q : V2) : pow b c a q = pow a b c q := by
  unfold pow
  rw [show area b c a = area a b c from by unfold area; ring]
  congr 2
  unfold area
  ring

/-- The difference of the powers for two circles through `a` and `b`. -/
theorem pencil {a b c d : V2} (hc : area a b c ≠ 0) (hd : area a b d ≠ 0) (q r : V2) :
    (pow a b c q - pow a b d q) * area a b r = (pow a b c r - pow a b d r) * area a b q := by
  obtain ⟨α, β, γ, h1, h2, h3, -⟩ := pow_affine hc
  obtain ⟨α', β', γ', k1, k2, k3, -⟩ := pow_affine hd
  rw [h1] at h2 h3
  rw [k1] at k2 k3
  have ga : (α' - α) * a.x + (β' - β) * a.y + (γ' - γ) = 0 := by linarith
  have gb : (α' - α) * b.x + (β' - β) * b.y + (γ' - γ) = 0 := by linarith
  rw [h1, k1, h1, k1]
  unfold area
  linear_combination (-((q.x - b.x) * (r.y - b.y) - (q.y - b.y) * (r.x - b.x))) * ga +
    ((q.x - a.x) * (r.y - a.y) - (q.y - a.y) * (r.x - a.x)) * gb

theorem pow_third {a b c : V2} (hc : area a b c ≠ 0) : pow a b c c = 0 := (pow_affine hc).choose_spec.choose_spec.choose_spec.2.2.2

/-- The outer side of a new triangle. -/
theorem pow_outer {a b v w p : V2} (hv : area a b v ≠ 0) (hw : area a b w ≠ 0) (h1 : 0 ≤ pow a b w v)
    (h2 : area a b v * area a b p ≤ 0) (h3 : 0 ≤ pow a b w p) : 0 ≤ pow a b v p := by
  have h := pencil hv hw p v
  rw [pow_third hv] at h
  have h4 : (pow a b v p - pow a b w p) * (area a b v * area a b v) = pow a b w v * -(area a b v * area a b p) := by
    linear_combination area a b v * h
  have h5 : 0 < area a b v * area a b v := mul_self_pos.2 hv
  have h6 : 0 ≤ pow a b w v * -(area a b v * area a b p) := mul_nonneg h1 (by linarith)
  by_contra hh
  push Not at hh
  nlinarith

/-- The inner side of a new triangle. -/
theorem pow_inner {a b v c p : V2} (hv : area a b v ≠ 0) (hc : area a b c ≠ 0) (h1 : pow a b c v ≤ 0)
    (h2 : 0 ≤ area a b v * area a b p) (h3 : 0 ≤ pow a b c p) : 0 ≤ pow a b v p := by
  have h := pencil hv hc p v
  rw [pow_third hv] at h
  have h4 : (pow a b v p - pow a b c p) * (area a b v * area a b v) = -pow a b c v * (area a b v * area a b p) := by
    linear_combination area a b v * h
  have h5 : 0 < area a b v * area a b v := mul_self_pos.2 hv
  have h6 : 0 ≤ -pow a b c v * (area a b v * area a b p) := mul_nonneg (by linarith) h2
  by_contra hh
  push Not at hh
  nlinarith

/-- Walking towards `v`. -/
theorem pow_towards {a b c d v : V2} (hc : area a b c ≠ 0) (hd : area a b d ≠ 0) (h1 : 0 ≤ pow a b c d)
    (h2 : 0 ≤ area a b d * area a b v) : pow a b d v ≤ pow a b c v := by
  have h := pencil hd hc v d
  rw [pow_third hd] at h
  have h4 : (pow a b d v - pow a b c v) * (area a b d * area a b d) = -(pow a b c d * (area a b d * area a b v)) := by
    linear_combination area a b d * h
  have h5 : 0 < area a b d * area a b d := mul_self_pos.2 hd
  have h6 : 0 ≤ pow a b c d * (area a b d * area a b v) := mul_nonneg h1 h2
  by_contra hh
  push Not at hh
  nlinarith

/-- The condition is the same from both sides of an edge. -/
theorem pow_both {a b c d : V2} (hs : area a b c * area a b d < 0) (h : 0 ≤ pow a b c d) : 0 ≤ pow a b d c := by
  have hc : area a b c ≠ 0 := fun hh => by rw [hh] at hs; simp at hs
  have hd : area a b d ≠ 0 := fun hh => by rw [hh] at hs; simp at hs
  have h1 := pencil hc hd d c
  rw [pow_third hc, pow_third hd] at h1
  have h2 : pow a b d c * -(area a b c * area a b d) = pow a b c d * (area a b c * area a b c) := by
    linear_combination -(area a b c) * h1
  have h3 : 0 ≤ pow a b c d * (area a b c * area a b c) := mul_nonneg h (mul_self_nonneg _)
  by_contra hh
  push Not at hh
  nlinarith

/-- With barycentric coordinates. -/
theorem pow_bary {a b c q : V2} (h : area a b c ≠ 0) :
    pow a b c q * (area a b c * area a b c) =
      -(area q b c * area a q c * sqNorm (a - b) + area a q c * area a b q * sqNorm (b - c) +
        area a b q * area q b c * sqNorm (c - a)) := by
  unfold pow
  rw [sub_mul, show (sqNorm a * area q b c + sqNorm b * area a q c + sqNorm c * area a b q) / area a b c *
    (area a b c * area a b c) = (sqNorm a * area q b c + sqNorm b * area a q c + sqNorm c * area a b q) * area a b c from by
    rw [← mul_assoc, div_mul_cancel₀ _ h]]
  unfold area sqNorm
  simp only [sub_x, sub_y]
  ring

theorem sqNorm_nonneg (a : V2) : 0 ≤ sqNorm a := by
  unfold sqNorm
  nlinarith [mul_self_nonneg a.x, mul_self_nonneg a.y]

theorem sqNorm_sub_pos {a b c : V2} (h : area a b c ≠ 0) : 0 < sqNorm (a - b) := by
  by_contra hh
  push Not at hh
  have h0 : (a.x - b.x) * (a.x - b.x) + (a.y - b.y) * (a.y - b.y) ≤ 0 := by
    simpa [sqNorm] using hh
  have hx : a.x - b.x = 0 := by nlinarith [mul_self_nonneg (a.x - b.x), mul_self_nonneg (a.y - b.y)]
  have hy : a.y - b.y = 0 := by nlinarith [mul_self_nonneg (a.x - b.x), mul_self_nonneg (a.y - b.y)]
  apply h
  unfold area
  linear_combination (-(c.y - a.y)) * hx + (c.x - a.x) * hy

theorem prod_pos {x y z : ℝ} (h1 : 0 < x * y) (h2 : 0 < x * z) : 0 < y * z := by
  have : 0 < (x * y) * (x * z) := mul_pos h1 h2
  have h3 : (x * y) * (x * z) = (x * x) * (y * z) := by ring
  rw [h3] at this
  exact (pos_iff_pos_of_mul_pos this).1 (by
    rcases eq_or_ne x 0 with rfl | hx
    · simp at h1
    · exact mul_self_pos.2 hx)

/-- The interior of a triangle is inside its circle. -/
theorem pow_inside {a b c q : V2} (h : Inside a b c q) : pow a b c q < 0 := by
  have ha := inside_area h
  have e := pow_bary (q := q) ha
  obtain ⟨h1, h2, h3⟩ := h
  have p1 := mul_pos (prod_pos h1 h2) (sqNorm_sub_pos ha)
  have p2 := mul_nonneg (prod_pos h2 h3).le (sqNorm_nonneg (b - c))
  have p3 := mul_nonneg (prod_pos h3 h1).le (sqNorm_nonneg (c - a))
  have p4 : 0 < area a b c * area a b c := mul_self_pos.2 ha
  by_contra hh
  push Not at hh
  have := mul_nonneg hh p4.le
  linarith

/-- A point in the circle beyond an edge is not beyond another one. -/
theorem pow_corner {a b c v : V2} (h : area a b c ≠ 0) (hv : pow a b c v ≤ 0) (h1 : area a b c * area a b v < 0)
    (h2 : area a b c * area a v c < 0) : False := by
  have e := pow_bary (q := v) h
  have p4 : 0 < area a b c * area a b c := mul_self_pos.2 h
  -- `v - a = -s (b - a) - t (c - a)` after multiplication by the area
  have hsum : area v b c + area a v c + area a b v = area a b c := by unfold area; ring
  obtain ⟨A, hA⟩ : ∃ A, A = area a b c := ⟨_, rfl⟩
  obtain ⟨S, hS⟩ : ∃ S, S = area a v c := ⟨_, rfl⟩
  obtain ⟨T, hT⟩ : ∃ T, T = area a b v := ⟨_, rfl⟩
  have hW : area v b c = A - S - T := by rw [hA, hS, hT]; linarith
  rw [hW, ← hA, ← hS, ← hT] at e
  rw [← hA] at h h1 h2 p4
  rw [← hT] at h1
  rw [← hS] at h2
  have hb : sqNorm (b - c) = sqNorm (a - b) + sqNorm (c - a) - 2 * ((b.x - a.x) * (c.x - a.x) + (b.y - a.y) * (c.y - a.y)) := by
    unfold sqNorm; simp only [sub_x, sub_y]; ring
  rw [hb] at e
  have hsq : 0 ≤ (S * (b.x - a.x) + T * (c.x - a.x)) ^ 2 + (S * (b.y - a.y) + T * (c.y - a.y)) ^ 2 := by positivity
  have hsq' : (S * (b.x - a.x) + T * (c.x - a.x)) ^ 2 + (S * (b.y - a.y) + T * (c.y - a.y)) ^ 2 =
      S * S * sqNorm (a - b) + T * T * sqNorm (c - a) +
        2 * S * T * ((b.x - a.x) * (c.x - a.x) + (b.y - a.y) * (c.y - a.y)) := by
    unfold sqNorm; simp only [sub_x, sub_y]; ring
  rw [hsq'] at hsq
  have p1 : 0 < -(A * S) * sqNorm (a - b) := mul_pos (by linarith) (sqNorm_sub_pos (hA ▸ h))
  have p2 : 0 ≤ -(A * T) * sqNorm (c - a) := mul_nonneg (by linarith) (sqNorm_nonneg _)
  have p3 : pow a b c v * (A * A) ≤ 0 := mul_nonpos_of_nonpos_of_nonneg hv p4.le
  nlinarith

/-- A point in the circle beyond the side `ab` makes a convex quadrangle with it. -/
theorem convex_of_pow {a b c v : V2} (h1 : area a b c * area a b v < 0) (hv : pow a b c v ≤ 0) :
    isABCDConvex a c b v := by
  have h : area a b c ≠ 0 := fun hh => by rw [hh] at h1; simp at h1
  have k1 : ¬ area a b c * area a v c < 0 := fun h2 => pow_corner h hv h1 h2
  have k2 : ¬ area b a c * area b v c < 0 := by
    refine fun h2 => pow_corner (a := b) (b := a) (c := c) (v := v) ?_ ?_ ?_ h2
    · rw [area_swap]; exact neg_ne_zero.2 h
    · rw [pow_swap]; exact hv
    · rw [area_swap a b c, area_swap a b v]; linarith
  push Not at k1 k2
  rw [area_swap a b c] at k2
  have e1 : area a c b = -area a b c := area_other _ _ _
  have e2 : area a c v = -area a v c := area_other _ _ _
  have e3 : area c b a = -area a b c := by unfold area; ring
  have e4 : area c b v = area b v c := by unfold area; ring
  have e5 : area b v a = area a b v := by unfold area; ring
  have e6 : area v a b = area a b v := by unfold area; ring
  have e7 : area v a c = -area a v c := by unfold area; ring
  unfold isABCDConvex isSameSide
  simp only [cross_area]
  refine ⟨?_, ?_, ?_, ?_⟩
  · rw [e1, e2]; linarith
  · rw [e3, e4]; linarith
  · rw [e5]
    by_contra hh
    push Not at hh
    have : 0 < (area a b c * area a b v) * (area a b v * area b v c) := mul_pos_of_neg_of_neg h1 hh
    have e : (area a b c * area a b v) * (area a b v * area b v c) =
      (area a b v * area a b v) * (area a b c * area b v c) := by ring
    rw [e] at this
    nlinarith [mul_self_nonneg (area a b v)]
  · rw [e6, e7]
    by_contra hh
    push Not at hh
    have : 0 < (area a b c * area a b v) * (-area a v c * area a b v) := mul_pos_of_neg_of_neg h1 hh
    have e : (area a b c * area a b v) * (-area a v c * area a b v) =
      -((area a b v * area a b v) * (area a b c * area a v c)) := by ring
    rw [e] at this
    nlinarith [mul_self_nonneg (area a b v)]

/-- The test of `isABDelaunay`. -/
theorem delaunay_iff {a b c d : V2} (h : area a b c ≠ 0) : isABDelaunay a b c d ↔ 0 ≤ pow a b c d := by
  have p4 : 0 < area a b c * area a b c := mul_self_pos.2 h
  have e : pow a b c d * (area a b c * area a b c) =
      -(((a - d).x * ((b - d).y * sqNorm (c - d) - sqNorm (b - d) * (c - d).y)
    - (a - d).y * ((b - d).x * sqNorm (c - d) - sqNorm (b - d) * (c - d).x)
    + sqNorm (a - d) * ((b - d).x * (c - d).y - (b - d).y * (c - d).x)) * cross2 (b - a) (c - b)) := by
    rw [pow_bary h]
    unfold area sqNorm cross2
    simp only [sub_x, sub_y]
    ring
  unfold isABDelaunay
  simp only
  constructor
  · intro hh
    by_contra hn
    push Not at hn
    nlinarith
  · intro hh
    have := mul_nonneg hh p4.le
    linarith

end Mdso.Tri
