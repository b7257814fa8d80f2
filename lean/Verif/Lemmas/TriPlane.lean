import Verif.Spec.Triangulation
import Mathlib.Tactic.LinearCombination
import Mathlib.Tactic.Ring
import Mathlib.Tactic.Positivity
import Mathlib.Tactic.Linarith
import Mathlib.Data.Real.Basic

/-!
# Triangles in the plane
-/

set_option autoImplicit false

namespace Mdso.Tri

open Mdso.Geom Mdso.Tri.Spec

theorem cross_area (a b p : V2) : cross2 (b - a) (p - a) = area a b p := rfl

theorem area_swap (a b c : V2) : area b a c = -area a b c := by
  unfold area; ring

theorem area_rot (a b c : V2) : area b c a = area a b c := by
  unfold area; ring

theorem area_swap' (a b c : V2) : area a c b = -area a b c := by
  unfold area; ring

theorem area_out (a b c : V2) : area c b a = -area a b c := by
  unfold area; ring

theorem area_self (a b : V2) : area a b b = 0 := by
  unfold area; ring

theorem area_self' (a b : V2) : area a b a = 0 := by
  unfold area; ring

/-- `area a b` is an affine function: its value at `q` from those at the corners of a triangle. -/
theorem area_affine (x y z a b q : V2) :
    area x y z * area a b q = area q y z * area a b x + area x q z * area a b y + area x y q * area a b z := by
  unfold area; ring

theorem inside_swap {a b c q : V2} : Inside a b c q ↔ Inside b a c q := by
  unfold Inside
  rw [area_swap a b c, area_swap a q c, area_swap q b c, area_swap a b q]
  constructor
  · rintro ⟨h1, h2, h3⟩
    exact ⟨by linarith, by linarith, by linarith⟩
  · rintro ⟨h1, h2, h3⟩
    exact ⟨by linarith, by linarith, by linarith⟩

theorem inside_rot {a b c q : V2} : Inside a b c q ↔ Inside b c a q := by
  unfold Inside
  rw [area_rot a b c, area_rot a q c, area_rot a b q, show area b c q = area q b c from by unfold area; ring]
  tauto

theorem within_swap {a b c q : V2} : Within a b c q ↔ Within b a c q := by
  unfold Within
  rw [area_swap a b c, area_swap a q c, area_swap q b c, area_swap a b q]
  constructor
  · rintro ⟨h1, h2, h3⟩
    exact ⟨by linarith, by linarith, by linarith⟩
  · rintro ⟨h1, h2, h3⟩
    exact ⟨by linarith, by linarith, by linarith⟩

theorem within_rot {a b c q : V2} : Within a b c q ↔ Within b c a q := by
  unfold Within
  rw [area_rot a b c, area_rot a q c, area_rot a b q, show area b c q = area q b c from by unfold area; ring]
  tauto

/-- The interior of a triangle with positive area. -/
theorem inside_pos {a b c q : V2} (h : 0 < area a b c) :
    Inside a b c q ↔ 0 < area b c q ∧ 0 < area c a q ∧ 0 < area a b q := by
  unfold Inside
  rw [mul_pos_iff_of_pos_left h, mul_pos_iff_of_pos_left h, mul_pos_iff_of_pos_left h,
    show area b c q = area q b c from by unfold area; ring, show area c a q = area a q c from by unfold area; ring]

theorem within_pos {a b c q : V2} (h : 0 < area a b c) :
    Within a b c q ↔ 0 ≤ area b c q ∧ 0 ≤ area c a q ∧ 0 ≤ area a b q := by
  unfold Within
  rw [mul_nonneg_iff_of_pos_left h, mul_nonneg_iff_of_pos_left h, mul_nonneg_iff_of_pos_left h,
    show area b c q = area q b c from by unfold area; ring, show area c a q = area a q c from by unfold area; ring]

/-! ### Dividing a triangle -/

/-- The conditions on the three new triangles. -/
theorem divide_areas {a b c v : V2} (h : 0 < area a b c) (hv : Inside a b c v) :
    0 < area b c v ∧ 0 < area c a v ∧ 0 < area a b v := (inside_pos h).1 hv

theorem divide_sub {a b c v q : V2} (h : 0 < area a b c) (hv : Inside a b c v) (hq : Inside a b v q) :
    Inside a b c q := by
  obtain ⟨v1, v2, v3⟩ := divide_areas h hv
  rw [inside_pos v3] at hq
  rw [inside_pos h]
  obtain ⟨q1, q2, q3⟩ := hq
  refine ⟨?_, ?_, q3⟩
  · have := area_affine a b v b c q
    rw [area_self' b c, area_rot a b c, show area q b v = area b v q from by unfold area; ring] at this
    refine pos_of_mul_pos_right (a := area a b v) ?_ v3.le
    rw [this]
    simp only [mul_zero, zero_add, add_zero]
    positivity
  · have := area_affine a b v c a q
    rw [area_self c a, show area c a b = area a b c from by unfold area; ring,
      show area a q v = area v a q from by unfold area; ring] at this
    refine pos_of_mul_pos_right (a := area a b v) ?_ v3.le
    rw [this]
    simp only [mul_zero, zero_add, add_zero]
    positivity

/-- The weights of the new vertex. -/
theorem divide_weights (a b c v q : V2) :
    area v b c * area q v a + area a v c * area q v b + area a b v * area q v c = 0 := by
  unfold area; ring

theorem divide_one {a b c v q : V2} (h : 0 < area a b c) (hv : Inside a b c v) (hq : Inside a b c q)
    (ga : area q v a ≠ 0) (gb : area q v b ≠ 0) (gc : area q v c ≠ 0) :
    Inside b c v q ∨ Inside c a v q ∨ Inside a b v q := by
  obtain ⟨v1, v2, v3⟩ := divide_areas h hv
  rw [inside_pos h] at hq
  rw [inside_pos v1, inside_pos v2, inside_pos v3]
  obtain ⟨q1, q2, q3⟩ := hq
  have hw := divide_weights a b c v q
  have e1 : area v b c = area b c v := by unfold area; ring
  have e2 : area a v c = area c a v := by unfold area; ring
  rw [e1, e2] at hw
  have s1 : ∀ x : V2, area v x q = area q v x := by intro x; unfold area; ring
  have s2 : ∀ x : V2, area x v q = -area q v x := by intro x; unfold area; ring
  simp only [s1, s2]
  rcases lt_or_gt_of_ne ga with ha | ha <;> rcases lt_or_gt_of_ne gb with hb | hb <;>
    rcases lt_or_gt_of_ne gc with hc | hc
  · exfalso; nlinarith [mul_pos v1 (neg_pos.2 ha), mul_pos v2 (neg_pos.2 hb), mul_pos v3 (neg_pos.2 hc)]
  · right; left; exact ⟨by linarith, by linarith, by linarith⟩
  · left; exact ⟨by linarith, by linarith, by linarith⟩
  · right; left; exact ⟨by linarith, by linarith, by linarith⟩
  · right; right; exact ⟨by linarith, by linarith, by linarith⟩
  · right; right; exact ⟨by linarith, by linarith, by linarith⟩
  · left; exact ⟨by linarith, by linarith, by linarith⟩
  · exfalso; nlinarith [mul_pos v1 ha, mul_pos v2 hb, mul_pos v3 hc]

theorem divide_cover {a b c v q : V2} (h : 0 < area a b c) (hv : Inside a b c v) (hq : Within a b c q) :
    Within b c v q ∨ Within c a v q ∨ Within a b v q := by
  obtain ⟨v1, v2, v3⟩ := divide_areas h hv
  rw [within_pos h] at hq
  rw [within_pos v1, within_pos v2, within_pos v3]
  obtain ⟨q1, q2, q3⟩ := hq
  have hw := divide_weights a b c v q
  have e1 : area v b c = area b c v := by unfold area; ring
  have e2 : area a v c = area c a v := by unfold area; ring
  rw [e1, e2] at hw
  have s1 : ∀ x : V2, area v x q = area q v x := by intro x; unfold area; ring
  have s2 : ∀ x : V2, area x v q = -area q v x := by intro x; unfold area; ring
  simp only [s1, s2]
  rcases le_or_gt (area q v a) 0 with ha | ha <;> rcases le_or_gt (area q v b) 0 with hb | hb <;>
    rcases le_or_gt (area q v c) 0 with hc | hc
  · have k1 := mul_nonneg v1.le (neg_nonneg.2 ha)
    have k2 := mul_nonneg v2.le (neg_nonneg.2 hb)
    have k3 := mul_nonneg v3.le (neg_nonneg.2 hc)
    have z1 : area b c v * area q v a = 0 := by nlinarith
    have z2 : area c a v * area q v b = 0 := by nlinarith
    have y1 : area q v a = 0 := by
      rcases mul_eq_zero.1 z1 with h | h
      · exact absurd h v1.ne'
      · exact h
    right; right; exact ⟨by linarith, by linarith, by linarith⟩
  · right; left; exact ⟨by linarith, by linarith, by linarith⟩
  · left; exact ⟨by linarith, by linarith, by linarith⟩
  · right; left; exact ⟨by linarith, by linarith, by linarith⟩
  · right; right; exact ⟨by linarith, by linarith, by linarith⟩
  · right; right; exact ⟨by linarith, by linarith, by linarith⟩
  · left; exact ⟨by linarith, by linarith, by linarith⟩
  · exfalso; nlinarith [mul_pos v1 ha, mul_pos v2 hb, mul_pos v3 hc]

theorem divide_disjoint {a b c v q : V2} (h : 0 < area a b c) (hv : Inside a b c v) (h1 : Inside a b v q)
    (h2 : Inside b c v q) : False := by
  obtain ⟨v1, v2, v3⟩ := divide_areas h hv
  rw [inside_pos v3] at h1
  rw [inside_pos v1] at h2
  have : area v b q = -area b v q := by unfold area; ring
  linarith [h1.1, h2.2.1]

theorem inside_area {a b c q : V2} (h : Inside a b c q) : area a b c ≠ 0 := by
  rintro h0
  have := h.1
  rw [h0] at this
  simp at this

/-- Off the new edges, the three new triangles cover the same points as the old one, whatever its orientation. -/
theorem divide_iff {a b c v q : V2} (hv : Inside a b c v) (ga : area q v a ≠ 0) (gb : area q v b ≠ 0)
    (gc : area q v c ≠ 0) : Inside a b c q ↔ Inside b c v q ∨ Inside c a v q ∨ Inside a b v q := by
  have key : ∀ {a b c : V2}, 0 < area a b c → Inside a b c v → area q v a ≠ 0 → area q v b ≠ 0 → area q v c ≠ 0 →
      (Inside a b c q ↔ Inside b c v q ∨ Inside c a v q ∨ Inside a b v q) := by
    intro a b c h hv ga gb gc
    constructor
    · exact fun hq => divide_one h hv hq ga gb gc
    · rintro (hq | hq | hq)
      · rw [inside_rot]
        exact divide_sub (by rw [area_rot]; exact h) (inside_rot.1 hv) hq
      · rw [← inside_rot]
        exact divide_sub (by rw [← area_rot]; exact h) (inside_rot.2 hv) hq
      · exact divide_sub h hv hq
  rcases lt_or_gt_of_ne (inside_area hv) with h | h
  · rw [inside_swap, key (by rw [area_swap]; linarith) (inside_swap.1 hv) gb ga gc, inside_swap (a := a) (b := c),
      inside_swap (a := c) (b := b), inside_swap (a := b) (b := a)]
    tauto
  · exact key h hv ga gb gc

theorem divide_covers {a b c v q : V2} (hv : Inside a b c v) (hq : Within a b c q) :
    Within b c v q ∨ Within c a v q ∨ Within a b v q := by
  rcases lt_or_gt_of_ne (inside_area hv) with h | h
  · have := divide_cover (by rw [area_swap]; linarith) (inside_swap.1 hv) (within_swap.1 hq)
    rw [within_swap (a := a) (b := c), within_swap (a := c) (b := b), within_swap (a := b) (b := a)] at this
    tauto
  · exact divide_cover h hv hq

theorem divide_apart {a b c v q : V2} (hv : Inside a b c v) (h1 : Inside a b v q) (h2 : Inside b c v q) : False := by
  rcases lt_or_gt_of_ne (inside_area hv) with h | h
  · refine divide_disjoint (a := c) (b := b) (c := a) (v := v) (q := q) ?_ ?_ (inside_swap.1 h2) (inside_swap.1 h1)
    · rw [area_out]; linarith
    · rw [inside_swap, inside_rot, inside_rot]; exact hv
  · exact divide_disjoint h hv h1 h2

/-- The new vertex is on the same side of a side as the old third vertex. -/
theorem divide_side {a b c v : V2} (hv : Inside a b c v) : 0 < area a b v * area a b c := by
  have := hv.2.2
  linarith

/-- The two new triangles at a new edge are on different sides of it. -/
theorem divide_sep {a b c v : V2} (hv : Inside a b c v) : area v c a * area v c b < 0 := by
  have h1 := hv.1
  have h2 := hv.2.1
  rw [show area v c a = area a v c from by unfold area; ring, show area v c b = -area v b c from by unfold area; ring]
  have h3 : 0 < (area a b c * area v b c) * (area a b c * area a v c) := mul_pos h1 h2
  have h4 : (area a b c * area v b c) * (area a b c * area a v c) =
      (area a b c * area a b c) * (area v b c * area a v c) := by ring
  rw [h4] at h3
  have h5 := pos_of_mul_pos_right h3 (mul_self_nonneg _)
  linarith

/-! ### Flipping an edge -/

/-- A convex quadrilateral `adbc` with the diagonals `ab` and `cd`. -/
structure Quad (a b c d : V2) : Prop where
  adb : 0 < area a d b
  dbc : 0 < area d b c
  bca : 0 < area b c a
  cad : 0 < area c a d

theorem Quad.half {a b c d q : V2} (h : Quad a b c d) :
    Inside a b c q ↔ 0 < area a d q ∧ 0 < area d b q ∧ 0 < area b c q ∧ 0 < area c a q ∧ 0 < area a b q := by
  have habc : 0 < area a b c := by rw [← area_rot]; exact h.bca
  have h2 := h.adb
  have h3 := h.dbc
  have h4 := h.cad
  rw [inside_pos habc]
  constructor
  · rintro ⟨q1, q2, q3⟩
    refine ⟨?_, ?_, q1, q2, q3⟩
    · have := area_affine a b c a d q
      rw [area_self' a d, show area a q c = area c a q from by unfold area; ring,
        show area a d c = area c a d from by unfold area; ring] at this
      refine pos_of_mul_pos_right (a := area a b c) ?_ habc.le
      rw [this]
      simp only [mul_zero, zero_add, add_zero]
      positivity
    · have := area_affine a b c d b q
      rw [area_self d b, show area q b c = area b c q from by unfold area; ring,
        show area d b a = area a d b from by unfold area; ring] at this
      refine pos_of_mul_pos_right (a := area a b c) ?_ habc.le
      rw [this]
      simp only [mul_zero, zero_add, add_zero]
      positivity
  · rintro ⟨_, _, q1, q2, q3⟩
    exact ⟨q1, q2, q3⟩

theorem Quad.half' {a b c d q : V2} (h : Quad a b c d) :
    Within a b c q ↔ 0 ≤ area a d q ∧ 0 ≤ area d b q ∧ 0 ≤ area b c q ∧ 0 ≤ area c a q ∧ 0 ≤ area a b q := by
  have habc : 0 < area a b c := by rw [← area_rot]; exact h.bca
  have h2 := h.adb
  have h3 := h.dbc
  have h4 := h.cad
  rw [within_pos habc]
  constructor
  · rintro ⟨q1, q2, q3⟩
    refine ⟨?_, ?_, q1, q2, q3⟩
    · have := area_affine a b c a d q
      rw [area_self' a d, show area a q c = area c a q from by unfold area; ring,
        show area a d c = area c a d from by unfold area; ring] at this
      refine nonneg_of_mul_nonneg_right (a := area a b c) ?_ habc
      rw [this]
      simp only [mul_zero, zero_add, add_zero]
      positivity
    · have := area_affine a b c d b q
      rw [area_self d b, show area q b c = area b c q from by unfold area; ring,
        show area d b a = area a d b from by unfold area; ring] at this
      refine nonneg_of_mul_nonneg_right (a := area a b c) ?_ habc
      rw [this]
      simp only [mul_zero, zero_add, add_zero]
      positivity
  · rintro ⟨_, _, q1, q2, q3⟩
    exact ⟨q1, q2, q3⟩

/-- The same quadrilateral with the vertices renamed. -/
theorem Quad.rot {a b c d : V2} (h : Quad a b c d) : Quad d c a b :=
  ⟨h.dbc, h.bca, h.cad, h.adb⟩

theorem Quad.turn {a b c d : V2} (h : Quad a b c d) : Quad b a d c := h.rot.rot

/-- Outside the diagonals, the two triangles at one diagonal cover the same points as those at the other. -/
theorem Quad.flip {a b c d q : V2} (h : Quad a b c d) (g1 : area a b q ≠ 0) (g2 : area c d q ≠ 0) :
    Inside a b c q ∨ Inside a b d q ↔ Inside c d a q ∨ Inside c d b q := by
  have h1 := h.half (q := q)
  have h2 := h.turn.half (q := q)
  have h3 := h.rot.half (q := q)
  have h4 := h.rot.turn.half (q := q)
  have e1 : area b a q = -area a b q := by unfold area; ring
  have e2 : area d c q = -area c d q := by unfold area; ring
  rw [h1, inside_swap (a := a) (b := b) (c := d), h2, inside_swap (a := c) (b := d) (c := a), h3, h4, e1, e2]
  rcases lt_or_gt_of_ne g1 with k1 | k1 <;> rcases lt_or_gt_of_ne g2 with k2 | k2
  all_goals
    have n1 : 0 < area a b q ↔ ¬0 < -area a b q := by constructor <;> intro _ <;> linarith
    have n2 : 0 < area c d q ↔ ¬0 < -area c d q := by constructor <;> intro _ <;> linarith
    constructor
    · rintro (⟨a1, a2, a3, a4, a5⟩ | ⟨a1, a2, a3, a4, a5⟩)
      all_goals first
        | exact .inl ⟨by assumption, by assumption, by assumption, by assumption, by linarith⟩
        | exact .inr ⟨by assumption, by assumption, by assumption, by assumption, by linarith⟩
    · rintro (⟨a1, a2, a3, a4, a5⟩ | ⟨a1, a2, a3, a4, a5⟩)
      all_goals first
        | exact .inl ⟨by assumption, by assumption, by assumption, by assumption, by linarith⟩
        | exact .inr ⟨by assumption, by assumption, by assumption, by assumption, by linarith⟩

theorem Quad.cover {a b c d q : V2} (h : Quad a b c d) (hq : Within a b c q ∨ Within a b d q) :
    Within c d a q ∨ Within c d b q := by
  have h1 := h.half' (q := q)
  have h2 := h.turn.half' (q := q)
  have h3 := h.rot.half' (q := q)
  have h4 := h.rot.turn.half' (q := q)
  have e1 : area b a q = -area a b q := by unfold area; ring
  have e2 : area d c q = -area c d q := by unfold area; ring
  rw [h1, within_swap (a := a) (b := b) (c := d), h2, e1] at hq
  rw [within_swap (a := c) (b := d) (c := a), h3, h4, e2]
  rcases le_total (area c d q) 0 with k2 | k2
  · left
    rcases hq with ⟨a1, a2, a3, a4, a5⟩ | ⟨a1, a2, a3, a4, a5⟩ <;>
      exact ⟨by assumption, by assumption, by assumption, by assumption, by linarith⟩
  · right
    rcases hq with ⟨a1, a2, a3, a4, a5⟩ | ⟨a1, a2, a3, a4, a5⟩ <;>
      exact ⟨by assumption, by assumption, by assumption, by assumption, by linarith⟩

theorem Quad.disjoint {a b c d q : V2} (h : Quad a b c d) (h1 : Inside c d a q) (h2 : Inside c d b q) : False := by
  rw [inside_swap, h.rot.half] at h1
  rw [h.rot.turn.half] at h2
  have e2 : area d c q = -area c d q := by unfold area; ring
  linarith [h1.2.2.2.2, h2.2.2.2.2]

/-- The other diagonal separates the ends of the first. -/
theorem Quad.separates {a b c d : V2} (h : Quad a b c d) : area c d a * area c d b < 0 := by
  have h1 := h.cad
  have h2 := h.dbc
  rw [show area c d a = -area c a d from by unfold area; ring, show area c d b = area d b c from by unfold area; ring]
  nlinarith

/-- What the test of convexity says when no three points are on a line. -/
theorem quad_of {a b c d : V2} (hs : area a b c * area a b d < 0) (h1 : 0 < area a c b * area a c d)
    (h2 : 0 < area c b a * area c b d) (h3 : 0 < area b d a * area b d c) (h4 : 0 < area d a c * area d a b) :
    Quad a b c d ∨ Quad b a c d := by
  have e1 : area a c b = -area a b c := by unfold area; ring
  have e2 : area c b a = -area a b c := by unfold area; ring
  have e3 : area b d a = area a b d := by unfold area; ring
  have e4 : area d a b = area a b d := by unfold area; ring
  rw [e1] at h1
  rw [e2] at h2
  rw [e3] at h3
  rw [e4] at h4
  rcases lt_trichotomy (area a b c) 0 with k | k | k
  · right
    have k2 : 0 < area a b d := by nlinarith
    have l1 : 0 < area a c d := by nlinarith
    have l2 : 0 < area c b d := by nlinarith
    exact ⟨by rw [show area b d a = area a b d from by unfold area; ring]; exact k2,
      by rw [show area d a c = area a c d from by unfold area; ring]; exact l1,
      by rw [show area a c b = -area a b c from by unfold area; ring]; linarith,
      l2⟩
  · rw [k] at hs; simp at hs
  · left
    have k2 : area a b d < 0 := by nlinarith
    have l1 : area a c d < 0 := by nlinarith
    have l2 : area c b d < 0 := by nlinarith
    exact ⟨by rw [show area a d b = -area a b d from by unfold area; ring]; linarith,
      by rw [show area d b c = -area c b d from by unfold area; ring]; linarith,
      by rw [area_rot]; exact k,
      by rw [show area c a d = -area a c d from by unfold area; ring]; linarith⟩

end Mdso.Tri
