import Verif.Lemmas.Geometry3
import Mathlib.Analysis.SpecialFunctions.Trigonometric.Bounds

/-!
# C66-C69: spatial geometry helpers

Theorems about the model of `source/util/geometry.cpp` (`Verif/Model/Geometry3.lean`) against the
coordinate-level specification `Verif/Spec/Geometry3.lean`.
-/

set_option autoImplicit false

namespace Mdso.Geom

open V3 Geom3Spec

/-! ### C66: angles -/

/-- C66: for non-zero vectors `angle` returns the one value in [0, π] whose cosine, times the two lengths,
is the scalar product. -/
theorem C66_angle (a b : V3) (ha : a ≠ 0) (hb : b ≠ 0) :
    IsAngle (angle a b) a b ∧ ∀ θ, IsAngle θ a b → angle a b = θ :=
  ⟨angle_isAngle ha hb, fun _ h => isAngle_unique ha hb (angle_isAngle ha hb) h⟩

/-- C66: the order of the arguments and their lengths do not matter. -/
theorem C66_angle_laws (a b : V3) (ha : a ≠ 0) (hb : b ≠ 0) :
    angle a b = angle b a ∧ ∀ s t : ℝ, 0 < s → 0 < t → angle (s • a) (t • b) = angle a b := by
  have hsm : ∀ (s : ℝ) (p : V3), 0 < s → p ≠ 0 → s • p ≠ 0 := by
    intro s p hs hp h0
    apply hp
    ext
    · have := congrArg V3.x h0; simp at this; exact this.resolve_left hs.ne'
    · have := congrArg V3.y h0; simp at this; exact this.resolve_left hs.ne'
    · have := congrArg V3.z h0; simp at this; exact this.resolve_left hs.ne'
  constructor
  · rw [angle_eq ha hb, angle_eq hb ha, mul_comm b.norm]
    have : a.dot b = b.dot a := by simp only [V3.dot]; ring
    rw [this]
  · intro s t hs ht
    rw [angle_eq (hsm s a hs ha) (hsm t b ht hb), angle_eq ha hb, norm_smul hs.le, norm_smul ht.le]
    have e : (s • a).dot (t • b) = s * t * a.dot b := by simp [V3.dot]; ring
    have hpos := mul_pos (norm_pos ha) (norm_pos hb)
    have ha0 := (norm_pos ha).ne'
    have hb0 := (norm_pos hb).ne'
    have hs0 := hs.ne'
    have ht0 := ht.ne'
    rw [e]; congr 1; field_simp

/-- C66: with a zero vector the result is a right angle, whatever the other vector. -/
theorem C66_angle_zero (b : V3) : angle 0 b = Real.pi / 2 ∧ angle b 0 = Real.pi / 2 := by
  have h : ∀ w : V3, (0 : V3).dot w = 0 ∧ w.dot 0 = 0 := fun w => by simp [V3.dot]
  constructor
  · unfold angle; rw [normalized_zero]; simp only [(h _).1]; norm_num
  · unfold angle; rw [normalized_zero]; simp only [(h _).2]; norm_num

/-- Non-vacuity of C66: a case with a known answer. -/
example : angle ⟨1, 0, 0⟩ ⟨0, 3, 0⟩ = Real.pi / 2 := by
  apply (C66_angle _ _ _ _).2
  · exact ⟨by positivity, by linarith [Real.pi_pos], by simp [V3.dot]⟩
  · intro h; have := congrArg V3.x h; simp at this
  · intro h; have := congrArg V3.y h; simp at this

/-! ### C67: clipping an arc of directions to the field of view -/

/-- Directions in view, in terms of the model's `angle`. -/
theorem inView_iff {s : ℝ} {p : V3} (hp : p ≠ 0) : InView s p ↔ angle p axis ≤ s := by
  constructor
  · rintro ⟨θ, h1, h2⟩
    rw [isAngle_unique hp axis_ne (angle_isAngle hp axis_ne) h1]; exact h2
  · intro h; exact ⟨_, angle_isAngle hp axis_ne, h⟩

/-- Both ends in view, up to 1e-4 rad: the arc is left alone. -/
theorem C67_both_in (s : ℝ) (d1 d2 : V3) (h1 : d1 ≠ 0) (h2 : d2 ≠ 0)
    (i1 : InView (s + 1 / 10000) d1) (i2 : InView (s + 1 / 10000) d2) :
    intersectOnSphere s d1 d2 = .ok (true, d1, d2) := by
  rw [inView_iff h1] at i1
  rw [inView_iff h2] at i2
  unfold intersectOnSphere
  have hn : ¬ (angle d1 axis > s + epsAngle ∧ angle d2 axis > s + epsAngle) :=
    fun h => absurd h.1 (not_lt.2 i1)
  have hy : angle d1 axis ≤ s + epsAngle ∧ angle d2 axis ≤ s + epsAngle := ⟨i1, i2⟩
  simp only [if_neg hn, if_pos hy]

theorem normal_ok {d1 d2 : V3} (h1 : d1 ≠ 0) (h2 : d2 ≠ 0) (hop : ¬ Opposite d1 d2)
    (hne : angle d1 axis ≠ angle d2 axis) :
    d1.cross d2 ≠ 0 ∧ ((d1.cross d2).x ≠ 0 ∨ (d1.cross d2).y ≠ 0) := by
  have hx : d1.cross d2 ≠ 0 := by
    intro h0
    obtain ⟨l, hl, e⟩ := parallel h1 h2 h0
    rcases lt_or_gt_of_ne hl with hneg | hpos
    · exact hop ⟨-l, by linarith, by rw [neg_neg]; exact e⟩
    · apply hne
      have one : (1 : ℝ) • axis = axis := by ext <;> simp
      have := (C66_angle_laws d1 axis h1 axis_ne).2 l 1 hpos one_pos
      rw [one, ← e] at this
      exact this.symm
  refine ⟨hx, ?_⟩
  by_contra hcon
  push Not at hcon
  obtain ⟨hx0, hy0⟩ := hcon
  have hz0 : (d1.cross d2).z ≠ 0 := by
    intro hz; apply hx; ext
    · exact hx0
    · exact hy0
    · exact hz
  have o1 : d1.z = 0 := by
    have e : d1.dot (d1.cross d2) = 0 := by simp only [V3.dot, V3.cross]; ring
    simp only [V3.dot] at e
    rw [hx0, hy0, mul_zero, mul_zero, zero_add, zero_add] at e
    exact (mul_eq_zero.1 e).resolve_right hz0
  have o2 : d2.z = 0 := by
    have e : d2.dot (d1.cross d2) = 0 := by simp only [V3.dot, V3.cross]; ring
    simp only [V3.dot] at e
    rw [hx0, hy0, mul_zero, mul_zero, zero_add, zero_add] at e
    exact (mul_eq_zero.1 e).resolve_right hz0
  apply hne
  rw [angle_eq h1 axis_ne, angle_eq h2 axis_ne, dot_axis, dot_axis, o1, o2, zero_div, zero_div]

theorem isAngle_of_unit {s : ℝ} (h0 : 0 ≤ s) (hp : s ≤ Real.pi) {p : V3} (h1 : p.sqNorm = 1)
    (hz : p.z = Real.cos s) : IsAngle s p ⟨0, 0, 1⟩ := by
  refine ⟨h0, hp, ?_⟩
  have : (⟨0, 0, 1⟩ : V3).norm = 1 := axis_norm
  rw [norm_eq_one h1, this, mul_one, mul_one]
  have := dot_axis p
  simp only [axis] at this
  rw [this, hz]

/-- C67, the part that is true: if one end is in view and the other is out of view by more than 1e-4 rad,
and they are not opposite, the function succeeds, keeps the end in view and replaces the other one by a unit
vector on the arc, exactly at the border of the field of view. Missing: arcs whose both ends are out of view
(`C67_hidden_arc_violated`) and ends out of view by less than 1e-4 rad (`C67_margin_violated`). -/
theorem C67_clip_partial (s : ℝ) (h0 : 0 ≤ s) (hpi : s ≤ Real.pi) (d1 d2 : V3) (h1 : d1 ≠ 0) (h2 : d2 ≠ 0)
    (hop : ¬ Opposite d1 d2) :
    (InView s d1 → ¬ InView (s + 1 / 10000) d2 → ∃ p, intersectOnSphere s d1 d2 = .ok (true, d1, p) ∧
      p.sqNorm = 1 ∧ IsAngle s p ⟨0, 0, 1⟩ ∧ OnArc p d1 d2) ∧
    (¬ InView (s + 1 / 10000) d1 → InView s d2 → ∃ p, intersectOnSphere s d1 d2 = .ok (true, p, d2) ∧
      p.sqNorm = 1 ∧ IsAngle s p ⟨0, 0, 1⟩ ∧ OnArc p d1 d2) := by
  have heps : (0 : ℝ) < 1 / 10000 := by norm_num
  constructor
  · intro i1 i2
    rw [inView_iff h1] at i1
    rw [inView_iff h2, not_le] at i2
    obtain ⟨hx, hab⟩ := normal_ok h1 h2 hop (by linarith)
    obtain ⟨q, a1, a2, a3⟩ := arc_meets hx ((angle_axis_le h1 h0 hpi).1 i1)
      ((angle_axis_lt h2 h0 hpi).1 (by linarith))
    obtain ⟨p, b1, b2, b3, b4⟩ := clip_core (s := s)
      (fun h => by have := h.1; unfold epsAngle at this; linarith)
      (fun h => by have := h.2; unfold epsAngle at this; linarith) hx hab a1 a2 a3
    refine ⟨p, ?_, b1, isAngle_of_unit h0 hpi b1 b2, b3⟩
    rw [b4, if_neg (by linarith), if_pos (by linarith)]
  · intro i1 i2
    rw [inView_iff h2] at i2
    rw [inView_iff h1, not_le] at i1
    obtain ⟨hx, hab⟩ := normal_ok h1 h2 hop (by linarith)
    have hx' : d2.cross d1 ≠ 0 := by
      intro h; apply hx
      have e : d1.cross d2 = (-1 : ℝ) • d2.cross d1 := by ext <;> simp [V3.cross] <;> ring
      rw [e, h]; ext <;> simp
    obtain ⟨q, a1, a2, a, b, c1, c2, c3⟩ := arc_meets hx' ((angle_axis_le h2 h0 hpi).1 i2)
      ((angle_axis_lt h1 h0 hpi).1 (by linarith))
    obtain ⟨p, b1, b2, b3, b4⟩ := clip_core (s := s)
      (fun h => by have := h.2; unfold epsAngle at this; linarith)
      (fun h => by have := h.1; unfold epsAngle at this; linarith) hx hab a1 a2
      ⟨b, a, c2, c1, by rw [c3]; ext <;> simp <;> ring⟩
    refine ⟨p, ?_, b1, isAngle_of_unit h0 hpi b1 b2, b3⟩
    rw [b4, if_pos (by linarith)]

/-- C67: two opposite directions, one in view and one not, abort the program. -/
theorem C67_opposite_aborts (s : ℝ) (d1 d2 : V3) (h1 : d1 ≠ 0) (h2 : d2 ≠ 0) (hop : Opposite d1 d2)
    (i : (InView (s + 1 / 10000) d1 ∧ ¬ InView (s + 1 / 10000) d2) ∨
      (¬ InView (s + 1 / 10000) d1 ∧ InView (s + 1 / 10000) d2)) :
    intersectOnSphere s d1 d2 = .error .abort := by
  rw [inView_iff h1, inView_iff h2] at i
  have hn : ¬ (angle d1 axis > s + epsAngle ∧ angle d2 axis > s + epsAngle) := by
    unfold epsAngle
    rcases i with i | i
    · exact fun h => absurd h.1 (not_lt.2 i.1)
    · exact fun h => absurd h.2 (not_lt.2 i.2)
  have hy : ¬ (angle d1 axis ≤ s + epsAngle ∧ angle d2 axis ≤ s + epsAngle) := by
    unfold epsAngle
    rcases i with i | i
    · exact fun h => i.2 h.2
    · exact fun h => i.1 h.1
  obtain ⟨a, -, e⟩ := hop
  have hc : d1.cross d2 = 0 := by rw [e]; ext <;> simp [V3.cross] <;> ring
  unfold intersectOnSphere
  simp only [if_neg hn, if_neg hy]
  rw [hc]
  simp

theorem pi_gt_one : (1 : ℝ) < Real.pi := by linarith [Real.two_le_pi]

theorem angle_diag (x : ℝ) (hx : x = 1 ∨ x = -1) : angle ⟨x, 0, 1⟩ axis = Real.pi / 4 := by
  have hne : (⟨x, 0, 1⟩ : V3) ≠ 0 := by
    intro h; have := congrArg V3.z h; simp at this
  apply (C66_angle _ _ hne axis_ne).2
  refine ⟨by positivity, by linarith [Real.pi_pos], ?_⟩
  have hn : (⟨x, 0, 1⟩ : V3).norm = Real.sqrt 2 := by
    unfold V3.norm V3.sqNorm
    congr 1
    rcases hx with rfl | rfl <;> norm_num
  rw [hn, axis_norm, dot_axis, Real.cos_pi_div_four, mul_one]
  have : Real.sqrt 2 * Real.sqrt 2 = 2 := Real.mul_self_sqrt (by norm_num)
  linarith

/-- C67 is violated: "no point in view" is reported for an arc through the middle of the field of view. The
arc from (1,0,1) to (-1,0,1) passes through the optical axis; with a field of view of π/6 the function
returns `false`. -/
theorem C67_hidden_arc_violated :
    ¬ ∀ (s : ℝ) (d1 d2 : V3), 0 ≤ s → s ≤ Real.pi → d1 ≠ 0 → d2 ≠ 0 → ¬ Opposite d1 d2 →
      ∀ r1 r2, intersectOnSphere s d1 d2 = .ok (false, r1, r2) → ∀ p, OnArc p d1 d2 → ¬ InView s p := by
  intro hall
  have hp := pi_gt_one
  have e1 := angle_diag 1 (Or.inl rfl)
  have e2 := angle_diag (-1) (Or.inr rfl)
  have hres : intersectOnSphere (Real.pi / 6) ⟨1, 0, 1⟩ ⟨-1, 0, 1⟩
      = .ok (false, ⟨1, 0, 1⟩, ⟨-1, 0, 1⟩) := by
    unfold intersectOnSphere
    have : angle ⟨1, 0, 1⟩ axis > Real.pi / 6 + epsAngle ∧
        angle ⟨-1, 0, 1⟩ axis > Real.pi / 6 + epsAngle := by
      rw [e1, e2]; unfold epsAngle; constructor <;> linarith
    simp only [if_pos this]
  refine hall (Real.pi / 6) ⟨1, 0, 1⟩ ⟨-1, 0, 1⟩ (by positivity) (by linarith) ?_ ?_ ?_ _ _ hres axis ?_ ?_
  · intro h; have := congrArg V3.z h; simp at this
  · intro h; have := congrArg V3.z h; simp at this
  · rintro ⟨a, ha, h⟩; have := congrArg V3.z h; simp at this; linarith
  · exact ⟨axis_ne, 1 / 2, 1 / 2, by norm_num, by norm_num, by ext <;> norm_num [axis]⟩
  · refine ⟨0, ⟨le_rfl, Real.pi_pos.le, ?_⟩, by positivity⟩
    have : (⟨0, 0, 1⟩ : V3).norm = 1 := axis_norm
    rw [axis_norm, this, Real.cos_zero]; simp [axis, V3.dot]

/-- C67 is violated: if one end is out of view by less than 1e-4 rad and the other one by more, the wrong
end is replaced, by a direction that is not on the arc, and the end that is out of view stays. Witness: the
arc from (1,0,1) to (1,0,0) with a field of view of π/4 - 1/20000. -/
theorem C67_margin_violated :
    ∃ (s : ℝ) (d1 d2 r1 : V3), 0 ≤ s ∧ s ≤ Real.pi ∧ d1 ≠ 0 ∧ d2 ≠ 0 ∧ ¬ Opposite d1 d2 ∧
      InView (s + 1 / 10000) d1 ∧ ¬ InView (s + 1 / 10000) d2 ∧
      intersectOnSphere s d1 d2 = .ok (true, r1, d2) ∧ ¬ OnArc r1 d1 d2 := by
  have hp := pi_gt_one
  have e1 := angle_diag 1 (Or.inl rfl)
  have n1 : (⟨1, 0, 1⟩ : V3) ≠ 0 := by intro h; have := congrArg V3.z h; simp at this
  have n2 : (⟨1, 0, 0⟩ : V3) ≠ 0 := by intro h; have := congrArg V3.x h; simp at this
  have e2 : angle ⟨1, 0, 0⟩ axis = Real.pi / 2 := by
    rw [angle_eq n2 axis_ne, dot_axis]; simp
  obtain ⟨s, hs⟩ : ∃ s, s = Real.pi / 4 - 1 / 20000 := ⟨_, rfl⟩
  have hs0 : 0 < s := by rw [hs]; linarith
  have hs4 : s < Real.pi / 4 := by rw [hs]; linarith
  have hR : 0 < Real.sin s := Real.sin_pos_of_pos_of_lt_pi hs0 (by linarith)
  have hRC : Real.sin s < Real.cos s := by
    have a1 : Real.sin s < Real.sin (Real.pi / 4) :=
      Real.sin_lt_sin_of_lt_of_le_pi_div_two (by linarith) (by linarith) hs4
    have a2 : Real.cos (Real.pi / 4) < Real.cos s :=
      Real.cos_lt_cos_of_nonneg_of_le_pi hs0.le (by linarith) hs4
    rw [Real.sin_pi_div_four] at a1
    rw [Real.cos_pi_div_four] at a2
    linarith
  refine ⟨s, ⟨1, 0, 1⟩, ⟨1, 0, 0⟩, ⟨-Real.sin s, 0, Real.cos s⟩, hs0.le, by linarith, n1, n2, ?_, ?_, ?_,
    ?_, ?_⟩
  · rintro ⟨a, ha, h⟩; have := congrArg V3.x h; simp at this; linarith
  · rw [inView_iff n1, e1]; linarith
  · rw [inView_iff n2, e2]; linarith
  · unfold intersectOnSphere
    have c1 : ¬ (angle ⟨1, 0, 1⟩ axis > s + epsAngle ∧ angle ⟨1, 0, 0⟩ axis > s + epsAngle) := by
      rw [e1]; unfold epsAngle; intro h; linarith [h.1]
    have c2 : ¬ (angle ⟨1, 0, 1⟩ axis ≤ s + epsAngle ∧ angle ⟨1, 0, 0⟩ axis ≤ s + epsAngle) := by
      rw [e2]; unfold epsAngle; intro h; linarith [h.2]
    simp only [if_neg c1, if_neg c2]
    have hc : (⟨1, 0, 1⟩ : V3).cross ⟨1, 0, 0⟩ = ⟨0, 1, 0⟩ := by ext <;> simp [V3.cross]
    simp only [hc, e1]
    have hsc := Real.sin_sq_add_cos_sq s
    generalize Real.sin s = R at *
    generalize Real.cos s = z0 at *
    have hsq : Real.sqrt (R * R) = R := Real.sqrt_mul_self hR.le
    norm_num
    simp only [hsq]
    have hn1 : ∀ x : ℝ, x * x = R * R → (⟨x, 0, z0⟩ : V3).sqNorm = 1 := by
      intro x hx; simp only [V3.sqNorm]; nlinarith
    have hx : (⟨1, 0, 1⟩ : V3).cross ⟨1, 0, 0⟩ ≠ 0 := by
      rw [hc]; intro h; have := congrArg V3.y h; simp at this
    have hcomb : (⟨R, 0, z0⟩ : V3) = z0 • (⟨1, 0, 1⟩ : V3) + (R - z0) • (⟨1, 0, 0⟩ : V3) := by
      ext <;> simp
    have hl : lsq2 ⟨1, 0, 1⟩ ⟨1, 0, 0⟩ ⟨R, 0, z0⟩ = some (z0, R - z0) := by
      rw [hcomb]; exact lsq2_of_comb hx _ _
    rw [hn1 R rfl, hn1 (-R) (by ring), hl]
    have hlt : s < Real.pi / 4 := hs4
    have hng : ¬ (0 ≤ z0 ∧ z0 ≤ R) := fun h => absurd h.2 (not_le.2 hRC)
    simp [hlt, hng, mul_self_nonneg]
  · rintro ⟨-, a, b, ha, hb, h⟩
    have hx := congrArg V3.x h
    simp at hx
    linarith

/-- Non-vacuity of `C67_clip_partial`: field of view π/6, an end on the axis and an end at π/4. -/
example : ¬ Opposite ⟨0, 0, 1⟩ ⟨1, 0, 1⟩ ∧ InView (Real.pi / 6) ⟨0, 0, 1⟩ ∧
    ¬ InView (Real.pi / 6 + 1 / 10000) ⟨1, 0, 1⟩ := by
  have hp := pi_gt_one
  refine ⟨?_, ?_, ?_⟩
  · rintro ⟨a, ha, h⟩; have := congrArg V3.x h; simp at this
  · refine ⟨0, ⟨le_rfl, Real.pi_pos.le, ?_⟩, by positivity⟩
    have : (⟨0, 0, 1⟩ : V3).norm = 1 := axis_norm
    rw [this, Real.cos_zero]; simp [V3.dot]
  · rw [inView_iff, angle_diag 1 (Or.inl rfl)]
    · linarith
    · intro h; have := congrArg V3.z h; simp at this

/-! ### C68: membership in a sector -/

/-- C68: for three linearly independent rays, `isInSector` returns true exactly for the rays that are
non-negative combinations of them. -/
theorem C68_sector (ray a b c : V3) (hd : det3 a b c ≠ 0) :
    ∃ P, isInSector ray a b c = some P ∧
      (P ↔ ∃ x y z : ℝ, 0 ≤ x ∧ 0 ≤ y ∧ 0 ≤ z ∧ ray = x • a + y • b + z • c) := by
  unfold isInSector solve3
  rw [if_neg hd]
  refine ⟨_, rfl, ?_⟩
  simp only
  constructor
  · rintro ⟨h1, h2, h3⟩
    refine ⟨_, _, _, h1, h2, h3, ?_⟩
    ext
    · simp only [add_x, smul_x]; field_simp; simp only [det3, V3.dot, V3.cross]; ring
    · simp only [add_y, smul_y]; field_simp; simp only [det3, V3.dot, V3.cross]; ring
    · simp only [add_z, smul_z]; field_simp; simp only [det3, V3.dot, V3.cross]; ring
  · rintro ⟨x, y, z, hx, hy, hz, rfl⟩
    have e1 : det3 (x • a + y • b + z • c) b c = x * det3 a b c := by
      simp only [det3, V3.dot, V3.cross, add_x, add_y, add_z, smul_x, smul_y, smul_z]; ring
    have e2 : det3 a (x • a + y • b + z • c) c = y * det3 a b c := by
      simp only [det3, V3.dot, V3.cross, add_x, add_y, add_z, smul_x, smul_y, smul_z]; ring
    have e3 : det3 a b (x • a + y • b + z • c) = z * det3 a b c := by
      simp only [det3, V3.dot, V3.cross, add_x, add_y, add_z, smul_x, smul_y, smul_z]; ring
    rw [e1, e2, e3, mul_div_cancel_right₀ _ hd, mul_div_cancel_right₀ _ hd, mul_div_cancel_right₀ _ hd]
    exact ⟨hx, hy, hz⟩

/-- Non-vacuity of C68: the first octant. -/
example : det3 ⟨1, 0, 0⟩ ⟨0, 1, 0⟩ ⟨0, 0, 1⟩ ≠ 0 := by norm_num [det3, V3.dot, V3.cross]

/-! ### C69: triangulation and the epipolar constraint -/

/-- C69: two rays that see the same point at depths `x`, `y` are triangulated to exactly these depths, unless
they are parallel after the rotation. -/
theorem C69_triangulate (m : Motion3) (r1 r2 : V3) (x y : ℝ)
    (hpt : m.rot.mulVec (x • r1) + m.t = y • r2) (hpar : (m.rot.mulVec r1).cross r2 ≠ 0) :
    triangulate m r1 r2 = some (x, y) := by
  have hx : (m.rot.mulVec r1).cross (-r2) ≠ 0 := by
    intro h; apply hpar
    have e : (m.rot.mulVec r1).cross r2 = (-1 : ℝ) • (m.rot.mulVec r1).cross (-r2) := by
      ext <;> simp [V3.cross] <;> ring
    rw [e, h]; ext <;> simp
  unfold triangulate
  have hlin : m.rot.mulVec (x • r1) = x • m.rot.mulVec r1 := by
    ext <;> simp [M3.mulVec, V3.dot] <;> ring
  rw [hlin] at hpt
  have : -m.t = x • m.rot.mulVec r1 + y • (-r2) := by
    ext
    · have := congrArg V3.x hpt; simp at this ⊢; linarith
    · have := congrArg V3.y hpt; simp at this ⊢; linarith
    · have := congrArg V3.z hpt; simp at this ⊢; linarith
  rw [this]; exact lsq2_of_comb hx x y

/-- C69: triangulation minimizes the distance between the two points it puts on the rays. -/
theorem C69_triangulate_least (m : Motion3) (r1 r2 : V3) (x y : ℝ) (h : triangulate m r1 r2 = some (x, y))
    (x' y' : ℝ) :
    (m.rot.mulVec (x • r1) + m.t - y • r2).sqNorm ≤ (m.rot.mulVec (x' • r1) + m.t - y' • r2).sqNorm := by
  unfold triangulate lsq2 at h
  have hlin : ∀ l : ℝ, m.rot.mulVec (l • r1) = l • m.rot.mulVec r1 := by
    intro l; ext <;> simp [M3.mulVec, V3.dot] <;> ring
  rw [hlin, hlin]
  generalize m.rot.mulVec r1 = u at *
  generalize m.t = t at *
  by_cases hd : u.dot u * (-r2).dot (-r2) - u.dot (-r2) * u.dot (-r2) = 0
  · simp only [if_pos hd] at h; cases h
  simp only [if_neg hd] at h
  have hp := Option.some.inj h
  have hx : x * (u.dot u * (-r2).dot (-r2) - u.dot (-r2) * u.dot (-r2))
      = u.dot (-t) * (-r2).dot (-r2) - (-r2).dot (-t) * u.dot (-r2) := by
    have := congrArg Prod.fst hp; simp only at this; rw [← this, div_mul_cancel₀ _ hd]
  have hy : y * (u.dot u * (-r2).dot (-r2) - u.dot (-r2) * u.dot (-r2))
      = u.dot u * (-r2).dot (-t) - u.dot (-r2) * u.dot (-t) := by
    have := congrArg Prod.snd hp; simp only at this; rw [← this, div_mul_cancel₀ _ hd]
  have b1 : u.dot (-r2) = - u.dot r2 := by simp [V3.dot]; ring
  have b2 : (-r2).dot (-r2) = r2.dot r2 := by simp [V3.dot]
  have b3 : u.dot (-t) = - u.dot t := by simp [V3.dot]; ring
  have b4 : (-r2).dot (-t) = r2.dot t := by simp [V3.dot]
  rw [b1, b2] at hd
  rw [b1, b2, b3, b4] at hx hy
  -- the residual is orthogonal to both columns
  have o1 : u.dot (x • u + t - y • r2) = 0 := by
    have e : u.dot (x • u + t - y • r2) = x * u.dot u + u.dot t - y * u.dot r2 := by simp [V3.dot]; ring
    rw [e]
    apply mul_right_cancel₀ hd
    linear_combination u.dot u * hx - u.dot r2 * hy
  have o2 : r2.dot (x • u + t - y • r2) = 0 := by
    have e : r2.dot (x • u + t - y • r2) = x * u.dot r2 + r2.dot t - y * r2.dot r2 := by
      simp [V3.dot]; ring
    rw [e]
    apply mul_right_cancel₀ hd
    linear_combination u.dot r2 * hx - r2.dot r2 * hy
  have hexp : (x' • u + t - y' • r2).sqNorm
      = (x • u + t - y • r2).sqNorm + ((x' - x) • u - (y' - y) • r2).sqNorm
        + 2 * ((x' - x) * u.dot (x • u + t - y • r2) - (y' - y) * r2.dot (x • u + t - y • r2)) := by
    simp [V3.sqNorm, V3.dot]; ring
  rw [hexp, o1, o2]
  have := sqNorm_nonneg ((x' - x) • u - (y' - y) • r2)
  linarith

/-- C69: corresponding rays satisfy the epipolar constraint of the essential matrix. -/
theorem C69_essential (m : Motion3) (r1 r2 : V3) (x y : ℝ) (hy : y ≠ 0)
    (hpt : m.rot.mulVec (x • r1) + m.t = y • r2) :
    r2.dot ((toEssential m).mulVec r1) = 0 := by
  have h1 := congrArg V3.x hpt
  have h2 := congrArg V3.y hpt
  have h3 := congrArg V3.z hpt
  have hE : (toEssential m).mulVec r1 = m.t.cross (m.rot.mulVec r1) := by
    ext <;> simp [toEssential, M3.mul, M3.mulVec, hat, V3.dot, V3.cross] <;> ring
  rw [hE]
  have hlin : m.rot.mulVec (x • r1) = x • m.rot.mulVec r1 := by
    ext <;> simp [M3.mulVec, V3.dot] <;> ring
  rw [hlin] at h1 h2 h3
  generalize m.rot.mulVec r1 = u at *
  simp only [add_x, add_y, add_z, smul_x, smul_y, smul_z] at h1 h2 h3
  apply mul_left_cancel₀ hy
  simp only [V3.dot, V3.cross]
  linear_combination (-(m.t.y * u.z - m.t.z * u.y)) * h1 - (m.t.z * u.x - m.t.x * u.z) * h2
    - (m.t.x * u.y - m.t.y * u.x) * h3

/-- C69, converse: rays that satisfy the epipolar constraint of a motion and are
not parallel after the rotation meet in a point, whose (possibly negative) depths are what triangulation
returns. -/
theorem C69_essential_converse (m : Motion3) (r1 r2 : V3)
    (h : r2.dot ((toEssential m).mulVec r1) = 0) (hpar : (m.rot.mulVec r1).cross r2 ≠ 0) :
    ∃ x y, triangulate m r1 r2 = some (x, y) ∧ m.rot.mulVec (x • r1) + m.t = y • r2 := by
  have hE : (toEssential m).mulVec r1 = m.t.cross (m.rot.mulVec r1) := by
    ext <;> simp [toEssential, M3.mul, M3.mulVec, hat, V3.dot, V3.cross] <;> ring
  rw [hE] at h
  have hex : ∃ x y : ℝ, m.rot.mulVec (x • r1) + m.t = y • r2 := by
    have hlin : ∀ x : ℝ, m.rot.mulVec (x • r1) = x • m.rot.mulVec r1 := by
      intro x; ext <;> simp [M3.mulVec, V3.dot] <;> ring
    simp only [hlin]
    generalize m.rot.mulVec r1 = u at *
    have hS := (sqNorm_pos hpar).ne'
    have hS' : (u.cross r2).sqNorm = (u.cross r2).x * (u.cross r2).x
      + (u.cross r2).y * (u.cross r2).y + (u.cross r2).z * (u.cross r2).z := rfl
    refine ⟨-((m.t.cross r2).dot (u.cross r2) / (u.cross r2).sqNorm),
      (u.cross m.t).dot (u.cross r2) / (u.cross r2).sqNorm, ?_⟩
    simp only [V3.dot, V3.cross] at h
    ext
    · simp only [add_x, smul_x]; field_simp; rw [hS']; simp only [V3.cross, V3.dot]
      linear_combination (u.y * r2.z - u.z * r2.y) * h
    · simp only [add_y, smul_y]; field_simp; rw [hS']; simp only [V3.cross, V3.dot]
      linear_combination (u.z * r2.x - u.x * r2.z) * h
    · simp only [add_z, smul_z]; field_simp; rw [hS']; simp only [V3.cross, V3.dot]
      linear_combination (u.x * r2.y - u.y * r2.x) * h
  obtain ⟨x, y, hxy⟩ := hex
  exact ⟨x, y, C69_triangulate m r1 r2 x y hxy hpar, hxy⟩

/-- Non-vacuity of C69: the identity rotation, a translation along x, and the point (0,0,2). -/
example :
    let m : Motion3 := ⟨⟨⟨1, 0, 0⟩, ⟨0, 1, 0⟩, ⟨0, 0, 1⟩⟩, ⟨1, 0, 0⟩⟩
    m.rot.mulVec ((2 : ℝ) • (⟨0, 0, 1⟩ : V3)) + m.t = (1 : ℝ) • (⟨1, 0, 2⟩ : V3) ∧
      (m.rot.mulVec ⟨0, 0, 1⟩).cross ⟨1, 0, 2⟩ ≠ 0 ∧
      triangulate m ⟨0, 0, 1⟩ ⟨1, 0, 2⟩ = some (2, 1) := by
  intro m
  have h1 : m.rot.mulVec ((2 : ℝ) • (⟨0, 0, 1⟩ : V3)) + m.t = (1 : ℝ) • (⟨1, 0, 2⟩ : V3) := by
    ext <;> simp [m, M3.mulVec, V3.dot]
  have h2 : (m.rot.mulVec ⟨0, 0, 1⟩).cross ⟨1, 0, 2⟩ ≠ 0 := by
    intro h; have := congrArg V3.y h; simp [m, M3.mulVec, V3.dot, V3.cross] at this
  exact ⟨h1, h2, C69_triangulate m _ _ _ _ h1 h2⟩

end Mdso.Geom
