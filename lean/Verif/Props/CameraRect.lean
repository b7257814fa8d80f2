import Verif.Spec.CameraRect
import Verif.Props.CameraModel
import Mathlib.Tactic.Linarith

/-!
# The rectangle of an angle (C183)
-/

set_option autoImplicit false

namespace Mdso.Cam

open Mdso.Geom Mdso.CamSpec

/-! ## Constructed cameras -/

theorem half_le_far (w h : Nat) (k : V2) :
    Real.sqrt (((w : ℝ) / 2) ^ 2 + ((h : ℝ) / 2) ^ 2) ≤ farRadius w h k := by
  have key : ∀ a b : ℝ, ((w : ℝ) / 2) ^ 2 ≤ (a - k.x) ^ 2 → ((h : ℝ) / 2) ^ 2 ≤ (b - k.y) ^ 2 →
      Real.sqrt (((w : ℝ) / 2) ^ 2 + ((h : ℝ) / 2) ^ 2) ≤ distance ⟨a, b⟩ k := by
    intro a b ha hb
    exact Real.sqrt_le_sqrt (by simpa using add_le_add ha hb)
  have hw : (0 : ℝ) ≤ w := Nat.cast_nonneg w
  have hh : (0 : ℝ) ≤ h := Nat.cast_nonneg h
  unfold farRadius
  by_cases hx : k.x ≤ (w : ℝ) / 2 <;> by_cases hy : k.y ≤ (h : ℝ) / 2
  · exact (key w h (by nlinarith) (by nlinarith)).trans
      (le_trans (le_max_right _ _) (le_max_right _ _))
  · exact (key w 0 (by nlinarith) (by nlinarith)).trans
      (le_trans (le_max_right _ _) (le_max_left _ _))
  · exact (key 0 h (by nlinarith) (by nlinarith)).trans
      (le_trans (le_max_left _ _) (le_max_right _ _))
  · exact (key 0 0 (by nlinarith) (by nlinarith)).trans
      (le_trans (le_max_left _ _) (le_max_left _ _))

theorem far_pos {w h : Nat} (hw : 0 < w) (k : V2) : 0 < farRadius w h k := by
  refine lt_of_lt_of_le (Real.sqrt_pos.2 ?_) (half_le_far w h k)
  have : (0 : ℝ) < w := by exact_mod_cast hw
  positivity

theorem farthestCorner_far (w h : Nat) (k : V2) : farthestCorner w h k = farRadius w h k := by
  unfold farthestCorner farRadius norm2 sqNorm distance
  simp only [sub_x, sub_y, ← pow_two]

/-- What the constructors guarantee. -/
structure Sized (c : Cam) : Prop where
  width : 0 < c.width
  height : 0 < c.height
  scale : c.scale = farRadius c.width c.height (getImgCenter c)
  unit : c.maxRadius = 1

theorem normalize_sized {c : Cam} (hw : 0 < c.width) (hh : 0 < c.height) (hs : 0 < c.scale) :
    Sized (normalize c) := by
  have hf : 0 < farthestCorner c.width c.height (c.scale • c.center) := by
    rw [farthestCorner_far]; exact far_pos hw _
  have e : getImgCenter (normalize c) = c.scale • c.center := by
    unfold getImgCenter normalize
    ext
    · simp only [smul_x]
      field_simp
    · simp only [smul_y]
      field_simp
  refine ⟨hw, hh, ?_, rfl⟩
  rw [e]
  exact farthestCorner_far _ _ _

theorem constructed_sized {c : Cam} (h : Constructed c) : Sized c := by
  have key : ∀ (solve : List (ℝ × ℝ) → Nat → ℝ × List ℝ) (deg : Nat) (samples : List ℝ) (b : Cam),
      Sized b → setMapPolyCoeffs solve deg samples b = .ok c → Sized c := by
    intro solve deg samples b hb h
    unfold setMapPolyCoeffs at h
    simp only at h
    split at h
    · rw [← Except.ok.inj h]
      exact ⟨hb.width, hb.height, hb.scale, hb.unit⟩
    · cases h
  obtain ⟨solve, deg, samples, w, h', hw, hh, hc | hc⟩ := h
  · obtain ⟨scale, center, cs, hs, hc⟩ := hc
    cases cs with
    | nil => cases hc
    | cons p0 ps => exact key solve deg samples _ (normalize_sized hw hh hs) hc
  · obtain ⟨f, cx, cy, hc⟩ := hc
    exact key solve deg samples _ (normalize_sized hw hh one_pos) hc

/-! ## C183 -/

theorem toInt_floor {x : ℝ} {n : Int} (h : toInt x = .ok n) (h0 : 0 ≤ x) : n = ⌊x⌋ := by
  unfold toInt at h
  split at h
  · rw [← Except.ok.inj h]
    unfold Util.truncInt
    rw [if_pos h0]
  · cases h

theorem getRect_ok {c : Cam} {a : ℝ} {w h : Int} (e : getRectByAngle c a = .ok (w, h)) :
    toInt (calcMapPoly c a * c.width / c.maxRadius) = .ok w ∧
      toInt (calcMapPoly c a * c.height / c.maxRadius) = .ok h := by
  unfold getRectByAngle at e
  cases h1 : toInt (calcMapPoly c a * c.width / c.maxRadius) with
  | error x => simp only [h1, bind, Except.bind] at e; cases e
  | ok v =>
    cases h2 : toInt (calcMapPoly c a * c.height / c.maxRadius) with
    | error x => simp only [h1, h2, bind, Except.bind] at e; cases e
    | ok v' =>
      simp only [h1, h2, bind, Except.bind] at e
      obtain ⟨e1, e2⟩ := Prod.mk.inj (Except.ok.inj e)
      rw [e1, e2]
      exact ⟨rfl, rfl⟩

theorem radius_poly (c : Cam) (a : ℝ) : calcMapPoly c a = poly c.m0 c.ms a := by
  unfold calcMapPoly
  rw [polyLoop_poly]

/-- **C183**, existence: for an angle seen in the picture the rectangle exists and is not larger than
the picture; at the radius of the farthest corner it is the whole picture. -/
theorem C183_exists {c : Cam} (hc : Constructed c) (hw : c.width < 2147483648)
    (hh : c.height < 2147483648) {a : ℝ} (h0 : 0 ≤ getImgRadiusByAngle c a)
    (h1 : getImgRadiusByAngle c a ≤ farRadius c.width c.height (getImgCenter c)) :
    ∃ w h : Int, getRectByAngle c a = .ok (w, h) ∧ 0 ≤ w ∧ w ≤ c.width ∧ 0 ≤ h ∧ h ≤ c.height ∧
      (getImgRadiusByAngle c a = farRadius c.width c.height (getImgCenter c) →
        w = c.width ∧ h = c.height) := by
  have S := constructed_sized hc
  have hs : 0 < c.scale := by rw [S.scale]; exact far_pos S.width _
  unfold getImgRadiusByAngle at h0 h1 ⊢
  rw [← S.scale] at h1 ⊢
  have r0 : 0 ≤ calcMapPoly c a := by
    by_contra h
    exact absurd (mul_neg_of_pos_of_neg hs (not_le.1 h)) (not_lt.2 h0)
  have r1 : calcMapPoly c a ≤ 1 := by
    by_contra h
    have := mul_lt_mul_of_pos_left (not_le.1 h) hs
    linarith
  have key : ∀ n : Nat, n < 2147483648 → toInt (calcMapPoly c a * n / c.maxRadius) =
      .ok ⌊calcMapPoly c a * n⌋ ∧ 0 ≤ ⌊calcMapPoly c a * n⌋ ∧ ⌊calcMapPoly c a * n⌋ ≤ n := by
    intro n hn
    have hn0 : (0 : ℝ) ≤ n := Nat.cast_nonneg n
    have hn1 : (n : ℝ) < 2147483648 := by exact_mod_cast hn
    have p0 : 0 ≤ calcMapPoly c a * n := mul_nonneg r0 hn0
    have p1 : calcMapPoly c a * n ≤ n := by
      have := mul_le_mul_of_nonneg_right r1 hn0
      linarith
    refine ⟨?_, Int.floor_nonneg.2 p0, ?_⟩
    · unfold toInt
      rw [S.unit, div_one, if_pos ⟨by linarith, by linarith⟩]
      unfold Util.truncInt
      rw [if_pos p0]
    · have := Int.floor_le_floor p1
      rwa [Int.floor_natCast] at this
  obtain ⟨w1, w2, w3⟩ := key c.width hw
  obtain ⟨k1, k2, k3⟩ := key c.height hh
  refine ⟨_, _, ?_, w2, w3, k2, k3, ?_⟩
  · unfold getRectByAngle
    simp only [w1, k1, bind, Except.bind]
  · intro e
    have : calcMapPoly c a = 1 := by
      have := mul_left_cancel₀ hs.ne' (e.trans (mul_one _).symm)
      exact this
    rw [this, one_mul, one_mul, Int.floor_natCast, Int.floor_natCast]
    exact ⟨rfl, rfl⟩

/-- **C183**, inside: on every level of the pyramid the rectangle around the image center lies in the
circle of the angle. -/
theorem C183_inside {c : Cam} (hc : Constructed c) (i : Nat) {a : ℝ}
    (h0 : 0 ≤ getImgRadiusByAngle (atLevel c i) a) {w h : Int}
    (e : getRectByAngle (atLevel c i) a = .ok (w, h)) {p : V2}
    (hp : InRect (getImgCenter (atLevel c i)) w h p) :
    distance p (getImgCenter (atLevel c i)) ≤ getImgRadiusByAngle (atLevel c i) a := by
  have S := constructed_sized hc
  have hs : 0 < c.scale := by rw [S.scale]; exact far_pos S.width _
  obtain ⟨q, hq⟩ : ∃ q : ℝ, q = ((2 ^ i : Nat) : ℝ) := ⟨_, rfl⟩
  have hq0 : 0 < q := by rw [hq]; exact_mod_cast Nat.pos_of_ne_zero (by positivity)
  obtain ⟨r, hr⟩ : ∃ r, r = calcMapPoly c a := ⟨_, rfl⟩
  have eR : getImgRadiusByAngle (atLevel c i) a = c.scale / q * r := by
    rw [hr, hq]; rfl
  have hsq : 0 < c.scale / q := div_pos hs hq0
  rw [eR] at h0 ⊢
  have r0 : 0 ≤ r := by
    by_contra h
    exact absurd (mul_neg_of_pos_of_neg hsq (not_le.1 h)) (not_lt.2 h0)
  obtain ⟨e1, e2⟩ := getRect_ok e
  have eW : ((atLevel c i).width : ℝ) ≤ c.width / q := by
    rw [hq]; exact Nat.cast_div_le
  have eH : ((atLevel c i).height : ℝ) ≤ c.height / q := by
    rw [hq]; exact Nat.cast_div_le
  have eu : (atLevel c i).maxRadius = 1 := S.unit
  have er : calcMapPoly (atLevel c i) a = r := hr.symm
  rw [eu, er, div_one] at e1 e2
  have w1 : (w : ℝ) ≤ r * (c.width / q) := by
    rw [toInt_floor e1 (mul_nonneg r0 (Nat.cast_nonneg _))]
    exact (Int.floor_le _).trans (mul_le_mul_of_nonneg_left eW r0)
  have h1 : (h : ℝ) ≤ r * (c.height / q) := by
    rw [toInt_floor e2 (mul_nonneg r0 (Nat.cast_nonneg _))]
    exact (Int.floor_le _).trans (mul_le_mul_of_nonneg_left eH r0)
  have sq : ∀ {x y z : ℝ}, |x| ≤ y / 2 → y ≤ z → x ^ 2 ≤ (z / 2) ^ 2 := by
    intro x y z hx hy
    rw [← sq_abs x]
    exact pow_le_pow_left₀ (abs_nonneg x) (by linarith) 2
  have a1 := sq hp.1 w1
  have a2 := sq hp.2 h1
  have hd := half_le_far c.width c.height (getImgCenter c)
  rw [← S.scale] at hd
  have hd2 : ((c.width : ℝ) / 2) ^ 2 + ((c.height : ℝ) / 2) ^ 2 ≤ c.scale ^ 2 := by
    have h3 := pow_le_pow_left₀ (Real.sqrt_nonneg _) hd 2
    rwa [Real.sq_sqrt (by positivity)] at h3
  unfold distance
  refine Real.sqrt_le_iff.2 ⟨h0, ?_⟩
  have : (r * (c.width / q) / 2) ^ 2 + (r * (c.height / q) / 2) ^ 2 =
      (r / q) ^ 2 * (((c.width : ℝ) / 2) ^ 2 + ((c.height : ℝ) / 2) ^ 2) := by
    field_simp
  have h4 := mul_le_mul_of_nonneg_left hd2 (sq_nonneg (r / q))
  have h5 : (r / q) ^ 2 * c.scale ^ 2 = (c.scale / q * r) ^ 2 := by field_simp
  linarith

/-- **C183**, angles: if the radius grows with the angle, every ray that is seen in the rectangle is
at most the angle off the axis. -/
theorem C183_angle {c : Cam} (hc : Constructed c) (hg : Grows c) (i : Nat) {a : ℝ} (ha0 : 0 ≤ a)
    (ha : a ≤ Real.pi) {w h : Int} (e : getRectByAngle (atLevel c i) a = .ok (w, h)) {v : V3}
    (hv : ¬ (v.x = 0 ∧ v.y = 0))
    (hp : InRect (getImgCenter (atLevel c i)) w h (map (atLevel c i) v)) :
    angleToAxis v ≤ a := by
  have S := constructed_sized hc
  have hs : 0 < (atLevel c i).scale := by
    have : 0 < c.scale := by rw [S.scale]; exact far_pos S.width _
    exact div_pos this (by exact_mod_cast Nat.pos_of_ne_zero (by positivity))
  have pos : ∀ b, 0 ≤ b → b ≤ Real.pi → 0 ≤ poly c.m0 c.ms b := by
    intro b hb hb'
    rcases hb.eq_or_lt with rfl | hb
    · exact hg.1
    · exact hg.1.trans (hg.2 0 b le_rfl hb hb').le
  have rad : ∀ b, getImgRadiusByAngle (atLevel c i) b = (atLevel c i).scale * poly c.m0 c.ms b := by
    intro b
    unfold getImgRadiusByAngle
    rw [radius_poly]
    rfl
  have h1 := C183_inside hc i (a := a) (by rw [rad]; exact mul_nonneg hs.le (pos a ha0 ha)) e hp
  rw [(C38_radius (atLevel c i) hs v hv).1] at h1
  have hb0 : 0 ≤ angleToAxis v := Real.arccos_nonneg _
  have hb1 : angleToAxis v ≤ Real.pi := Real.arccos_le_pi _
  rw [rad, rad, abs_of_nonneg (mul_nonneg hs.le (pos _ hb0 hb1))] at h1
  by_contra hlt
  have := mul_lt_mul_of_pos_left (hg.2 a _ ha0 (not_le.1 hlt) hb1) hs
  linarith

/-- **C183**, largest: if the image center is the middle of the picture, the rectangle cannot be made
larger by one pixel in both directions: a corner would leave the circle. -/
theorem C183_largest {c : Cam} (hc : Constructed c)
    (hm : getImgCenter c = ⟨(c.width : ℝ) / 2, (c.height : ℝ) / 2⟩) {a : ℝ}
    (h0 : 0 ≤ getImgRadiusByAngle c a) {w h : Int} (e : getRectByAngle c a = .ok (w, h)) :
    ∃ p, InRect (getImgCenter c) (w + 1) (h + 1) p ∧
      getImgRadiusByAngle c a < distance p (getImgCenter c) := by
  have S := constructed_sized hc
  have hs : 0 < c.scale := by rw [S.scale]; exact far_pos S.width _
  obtain ⟨r, hr⟩ : ∃ r, r = calcMapPoly c a := ⟨_, rfl⟩
  have eR : getImgRadiusByAngle c a = c.scale * r := by rw [hr]; rfl
  rw [eR] at h0 ⊢
  have r0 : 0 ≤ r := by
    by_contra h
    exact absurd (mul_neg_of_pos_of_neg hs (not_le.1 h)) (not_lt.2 h0)
  obtain ⟨e1, e2⟩ := getRect_ok e
  rw [S.unit, ← hr, div_one] at e1 e2
  have hw0 : 0 ≤ r * c.width := mul_nonneg r0 (Nat.cast_nonneg _)
  have hh0 : 0 ≤ r * c.height := mul_nonneg r0 (Nat.cast_nonneg _)
  have w1 : r * c.width < (w : ℝ) + 1 := by
    rw [toInt_floor e1 hw0]; exact Int.lt_floor_add_one _
  have h1 : r * c.height < (h : ℝ) + 1 := by
    rw [toInt_floor e2 hh0]; exact Int.lt_floor_add_one _
  have escale : c.scale ^ 2 = ((c.width : ℝ) / 2) ^ 2 + ((c.height : ℝ) / 2) ^ 2 := by
    have : c.scale = Real.sqrt (((c.width : ℝ) / 2) ^ 2 + ((c.height : ℝ) / 2) ^ 2) := by
      rw [S.scale, hm]
      unfold farRadius distance
      have i1 : ((0 : ℝ) - (c.width : ℝ) / 2) ^ 2 = ((c.width : ℝ) / 2) ^ 2 := by ring
      have i2 : ((0 : ℝ) - (c.height : ℝ) / 2) ^ 2 = ((c.height : ℝ) / 2) ^ 2 := by ring
      have i3 : ((c.width : ℝ) - (c.width : ℝ) / 2) ^ 2 = ((c.width : ℝ) / 2) ^ 2 := by ring
      have i4 : ((c.height : ℝ) - (c.height : ℝ) / 2) ^ 2 = ((c.height : ℝ) / 2) ^ 2 := by ring
      simp only [i1, i2, i3, i4, max_self]
    rw [this, Real.sq_sqrt (by positivity)]
  refine ⟨⟨(getImgCenter c).x + ((w : ℝ) + 1) / 2, (getImgCenter c).y + ((h : ℝ) + 1) / 2⟩, ?_, ?_⟩
  · constructor
    · simp only [add_sub_cancel_left]
      rw [abs_of_nonneg (by linarith)]
      push_cast
      exact le_rfl
    · simp only [add_sub_cancel_left]
      rw [abs_of_nonneg (by linarith)]
      push_cast
      exact le_rfl
  · unfold distance
    refine Real.lt_sqrt_of_sq_lt ?_
    simp only [add_sub_cancel_left]
    have b1 : (r * c.width / 2) ^ 2 < (((w : ℝ) + 1) / 2) ^ 2 :=
      pow_lt_pow_left₀ (by linarith) (by linarith) (by norm_num)
    have b2 : (r * c.height / 2) ^ 2 < (((h : ℝ) + 1) / 2) ^ 2 :=
      pow_lt_pow_left₀ (by linarith) (by linarith) (by norm_num)
    have b3 : (c.scale * r) ^ 2 = (r * c.width / 2) ^ 2 + (r * c.height / 2) ^ 2 := by
      rw [mul_pow, escale]; ring
    linarith

/-! ## An example -/

/-- A camera with a picture of 640 by 480 pixels and the image center in the middle; the radius is a
third of the angle. -/
theorem exRect : ∃ c, Constructed c ∧ c.width = 640 ∧ c.height = 480 ∧ c.m0 = 0 ∧ c.ms = [1 / 3] ∧
    getImgCenter c = ⟨(c.width : ℝ) / 2, (c.height : ℝ) / 2⟩ := by
  refine ⟨_, ⟨fun _ _ => (0, [1 / 3]), 1, [], 640, 480, by norm_num, by norm_num,
    Or.inr ⟨300, 320, 240, if_pos ?_⟩⟩, rfl, rfl, rfl, rfl, ?_⟩
  · simp [nonDecreasing]
  · have hf : 0 < farthestCorner 640 480 ((1 : ℝ) • (⟨320, 240⟩ : V2)) := by
      rw [farthestCorner_far]; exact far_pos (by norm_num) _
    unfold getImgCenter normalize
    ext
    · simp only [smul_x]
      field_simp
      norm_num
    · simp only [smul_y]
      field_simp
      norm_num

example : ∃ c, Constructed c ∧ Grows c ∧ ∃ w h : Int, getRectByAngle c 1 = .ok (w, h) ∧
    w = 213 ∧ h = 160 ∧ (∀ p, InRect (getImgCenter c) w h p →
      distance p (getImgCenter c) ≤ getImgRadiusByAngle c 1) ∧
    ∃ p, InRect (getImgCenter c) (w + 1) (h + 1) p ∧
      getImgRadiusByAngle c 1 < distance p (getImgCenter c) := by
  obtain ⟨c, hc, ew, eh, e0, es, em⟩ := exRect
  have S := constructed_sized hc
  have hs : 0 < c.scale := by rw [S.scale]; exact far_pos S.width _
  have er : ∀ a, calcMapPoly c a = a / 3 := by
    intro a
    unfold calcMapPoly
    rw [e0, es]
    simp only [polyLoop]
    ring
  have hr : 0 ≤ getImgRadiusByAngle c 1 := by
    unfold getImgRadiusByAngle
    rw [er]
    positivity
  have e : getRectByAngle c 1 = .ok (213, 160) := by
    unfold getRectByAngle
    have f1 : toInt (calcMapPoly c 1 * c.width / c.maxRadius) = .ok 213 := by
      rw [er, S.unit, ew]
      unfold toInt
      rw [if_pos (by norm_num)]
      unfold Util.truncInt
      rw [if_pos (by norm_num)]
      norm_num [Int.floor_eq_iff]
    have f2 : toInt (calcMapPoly c 1 * c.height / c.maxRadius) = .ok 160 := by
      rw [er, S.unit, eh]
      unfold toInt
      rw [if_pos (by norm_num)]
      unfold Util.truncInt
      rw [if_pos (by norm_num)]
      norm_num [Int.floor_eq_iff]
    simp only [f1, f2, bind, Except.bind]
  have e' : atLevel c 0 = c := by
    unfold atLevel
    simp
  refine ⟨c, hc, ⟨?_, ?_⟩, 213, 160, e, rfl, rfl, ?_, C183_largest hc em hr e⟩
  · rw [← radius_poly, er]; norm_num
  · intro a b _ hab _
    rw [← radius_poly, ← radius_poly, er, er]
    linarith
  · intro p hp
    have := C183_inside hc 0 (a := 1) (w := 213) (h := 160) (p := p)
    rw [e'] at this
    exact this hr e hp

end Mdso.Cam
