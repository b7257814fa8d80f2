import Verif.Spec.Geometry
import Mathlib.Tactic.Linarith
import Mathlib.Tactic.NormNum
import Mathlib.Tactic.FieldSimp
import Mathlib.Tactic.Ring
import Mathlib.Tactic.LinearCombination
import Mathlib.Tactic.Push

/-!
# C44–C47: planar geometry
-/

set_option autoImplicit false

namespace Mdso.Geom
open Mdso.GeomSpec

/-- Twice the signed area. -/
def area (a b c : V2) : ℝ := (b.x - a.x) * (c.y - a.y) - (b.y - a.y) * (c.x - a.x)

theorem cross_area (a b c : V2) : cross2 (b - a) (c - a) = area a b c := rfl

theorem proper_iff (a b c : V2) : Proper a b c ↔ area a b c ≠ 0 := by
  constructor
  · rintro ⟨hab, h⟩ h0
    unfold area at h0
    by_cases hx : b.x - a.x = 0
    · have hy : b.y - a.y ≠ 0 := fun hy => hab (V2.ext (by linarith) (by linarith))
      refine h ((c.y - a.y) / (b.y - a.y)) ⟨?_, by field_simp; ring⟩
      rw [hx] at h0 ⊢
      have : (b.y - a.y) * (c.x - a.x) = 0 := by linarith
      have := (mul_eq_zero.1 this).resolve_left hy
      linarith
    · refine h ((c.x - a.x) / (b.x - a.x)) ⟨by field_simp; ring, ?_⟩
      field_simp
      linarith
  · intro h
    refine ⟨?_, ?_⟩
    · rintro rfl; exact h (by unfold area; ring)
    · rintro t ⟨hx, hy⟩
      apply h; unfold area; rw [hx, hy]; ring

/-! ## C44 -/

/-- C44. For every proper triangle and every point, `isInsideTriangle` holds exactly if the point is a convex
combination of the corners. -/
theorem C44_inside {a b c : V2} (h : Proper a b c) (p : V2) :
    isInsideTriangle a b c p ↔ InTriangle a b c p := by
  rw [proper_iff] at h
  unfold isInsideTriangle isSameSide
  simp only [cross_area]
  have e1 : area a c b = -area a b c := by unfold area; ring
  have e2 : area b c a = area a b c := by unfold area; ring
  have hid : area a b p + area b c p - area a c p = area a b c := by unfold area; ring
  rw [e1, e2]
  generalize hD : area a b c = D at *
  constructor
  · rintro ⟨h1, h2, h3⟩
    have hinv : ∀ x : ℝ, x * D ≥ 0 → 0 ≤ x / D := by
      intro x hx
      rcases lt_or_gt_of_ne h with hd | hd
      · exact div_nonneg_of_nonpos (by nlinarith) hd.le
      · exact div_nonneg (by nlinarith) hd.le
    refine ⟨area b c p / D, -area a c p / D, area a b p / D, hinv _ h3, hinv _ (by linarith), hinv _ h1,
      ?_, ?_, ?_⟩
    · field_simp; linarith
    · field_simp; rw [← hD]; unfold area; ring
    · field_simp; rw [← hD]; unfold area; ring
  · rintro ⟨s, t, u, hs, ht, hu, hsum, hx, hy⟩
    have hs' : s = 1 - t - u := by linarith
    have a1 : area a b p = u * D := by
      rw [← hD]; unfold area; rw [hx, hy, hs']; ring
    have a2 : area a c p = -(t * D) := by
      rw [← hD]; unfold area; rw [hx, hy, hs']; ring
    have a3 : area b c p = s * D := by
      rw [← hD]; unfold area; rw [hx, hy, hs']; ring
    rw [a1, a2, a3]
    refine ⟨?_, ?_, ?_⟩
    · nlinarith [mul_nonneg hu (mul_self_nonneg D)]
    · nlinarith [mul_nonneg ht (mul_self_nonneg D)]
    · nlinarith [mul_nonneg hs (mul_self_nonneg D)]

example : isInsideTriangle ⟨0, 0⟩ ⟨4, 0⟩ ⟨0, 4⟩ ⟨1, 1⟩ :=
  (C44_inside ((proper_iff _ _ _).2 (by norm_num [area])) _).2
    ⟨1 / 2, 1 / 4, 1 / 4, by norm_num, by norm_num, by norm_num, by norm_num, by norm_num, by norm_num⟩

/-- C44, outside the claim: for a degenerate triangle (corners on a line) every point on that line counts as
inside, and if the corners coincide, every point does. -/
theorem C44_degenerate (a p : V2) : isInsideTriangle a a a p := by
  unfold isInsideTriangle isSameSide cross2
  simp

/-! ## C45 -/

/-- The circumcentre of a proper triangle. -/
theorem circumcentre_exists {a b c : V2} (h : area a b c ≠ 0) : ∃ o, Circumcentre a b c o := by
  refine ⟨⟨a.x + ((c.y - a.y) * d2 b a - (b.y - a.y) * d2 c a) / (2 * area a b c),
    a.y + ((b.x - a.x) * d2 c a - (c.x - a.x) * d2 b a) / (2 * area a b c)⟩, ?_, ?_⟩
  · unfold d2
    simp only
    have h2 : (2 * area a b c) ≠ 0 := by simpa using h
    have key : ∀ (bx cx by' cy X Y D : ℝ), D ≠ 0 → bx * X + by' * Y = (bx ^ 2 + by' ^ 2) / 2 * D →
        (X / D) ^ 2 + (Y / D) ^ 2 = (X / D - bx) ^ 2 + (Y / D - by') ^ 2 := by
      intro bx cx by' cy X Y D hD hh
      have : bx * (X / D) + by' * (Y / D) = (bx ^ 2 + by' ^ 2) / 2 := by
        field_simp; linear_combination 2 * hh
      nlinarith
    have := key (b.x - a.x) 0 (b.y - a.y) 0
      ((c.y - a.y) * ((b.x - a.x) ^ 2 + (b.y - a.y) ^ 2) - (b.y - a.y) * ((c.x - a.x) ^ 2 + (c.y - a.y) ^ 2))
      ((b.x - a.x) * ((c.x - a.x) ^ 2 + (c.y - a.y) ^ 2) - (c.x - a.x) * ((b.x - a.x) ^ 2 + (b.y - a.y) ^ 2))
      (2 * area a b c) h2 (by unfold area; ring)
    linear_combination this
  · unfold d2
    simp only
    have h2 : (2 * area a b c) ≠ 0 := by simpa using h
    have key : ∀ (bx by' cx cy X Y D : ℝ), D ≠ 0 → bx * X + by' * Y = (bx ^ 2 + by' ^ 2) / 2 * D →
        cx * X + cy * Y = (cx ^ 2 + cy ^ 2) / 2 * D →
        (X / D - bx) ^ 2 + (Y / D - by') ^ 2 = (X / D - cx) ^ 2 + (Y / D - cy) ^ 2 := by
      intro bx by' cx cy X Y D hD hh hh2
      have h3 : bx * (X / D) + by' * (Y / D) = (bx ^ 2 + by' ^ 2) / 2 := by
        field_simp; linear_combination 2 * hh
      have h4 : cx * (X / D) + cy * (Y / D) = (cx ^ 2 + cy ^ 2) / 2 := by
        field_simp; linear_combination 2 * hh2
      nlinarith
    have := key (b.x - a.x) (b.y - a.y) (c.x - a.x) (c.y - a.y)
      ((c.y - a.y) * ((b.x - a.x) ^ 2 + (b.y - a.y) ^ 2) - (b.y - a.y) * ((c.x - a.x) ^ 2 + (c.y - a.y) ^ 2))
      ((b.x - a.x) * ((c.x - a.x) ^ 2 + (c.y - a.y) ^ 2) - (c.x - a.x) * ((b.x - a.x) ^ 2 + (b.y - a.y) ^ 2))
      (2 * area a b c) h2 (by unfold area; ring) (by unfold area; ring)
    linear_combination this

/-- C45. For every proper triangle (of either orientation) and every fourth point, `isABDelaunay` holds
exactly if the fourth point is not strictly inside the circle through the first three. -/
theorem C45_delaunay {a b c : V2} (h : Proper a b c) (d : V2) :
    isABDelaunay a b c d ↔ ∀ o, Circumcentre a b c o → d2 o a ≤ d2 o d := by
  rw [proper_iff] at h
  have key : ∀ o, Circumcentre a b c o →
      (isABDelaunay a b c d ↔ area a b c ^ 2 * (d2 o a - d2 o d) ≤ 0) := by
    rintro o ⟨h1, h2⟩
    have : (let da := a - d
      let db := b - d
      let dc := c - d
      da.x * (db.y * sqNorm dc - sqNorm db * dc.y) - da.y * (db.x * sqNorm dc - sqNorm db * dc.x)
        + sqNorm da * (db.x * dc.y - db.y * dc.x)) = area a b c * (d2 o a - d2 o d) := by
      simp only [sqNorm, sub_x, sub_y]
      unfold d2 at h1 h2 ⊢
      unfold area
      linear_combination
        (((a.x - d.x) * (c.y - d.y) - (a.y - d.y) * (c.x - d.x))
          - ((a.x - d.x) * (b.y - d.y) - (a.y - d.y) * (b.x - d.x))) * h1
          - ((a.x - d.x) * (b.y - d.y) - (a.y - d.y) * (b.x - d.x)) * h2
    unfold isABDelaunay
    simp only at this ⊢
    rw [this]
    have e : cross2 (b - a) (c - b) = area a b c := by
      unfold cross2 area; simp only [sub_x, sub_y]; ring
    rw [e]
    constructor <;> intro hh <;> nlinarith
  have hsq : 0 < area a b c ^ 2 := by positivity
  constructor
  · intro hd o ho
    have := (key o ho).1 hd
    by_contra hc
    push Not at hc
    nlinarith
  · intro hall
    obtain ⟨o, ho⟩ := circumcentre_exists h
    have := hall o ho
    exact (key o ho).2 (by nlinarith)

-- The unit circle: (2, 0) is outside, the centre inside.
example : isABDelaunay ⟨1, 0⟩ ⟨0, 1⟩ ⟨-1, 0⟩ ⟨2, 0⟩ ∧ ¬ isABDelaunay ⟨1, 0⟩ ⟨0, 1⟩ ⟨-1, 0⟩ ⟨0, 0⟩ := by
  unfold isABDelaunay cross2 sqNorm
  norm_num

/-! ## C46 -/

theorem cross_iff (a b c d : V2) : (¬ isSameSide a b c d ∧ ¬ isSameSide c d a b) ↔ Cross a b c d := by
  unfold isSameSide
  simp only [cross_area, ge_iff_le, not_le]
  have hid : area a b c - area a b d = -((b.x - a.x) * (d.y - c.y) - (b.y - a.y) * (d.x - c.x)) := by
    unfold area; ring
  have hid2 : area c d a - area c d b = (b.x - a.x) * (d.y - c.y) - (b.y - a.y) * (d.x - c.x) := by
    unfold area; ring
  constructor
  · rintro ⟨h1, h2⟩
    have hne1 : area a b c - area a b d ≠ 0 := by
      intro h0
      have : area a b c = area a b d := by linarith
      rw [this] at h1; nlinarith [mul_self_nonneg (area a b d)]
    have hne2 : area c d a - area c d b ≠ 0 := by
      intro h0
      have : area c d a = area c d b := by linarith
      rw [this] at h2; nlinarith [mul_self_nonneg (area c d b)]
    have frac : ∀ x y : ℝ, x * y < 0 → x - y ≠ 0 → 0 < x / (x - y) ∧ x / (x - y) < 1 := by
      intro x y hxy hne
      rcases lt_or_gt_of_ne hne with hd | hd
      · have hx : x < 0 := by
          by_contra hx; push Not at hx
          nlinarith [mul_nonneg hx (by linarith : (0 : ℝ) ≤ y)]
        refine ⟨div_pos_of_neg_of_neg hx hd, ?_⟩
        rw [div_lt_one_of_neg hd]
        nlinarith
      · have hx : 0 < x := by
          by_contra hx; push Not at hx
          nlinarith [mul_nonneg_of_nonpos_of_nonpos hx (by linarith : y ≤ 0)]
        refine ⟨div_pos hx hd, ?_⟩
        rw [div_lt_one hd]
        nlinarith
    obtain ⟨s0, s1⟩ := frac _ _ h2 hne2
    obtain ⟨t0, t1⟩ := frac _ _ h1 hne1
    refine ⟨⟨area c d a / (area c d a - area c d b), area a b c / (area a b c - area a b d),
      s0, s1, t0, t1, ?_⟩, ?_⟩
    · have hW : (b.x - a.x) * (d.y - c.y) - (b.y - a.y) * (d.x - c.x) ≠ 0 := by rwa [hid2] at hne2
      rw [hid, hid2, div_neg]
      unfold along
      rw [V2.mk.injEq]
      constructor
      · field_simp; unfold area; ring
      · field_simp; unfold area; ring
    · intro h; rw [hid2] at hne2; exact hne2 (by linarith)
  · rintro ⟨⟨s, t, s0, s1, t0, t1, h⟩, hne⟩
    unfold along at h
    rw [V2.mk.injEq] at h
    obtain ⟨hx, hy⟩ := h
    set W := (b.x - a.x) * (d.y - c.y) - (b.y - a.y) * (d.x - c.x) with hW
    have hW0 : W ≠ 0 := by intro h0; apply hne; rw [hW] at h0; linarith
    have hW2 : 0 < W ^ 2 := by positivity
    have e1 : area a b c = -(t * W) := by
      rw [hW]; unfold area
      linear_combination (b.y - a.y) * hx - (b.x - a.x) * hy
    have e2 : area a b d = (1 - t) * W := by linarith [hid]
    have e3 : area c d a = s * W := by
      rw [hW]; unfold area
      linear_combination (-(d.y - c.y)) * hx + (d.x - c.x) * hy
    have e4 : area c d b = -((1 - s) * W) := by linarith [hid2]
    rw [e1, e2, e3, e4]
    constructor
    · nlinarith [mul_pos (mul_pos t0 (by linarith : (0 : ℝ) < 1 - t)) hW2]
    · nlinarith [mul_pos (mul_pos s0 (by linarith : (0 : ℝ) < 1 - s)) hW2]

/-- C46, the part that holds: whatever `doesABIntersectCD` accepts does cross; and among the segment pairs
that pass the bounding box filter it accepts exactly those that cross. -/
theorem C46_crossing_partial (a b c d : V2) (eps : ℝ) :
    (doesABIntersectCD a b c d eps → Cross a b c d ∧ Meet a b c d) ∧
    (boxFilter a b c d eps → (doesABIntersectCD a b c d eps ↔ Cross a b c d)) := by
  constructor
  · rintro ⟨_, h⟩
    have hc := (cross_iff a b c d).1 h
    refine ⟨hc, ?_⟩
    obtain ⟨⟨s, t, s0, s1, t0, t1, e⟩, _⟩ := hc
    exact ⟨s, t, s0.le, s1.le, t0.le, t1.le, e⟩
  · intro hb
    unfold doesABIntersectCD
    rw [← cross_iff]
    exact ⟨fun h => h.2, fun h => ⟨hb, h⟩⟩

example : doesABIntersectCD ⟨0, 0⟩ ⟨10, 10⟩ ⟨2, 3⟩ ⟨4, 1⟩ 0.1 := by
  unfold doesABIntersectCD boxFilter isSameSide cross2
  norm_num

/-- C46 is violated: the two diagonals of a square cross in the middle, but `doesABIntersectCD` says no as
soon as the first segment runs from the upper right to the lower left corner; it also says no for the
diagonals of a rhombus-like cross whose second segment sticks out of the box of the first. -/
theorem C46_missed_violated :
    (Cross ⟨2, 2⟩ ⟨0, 0⟩ ⟨0, 2⟩ ⟨2, 0⟩ ∧ ∀ eps, 0 ≤ eps → ¬ doesABIntersectCD ⟨2, 2⟩ ⟨0, 0⟩ ⟨0, 2⟩ ⟨2, 0⟩ eps) ∧
    (Cross ⟨0, 0⟩ ⟨1, 1⟩ ⟨-5, 6⟩ ⟨6, -5⟩ ∧
      ∀ eps, 0 ≤ eps → ¬ doesABIntersectCD ⟨0, 0⟩ ⟨1, 1⟩ ⟨-5, 6⟩ ⟨6, -5⟩ eps) := by
  refine ⟨⟨?_, ?_⟩, ⟨?_, ?_⟩⟩
  · refine ⟨⟨1 / 2, 1 / 2, by norm_num, by norm_num, by norm_num, by norm_num, ?_⟩, by norm_num⟩
    unfold along; norm_num
  · rintro eps he ⟨hb, _⟩
    unfold boxFilter at hb
    obtain ⟨(h | h), _⟩ := hb <;> simp only at h <;> linarith [h.1, h.2]
  · refine ⟨⟨1 / 2, 1 / 2, by norm_num, by norm_num, by norm_num, by norm_num, ?_⟩, by norm_num⟩
    unfold along; norm_num
  · rintro eps he ⟨hb, _⟩
    unfold boxFilter at hb
    obtain ⟨(h | h), _⟩ := hb <;> simp only at h <;> linarith [h.1, h.2]

/-! ## C47 -/

/-- C47. With at least two points the call returns for every real parameter: between the first and the last
node it is linear interpolation on the segment containing the parameter, outside it continues the first
and last segment; in particular integer parameters give the nodes. -/
theorem C47_curve {points : List V2} (h : 2 ≤ points.length) :
    (∀ displ, ∃ r, approxOnCurve points displ = .ok r) ∧
    (∀ (i : Nat) p q, points[i]? = some p → points[i + 1]? = some q → ∀ t : ℝ, 0 ≤ t → t ≤ 1 →
      approxOnCurve points (i + t) = .ok (along p q t)) ∧
    (∀ (i : Nat) p, points[i]? = some p → approxOnCurve points i = .ok p) ∧
    (∀ p q, points[0]? = some p → points[1]? = some q → ∀ t : ℝ, t ≤ 0 →
      approxOnCurve points t = .ok (along p q t)) ∧
    (∀ p q, points[points.length - 2]? = some p → points[points.length - 1]? = some q →
      ∀ t : ℝ, 0 ≤ t → approxOnCurve points (points.length - 1 + t) = .ok (along p q (1 + t))) := by
  have hlow : ∀ p q, points[0]? = some p → points[1]? = some q → ∀ t : ℝ, t ≤ 0 →
      approxOnCurve points t = .ok (along p q t) := by
    intro p q hp hq t ht
    unfold approxOnCurve
    rw [if_pos h, if_pos ht]
    simp only [at', hp, hq]
    congr 1
    unfold along
    ext <;> simp <;> ring
  have hhigh : ∀ p q, points[points.length - 2]? = some p → points[points.length - 1]? = some q →
      ∀ t : ℝ, 0 ≤ t → approxOnCurve points (points.length - 1 + t) = .ok (along p q (1 + t)) := by
    intro p q hp hq t ht
    have hl : (2 : ℝ) ≤ points.length := by exact_mod_cast h
    unfold approxOnCurve
    rw [if_pos h, if_neg (by push Not; linarith), if_pos (by linarith)]
    simp only [at', hp, hq]
    congr 1
    unfold along
    ext <;> simp <;> ring
  have hmid : ∀ (i : Nat) p q, points[i]? = some p → points[i + 1]? = some q → ∀ t : ℝ, 0 ≤ t → t ≤ 1 →
      approxOnCurve points (i + t) = .ok (along p q t) := by
    intro i p q hp hq t h0 h1
    have hi : i + 1 < points.length := (List.getElem?_eq_some_iff.1 hq).1
    have hiR : (i : ℝ) + 2 ≤ points.length := by exact_mod_cast hi
    have hi0 : (0 : ℝ) ≤ i := Nat.cast_nonneg i
    by_cases hz : (i : ℝ) + t ≤ 0
    · have ht : t = 0 := by linarith
      have hi' : i = 0 := by
        have : (i : ℝ) = 0 := by linarith
        exact_mod_cast this
      subst hi'
      have := hlow p q hp hq t (by linarith)
      simpa using this
    · by_cases hend : (i : ℝ) + t + 1 ≥ points.length
      · have ht : t = 1 := by linarith
        have hlen : points.length = i + 2 := by
          have : (points.length : ℝ) = ((i + 2 : Nat) : ℝ) := by push_cast; linarith
          exact_mod_cast this
        have hh := hhigh p q (by rw [hlen]; simpa using hp) (by rw [hlen]; simpa using hq) 0 (le_refl _)
        rw [hlen] at hh
        push_cast at hh
        rw [ht, show (i : ℝ) + 1 = i + 2 - 1 + 0 by ring, hh]
        norm_num
      · unfold approxOnCurve
        rw [if_pos h, if_neg hz, if_neg hend]
        push Not at hz
        have htr : Util.truncInt ((i : ℝ) + t) = ⌊(i : ℝ) + t⌋ := by
          unfold Util.truncInt; rw [if_pos hz.le]
        simp only [htr]
        rcases eq_or_lt_of_le h1 with h1 | h1
        · -- `t = 1`: the next node
          subst h1
          have hfl : ⌊(i : ℝ) + 1⌋ = ((i + 1 : Nat) : Int) := by
            rw [Int.floor_eq_iff]; push_cast; constructor <;> linarith
          rw [hfl, if_neg (by omega)]
          have hlt : i + 2 < points.length := by
            push Not at hend
            have : ((i + 2 : Nat) : ℝ) < points.length := by push_cast; linarith
            exact_mod_cast this
          simp only [Int.toNat_natCast]
          rw [at'_lt (by omega), at'_lt (by omega)]
          have hq' : points[i + 1] = q := by
            have := List.getElem?_eq_getElem (l := points) (i := i + 1) (by omega)
            rw [this] at hq; exact Option.some.inj hq
          simp only [hq']
          congr 1
          unfold along
          ext <;> simp
        · have hfl : ⌊(i : ℝ) + t⌋ = ((i : Nat) : Int) := by
            rw [Int.floor_eq_iff]; push_cast; constructor <;> linarith
          rw [hfl, if_neg (by omega)]
          simp only [Int.toNat_natCast, at', hp, hq]
          congr 1
          unfold along
          ext <;> simp
  have hnode : ∀ (i : Nat) p, points[i]? = some p → approxOnCurve points i = .ok p := by
    intro i p hp
    have hi : i < points.length := (List.getElem?_eq_some_iff.1 hp).1
    by_cases hlast : i + 1 < points.length
    · have := hmid i p _ hp (List.getElem?_eq_getElem hlast) 0 (le_refl _) zero_le_one
      simpa [along] using this
    · have hi2 : i = points.length - 1 := by omega
      have hl : points.length - 2 < points.length := by omega
      have := hhigh _ p (List.getElem?_eq_getElem hl) (by rw [← hi2]; exact hp) 0 (le_refl _)
      have hcast : ((points.length : ℝ) - 1 + 0) = (i : ℝ) := by
        have : points.length = i + 1 := by omega
        rw [this]; push_cast; ring
      rw [hcast] at this
      rw [this]
      congr 1
      unfold along
      ext <;> simp
  refine ⟨?_, hmid, hnode, hlow, hhigh⟩
  intro displ
  by_cases h0 : displ ≤ 0
  · exact ⟨_, hlow _ _ (List.getElem?_eq_getElem (by omega)) (List.getElem?_eq_getElem (by omega)) displ h0⟩
  · by_cases h1 : displ + 1 ≥ points.length
    · have := hhigh _ _ (List.getElem?_eq_getElem (by omega)) (List.getElem?_eq_getElem (by omega))
        (displ - (points.length - 1)) (by linarith)
      rw [show (points.length : ℝ) - 1 + (displ - (points.length - 1)) = displ by ring] at this
      exact ⟨_, this⟩
    · push Not at h0 h1
      have hf0 : 0 ≤ ⌊displ⌋ := Int.floor_nonneg.2 h0.le
      have hfl := Int.floor_le displ
      have hfu := Int.lt_floor_add_one displ
      obtain ⟨m, hm⟩ := Int.eq_ofNat_of_zero_le hf0
      rw [hm] at hfl hfu
      simp only [Int.ofNat_eq_natCast, Int.cast_natCast] at hfl hfu
      have hlt : m + 1 < points.length := by
        have : ((m + 1 : Nat) : ℝ) < points.length := by push_cast; linarith
        exact_mod_cast this
      have := hmid m _ _ (List.getElem?_eq_getElem (by omega)) (List.getElem?_eq_getElem hlt)
        (displ - m) (by linarith) (by linarith)
      rw [show (m : ℝ) + (displ - m) = displ by ring] at this
      exact ⟨_, this⟩

example : approxOnCurve [⟨0, 0⟩, ⟨2, 0⟩, ⟨2, 4⟩] ((1 : Nat) + 1 / 2) = .ok (along ⟨2, 0⟩ ⟨2, 4⟩ (1 / 2)) :=
  (C47_curve (by simp)).2.1 1 _ _ rfl rfl _ (by norm_num) (by norm_num)

/-- C47. With fewer than two points the call aborts. -/
theorem C47_too_few {points : List V2} (h : points.length < 2) (displ : ℝ) :
    approxOnCurve points displ = .error .abort := by
  unfold approxOnCurve
  rw [if_neg (by omega)]

end Mdso.Geom
