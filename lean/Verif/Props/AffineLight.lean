import Verif.Model.AffineLight
import Mathlib.Tactic.Ring
import Mathlib.Tactic.FieldSimp
import Mathlib.Tactic.NormNum
import Mathlib.Tactic.Linarith
import Mathlib.Tactic.LinearCombination

/-!
# C36, C37: affine light transforms
-/

set_option autoImplicit false

namespace Mdso.Light

/-! ## C36 -/

/-- C36, when composition is right: `(l1 * l2)(x) = l1(l2(x))` holds for all `x`, or equivalently for some
`x`, exactly if `l2` has unit multiplier or the offset of the result vanishes. -/
theorem C36_compose_partial (l1 l2 : AffLight) (x : ℝ) :
    (l1.mul l2).apply x = l1.apply (l2.apply x) ↔ l2.a = 0 ∨ l1.b = -(Real.exp l2.a * l2.b) := by
  have h1 := Real.exp_pos l1.a
  have h2 := Real.exp_pos l2.a
  unfold AffLight.mul AffLight.apply
  simp only
  rw [Real.exp_add]
  constructor
  · intro h
    have h3 : (Real.exp l2.a - 1) * (Real.exp l2.a * l2.b + l1.b) = 0 := by
      have h4 : Real.exp l1.a * ((Real.exp l2.a - 1) * (Real.exp l2.a * l2.b + l1.b)) = 0 := by
        linear_combination h
      exact (mul_eq_zero.1 h4).resolve_left (ne_of_gt h1)
    rcases mul_eq_zero.1 h3 with h5 | h5
    · left; exact Real.exp_eq_one_iff _ |>.1 (by linarith)
    · right; linarith
  · rintro (h | h)
    · rw [h, Real.exp_zero]; ring
    · rw [h]; ring

example : ((⟨1, 2⟩ : AffLight).mul ⟨0, 5⟩).apply 3 = (⟨1, 2⟩ : AffLight).apply ((⟨0, 5⟩ : AffLight).apply 3) :=
  (C36_compose_partial _ _ _).2 (Or.inl rfl)

/-- C36, when inversion is right: `l.inverse()(l(x)) = x` exactly if `l` has unit multiplier or no
offset. -/
theorem C36_inverse_partial (l : AffLight) (x : ℝ) :
    l.inverse.apply (l.apply x) = x ↔ l.a = 0 ∨ l.b = 0 := by
  have h1 : Real.exp (-l.a) * Real.exp l.a = 1 := by rw [← Real.exp_add]; simp
  unfold AffLight.inverse AffLight.apply
  simp only
  have key : Real.exp (-l.a) * (Real.exp l.a * (x + l.b) + -l.b * Real.exp (-l.a))
      = x + l.b * (1 - Real.exp (-l.a) * Real.exp (-l.a)) := by
    linear_combination (x + l.b) * h1
  rw [key, ← Real.exp_add]
  constructor
  · intro h
    have : l.b * (1 - Real.exp (-l.a + -l.a)) = 0 := by linarith
    rcases mul_eq_zero.1 this with h | h
    · right; exact h
    · left
      have : -l.a + -l.a = 0 := (Real.exp_eq_one_iff _).1 (by linarith)
      linarith
  · rintro (h | h)
    · rw [h]; simp
    · rw [h]; simp

/-- C36, when the product with the inverse is the identity: same condition, on either side. -/
theorem C36_inverse_mul_partial (l : AffLight) :
    (l.inverse.mul l = AffLight.identity ↔ l.a = 0 ∨ l.b = 0) ∧
      (l.mul l.inverse = AffLight.identity ↔ l.a = 0 ∨ l.b = 0) := by
  have e1 : Real.exp (-l.a) * Real.exp l.a = 1 := by rw [← Real.exp_add]; simp
  constructor
  · unfold AffLight.inverse AffLight.mul AffLight.identity
    rw [AffLight.mk.injEq]
    constructor
    · rintro ⟨_, h⟩
      have h2 : l.b * (Real.exp (l.a + l.a) - 1) = 0 := by
        rw [Real.exp_add]
        linear_combination Real.exp l.a * h + l.b * e1
      rcases mul_eq_zero.1 h2 with h3 | h3
      · exact Or.inr h3
      · left
        have : l.a + l.a = 0 := (Real.exp_eq_one_iff _).1 (by linarith)
        linarith
    · rintro (h | h) <;> refine ⟨by ring, ?_⟩ <;> rw [h] <;> simp
  · unfold AffLight.inverse AffLight.mul AffLight.identity
    rw [AffLight.mk.injEq]
    constructor
    · rintro ⟨_, h⟩
      have h2 : l.b * (1 - Real.exp (-l.a + -l.a)) = 0 := by
        rw [Real.exp_add]
        linear_combination h
      rcases mul_eq_zero.1 h2 with h3 | h3
      · exact Or.inr h3
      · left
        have : -l.a + -l.a = 0 := (Real.exp_eq_one_iff _).1 (by linarith)
        linarith
    · rintro (h | h) <;> refine ⟨by ring, ?_⟩ <;> rw [h] <;> simp

example : (⟨3, 0⟩ : AffLight).inverse.apply ((⟨3, 0⟩ : AffLight).apply 7) = 7 :=
  (C36_inverse_partial _ _).2 (Or.inr rfl)

/-- C36 is violated: with multiplier `e` and offset 1, neither composition nor inversion is right at any
intensity. -/
theorem C36_compose_violated : ∃ l1 l2 : AffLight, ∀ x,
    (l1.mul l2).apply x ≠ l1.apply (l2.apply x) ∧ l2.inverse.apply (l2.apply x) ≠ x ∧
      l2.inverse.mul l2 ≠ AffLight.identity := by
  refine ⟨⟨0, 0⟩, ⟨1, 1⟩, fun x => ⟨?_, ?_, ?_⟩⟩
  · rw [ne_eq, C36_compose_partial]
    have := Real.exp_pos 1
    rintro (h | h) <;> simp at h
  · rw [ne_eq, C36_inverse_partial]; norm_num
  · rw [ne_eq, (C36_inverse_mul_partial _).1]; norm_num

/-! ## C37 -/

/-- C37. The normalized transform has unit multiplier, and the relation between the two intensities is
kept. -/
theorem C37_normalize (l1 l2 : AffLight) :
    (∀ x y, (normalizeMultiplier l1 l2).1.apply x - (normalizeMultiplier l1 l2).1.apply y = x - y) ∧
    ∀ x y, l1.apply x = l2.apply y ↔
      (normalizeMultiplier l1 l2).1.apply x = (normalizeMultiplier l1 l2).2.apply y := by
  unfold normalizeMultiplier AffLight.apply
  simp only [Real.exp_zero, one_mul]
  refine ⟨fun x y => by ring, fun x y => ?_⟩
  rw [Real.exp_sub]
  have h := Real.exp_pos l1.a
  constructor
  · intro e
    rw [div_mul_eq_mul_div, ← e]
    field_simp
  · intro e
    rw [e]
    field_simp

-- Multipliers e² and e³: 1 under the first corresponds to a suitable intensity under the second.
example : ∃ x y, (⟨2, 1⟩ : AffLight).apply x = (⟨3, 5⟩ : AffLight).apply y ∧ x ≠ y :=
  ⟨-1, -5, by simp [AffLight.apply], by norm_num⟩

/-- C37, the use in bundle adjustment: the residual vanishes exactly if the intensities of the two frames
agree under the frames' light transforms, and it is the disagreement in units of the reference frame. -/
theorem C37_residual (base ref : AffLight) (baseIntensity tracked : ℝ) :
    lightResidual base ref baseIntensity tracked =
      (ref.apply tracked - base.apply baseIntensity) / Real.exp ref.a ∧
    (lightResidual base ref baseIntensity tracked = 0 ↔
      ref.apply tracked = base.apply baseIntensity) := by
  have h := Real.exp_pos ref.a
  have e : lightResidual base ref baseIntensity tracked =
      (ref.apply tracked - base.apply baseIntensity) / Real.exp ref.a := by
    unfold lightResidual normalizeMultiplier AffLight.apply
    simp only [Real.exp_zero, one_mul]
    rw [Real.exp_sub]
    field_simp
  refine ⟨e, ?_⟩
  rw [e, div_eq_zero_iff]
  constructor
  · rintro (h1 | h1)
    · linarith
    · exact absurd h1 (ne_of_gt h)
  · intro h1; left; linarith

example : lightResidual ⟨1, 1⟩ ⟨1, 1⟩ 10 10 = 0 := (C37_residual _ _ _ _).2.2 rfl

end Mdso.Light
