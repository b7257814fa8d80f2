import Mathlib.Analysis.Real.Sqrt

/-!
# Three-dimensional vectors

The operations of Eigen's `Vec3` that `geometry.cpp` and `SphericalPlus.h` use, over the reals
(floating-point rounding is not modelled).
-/

set_option autoImplicit false

namespace Mdso.Geom

/-- `Vec3` (include/util/types.h:20). -/
@[ext] structure V3 where
  x : ℝ
  y : ℝ
  z : ℝ

namespace V3

instance : Zero V3 := ⟨⟨0, 0, 0⟩⟩
instance : Add V3 := ⟨fun p q => ⟨p.x + q.x, p.y + q.y, p.z + q.z⟩⟩
instance : Sub V3 := ⟨fun p q => ⟨p.x - q.x, p.y - q.y, p.z - q.z⟩⟩
instance : Neg V3 := ⟨fun p => ⟨-p.x, -p.y, -p.z⟩⟩
instance : SMul ℝ V3 := ⟨fun s p => ⟨s * p.x, s * p.y, s * p.z⟩⟩

@[simp] theorem zero_x : (0 : V3).x = 0 := rfl
@[simp] theorem zero_y : (0 : V3).y = 0 := rfl
@[simp] theorem zero_z : (0 : V3).z = 0 := rfl
@[simp] theorem add_x (p q : V3) : (p + q).x = p.x + q.x := rfl
@[simp] theorem add_y (p q : V3) : (p + q).y = p.y + q.y := rfl
@[simp] theorem add_z (p q : V3) : (p + q).z = p.z + q.z := rfl
@[simp] theorem sub_x (p q : V3) : (p - q).x = p.x - q.x := rfl
@[simp] theorem sub_y (p q : V3) : (p - q).y = p.y - q.y := rfl
@[simp] theorem sub_z (p q : V3) : (p - q).z = p.z - q.z := rfl
@[simp] theorem neg_x (p : V3) : (-p).x = -p.x := rfl
@[simp] theorem neg_y (p : V3) : (-p).y = -p.y := rfl
@[simp] theorem neg_z (p : V3) : (-p).z = -p.z := rfl
@[simp] theorem smul_x (s : ℝ) (p : V3) : (s • p).x = s * p.x := rfl
@[simp] theorem smul_y (s : ℝ) (p : V3) : (s • p).y = s * p.y := rfl
@[simp] theorem smul_z (s : ℝ) (p : V3) : (s • p).z = s * p.z := rfl

/-- Eigen's `dot`. -/
def dot (p q : V3) : ℝ := p.x * q.x + p.y * q.y + p.z * q.z

/-- Eigen's `cross`. -/
def cross (p q : V3) : V3 :=
  ⟨p.y * q.z - p.z * q.y, p.z * q.x - p.x * q.z, p.x * q.y - p.y * q.x⟩

/-- Eigen's `squaredNorm`. -/
def sqNorm (p : V3) : ℝ := p.x * p.x + p.y * p.y + p.z * p.z

/-- Eigen's `norm`. -/
noncomputable def norm (p : V3) : ℝ := Real.sqrt p.sqNorm

open Classical in
/-- Eigen's `normalized`: the vector divided by its norm; the zero vector is returned as it is
(Eigen 3.3, `Dot.h`: `if (z > 0) return n / sqrt(z); else return n;`). -/
noncomputable def normalized (p : V3) : V3 := if 0 < p.sqNorm then (1 / p.norm) • p else p

theorem sqNorm_nonneg (p : V3) : 0 ≤ p.sqNorm := by
  unfold sqNorm; nlinarith [mul_self_nonneg p.x, mul_self_nonneg p.y, mul_self_nonneg p.z]

theorem sqNorm_pos {p : V3} (h : p ≠ 0) : 0 < p.sqNorm := by
  rcases lt_or_eq_of_le (sqNorm_nonneg p) with h' | h'
  · exact h'
  · exfalso; apply h
    unfold sqNorm at h'
    have hx := mul_self_nonneg p.x
    have hy := mul_self_nonneg p.y
    have hz := mul_self_nonneg p.z
    ext
    · exact mul_self_eq_zero.1 (by linarith)
    · exact mul_self_eq_zero.1 (by linarith)
    · exact mul_self_eq_zero.1 (by linarith)

theorem norm_sq (p : V3) : p.norm * p.norm = p.sqNorm := Real.mul_self_sqrt (sqNorm_nonneg p)

theorem norm_nonneg (p : V3) : 0 ≤ p.norm := Real.sqrt_nonneg _

theorem norm_pos {p : V3} (h : p ≠ 0) : 0 < p.norm := Real.sqrt_pos.2 (sqNorm_pos h)

theorem normalized_eq {p : V3} (h : p ≠ 0) : p.normalized = (1 / p.norm) • p := by
  unfold normalized; rw [if_pos (sqNorm_pos h)]

theorem normalized_zero : (0 : V3).normalized = 0 := by
  unfold normalized; simp [sqNorm]

theorem sqNorm_smul (s : ℝ) (p : V3) : (s • p).sqNorm = s * s * p.sqNorm := by
  simp [sqNorm]; ring

theorem norm_smul {s : ℝ} (hs : 0 ≤ s) (p : V3) : (s • p).norm = s * p.norm := by
  unfold norm
  rw [sqNorm_smul, Real.sqrt_mul (mul_self_nonneg s), Real.sqrt_mul_self hs]

theorem sqNorm_normalized {p : V3} (h : p ≠ 0) : p.normalized.sqNorm = 1 := by
  rw [normalized_eq h, sqNorm_smul, ← norm_sq]
  have := (norm_pos h).ne'
  field_simp

theorem norm_normalized {p : V3} (h : p ≠ 0) : p.normalized.norm = 1 := by
  unfold norm; rw [sqNorm_normalized h, Real.sqrt_one]

theorem norm_eq_one {p : V3} (h : p.sqNorm = 1) : p.norm = 1 := by
  unfold norm; rw [h, Real.sqrt_one]

theorem ne_zero_of_sqNorm {p : V3} {r : ℝ} (h : p.sqNorm = r) (hr : 0 < r) : p ≠ 0 := by
  rintro rfl; simp [sqNorm] at h; linarith

theorem normalized_of_unit {p : V3} (h : p.sqNorm = 1) : p.normalized = p := by
  rw [normalized_eq (ne_zero_of_sqNorm h one_pos), norm_eq_one h]
  ext <;> simp

theorem smul_norm_normalized (p : V3) : p.norm • p.normalized = p := by
  by_cases h : p = 0
  · subst h; rw [normalized_zero]; ext <;> simp
  · rw [normalized_eq h]
    have := (norm_pos h).ne'
    ext <;> simp <;> field_simp

end V3

end Mdso.Geom
