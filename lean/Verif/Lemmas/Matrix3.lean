import Verif.Model.StereoGeometry
import Mathlib.LinearAlgebra.Matrix.Determinant.Basic
import Mathlib.LinearAlgebra.Matrix.NonsingularInverse

/-!
# 3 by 3 matrices
-/

set_option autoImplicit false

namespace Mdso.Geom

open V3

namespace M3

theorem ext' {m n : M3} (h0 : m.r0 = n.r0) (h1 : m.r1 = n.r1) (h2 : m.r2 = n.r2) : m = n := by
  cases m; cases n; simp_all

/-- The matrix of Mathlib. -/
def toMat (m : M3) : Matrix (Fin 3) (Fin 3) ℝ :=
  !![m.r0.x, m.r0.y, m.r0.z; m.r1.x, m.r1.y, m.r1.z; m.r2.x, m.r2.y, m.r2.z]

theorem toMat_inj {m n : M3} (h : m.toMat = n.toMat) : m = n := by
  have f := fun i j => congrFun (congrFun h i) j
  have h00 := f 0 0; have h01 := f 0 1; have h02 := f 0 2
  have h10 := f 1 0; have h11 := f 1 1; have h12 := f 1 2
  have h20 := f 2 0; have h21 := f 2 1; have h22 := f 2 2
  simp [toMat] at h00 h01 h02 h10 h11 h12 h20 h21 h22
  apply ext' <;> ext <;> assumption

theorem toMat_mul (m n : M3) : (m.mul n).toMat = m.toMat * n.toMat := by
  ext i j
  fin_cases i <;> fin_cases j <;> simp [toMat, mul, V3.dot, Matrix.mul_apply, Fin.sum_univ_three]

theorem toMat_transpose (m : M3) : m.transpose.toMat = m.toMat.transpose := by
  ext i j
  fin_cases i <;> fin_cases j <;> simp [toMat, transpose]

theorem toMat_one : one.toMat = 1 := by
  ext i j
  fin_cases i <;> fin_cases j <;> simp [toMat, one]

theorem toMat_scale (c : ℝ) (m : M3) : (scale c m).toMat = c • m.toMat := by
  ext i j
  fin_cases i <;> fin_cases j <;> simp [toMat, scale]

theorem toMat_det (m : M3) : m.toMat.det = m.det := by
  rw [Matrix.det_fin_three]; simp [toMat, det, V3.dot, V3.cross]; ring

theorem mul_assoc (a b c : M3) : (a.mul b).mul c = a.mul (b.mul c) := by
  apply toMat_inj; simp only [toMat_mul, Matrix.mul_assoc]

theorem one_mul (a : M3) : one.mul a = a := by
  apply toMat_inj; simp only [toMat_mul, toMat_one, Matrix.one_mul]

theorem mul_one (a : M3) : a.mul one = a := by
  apply toMat_inj; simp only [toMat_mul, toMat_one, Matrix.mul_one]

theorem transpose_mul (a b : M3) : (a.mul b).transpose = b.transpose.mul a.transpose := by
  apply toMat_inj; simp only [toMat_mul, toMat_transpose, Matrix.transpose_mul]

theorem transpose_transpose (a : M3) : a.transpose.transpose = a := rfl

theorem det_mul (a b : M3) : (a.mul b).det = a.det * b.det := by
  simp only [← toMat_det, toMat_mul, Matrix.det_mul]

theorem det_transpose (a : M3) : a.transpose.det = a.det := by
  simp only [← toMat_det, toMat_transpose, Matrix.det_transpose]

theorem det_one : one.det = 1 := by
  simp only [← toMat_det, toMat_one, Matrix.det_one]

theorem det_scale (c : ℝ) (a : M3) : (scale c a).det = c ^ 3 * a.det := by
  simp only [← toMat_det, toMat_scale, Matrix.det_smul, Fintype.card_fin]

theorem scale_mul (c : ℝ) (a b : M3) : (scale c a).mul b = scale c (a.mul b) := by
  apply toMat_inj; simp only [toMat_mul, toMat_scale, Matrix.smul_mul]

theorem mul_scale (c : ℝ) (a b : M3) : a.mul (scale c b) = scale c (a.mul b) := by
  apply toMat_inj; simp only [toMat_mul, toMat_scale, Matrix.mul_smul]

theorem transpose_scale (c : ℝ) (a : M3) : (scale c a).transpose = scale c a.transpose := rfl

theorem scale_scale (c d : ℝ) (a : M3) : scale c (scale d a) = scale (c * d) a := by
  apply toMat_inj; simp only [toMat_scale, smul_smul]

theorem scale_one (a : M3) : scale 1 a = a := by
  apply toMat_inj; simp only [toMat_scale, one_smul]

theorem transpose_mul_self {a : M3} (h : a.mul a.transpose = one) : a.transpose.mul a = one := by
  apply toMat_inj
  have h' := congrArg toMat h
  simp only [toMat_mul, toMat_one, toMat_transpose] at h' ⊢
  exact mul_eq_one_comm.1 h'

theorem det_sq {a : M3} (h : a.mul a.transpose = one) : a.det * a.det = 1 := by
  have := congrArg det h
  rwa [det_mul, det_transpose, det_one] at this

theorem mulVec_mul (a b : M3) (v : V3) : (a.mul b).mulVec v = a.mulVec (b.mulVec v) := by
  ext <;> simp [mul, mulVec, V3.dot] <;> ring

theorem mulVec_one (v : V3) : one.mulVec v = v := by
  ext <;> simp [one, mulVec, V3.dot]

theorem dot_mulVec (a : M3) (u v : V3) : u.dot (a.mulVec v) = (a.transpose.mulVec u).dot v := by
  simp [mulVec, transpose, V3.dot]; ring

end M3

end Mdso.Geom
