import Verif.Spec.StereoGeometry
import Verif.Lemmas.Matrix3

/-!
# Lemmas: essential matrices and their decomposition
-/

set_option autoImplicit false

namespace Mdso.Stereo

open Mdso.Geom Mdso.StereoSpec

theorem isRotation_transpose {m : M3} (h : IsRotation m) : IsRotation m.transpose := by
  refine ⟨?_, by rw [M3.det_transpose]; exact h.2⟩
  unfold IsOrthogonal; rw [M3.transpose_transpose]; exact M3.transpose_mul_self h.1

theorem isOrthogonal_mul {a b : M3} (ha : IsOrthogonal a) (hb : IsOrthogonal b) : IsOrthogonal (a.mul b) := by
  unfold IsOrthogonal at *
  rw [M3.transpose_mul, M3.mul_assoc, ← M3.mul_assoc b, hb, M3.one_mul, ha]

theorem isRotation_mul {a b : M3} (ha : IsRotation a) (hb : IsRotation b) : IsRotation (a.mul b) :=
  ⟨isOrthogonal_mul ha.1 hb.1, by rw [M3.det_mul, ha.2, hb.2, mul_one]⟩

theorem isRotation_scale {m : M3} (h : IsOrthogonal m) : IsRotation (M3.scale m.det m) := by
  have hd := M3.det_sq h
  constructor
  · unfold IsOrthogonal at *
    rw [M3.transpose_scale, M3.scale_mul, M3.mul_scale, M3.scale_scale, h, hd, M3.scale_one]
  · rw [M3.det_scale]
    have : m.det ^ 3 * m.det = (m.det * m.det) * (m.det * m.det) := by ring
    rw [this, hd]; norm_num

theorem isRotation_W : IsRotation W := by
  constructor
  · unfold IsOrthogonal
    apply M3.ext' <;> ext <;> simp [W, M3.mul, M3.transpose, M3.one, V3.dot]
  · simp [W, M3.det, V3.dot, V3.cross]

/-- The third row of a rotation is the product of the others. -/
theorem rotation_cross {m : M3} (h : IsRotation m) : m.r0.cross m.r1 = m.r2 := by
  obtain ⟨ho, hd⟩ := h
  unfold IsOrthogonal at ho
  have h00 := congrArg (fun a : M3 => a.r0.x) ho
  have h01 := congrArg (fun a : M3 => a.r0.y) ho
  have h11 := congrArg (fun a : M3 => a.r1.y) ho
  have h22 := congrArg (fun a : M3 => a.r2.z) ho
  simp only [M3.mul, M3.transpose, M3.one, V3.dot] at h00 h01 h11 h22
  simp only [M3.det, V3.dot, V3.cross] at hd
  have key : (m.r0.cross m.r1 - m.r2).sqNorm = 0 := by
    simp only [V3.sqNorm, V3.cross, V3.sub_x, V3.sub_y, V3.sub_z]
    linear_combination (m.r1.x * m.r1.x + m.r1.y * m.r1.y + m.r1.z * m.r1.z) * h00 + h11 -
      (m.r0.x * m.r1.x + m.r0.y * m.r1.y + m.r0.z * m.r1.z) * h01 + h22 - 2 * hd
  by_contra hne
  have : m.r0.cross m.r1 - m.r2 ≠ 0 := by
    intro h0; apply hne
    have hx := congrArg V3.x h0; have hy := congrArg V3.y h0; have hz := congrArg V3.z h0
    simp only [V3.sub_x, V3.sub_y, V3.sub_z, V3.zero_x, V3.zero_y, V3.zero_z] at hx hy hz
    ext <;> linarith
  have := V3.sqNorm_pos this
  linarith

theorem rotation_cross' {m : M3} (h : IsRotation m) : m.r1.cross m.r2 = m.r0 := by
  have : IsRotation ⟨m.r1, m.r2, m.r0⟩ := by
    obtain ⟨ho, hd⟩ := h
    unfold IsOrthogonal at ho
    constructor
    · unfold IsOrthogonal
      have f := fun (g : M3 → ℝ) => congrArg g ho
      have h00 := f (·.r0.x); have h01 := f (·.r0.y); have h02 := f (·.r0.z)
      have h10 := f (·.r1.x); have h11 := f (·.r1.y); have h12 := f (·.r1.z)
      have h20 := f (·.r2.x); have h21 := f (·.r2.y); have h22 := f (·.r2.z)
      simp only [M3.mul, M3.transpose, M3.one, V3.dot] at h00 h01 h02 h10 h11 h12 h20 h21 h22
      apply M3.ext' <;> ext <;> simp only [M3.mul, M3.transpose, M3.one, V3.dot] <;> assumption
    · simp only [M3.det, V3.dot, V3.cross] at hd ⊢; linarith
  exact rotation_cross this

theorem rotation_cross'' {m : M3} (h : IsRotation m) : m.r2.cross m.r0 = m.r1 := by
  have : IsRotation ⟨m.r2, m.r0, m.r1⟩ := by
    obtain ⟨ho, hd⟩ := h
    unfold IsOrthogonal at ho
    constructor
    · unfold IsOrthogonal
      have f := fun (g : M3 → ℝ) => congrArg g ho
      have h00 := f (·.r0.x); have h01 := f (·.r0.y); have h02 := f (·.r0.z)
      have h10 := f (·.r1.x); have h11 := f (·.r1.y); have h12 := f (·.r1.z)
      have h20 := f (·.r2.x); have h21 := f (·.r2.y); have h22 := f (·.r2.z)
      simp only [M3.mul, M3.transpose, M3.one, V3.dot] at h00 h01 h02 h10 h11 h12 h20 h21 h22
      apply M3.ext' <;> ext <;> simp only [M3.mul, M3.transpose, M3.one, V3.dot] <;> assumption
    · simp only [M3.det, V3.dot, V3.cross] at hd ⊢; linarith
  exact rotation_cross this

/-- A rotation turns cross products. -/
theorem mul_hat {m : M3} (h : IsRotation m) (t : V3) : m.mul (hat t) = (hat (m.mulVec t)).mul m := by
  have c0 := rotation_cross' h
  have c1 := rotation_cross'' h
  have c2 := rotation_cross h
  have c0x := congrArg V3.x c0; have c0y := congrArg V3.y c0; have c0z := congrArg V3.z c0
  have c1x := congrArg V3.x c1; have c1y := congrArg V3.y c1; have c1z := congrArg V3.z c1
  have c2x := congrArg V3.x c2; have c2y := congrArg V3.y c2; have c2z := congrArg V3.z c2
  simp only [V3.cross] at c0x c0y c0z c1x c1y c1z c2x c2y c2z
  apply M3.ext' <;> ext <;> simp only [M3.mul, hat, M3.mulVec, V3.dot]
  · linear_combination t.y * c0z - t.z * c0y
  · linear_combination t.z * c0x - t.x * c0z
  · linear_combination t.x * c0y - t.y * c0x
  · linear_combination t.y * c1z - t.z * c1y
  · linear_combination t.z * c1x - t.x * c1z
  · linear_combination t.x * c1y - t.y * c1x
  · linear_combination t.y * c2z - t.z * c2y
  · linear_combination t.z * c2x - t.x * c2z
  · linear_combination t.x * c2y - t.y * c2x

theorem sqNorm_mulVec {m : M3} (h : IsOrthogonal m) (v : V3) : (m.mulVec v).sqNorm = v.sqNorm := by
  have h' := M3.transpose_mul_self h
  have e1 : (m.mulVec v).sqNorm = (m.mulVec v).dot (m.mulVec v) := rfl
  rw [e1, M3.dot_mulVec, ← M3.mulVec_mul, h', M3.mulVec_one]; rfl

/-- Third column. -/
def col2 (m : M3) : V3 := ⟨m.r0.z, m.r1.z, m.r2.z⟩

theorem mulVec_e3 (m : M3) (z : ℝ) : m.mulVec ⟨0, 0, z⟩ = z • col2 m := by
  ext <;> simp [M3.mulVec, V3.dot, col2, mul_comm]

theorem sqNorm_col2 {m : M3} (h : IsOrthogonal m) : (col2 m).sqNorm = 1 := by
  have h1 := mulVec_e3 m 1
  have h2 := sqNorm_mulVec h ⟨0, 0, 1⟩
  rw [h1, V3.sqNorm_smul] at h2
  simpa [V3.sqNorm] using h2

/-- What a decomposition with rotations says about an essential matrix. -/
theorem core {U V R : M3} {t : V3} {a s1 s2 s3 : ℝ} (hU : IsRotation U) (hV : IsRotation V) (hR : IsRotation R)
    (ht : t.sqNorm = 1) (h12 : s1 ≥ s2) (h23 : s2 ≥ s3) (h3 : s3 ≥ 0)
    (h : M3.scale a ((U.mul (diag s1 s2 s3)).mul V.transpose) = (hat t).mul R) :
    a ≠ 0 ∧ 0 < s1 ∧ s1 = s2 ∧ s3 = 0 ∧ (t = col2 U ∨ t = -col2 U) ∧
      (R = (U.mul W).mul V.transpose ∨ R = (U.mul W.transpose).mul V.transpose) := by
  have hUt := isRotation_transpose hU
  have hUU : U.transpose.mul U = M3.one := M3.transpose_mul_self hU.1
  have hVV : V.transpose.mul V = M3.one := M3.transpose_mul_self hV.1
  obtain ⟨w, hw⟩ : ∃ w, w = U.transpose.mulVec t := ⟨_, rfl⟩
  obtain ⟨Q, hQ⟩ : ∃ Q, Q = (U.transpose.mul R).mul V := ⟨_, rfl⟩
  have hQr : IsRotation Q := by rw [hQ]; exact isRotation_mul (isRotation_mul hUt hR) hV
  have hwn : w.x * w.x + w.y * w.y + w.z * w.z = 1 := by
    have := sqNorm_mulVec hUt.1 t
    rw [← hw, ht] at this; exact this
  -- the diagonal matrix
  have hD : M3.scale a (diag s1 s2 s3) = (hat w).mul Q := by
    have h1 : (U.transpose.mul (M3.scale a ((U.mul (diag s1 s2 s3)).mul V.transpose))).mul V =
        M3.scale a (diag s1 s2 s3) := by
      rw [M3.mul_scale, M3.scale_mul]
      congr 1
      rw [M3.mul_assoc, M3.mul_assoc, M3.mul_assoc, hVV, M3.mul_one, ← M3.mul_assoc, hUU, M3.one_mul]
    rw [← h1, h, hQ, ← M3.mul_assoc, mul_hat hUt, ← hw, M3.mul_assoc, M3.mul_assoc, M3.mul_assoc]
  have hsq : (M3.scale a (diag s1 s2 s3)).mul (M3.scale a (diag s1 s2 s3)).transpose =
      (hat w).mul (hat w).transpose := by
    rw [hD, M3.transpose_mul, M3.mul_assoc, ← M3.mul_assoc Q, hQr.1, M3.one_mul]
  have f := fun (g : M3 → ℝ) => congrArg g hsq
  have f00 := f (·.r0.x); have f11 := f (·.r1.y); have f22 := f (·.r2.z)
  have f01 := f (·.r0.y); have f02 := f (·.r0.z); have f12 := f (·.r1.z)
  simp only [M3.mul, M3.scale, M3.transpose, diag, hat, V3.dot, V3.smul_x, V3.smul_y, V3.smul_z]
    at f00 f11 f22 f01 f02 f12
  have a2 := mul_self_nonneg a
  have hyx : w.x * w.x ≤ w.y * w.y := by nlinarith [mul_nonneg (mul_nonneg a2 (sub_nonneg.2 h12)) (by linarith : 0 ≤ s1 + s2)]
  have hzy : w.y * w.y ≤ w.z * w.z := by nlinarith [mul_nonneg (mul_nonneg a2 (sub_nonneg.2 h23)) (by linarith : 0 ≤ s2 + s3)]
  have hz : w.z ≠ 0 := by
    intro h0; rw [h0] at hwn hzy
    have := mul_self_nonneg w.x; have := mul_self_nonneg w.y
    nlinarith
  have hx0 : w.x = 0 := by
    have : w.x * w.z = 0 := by linarith
    rcases mul_eq_zero.1 this with h' | h'
    · exact h'
    · exact absurd h' hz
  have hy0 : w.y = 0 := by
    have : w.y * w.z = 0 := by linarith
    rcases mul_eq_zero.1 this with h' | h'
    · exact h'
    · exact absurd h' hz
  simp only [hx0, hy0] at f00 f11 f22 hwn
  have hz2 : w.z * w.z = 1 := by linarith
  have g1 : (a * s1) * (a * s1) = 1 := by linarith
  have g2 : (a * s2) * (a * s2) = 1 := by linarith
  have g3 : (a * s3) * (a * s3) = 0 := by linarith
  have ha : a ≠ 0 := by rintro rfl; simp at g1
  have hs1 : 0 < s1 := by
    rcases lt_or_eq_of_le (by linarith : 0 ≤ s1) with h' | h'
    · exact h'
    · rw [← h'] at g1; simp at g1
  have hs12 : s1 = s2 := by
    have hpos : 0 < a * a * (s1 + s2) := mul_pos (mul_self_pos.2 ha) (by linarith)
    have : a * a * (s1 + s2) * (s1 - s2) = 0 := by linarith
    rcases mul_eq_zero.1 this with h' | h'
    · exact absurd h' hpos.ne'
    · linarith
  have hs3 : s3 = 0 := by
    have := mul_self_eq_zero.1 g3
    rcases mul_eq_zero.1 this with h' | h'
    · exact absurd h' ha
    · exact h'
  have htU : t = w.z • col2 U := by
    have hw' : w = ⟨0, 0, w.z⟩ := by ext <;> simp [hx0, hy0]
    rw [← mulVec_e3, ← hw', hw, ← M3.mulVec_mul, hU.1, M3.mulVec_one]
  have hRQ : R = (U.mul Q).mul V.transpose := by
    rw [hQ, M3.mul_assoc, M3.mul_assoc, M3.mul_assoc, hV.1, M3.mul_one, ← M3.mul_assoc, hU.1, M3.one_mul]
  -- the rows of `Q`
  have fD := fun (g : M3 → ℝ) => congrArg g hD
  have d00 := fD (·.r0.x); have d01 := fD (·.r0.y); have d02 := fD (·.r0.z)
  have d10 := fD (·.r1.x); have d11 := fD (·.r1.y); have d12 := fD (·.r1.z)
  simp only [M3.mul, M3.scale, diag, hat, V3.dot, V3.smul_x, V3.smul_y, V3.smul_z, hx0, hy0]
    at d00 d01 d02 d10 d11 d12
  have mz : ∀ q r : ℝ, r = w.z * q → q = w.z * r := by
    intro q r h'; rw [h', ← mul_assoc, hz2, one_mul]
  have q1x : Q.r1.x = w.z * -(a * s1) := mz _ _ (by linarith)
  have q1y : Q.r1.y = w.z * 0 := mz _ _ (by linarith)
  have q1z : Q.r1.z = w.z * 0 := mz _ _ (by linarith)
  have q0x : Q.r0.x = w.z * 0 := mz _ _ (by linarith)
  have q0y : Q.r0.y = w.z * (a * s1) := mz _ _ (by rw [hs12]; linarith)
  have q0z : Q.r0.z = w.z * 0 := mz _ _ (by linarith)
  have hc := rotation_cross hQr
  have q2x := congrArg V3.x hc; have q2y := congrArg V3.y hc; have q2z := congrArg V3.z hc
  simp only [V3.cross, q0x, q0y, q0z, q1x, q1y, q1z] at q2x q2y q2z
  have hone : ∀ x : ℝ, x * x = 1 → x = 1 ∨ x = -1 := fun x hx => mul_self_eq_one_iff.1 hx
  refine ⟨ha, hs1, hs12, hs3, ?_, ?_⟩
  · rcases hone _ hz2 with h' | h'
    · left; rw [htU, h']; ext <;> simp
    · right; rw [htU, h']; ext <;> simp
  · have hk : (w.z * (a * s1)) * (w.z * (a * s1)) = 1 := by
      have : (w.z * (a * s1)) * (w.z * (a * s1)) = (w.z * w.z) * ((a * s1) * (a * s1)) := by ring
      rw [this, hz2, g1, one_mul]
    have hW : Q = W ∨ Q = W.transpose := by
      rcases hone _ hk with h' | h'
      · right
        apply M3.ext' <;> ext <;> simp only [W, M3.transpose]
        · linarith
        · linarith
        · linarith
        · linarith
        · linarith
        · linarith
        · linarith
        · linarith
        · rw [← q2z]; linear_combination hk
      · left
        apply M3.ext' <;> ext <;> simp only [W, M3.transpose]
        · linarith
        · linarith
        · linarith
        · linarith
        · linarith
        · linarith
        · linarith
        · linarith
        · rw [← q2z]; linear_combination hk
    rcases hW with h' | h'
    · left; rw [hRQ, h']
    · right; rw [hRQ, h']

theorem hat_smul (c : ℝ) (t : V3) : hat (c • t) = M3.scale c (hat t) := by
  apply M3.ext' <;> ext <;> simp [hat, M3.scale]

theorem hat_neg (t : V3) : hat (-t) = M3.scale (-1) (hat t) := by
  apply M3.ext' <;> ext <;> simp [hat, M3.scale]

theorem diag_scale (c a b d : ℝ) : M3.scale c (diag a b d) = diag (c * a) (c * b) (c * d) := by
  apply M3.ext' <;> ext <;> simp [diag, M3.scale]

/-- The essential matrices of the four solutions. -/
theorem hat_col2_mul {U V : M3} (hU : IsRotation U) :
    (hat (col2 U)).mul ((U.mul W).mul V.transpose) = M3.scale (-1) ((U.mul (diag 1 1 0)).mul V.transpose) ∧
    (hat (col2 U)).mul ((U.mul W.transpose).mul V.transpose) = (U.mul (diag 1 1 0)).mul V.transpose := by
  have h1 : col2 U = U.mulVec ⟨0, 0, 1⟩ := by rw [mulVec_e3]; ext <;> simp
  have h2 : (hat (⟨0, 0, 1⟩ : V3)).mul W = M3.scale (-1) (diag 1 1 0) := by
    apply M3.ext' <;> ext <;> simp [hat, W, M3.mul, diag, M3.scale, V3.dot]
  have h3 : (hat (⟨0, 0, 1⟩ : V3)).mul W.transpose = diag 1 1 0 := by
    apply M3.ext' <;> ext <;> simp [hat, W, M3.mul, diag, M3.transpose, V3.dot]
  constructor
  · rw [← M3.mul_assoc, ← M3.mul_assoc, h1, ← mul_hat hU, M3.mul_assoc U, h2, M3.mul_scale, M3.scale_mul]
  · rw [← M3.mul_assoc, ← M3.mul_assoc, h1, ← mul_hat hU, M3.mul_assoc U, h3]

/-- The decomposition with the signs of `extractMotion`. -/
theorem signed {E U V : M3} {s1 s2 s3 : ℝ} (hU : IsOrthogonal U) (hV : IsOrthogonal V)
    (hE : E = (U.mul (diag s1 s2 s3)).mul V.transpose) :
    E = M3.scale (U.det * V.det)
      (((M3.scale U.det U).mul (diag s1 s2 s3)).mul (M3.scale V.det V).transpose) := by
  rw [M3.transpose_scale, M3.scale_mul, M3.scale_mul, M3.mul_scale, M3.scale_scale, M3.scale_scale, ← hE]
  have : U.det * V.det * (U.det * V.det) = 1 := by
    have h1 := M3.det_sq hU; have h2 := M3.det_sq hV
    have : U.det * V.det * (U.det * V.det) = U.det * U.det * (V.det * V.det) := by ring
    rw [this, h1, h2, one_mul]
  rw [show U.det * V.det * U.det * V.det = 1 by linarith, M3.scale_one]

/-- Every motion with the essential matrix `E` is among the solutions. -/
theorem solutions_complete {e : Env} (he : SvdCorrect e) {E : M3} {m : Motion3} (hm : IsUnitMotion m)
    (h : HasEssential m E) : m ∈ solutions e E := by
  obtain ⟨hU, hV, s1, s2, s3, h12, h23, h3, hE⟩ := (he E).2.2 ⟨m, hm, h⟩
  obtain ⟨c, hc, hmE⟩ := h
  have hs := signed hU hV hE
  have hcore := core (a := c * ((e.svd E).1.det * (e.svd E).2.det)) (isRotation_scale hU) (isRotation_scale hV)
    hm.1 hm.2 h12 h23 h3 (by rw [← M3.scale_scale, ← hs, ← hmE]; rfl)
  obtain ⟨-, -, -, -, ht, hR⟩ := hcore
  obtain ⟨R, t⟩ := m
  simp only at ht hR
  unfold solutions
  simp only [List.mem_cons, List.not_mem_nil, or_false]
  rcases ht with ht | ht <;> rcases hR with hR | hR
  · left; rw [ht, hR]; rfl
  · right; right; left; rw [ht, hR]; rfl
  · right; left; rw [ht, hR]; rfl
  · right; right; right; rw [ht, hR]; rfl

/-- The solutions are rotations with a translation of length one. -/
theorem solutions_unit {e : Env} (he : SvdCorrect e) {E : M3} {m : Motion3} (hm : m ∈ solutions e E) :
    IsUnitMotion m := by
  obtain ⟨hU, hV, -⟩ := he E
  have hU' := isRotation_scale hU
  have hV' := isRotation_scale hV
  have r1 := isRotation_mul (isRotation_mul hU' isRotation_W) (isRotation_transpose hV')
  have r2 := isRotation_mul (isRotation_mul hU' (isRotation_transpose isRotation_W)) (isRotation_transpose hV')
  have ht := sqNorm_col2 hU'.1
  have htn : (-col2 (M3.scale (e.svd E).1.det (e.svd E).1)).sqNorm = 1 := by
    rw [← ht]; simp [V3.sqNorm]
  unfold solutions at hm
  simp only [List.mem_cons, List.not_mem_nil, or_false] at hm
  rcases hm with rfl | rfl | rfl | rfl
  · exact ⟨r1, ht⟩
  · exact ⟨r1, htn⟩
  · exact ⟨r2, ht⟩
  · exact ⟨r2, htn⟩

/-- The solutions have the essential matrix `E`, if any motion has. -/
theorem solutions_sound {e : Env} (he : SvdCorrect e) {E : M3} {m0 m : Motion3} (h0 : IsUnitMotion m0)
    (hE0 : HasEssential m0 E) (hm : m ∈ solutions e E) : HasEssential m E := by
  obtain ⟨hU, hV, s1, s2, s3, h12, h23, h3, hE⟩ := (he E).2.2 ⟨m0, h0, hE0⟩
  obtain ⟨c, hc, hmE⟩ := hE0
  have hs := signed hU hV hE
  obtain ⟨ha, hs1, hs12, hs3, -, -⟩ :=
    core (a := c * ((e.svd E).1.det * (e.svd E).2.det)) (isRotation_scale hU) (isRotation_scale hV)
      h0.1 h0.2 h12 h23 h3 (by rw [← M3.scale_scale, ← hs, ← hmE]; rfl)
  obtain ⟨d, hd⟩ : ∃ d, d = (e.svd E).1.det * (e.svd E).2.det := ⟨_, rfl⟩
  have hdd : d * d = 1 := by
    have h1 := M3.det_sq hU; have h2 := M3.det_sq hV
    have : d * d = ((e.svd E).1.det * (e.svd E).1.det) * ((e.svd E).2.det * (e.svd E).2.det) := by rw [hd]; ring
    rw [this, h1, h2, one_mul]
  have hd0 : d ≠ 0 := by rintro h'; rw [h'] at hdd; simp at hdd
  have hk : d / s1 ≠ 0 := div_ne_zero hd0 hs1.ne'
  -- the middle matrix
  have hmid : ((M3.scale (e.svd E).1.det (e.svd E).1).mul (diag 1 1 0)).mul
      (M3.scale (e.svd E).2.det (e.svd E).2).transpose = M3.scale (d / s1) E := by
    conv_rhs => rw [hs]
    rw [← hd, M3.scale_scale]
    have h1 : d / s1 * d = 1 / s1 := by rw [div_mul_eq_mul_div, hdd]
    have h2 : diag 1 1 0 = M3.scale (1 / s1) (diag s1 s2 s3) := by
      rw [diag_scale, ← hs12, hs3, one_div, inv_mul_cancel₀ hs1.ne', mul_zero]
    rw [h1, h2, M3.mul_scale, M3.scale_mul]
  obtain ⟨e1, e2⟩ := hat_col2_mul (V := M3.scale (e.svd E).2.det (e.svd E).2) (isRotation_scale hU)
  rw [hmid] at e1 e2
  unfold solutions at hm
  simp only [List.mem_cons, List.not_mem_nil, or_false] at hm
  rcases hm with rfl | rfl | rfl | rfl
  · exact ⟨-1 * (d / s1), by simpa using hk, by rw [← M3.scale_scale]; exact e1⟩
  · refine ⟨d / s1, hk, ?_⟩
    show (hat (-col2 _)).mul _ = _
    rw [hat_neg, M3.scale_mul, e1, M3.scale_scale]; norm_num [M3.scale_one]
  · exact ⟨d / s1, hk, e2⟩
  · refine ⟨-1 * (d / s1), by simpa using hk, ?_⟩
    show (hat (-col2 _)).mul _ = _
    rw [hat_neg, M3.scale_mul, e2, M3.scale_scale]

end Mdso.Stereo
