import Verif.Model.Geometry3
import Verif.Spec.Geometry3
import Mathlib.Tactic.LinearCombination
import Mathlib.Tactic.FunProp
import Mathlib.Topology.Order.IntermediateValue

/-! Lemmas about the model of the spatial part of `geometry.cpp`. -/

set_option autoImplicit false

namespace Mdso.Geom

open V3 Geom3Spec

/-- Lagrange's identity. -/
theorem lagrange (a b : V3) :
    a.sqNorm * b.sqNorm = a.dot b * a.dot b + (a.cross b).sqNorm := by
  simp only [V3.sqNorm, V3.dot, V3.cross]; ring

theorem dot_le (a b : V3) : |a.dot b| ≤ a.norm * b.norm := by
  have h := lagrange a b
  have h2 := sqNorm_nonneg (a.cross b)
  rw [← norm_sq, ← norm_sq] at h
  apply abs_le_of_sq_le_sq _ (mul_nonneg (norm_nonneg _) (norm_nonneg _))
  nlinarith

theorem angle_eq {a b : V3} (ha : a ≠ 0) (hb : b ≠ 0) :
    angle a b = Real.arccos (a.dot b / (a.norm * b.norm)) := by
  have hna := norm_pos ha
  have hnb := norm_pos hb
  have hd : a.normalized.dot b.normalized = a.dot b / (a.norm * b.norm) := by
    rw [normalized_eq ha, normalized_eq hb]
    simp only [V3.dot, smul_x, smul_y, smul_z]
    field_simp
  have hle := abs_le.1 (dot_le a b)
  have hpos : 0 < a.norm * b.norm := mul_pos hna hnb
  unfold angle
  simp only [hd]
  have h1 : ¬ a.dot b / (a.norm * b.norm) < -1 := by
    rw [not_lt, le_div_iff₀ hpos]; linarith [hle.1]
  have h2 : ¬ 1 < a.dot b / (a.norm * b.norm) := by
    rw [not_lt, div_le_iff₀ hpos]; linarith [hle.2]
  rw [if_neg h1, if_neg h2]

theorem angle_isAngle {a b : V3} (ha : a ≠ 0) (hb : b ≠ 0) : IsAngle (angle a b) a b := by
  have hpos : 0 < a.norm * b.norm := mul_pos (norm_pos ha) (norm_pos hb)
  have hle := abs_le.1 (dot_le a b)
  rw [angle_eq ha hb]
  refine ⟨Real.arccos_nonneg _, Real.arccos_le_pi _, ?_⟩
  rw [Real.cos_arccos, div_mul_cancel₀ _ hpos.ne']
  · rw [le_div_iff₀ hpos]; linarith [hle.1]
  · rw [div_le_iff₀ hpos]; linarith [hle.2]

theorem isAngle_unique {a b : V3} (ha : a ≠ 0) (hb : b ≠ 0) {θ φ : ℝ} (h1 : IsAngle θ a b)
    (h2 : IsAngle φ a b) : θ = φ := by
  have hpos : 0 < a.norm * b.norm := mul_pos (norm_pos ha) (norm_pos hb)
  have h : Real.cos θ = Real.cos φ := by
    have := h1.2.2.trans h2.2.2.symm
    exact mul_right_cancel₀ hpos.ne' this
  exact Real.injOn_cos ⟨h1.1, h1.2.1⟩ ⟨h2.1, h2.2.1⟩ h

theorem axis_ne : axis ≠ 0 := by
  intro h; have := congrArg V3.z h; simp [axis] at this

theorem axis_norm : axis.norm = 1 := norm_eq_one (by simp [axis, V3.sqNorm])

theorem dot_axis (d : V3) : d.dot axis = d.z := by simp [axis, V3.dot]

theorem angle_axis_le {d : V3} (hd : d ≠ 0) {s : ℝ} (h0 : 0 ≤ s) (hp : s ≤ Real.pi) :
    angle d axis ≤ s ↔ Real.cos s * d.norm ≤ d.z := by
  obtain ⟨a1, a2, a3⟩ := angle_isAngle hd axis_ne
  rw [axis_norm, mul_one, dot_axis] at a3
  have hn := norm_pos hd
  rw [← a3, mul_le_mul_iff_left₀ hn]
  exact (Real.strictAntiOn_cos.le_iff_ge ⟨h0, hp⟩ ⟨a1, a2⟩).symm

theorem angle_axis_lt {d : V3} (hd : d ≠ 0) {s : ℝ} (h0 : 0 ≤ s) (hp : s ≤ Real.pi) :
    s < angle d axis ↔ d.z < Real.cos s * d.norm := by
  rw [← not_le, angle_axis_le hd h0 hp, not_le]

theorem cross_smul_left (a : ℝ) (p q : V3) : (a • p).cross q = a • p.cross q := by
  ext <;> simp [V3.cross] <;> ring

/-- Two non-zero parallel vectors are positive or negative multiples of each other. -/
theorem parallel {a b : V3} (ha : a ≠ 0) (hb : b ≠ 0) (h : a.cross b = 0) :
    ∃ l : ℝ, l ≠ 0 ∧ b = l • a := by
  have hs := sqNorm_pos ha
  have hx := congrArg V3.x h
  have hy := congrArg V3.y h
  have hz := congrArg V3.z h
  simp only [V3.cross, zero_x, zero_y, zero_z] at hx hy hz
  have hba : b = (a.dot b / a.sqNorm) • a := by
    ext
    · simp only [smul_x]; field_simp; simp only [V3.dot, V3.sqNorm]
      linear_combination a.z * hy - a.y * hz
    · simp only [smul_y]; field_simp; simp only [V3.dot, V3.sqNorm]
      linear_combination a.x * hz - a.z * hx
    · simp only [smul_z]; field_simp; simp only [V3.dot, V3.sqNorm]
      linear_combination a.y * hx - a.x * hy
  refine ⟨_, ?_, hba⟩
  intro h0
  rw [h0] at hba
  apply hb
  rw [hba]; ext <;> simp

theorem lsq2_of_comb {c1 c2 : V3} (h : c1.cross c2 ≠ 0) (a b : ℝ) :
    lsq2 c1 c2 (a • c1 + b • c2) = some (a, b) := by
  have hd : c1.dot c1 * c2.dot c2 - c1.dot c2 * c1.dot c2 = (c1.cross c2).sqNorm := by
    have := lagrange c1 c2
    have e1 : c1.dot c1 = c1.sqNorm := rfl
    have e2 : c2.dot c2 = c2.sqNorm := rfl
    rw [e1, e2]; linarith
  have hne : c1.dot c1 * c2.dot c2 - c1.dot c2 * c1.dot c2 ≠ 0 := by
    rw [hd]; exact (sqNorm_pos h).ne'
  unfold lsq2
  simp only [if_neg hne]
  have e1 : c1.dot (a • c1 + b • c2) = a * c1.dot c1 + b * c1.dot c2 := by simp [V3.dot]; ring
  have e2 : c2.dot (a • c1 + b • c2) = a * c1.dot c2 + b * c2.dot c2 := by simp [V3.dot]; ring
  rw [e1, e2]
  congr 1
  ext
  · simp only; rw [div_eq_iff hne]; ring
  · simp only; rw [div_eq_iff hne]; ring

/-- An arc that starts inside the cone and ends outside meets its boundary. -/
theorem arc_meets {d1 d2 : V3} (hx : d1.cross d2 ≠ 0) {z0 : ℝ} (h1 : z0 * d1.norm ≤ d1.z)
    (h2 : d2.z < z0 * d2.norm) :
    ∃ q : V3, q.sqNorm = 1 ∧ q.z = z0 ∧ ∃ a b : ℝ, 0 ≤ a ∧ 0 ≤ b ∧ q = a • d1 + b • d2 := by
  let p : ℝ → V3 := fun t => (1 - t) • d1 + t • d2
  let g : ℝ → ℝ := fun t => (p t).z - z0 * (p t).norm
  have hg : Continuous g := by
    have : g = fun t => ((1 - t) * d1.z + t * d2.z) - z0 * Real.sqrt
        (((1 - t) * d1.x + t * d2.x) * ((1 - t) * d1.x + t * d2.x)
        + ((1 - t) * d1.y + t * d2.y) * ((1 - t) * d1.y + t * d2.y)
        + ((1 - t) * d1.z + t * d2.z) * ((1 - t) * d1.z + t * d2.z)) := rfl
    rw [this]
    fun_prop
  have p0 : p 0 = d1 := by ext <;> simp [p]
  have p1 : p 1 = d2 := by ext <;> simp [p]
  have g0 : 0 ≤ g 0 := by simp only [g, p0]; linarith
  have g1 : g 1 ≤ 0 := by simp only [g, p1]; linarith
  obtain ⟨t, ⟨ht0, ht1⟩, ht⟩ := intermediate_value_Icc' (zero_le_one (α := ℝ)) hg.continuousOn ⟨g1, g0⟩
  have hne : p t ≠ 0 := by
    intro h0
    have hc : ∀ w : V3, (p t).cross w = 0 := by
      intro w; rw [h0]; ext <;> simp [V3.cross]
    have e1 : (p t).cross d2 = (1 - t) • d1.cross d2 := by ext <;> simp [p, V3.cross] <;> ring
    have e2 : d1.cross (p t) = t • d1.cross d2 := by ext <;> simp [p, V3.cross] <;> ring
    have e3 : d1.cross (p t) = 0 := by rw [h0]; ext <;> simp [V3.cross]
    apply hx
    have e4 : d1.cross d2 = (1 - t) • d1.cross d2 + t • d1.cross d2 := by ext <;> simp <;> ring
    rw [e4, ← e1, ← e2, hc, e3]; ext <;> simp
  have hn := norm_pos hne
  refine ⟨(p t).normalized, sqNorm_normalized hne, ?_, (1 - t) / (p t).norm, t / (p t).norm,
    div_nonneg (by linarith) hn.le, div_nonneg ht0 hn.le, ?_⟩
  · rw [normalized_eq hne]
    simp only [g] at ht
    simp only [smul_z]
    field_simp
    linarith
  · rw [normalized_eq hne]
    generalize (p t).norm = n at hn
    ext <;> simp [p] <;> field_simp

/-- What the last part of `intersectOnSphere` computes when the arc meets the boundary of the cone. -/
theorem clip_core {s : ℝ} {d1 d2 : V3}
    (ho : ¬ (angle d1 axis > s + epsAngle ∧ angle d2 axis > s + epsAngle))
    (hi : ¬ (angle d1 axis ≤ s + epsAngle ∧ angle d2 axis ≤ s + epsAngle))
    (hx : d1.cross d2 ≠ 0) (hab : (d1.cross d2).x ≠ 0 ∨ (d1.cross d2).y ≠ 0)
    {q : V3} (hq1 : q.sqNorm = 1) (hq2 : q.z = Real.cos s)
    (hq3 : ∃ a b : ℝ, 0 ≤ a ∧ 0 ≤ b ∧ q = a • d1 + b • d2) :
    ∃ sol : V3, sol.sqNorm = 1 ∧ sol.z = Real.cos s ∧ OnArc sol d1 d2 ∧
      intersectOnSphere s d1 d2 =
        (if angle d1 axis > s then .ok (true, sol, d2)
         else if angle d2 axis > s then .ok (true, d1, sol)
         else .ok (true, d1, d2)) := by
  have hplane : (d1.cross d2).x * q.x + (d1.cross d2).y * q.y + (d1.cross d2).z * Real.cos s = 0 := by
    obtain ⟨a, b, -, -, hq⟩ := hq3
    rw [← hq2, hq]; simp [V3.cross]; ring
  unfold intersectOnSphere
  simp only [if_neg ho, if_neg hi]
  generalize ha : (d1.cross d2).x = a at *
  generalize hb : (d1.cross d2).y = b at *
  generalize hc : (d1.cross d2).z = c at *
  have hpos : 0 < a * a + b * b := by
    rcases hab with h | h
    · have := mul_self_pos.2 h; nlinarith [mul_self_nonneg b]
    · have := mul_self_pos.2 h; nlinarith [mul_self_nonneg a]
  have hR : Real.sin s * Real.sin s = 1 - Real.cos s * Real.cos s := by
    have := Real.sin_sq_add_cos_sq s; nlinarith
  generalize Real.cos s = z0 at *
  generalize Real.sin s = R at *
  have hN : ∃ N, N = a * a + b * b := ⟨_, rfl⟩
  obtain ⟨N, hN⟩ := hN
  rw [← hN] at hpos ⊢
  have hN0 := hpos.ne'
  obtain ⟨x0, hx0⟩ : ∃ x0, x0 = -(a * c * z0) / N := ⟨_, rfl⟩
  obtain ⟨y0, hy0⟩ : ∃ y0, y0 = -(b * c * z0) / N := ⟨_, rfl⟩
  rw [← hx0, ← hy0]
  have hx0' : x0 * N = -(a * c * z0) := by rw [hx0]; field_simp
  have hy0' : y0 * N = -(b * c * z0) := by rw [hy0]; field_simp
  have hu : a * y0 - b * x0 = 0 := by
    apply mul_right_cancel₀ hN0
    linear_combination a * hy0' - b * hx0'
  have hl : a * x0 + b * y0 + c * z0 = 0 := by
    apply mul_right_cancel₀ hN0
    linear_combination a * hx0' + b * hy0' - c * z0 * hN + 2 * c * z0 * hN
  rw [hu]
  -- the parameter of `q` on the line
  obtain ⟨tq, htq⟩ : ∃ t, t = (a * q.y - b * q.x) / N := ⟨_, rfl⟩
  have htq' : tq * N = a * q.y - b * q.x := by rw [htq]; field_simp
  have hqx : q.x = x0 - tq * b := by
    apply mul_right_cancel₀ hN0
    linear_combination q.x * hN - hx0' + b * htq' + a * hplane
  have hqy : q.y = y0 + tq * a := by
    apply mul_right_cancel₀ hN0
    linear_combination q.y * hN - hy0' - a * htq' + b * hplane
  have hqR : q.x * q.x + q.y * q.y = R * R := by
    have := hq1; simp only [V3.sqNorm] at this; rw [hq2] at this; linarith
  have hdisc : (0 : ℝ) * 0 - N * (x0 * x0 + y0 * y0 - R * R) = (tq * N) * (tq * N) := by
    rw [← hqR, hqx, hqy, hN]
    linear_combination 2 * tq * (a * a + b * b) * hu
  rw [hdisc]
  have hsq : Real.sqrt (tq * N * (tq * N)) = |tq * N| := Real.sqrt_mul_self_eq_abs _
  rw [hsq]
  have hsol : ∀ t : ℝ, t * t = tq * tq →
      (⟨x0 - t * b, y0 + t * a, z0⟩ : V3).sqNorm = 1 := by
    intro t ht
    have e : (⟨x0 - t * b, y0 + t * a, z0⟩ : V3).sqNorm
        = x0 * x0 + y0 * y0 + 2 * t * (a * y0 - b * x0) + t * t * (a * a + b * b) + z0 * z0 := by
      simp only [V3.sqNorm]; ring
    rw [e, hu, ht, ← hN]
    have h2 : N * (x0 * x0 + y0 * y0 - R * R) = -(tq * N) * (tq * N) := by linarith
    have h3 : x0 * x0 + y0 * y0 - R * R = - (tq * tq) * N := by
      apply mul_left_cancel₀ hN0; linarith
    linarith
  have hplane' : ∀ t : ℝ, ∃ al be : ℝ, (⟨x0 - t * b, y0 + t * a, z0⟩ : V3) = al • d1 + be • d2 := by
    intro t
    -- a vector orthogonal to the normal is a combination of the two directions
    have hw : ∀ w : V3, (d1.cross d2).dot w = 0 → ∃ al be : ℝ, w = al • d1 + be • d2 := by
      intro w hw0
      have hS := (sqNorm_pos hx).ne'
      refine ⟨(w.cross d2).dot (d1.cross d2) / (d1.cross d2).sqNorm,
        (d1.cross w).dot (d1.cross d2) / (d1.cross d2).sqNorm, ?_⟩
      have hS' : (d1.cross d2).sqNorm = (d1.cross d2).x * (d1.cross d2).x
        + (d1.cross d2).y * (d1.cross d2).y + (d1.cross d2).z * (d1.cross d2).z := rfl
      simp only [V3.cross, V3.dot] at hw0
      ext
      · simp only [add_x, smul_x]; field_simp; rw [hS']; simp only [V3.cross, V3.dot]
        linear_combination (d1.y * d2.z - d1.z * d2.y) * hw0
      · simp only [add_y, smul_y]; field_simp; rw [hS']; simp only [V3.cross, V3.dot]
        linear_combination (d1.z * d2.x - d1.x * d2.z) * hw0
      · simp only [add_z, smul_z]; field_simp; rw [hS']; simp only [V3.cross, V3.dot]
        linear_combination (d1.x * d2.y - d1.y * d2.x) * hw0
    apply hw
    simp only [V3.dot]
    rw [ha, hb, hc]
    linear_combination hl
  obtain ⟨t1, ht1⟩ : ∃ t1, t1 = (0 - |tq * N|) / N := ⟨_, rfl⟩
  obtain ⟨t2, ht2⟩ : ∃ t2, t2 = (0 + |tq * N|) / N := ⟨_, rfl⟩
  rw [← ht1, ← ht2]
  have habs : |tq * N| = |tq| * N := by rw [abs_mul, abs_of_pos hpos]
  have e1 : t1 = -|tq| := by rw [ht1, habs]; field_simp; ring
  have e2 : t2 = |tq| := by rw [ht2, habs]; field_simp; ring
  have q1 : t1 * t1 = tq * tq := by rw [e1]; simp
  have q2 : t2 * t2 = tq * tq := by rw [e2]; simp
  have n1 := hsol t1 q1
  have n2 := hsol t2 q2
  have hchk : N ≠ 0 ∧ 0 ≤ tq * N * (tq * N) ∧
      |(⟨x0 - t1 * b, y0 + t1 * a, z0⟩ : V3).sqNorm - 1| < 1 / 10000 ∧
      |(⟨x0 - t2 * b, y0 + t2 * a, z0⟩ : V3).sqNorm - 1| < 1 / 10000 := by
    refine ⟨hN0, mul_self_nonneg _, ?_, ?_⟩
    · rw [n1]; norm_num
    · rw [n2]; norm_num
  simp only [if_pos hchk]
  have hqt : q = ⟨x0 - tq * b, y0 + tq * a, z0⟩ := by
    ext
    · exact hqx
    · exact hqy
    · exact hq2
  have hnz : ∀ w : V3, w.sqNorm = 1 → w ≠ 0 := fun w hw => ne_zero_of_sqNorm hw one_pos
  obtain ⟨al, be, hal⟩ := hplane' t1
  rw [hal, lsq2_of_comb hx]
  simp only
  rw [← hal]
  by_cases hco : al ≥ 0 ∧ be ≥ 0
  · refine ⟨_, n1, rfl, ⟨hnz _ n1, al, be, hco.1, hco.2, hal⟩, ?_⟩
    rw [if_pos hco]
  · refine ⟨_, n2, rfl, ⟨hnz _ n2, ?_⟩, ?_⟩
    · rcases abs_choice tq with h | h
      · rw [e2, h, ← hqt]; exact hq3
      · exfalso
        rw [h, neg_neg] at e1
        rw [e1, ← hqt] at hal
        obtain ⟨al', be', g1, g2, g3⟩ := hq3
        have := (lsq2_of_comb hx al be).symm.trans ((congrArg _ (hal.symm.trans g3)).trans
          (lsq2_of_comb hx al' be'))
        cases this
        exact hco ⟨g1, g2⟩
    · rw [if_neg hco]

end Mdso.Geom
