import Verif.Props.CameraTurn
import Verif.Spec.TraceTurn

/-!
# Lemmas on turning about the axis of the camera
-/

set_option autoImplicit false

namespace Mdso.Turning

open Mdso.Geom Mdso.CamSpec Mdso.Cam

variable (t : Turn)

theorem norm_vec (p : V2) : norm2 (t.vec p) = norm2 p := by rw [norm2_len, norm2_len, turn_len]

theorem pos_sub (c p q : V2) : t.pos c p - t.pos c q = t.vec (p - q) := by
  ext
  · simp only [Turn.pos, Turn.vec, add_x, sub_x, sub_y]; ring
  · simp only [Turn.pos, Turn.vec, add_y, sub_x, sub_y]; ring

theorem pos_add (c p d : V2) : t.pos c p + t.vec d = t.pos c (p + d) := by
  ext
  · simp only [Turn.pos, Turn.vec, add_x, add_y, sub_x, sub_y]; ring
  · simp only [Turn.pos, Turn.vec, add_x, add_y, sub_x, sub_y]; ring

theorem pos_smul (c p : V2) (s : ℝ) : s • t.pos c p = t.pos (s • c) (s • p) := by
  ext
  · simp only [Turn.pos, Turn.vec, add_x, sub_x, sub_y, smul_x, smul_y]; ring
  · simp only [Turn.pos, Turn.vec, add_y, sub_x, sub_y, smul_x, smul_y]; ring

theorem pos_middle (c p q : V2) : (1 / 2 : ℝ) • (t.pos c p + t.pos c q) = t.pos c ((1 / 2 : ℝ) • (p + q)) := by
  ext
  · simp only [Turn.pos, Turn.vec, add_x, add_y, sub_x, sub_y, smul_x, smul_y]; ring
  · simp only [Turn.pos, Turn.vec, add_x, add_y, sub_x, sub_y, smul_x, smul_y]; ring

theorem dot_vec (p q : V2) : Geom.dot (t.vec p) (t.vec q) = Geom.dot p q := by
  have h1 := t.unit
  have h2 := t.sided
  unfold Geom.dot Turn.vec
  linear_combination (p.x * q.x + t.side ^ 2 * p.y * q.y) * h1 + p.y * q.y * h2

theorem dot_ray (p q : V3) : (t.ray p).dot (t.ray q) = p.dot q := by
  have h1 := t.unit
  have h2 := t.sided
  unfold V3.dot Turn.ray
  linear_combination (p.x * q.x + t.side ^ 2 * p.y * q.y) * h1 + p.y * q.y * h2

theorem sqNorm_ray (p : V3) : (t.ray p).sqNorm = p.sqNorm := dot_ray t p p

theorem ray_smul (s : ℝ) (p : V3) : t.ray (s • p) = s • t.ray p := by
  ext
  · simp only [Turn.ray, V3.smul_x, V3.smul_y]; ring
  · simp only [Turn.ray, V3.smul_x, V3.smul_y]; ring
  · simp only [Turn.ray, V3.smul_z]

theorem ray_sub (p q : V3) : t.ray p - t.ray q = t.ray (p - q) := by
  ext
  · simp only [Turn.ray, V3.sub_x, V3.sub_y]; ring
  · simp only [Turn.ray, V3.sub_x, V3.sub_y]; ring
  · simp only [Turn.ray, V3.sub_z]

theorem ray_normalized (p : V3) : (t.ray p).normalized = t.ray p.normalized := by
  unfold V3.normalized V3.norm
  rw [sqNorm_ray]
  split
  · rw [ray_smul]
  · rfl

theorem ray_axis : t.ray axis = axis := by
  ext <;> simp [Turn.ray, axis]

theorem angle_ray (p q : V3) : Geom.angle (t.ray p) (t.ray q) = Geom.angle p q := by
  unfold Geom.angle
  simp only [ray_normalized, dot_ray]

theorem lsq2_ray (a b r : V3) : lsq2 (t.ray a) (t.ray b) (t.ray r) = lsq2 a b r := by
  unfold lsq2
  simp only [dot_ray]

theorem cross_ray (p q : V3) : (t.ray p).cross (t.ray q) = t.side • t.ray (p.cross q) := by
  have h1 := t.unit
  have h2 := t.sided
  ext
  · simp only [V3.cross, Turn.ray, V3.smul_x]
    linear_combination (-(t.sin * (p.z * q.x - p.x * q.z))) * (-1 : ℝ) * h2 * 1 + 0 * h1
  · simp only [V3.cross, Turn.ray, V3.smul_y]
    linear_combination (-(t.cos * (p.z * q.x - p.x * q.z))) * (1 : ℝ) * h2 + 0 * h1
  · simp only [V3.cross, Turn.ray, V3.smul_z]
    linear_combination t.side * (p.x * q.y - p.y * q.x) * h1

/-- The results of `intersectOnSphere` turn with its arguments. -/
theorem intersect_ray (a : ℝ) (p q : V3) : intersectOnSphere a (t.ray p) (t.ray q)
    = (intersectOnSphere a p q).map fun r => (r.1, t.ray r.2.1, t.ray r.2.2) := by
  have h1 := t.unit
  have h2 := t.sided
  have a1 : Geom.angle (t.ray p) axis = Geom.angle p axis := by
    have := angle_ray t p axis
    rwa [ray_axis] at this
  have a2 : Geom.angle (t.ray q) axis = Geom.angle q axis := by
    have := angle_ray t q axis
    rwa [ray_axis] at this
  unfold intersectOnSphere
  simp only [a1, a2]
  by_cases g1 : Geom.angle p axis > a + epsAngle ∧ Geom.angle q axis > a + epsAngle
  · rw [if_pos g1, if_pos g1]; rfl
  rw [if_neg g1, if_neg g1]
  by_cases g2 : Geom.angle p axis ≤ a + epsAngle ∧ Geom.angle q axis ≤ a + epsAngle
  · rw [if_pos g2, if_pos g2]; rfl
  rw [if_neg g2, if_neg g2]
  simp only [cross_ray]
  obtain ⟨n, hn⟩ : ∃ n, n = p.cross q := ⟨_, rfl⟩
  rw [← hn]
  obtain ⟨z0, hz0⟩ : ∃ z, z = Real.cos a := ⟨_, rfl⟩
  obtain ⟨R, hR⟩ : ∃ z, z = Real.sin a := ⟨_, rfl⟩
  rw [← hz0, ← hR]
  have nx : (t.side • t.ray n).x = t.side * (t.cos * n.x - t.side * t.sin * n.y) := rfl
  have ny : (t.side • t.ray n).y = t.side * (t.sin * n.x + t.side * t.cos * n.y) := rfl
  have nz : (t.side • t.ray n).z = t.side * n.z := rfl
  rw [nx, ny, nz]
  have e0 : t.side * (t.cos * n.x - t.side * t.sin * n.y) * (t.side * (t.cos * n.x - t.side * t.sin * n.y))
      + t.side * (t.sin * n.x + t.side * t.cos * n.y) * (t.side * (t.sin * n.x + t.side * t.cos * n.y))
      = n.x * n.x + n.y * n.y := by
    linear_combination (t.side ^ 2 * (n.x ^ 2 + t.side ^ 2 * n.y ^ 2)) * h1
      + (n.x ^ 2 + (t.side ^ 2 + 1) * n.y ^ 2) * h2
  rw [e0]
  obtain ⟨d, hd⟩ : ∃ d, d = n.x * n.x + n.y * n.y := ⟨_, rfl⟩
  rw [← hd]
  have ex : -(t.side * (t.cos * n.x - t.side * t.sin * n.y) * (t.side * n.z) * z0) / d
      = t.cos * (-(n.x * n.z * z0) / d) - t.side * t.sin * (-(n.y * n.z * z0) / d) := by
    rw [mul_div_assoc', mul_div_assoc', ← sub_div]
    congr 1
    linear_combination (-(t.cos * n.x - t.side * t.sin * n.y) * n.z * z0) * h2
  have ey : -(t.side * (t.sin * n.x + t.side * t.cos * n.y) * (t.side * n.z) * z0) / d
      = t.sin * (-(n.x * n.z * z0) / d) + t.side * t.cos * (-(n.y * n.z * z0) / d) := by
    rw [mul_div_assoc', mul_div_assoc', ← add_div]
    congr 1
    linear_combination (-(t.sin * n.x + t.side * t.cos * n.y) * n.z * z0) * h2
  rw [ex, ey]
  obtain ⟨x0, hx0⟩ : ∃ x, x = -(n.x * n.z * z0) / d := ⟨_, rfl⟩
  obtain ⟨y0, hy0⟩ : ∃ x, x = -(n.y * n.z * z0) / d := ⟨_, rfl⟩
  rw [← hx0, ← hy0]
  have eu : t.side * (t.cos * n.x - t.side * t.sin * n.y) * (t.sin * x0 + t.side * t.cos * y0)
      - t.side * (t.sin * n.x + t.side * t.cos * n.y) * (t.cos * x0 - t.side * t.sin * y0)
      = n.x * y0 - n.y * x0 := by
    linear_combination (t.side ^ 2 * (n.x * y0 - n.y * x0)) * h1 + (n.x * y0 - n.y * x0) * h2
  have ev : (t.cos * x0 - t.side * t.sin * y0) * (t.cos * x0 - t.side * t.sin * y0)
      + (t.sin * x0 + t.side * t.cos * y0) * (t.sin * x0 + t.side * t.cos * y0) - R * R
      = x0 * x0 + y0 * y0 - R * R := by
    linear_combination (x0 ^ 2 + t.side ^ 2 * y0 ^ 2) * h1 + y0 ^ 2 * h2
  rw [eu, ev]
  obtain ⟨D, hD⟩ : ∃ x, x = (n.x * y0 - n.y * x0) * (n.x * y0 - n.y * x0) - d * (x0 * x0 + y0 * y0 - R * R) := ⟨_, rfl⟩
  rw [← hD]
  have es : ∀ k : ℝ, (⟨t.cos * x0 - t.side * t.sin * y0 - k * (t.side * (t.sin * n.x + t.side * t.cos * n.y)),
      t.sin * x0 + t.side * t.cos * y0 + k * (t.side * (t.cos * n.x - t.side * t.sin * n.y)), z0⟩ : V3)
      = t.ray ⟨x0 - k * n.y, y0 + k * n.x, z0⟩ := by
    intro k
    ext
    · simp only [Turn.ray]
      linear_combination (-(k * t.cos * n.y)) * h2
    · simp only [Turn.ray]
      linear_combination (-(k * t.sin * n.y)) * h2
    · rfl
  rw [es, es]
  obtain ⟨s1, hs1⟩ : ∃ s : V3, s = ⟨x0 - (n.x * y0 - n.y * x0 - Real.sqrt D) / d * n.y,
    y0 + (n.x * y0 - n.y * x0 - Real.sqrt D) / d * n.x, z0⟩ := ⟨_, rfl⟩
  obtain ⟨s2, hs2⟩ : ∃ s : V3, s = ⟨x0 - (n.x * y0 - n.y * x0 + Real.sqrt D) / d * n.y,
    y0 + (n.x * y0 - n.y * x0 + Real.sqrt D) / d * n.x, z0⟩ := ⟨_, rfl⟩
  rw [← hs1, ← hs2, sqNorm_ray, sqNorm_ray, lsq2_ray]
  by_cases g3 : d ≠ 0 ∧ 0 ≤ D ∧ |s1.sqNorm - 1| < 1 / 10000 ∧ |s2.sqNorm - 1| < 1 / 10000
  · rw [if_pos g3, if_pos g3]
    have pick : (match lsq2 p q s1 with
        | some co => if co.1 ≥ 0 ∧ co.2 ≥ 0 then t.ray s1 else t.ray s2
        | none => t.ray s2) = t.ray (match lsq2 p q s1 with
        | some co => if co.1 ≥ 0 ∧ co.2 ≥ 0 then s1 else s2
        | none => s2) := by
      cases lsq2 p q s1 with
      | none => rfl
      | some co => dsimp only; split <;> rfl
    by_cases g4 : Geom.angle p axis > a
    · rw [if_pos g4, if_pos g4]
      cases lsq2 p q s1 with
      | none => rfl
      | some co => dsimp only; split <;> rfl
    rw [if_neg g4, if_neg g4]
    by_cases g5 : Geom.angle q axis > a
    · rw [if_pos g5, if_pos g5]
      cases lsq2 p q s1 with
      | none => rfl
      | some co => dsimp only; split <;> rfl
    rw [if_neg g5, if_neg g5]
    rfl
  · rw [if_neg g3, if_neg g3]
    rfl

theorem at_map {α β : Type} (f : α → β) (l : List α) (i : Nat) : at' (l.map f) i = (at' l i).map f := by
  unfold at'
  rw [List.getElem?_map]
  cases l[i]? <;> rfl

theorem curve_pos (c : V2) (l : List V2) (s : ℝ) : approxOnCurve (l.map (t.pos c)) s = (approxOnCurve l s).map (t.pos c) := by
  unfold approxOnCurve
  simp only [List.length_map, at_map]
  split
  · split
    · cases at' l 0 with
      | error f => rfl
      | ok a =>
        cases at' l 1 with
        | error f => rfl
        | ok b =>
          simp only [Except.map]
          congr 1
          ext
          · simp only [Turn.pos, Turn.vec, add_x, add_y, sub_x, sub_y, smul_x, smul_y]; ring
          · simp only [Turn.pos, Turn.vec, add_x, add_y, sub_x, sub_y, smul_x, smul_y]; ring
    · split
      · cases at' l (l.length - 1) with
        | error f => rfl
        | ok a =>
          cases at' l (l.length - 2) with
          | error f => rfl
          | ok b =>
            simp only [Except.map]
            congr 1
            ext
            · simp only [Turn.pos, Turn.vec, add_x, add_y, sub_x, sub_y, smul_x, smul_y]; ring
            · simp only [Turn.pos, Turn.vec, add_x, add_y, sub_x, sub_y, smul_x, smul_y]; ring
      · split
        · rfl
        · cases at' l (Util.truncInt s).toNat with
          | error f => rfl
          | ok a =>
            cases at' l ((Util.truncInt s).toNat + 1) with
            | error f => rfl
            | ok b =>
              simp only [Except.map]
              congr 1
              ext
              · simp only [Turn.pos, Turn.vec, add_x, add_y, sub_x, sub_y, smul_x, smul_y]; ring
              · simp only [Turn.pos, Turn.vec, add_x, add_y, sub_x, sub_y, smul_x, smul_y]; ring
  · rfl

end Mdso.Turning
