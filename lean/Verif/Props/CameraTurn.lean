import Verif.Props.DiffMap
import Verif.Props.CameraModel
import Verif.Spec.CameraTurn

/-!
# Turning about the axis of the camera
-/

set_option autoImplicit false

namespace Mdso.Cam

open Mdso.Geom Mdso.CamSpec

theorem turn_len (t : Turn) (p : V2) : len (t.vec p) = len p := by
  unfold len Turn.vec
  congr 1
  have h1 := t.unit
  have h2 := t.sided
  linear_combination (p.x ^ 2 + t.side ^ 2 * p.y ^ 2) * h1 + p.y ^ 2 * h2

theorem turn_smul (t : Turn) (s : ℝ) (p : V2) : t.vec (s • p) = s • t.vec p := by
  ext
  · simp only [Turn.vec, smul_x, smul_y]; ring
  · simp only [Turn.vec, smul_x, smul_y]; ring

theorem turn_normalized (t : Turn) (p : V2) : normalized2 (t.vec p) = t.vec (normalized2 p) := by
  by_cases h : 0 < len p
  · rw [normalized2_pos h, normalized2_pos (by rw [turn_len]; exact h), turn_len, turn_smul]
  · rw [normalized2_zero h, normalized2_zero (by rw [turn_len]; exact h)]
    ext <;> simp [Turn.vec]

/-- **C191, projections.** If a ray is turned about the axis of the camera, or reflected, its position on the picture
turns by the same angle about the center of the picture, or is reflected in the same way. -/
theorem C191_map (c : Cam) (t : Turn) (v : V3) : map c (t.ray v) = t.pos (getImgCenter c) (map c v) := by
  have hh : (⟨(t.ray v).x, (t.ray v).y⟩ : V2) = t.vec ⟨v.x, v.y⟩ := rfl
  have hz : (t.ray v).z = v.z := rfl
  unfold map
  simp only [hh, hz, turn_normalized, norm2_len, turn_len]
  ext
  · simp only [Turn.pos, Turn.vec, getImgCenter, smul_x, smul_y, add_x, add_y, sub_x, sub_y]; ring
  · simp only [Turn.pos, Turn.vec, getImgCenter, smul_x, smul_y, add_x, add_y, sub_x, sub_y]; ring

/-- **C191, rays.** If a position turns about the center of the picture, its ray turns by the same angle about the
axis of the camera. -/
theorem C191_unmap (c : Cam) (hs : c.scale ≠ 0) (t : Turn) (p : V2) :
    unmap c (t.pos (getImgCenter c) p) = t.ray (unmap c p) := by
  rw [C38_unmap, C38_unmap]
  have hq : normalisedPixel c.scale c.center (t.pos (getImgCenter c) p)
      = t.vec (normalisedPixel c.scale c.center p) := by
    ext
    · simp only [normalisedPixel, Turn.pos, Turn.vec, getImgCenter, smul_x, smul_y, add_x, sub_x, sub_y]
      field_simp; ring
    · simp only [normalisedPixel, Turn.pos, Turn.vec, getImgCenter, smul_x, smul_y, add_y, sub_x, sub_y]
      field_simp; ring
  simp only [ray, hq, turn_len]
  rfl

theorem turn_axis (t : Turn) (v : V3) : ((t.ray v).x = 0 ∧ (t.ray v).y = 0) ↔ (v.x = 0 ∧ v.y = 0) := by
  have e1 : ((t.ray v).x = 0 ∧ (t.ray v).y = 0) ↔ len (t.vec ⟨v.x, v.y⟩) = 0 :=
    (len_zero_iff (t.vec ⟨v.x, v.y⟩)).symm
  rw [e1, turn_len]
  exact len_zero_iff _

/-- Off the axis the Jacobian applied to a vector is the derivative of the projection along that vector. -/
theorem jacobian_deriv (c : Cam) (r v : V3) (off : ¬ (r.x = 0 ∧ r.y = 0)) :
    HasDerivAt (fun s : ℝ => (map c (Trace.dirAt r (r + v) s)).x) (jacobianTimes c r v).x 0 ∧
    HasDerivAt (fun s : ℝ => (map c (Trace.dirAt r (r + v) s)).y) (jacobianTimes c r v).y 0 := by
  obtain ⟨-, gx, gy, e, hx, hy⟩ := C125_jacobian_partial c r off
  have h0 : Trace.dirAt r (r + v) 0 = r := by
    ext <;> simp [Trace.dirAt]
  have hv : (r + v) - r = v := by
    ext <;> simp
  have hj : jacobianTimes c r v = ⟨gx.dot v, gy.dot v⟩ := by unfold jacobianTimes; rw [e]
  have kx := curve_deriv (f := fun q => (map c q).x) r (r + v) 0 (by rw [h0]; exact hx)
  have ky := curve_deriv (f := fun q => (map c q).y) r (r + v) 0 (by rw [h0]; exact hy)
  rw [hv] at kx ky
  rw [hj]
  exact ⟨kx, ky⟩

theorem turn_dirAt (t : Turn) (a b : V3) (s : ℝ) : Trace.dirAt (t.ray a) (t.ray b) s = t.ray (Trace.dirAt a b s) := by
  ext
  · simp [Trace.dirAt, Turn.ray]; ring
  · simp [Trace.dirAt, Turn.ray]; ring
  · simp [Trace.dirAt, Turn.ray]

theorem turn_add (t : Turn) (a b : V3) : t.ray a + t.ray b = t.ray (a + b) := by
  ext
  · simp [Turn.ray]; ring
  · simp [Turn.ray]; ring
  · simp [Turn.ray]

/-- **C191, derivatives.** If a ray and the direction in which it moves turn about the axis of the camera, the velocity
of its position on the picture, as the Jacobian gives it, turns by the same angle. -/
theorem C191_jacobian (c : Cam) (t : Turn) (r v : V3) :
    jacobianTimes c (t.ray r) (t.ray v) = t.vec (jacobianTimes c r v) := by
  by_cases ax : r.x = 0 ∧ r.y = 0
  · have ax' := (turn_axis t r).2 ax
    by_cases hms : c.ms = []
    · have val : ∀ q w : V3, q.x = 0 ∧ q.y = 0 →
          jacobianTimes c q w = ⟨c.scale * (c.m0 * w.x), c.scale * (c.m0 * w.y)⟩ := by
        intro q w hq
        obtain ⟨hx, hy⟩ := hq
        simp [jacobianTimes, diffMap, mapJ, rayJet, normalizedJ, sqNormJ, Jet.mul, Jet.add, Jet.const, Jet.lift2,
          Jet.polyLoop, hms, hx, hy, V3.dot]
        constructor <;> ring
      rw [val _ _ ax, val _ _ ax']
      ext
      · simp only [Turn.vec, Turn.ray]; ring
      · simp only [Turn.vec, Turn.ray]; ring
    · rw [jacobianTimes_axis c hms _ _ ax'.1 ax'.2, jacobianTimes_axis c hms _ _ ax.1 ax.2]
      ext <;> simp [Turn.vec]
  · have ax' : ¬ ((t.ray r).x = 0 ∧ (t.ray r).y = 0) := fun h => ax ((turn_axis t r).1 h)
    obtain ⟨dx, dy⟩ := jacobian_deriv c r v ax
    obtain ⟨dx', dy'⟩ := jacobian_deriv c (t.ray r) (t.ray v) ax'
    rw [turn_add] at dx' dy'
    have hm : ∀ s, map c (Trace.dirAt (t.ray r) (t.ray (r + v)) s)
        = t.pos (getImgCenter c) (map c (Trace.dirAt r (r + v) s)) := by
      intro s; rw [turn_dirAt, C191_map]
    simp only [hm] at dx' dy'
    ext
    · refine dx'.unique ?_
      have := (((dx.sub_const (getImgCenter c).x).const_mul t.cos).sub
        ((dy.sub_const (getImgCenter c).y).const_mul (t.side * t.sin))).const_add (getImgCenter c).x
      exact this
    · refine dy'.unique ?_
      have := (((dx.sub_const (getImgCenter c).x).const_mul t.sin).add
        ((dy.sub_const (getImgCenter c).y).const_mul (t.side * t.cos))).const_add (getImgCenter c).y
      exact this

/-- A quarter turn. With the example camera a ray to the right of the axis becomes one below it, and so does its
position. -/
example : ∃ t : Turn, t.ray ⟨1, 0, 1⟩ = ⟨0, 1, 1⟩ ∧ t.pos (getImgCenter plainCam) ⟨1, 0⟩ = ⟨0, 1⟩ ∧
    unmap plainCam ⟨0, 1⟩ = t.ray (unmap plainCam ⟨1, 0⟩) := by
  have hp : (⟨0, 1, 1, by norm_num, by norm_num⟩ : Turn).pos (getImgCenter plainCam) ⟨1, 0⟩ = ⟨0, 1⟩ := by
    ext <;> simp [Turn.pos, Turn.vec, getImgCenter, plainCam]
  refine ⟨⟨0, 1, 1, by norm_num, by norm_num⟩, by ext <;> simp [Turn.ray], hp, ?_⟩
  rw [← C191_unmap plainCam (by norm_num [plainCam]), hp]

end Mdso.Cam
