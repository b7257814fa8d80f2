import Verif.Model.Sim3Aligner
import Mathlib.Tactic.FieldSimp
import Mathlib.Tactic.Ring
import Mathlib.Tactic.NormNum
import Mathlib.Tactic.Push
import Mathlib.Tactic.Linarith
import Mathlib.Tactic.Positivity
import Mathlib.Analysis.Complex.Circle

/-!
# C57: ground truth alignment
-/

set_option autoImplicit false

namespace Mdso.Align
open Mdso.Motion

variable {R V : Type} [Group R] [NormedAddCommGroup V] [NormedSpace ℝ V] [DistribMulAction R V]
  [SMulCommClass R ℝ V]

/-- C57. With both baselines at least 1 mm long: the first ground truth pose is mapped exactly onto the first
estimated pose; every relative ground truth motion keeps its rotation and has its translation scaled by
one common positive factor, for which the aligned baseline is as long as the estimated one. Ground truth
points are scaled by the same factor. -/
theorem C57_alignment (f l fGT lGT : Rigid R V)
    (h1 : 1e-3 ≤ ‖(l * f⁻¹).trans‖) (h2 : 1e-3 ≤ ‖(lGT * fGT⁻¹).trans‖) :
    ∃ (k : ℝ) (align : Rigid R V → Rigid R V), 0 < k ∧
      (∀ g, (create f l fGT lGT).alignWorldToFrameGT g = .ok (align g)) ∧
      align fGT = f ∧
      (∀ g g', (align g' * (align g)⁻¹).rot = (g' * g⁻¹).rot ∧
        (align g' * (align g)⁻¹).trans = k • (g' * g⁻¹).trans) ∧
      ‖(align lGT * (align fGT)⁻¹).trans‖ = ‖(l * f⁻¹).trans‖ ∧
      ∀ p, (create f l fGT lGT).alignScale p = .ok (k • p) := by
  have p1 : 0 < ‖(l * f⁻¹).trans‖ := by linarith [show (0 : ℝ) < 1e-3 by norm_num]
  have p2 : 0 < ‖(lGT * fGT⁻¹).trans‖ := by linarith [show (0 : ℝ) < 1e-3 by norm_num]
  have hrel : ∀ (k : ℝ) (g g' : Rigid R V), scaleTrans k g' * (scaleTrans k g)⁻¹
      = scaleTrans k (g' * g⁻¹) := by
    intro k g g'
    ext <;> simp [scaleTrans, smul_add, smul_comm]
  have hcr : create f l fGT lGT =
      ⟨some (‖(l * f⁻¹).trans‖ / ‖(lGT * fGT⁻¹).trans‖),
       (scaleTrans (‖(l * f⁻¹).trans‖ / ‖(lGT * fGT⁻¹).trans‖) fGT)⁻¹ * f⟩ := by
    unfold create
    simp only
    rw [if_neg (by push Not; exact ⟨h2, h1⟩)]
  refine ⟨‖(l * f⁻¹).trans‖ / ‖(lGT * fGT⁻¹).trans‖,
    fun g => scaleTrans (‖(l * f⁻¹).trans‖ / ‖(lGT * fGT⁻¹).trans‖) g *
      ((scaleTrans (‖(l * f⁻¹).trans‖ / ‖(lGT * fGT⁻¹).trans‖) fGT)⁻¹ * f), by positivity, ?_, ?_, ?_, ?_, ?_⟩
  · intro g; rw [hcr]; rfl
  · simp
  · intro g g'
    have : ∀ k : ℝ, scaleTrans k g' * ((scaleTrans k fGT)⁻¹ * f) *
        (scaleTrans k g * ((scaleTrans k fGT)⁻¹ * f))⁻¹ = scaleTrans k (g' * g⁻¹) := by
      intro k; rw [← hrel]; group
    simp only [this]
    exact ⟨rfl, rfl⟩
  · have : ∀ k : ℝ, scaleTrans k lGT * ((scaleTrans k fGT)⁻¹ * f) *
        (scaleTrans k fGT * ((scaleTrans k fGT)⁻¹ * f))⁻¹ = scaleTrans k (lGT * fGT⁻¹) := by
      intro k; rw [← hrel]; group
    simp only [this]
    show ‖(_ : ℝ) • (lGT * fGT⁻¹).trans‖ = _
    rw [norm_smul, Real.norm_of_nonneg (by positivity), div_mul_cancel₀ _ (ne_of_gt p2)]
  · intro p; rw [hcr]; rfl

-- Motions of the plane: baselines of length 2 (estimated) and 5 (ground truth).
example : ∃ (k : ℝ) (align : Rigid Circle ℂ → Rigid Circle ℂ), 0 < k ∧
    align ⟨1, 3⟩ = ⟨1, 7⟩ ∧ ‖(align ⟨1, 8⟩ * (align ⟨1, 3⟩)⁻¹).trans‖ = 2 := by
  have e1 : ((⟨1, 9⟩ : Rigid Circle ℂ) * (⟨1, 7⟩)⁻¹).trans = 2 := by simp; norm_num
  have e2 : ((⟨1, 8⟩ : Rigid Circle ℂ) * (⟨1, 3⟩)⁻¹).trans = 5 := by simp; norm_num
  obtain ⟨k, align, hk, _, h1, _, h2, _⟩ := C57_alignment (⟨1, 7⟩ : Rigid Circle ℂ) ⟨1, 9⟩ ⟨1, 3⟩ ⟨1, 8⟩
    (by rw [e1]; norm_num) (by rw [e2]; norm_num)
  exact ⟨k, align, hk, h1, by rw [h2, e1]; norm_num⟩

/-- C57, the excluded case: if one of the baselines is shorter than 1 mm, the aligner is left without a scale
and using it is undefined behaviour. -/
theorem C57_static_ub (f l fGT lGT : Rigid R V)
    (h : ‖(l * f⁻¹).trans‖ < 1e-3 ∨ ‖(lGT * fGT⁻¹).trans‖ < 1e-3) (g : Rigid R V) (p : V) :
    (create f l fGT lGT).alignWorldToFrameGT g = .error .ub ∧
      (create f l fGT lGT).alignScale p = .error .ub := by
  have hcr : create f l fGT lGT = { scaleGTToDso := none, gtToDso := 1 } := by
    unfold create
    simp only
    rw [if_pos h.symm]
  rw [hcr]; exact ⟨rfl, rfl⟩

example : ‖((1 : Rigid Circle ℂ) * 1⁻¹).trans‖ < 1e-3 := by
  rw [mul_inv_cancel, Rigid.one_trans, norm_zero]; norm_num

end Mdso.Align
