import Verif.Lemmas.Ransac

/-!
# Lemmas: telling the four solutions apart, and the results of the estimator
-/

set_option autoImplicit false

namespace Mdso.Stereo

open Mdso.Geom Mdso.Cam Mdso.StereoSpec

/-- Rotation by half a turn about the unit vector `t`. -/
def halfTurn (t v : V3) : V3 := (2 * v.dot t) • t - v

/-- How two solutions are related. -/
theorem solutions_related {e : Env} (he : SvdCorrect e) {E : M3} {m m' : Motion3} (hm : m ∈ solutions e E)
    (hm' : m' ∈ solutions e E) :
    m' = m ∨ (m'.t = -m.t ∧ m'.rot = m.rot) ∨
      ((m'.t = m.t ∨ m'.t = -m.t) ∧ ∀ p, m'.rot.mulVec p = halfTurn m.t (m.rot.mulVec p)) := by
  obtain ⟨hU, hV, -⟩ := he E
  have hU' := isRotation_scale hU
  obtain ⟨U, hUdef⟩ : ∃ U, U = M3.scale (e.svd E).1.det (e.svd E).1 := ⟨_, rfl⟩
  obtain ⟨V, hVdef⟩ : ∃ V, V = M3.scale (e.svd E).2.det (e.svd E).2 := ⟨_, rfl⟩
  rw [← hUdef] at hU'
  have hUU : U.transpose.mul U = M3.one := M3.transpose_mul_self hU'.1
  have hsols : solutions e E = [⟨(U.mul W).mul V.transpose, col2 U⟩, ⟨(U.mul W).mul V.transpose, -col2 U⟩,
      ⟨(U.mul W.transpose).mul V.transpose, col2 U⟩, ⟨(U.mul W.transpose).mul V.transpose, -col2 U⟩] := by
    rw [hUdef, hVdef]; rfl
  have hc : col2 U = U.mulVec ⟨0, 0, 1⟩ := by rw [mulVec_e3]; ext <;> simp
  have hdot : ∀ v, (U.mulVec v).dot (col2 U) = v.z := by
    intro v
    rw [hc, M3.dot_mulVec, ← M3.mulVec_mul, hUU, M3.mulVec_one]; simp [V3.dot]
  have hturn : ∀ v, U.mulVec (W.transpose.mulVec v) = halfTurn (col2 U) (U.mulVec (W.mulVec v)) := by
    intro v
    unfold halfTurn
    rw [hdot]
    ext <;> simp [M3.mulVec, W, M3.transpose, V3.dot, col2] <;> ring
  have hturn' : ∀ v, U.mulVec (W.mulVec v) = halfTurn (col2 U) (U.mulVec (W.transpose.mulVec v)) := by
    intro v
    unfold halfTurn
    rw [hdot]
    ext <;> simp [M3.mulVec, W, M3.transpose, V3.dot, col2] <;> ring
  have hneg : ∀ t v : V3, halfTurn (-t) v = halfTurn t v := by
    intro t v; ext <;> simp [halfTurn, V3.dot] <;> ring
  have h12 : ∀ p, ((U.mul W.transpose).mul V.transpose).mulVec p =
      halfTurn (col2 U) (((U.mul W).mul V.transpose).mulVec p) := by
    intro p; simp only [M3.mulVec_mul]; exact hturn _
  have h21 : ∀ p, ((U.mul W).mul V.transpose).mulVec p =
      halfTurn (col2 U) (((U.mul W.transpose).mul V.transpose).mulVec p) := by
    intro p; simp only [M3.mulVec_mul]; exact hturn' _
  have hnn : - -col2 U = col2 U := by ext <;> simp
  rw [hsols] at hm hm'
  simp only [List.mem_cons, List.not_mem_nil, or_false] at hm hm'
  rcases hm with rfl | rfl | rfl | rfl <;> rcases hm' with rfl | rfl | rfl | rfl
  · exact Or.inl rfl
  · exact Or.inr (Or.inl ⟨rfl, rfl⟩)
  · exact Or.inr (Or.inr ⟨Or.inl rfl, h12⟩)
  · exact Or.inr (Or.inr ⟨Or.inr rfl, h12⟩)
  · exact Or.inr (Or.inl ⟨hnn.symm, rfl⟩)
  · exact Or.inl rfl
  · exact Or.inr (Or.inr ⟨Or.inr hnn.symm, fun p => by rw [hneg]; exact h12 p⟩)
  · exact Or.inr (Or.inr ⟨Or.inl rfl, fun p => by rw [hneg]; exact h12 p⟩)
  · exact Or.inr (Or.inr ⟨Or.inl rfl, h21⟩)
  · exact Or.inr (Or.inr ⟨Or.inr rfl, h21⟩)
  · exact Or.inl rfl
  · exact Or.inr (Or.inl ⟨rfl, rfl⟩)
  · exact Or.inr (Or.inr ⟨Or.inr hnn.symm, fun p => by rw [hneg]; exact h21 p⟩)
  · exact Or.inr (Or.inr ⟨Or.inl rfl, fun p => by rw [hneg]; exact h21 p⟩)
  · exact Or.inr (Or.inl ⟨hnn.symm, rfl⟩)
  · exact Or.inl rfl

/-- Signs of the triangulated depths of unit rays. -/
theorem triangulate_signs {m : Motion3} {p q : V3} (ha : (m.rot.mulVec p).sqNorm = 1) (hq : q.sqNorm = 1)
    (hpar : (m.rot.mulVec p).cross q ≠ 0) :
    ∃ d, triangulate m p q = some d ∧
      (0 < d.1 ↔ (m.rot.mulVec p).dot m.t < q.dot m.t * (m.rot.mulVec p).dot q) ∧
      (0 < d.2 ↔ (m.rot.mulVec p).dot m.t * (m.rot.mulVec p).dot q < q.dot m.t) := by
  obtain ⟨a, hadef⟩ : ∃ a, a = m.rot.mulVec p := ⟨_, rfl⟩
  rw [← hadef] at ha hpar ⊢
  have hpos : 0 < a.dot a * (-q).dot (-q) - a.dot (-q) * a.dot (-q) := by
    have := V3.sqNorm_pos hpar
    have e1 : a.dot a * (-q).dot (-q) - a.dot (-q) * a.dot (-q) = (a.cross q).sqNorm := by
      simp only [V3.dot, V3.cross, V3.sqNorm, V3.neg_x, V3.neg_y, V3.neg_z]; ring
    rw [e1]; exact this
  unfold triangulate lsq2
  rw [← hadef]
  simp only
  rw [if_neg hpos.ne']
  refine ⟨_, rfl, ?_, ?_⟩
  · simp only
    rw [div_pos_iff_of_pos_right hpos]
    have e2 : a.dot (-m.t) * (-q).dot (-q) - (-q).dot (-m.t) * a.dot (-q) =
        q.dot m.t * a.dot q - a.dot m.t * q.sqNorm := by
      simp only [V3.dot, V3.sqNorm, V3.neg_x, V3.neg_y, V3.neg_z]; ring
    rw [e2, hq, mul_one, sub_pos]
  · simp only
    rw [div_pos_iff_of_pos_right hpos]
    have e2 : a.dot a * (-q).dot (-m.t) - a.dot (-q) * a.dot (-m.t) =
        a.sqNorm * q.dot m.t - a.dot m.t * a.dot q := by
      simp only [V3.dot, V3.sqNorm, V3.neg_x, V3.neg_y, V3.neg_z]; ring
    rw [e2, ha, one_mul, sub_pos]

/-- The algebra behind the choice: `α`, `β`, `γ` are the scalar products of the rays and the baseline. -/
theorem signs_same {α β γ : ℝ} (hα : α * α ≤ 1) (hβ : β * β ≤ 1)
    (hcop : (γ - α * β) * (γ - α * β) = (1 - α * α) * (1 - β * β))
    (h1 : α < β * γ) (h2 : α * γ < β) (h3 : α < β * (2 * α * β - γ)) (h4 : α * (2 * α * β - γ) < β) : False := by
  obtain ⟨x, hx⟩ : ∃ x, x = γ - α * β := ⟨_, rfl⟩
  have hγ : γ = x + α * β := by linarith
  rw [hγ] at h1 h2 h3 h4
  rw [← hx] at hcop
  obtain ⟨A, hA⟩ : ∃ A, A = 1 - α * α := ⟨_, rfl⟩
  obtain ⟨B, hB⟩ : ∃ B, B = 1 - β * β := ⟨_, rfl⟩
  have hA0 : 0 ≤ A := by linarith
  have hB0 : 0 ≤ B := by linarith
  rw [← hA, ← hB] at hcop
  have k1 : α * B < β * x := by rw [hB]; nlinarith
  have k3 : α * B < -(β * x) := by rw [hB]; nlinarith
  have k2 : α * x < β * A := by rw [hA]; nlinarith
  have k4 : -(α * x) < β * A := by rw [hA]; nlinarith
  have l1 : |β * x| < -(α * B) := abs_lt.2 ⟨by linarith, by linarith⟩
  have l2 : |α * x| < β * A := abs_lt.2 ⟨by linarith, by linarith⟩
  have l3 := mul_lt_mul'' l1 l2 (abs_nonneg _) (abs_nonneg _)
  rw [← abs_mul] at l3
  have e1 : -(α * B) * (β * A) = -(α * β * (x * x)) := by rw [hcop]; ring
  have e2 : β * x * (α * x) = α * β * (x * x) := by ring
  rw [e1, e2] at l3
  have := neg_le_abs (α * β * (x * x))
  linarith

theorem signs_opposite {α β γ : ℝ} (hα : α * α ≤ 1) (hβ : β * β ≤ 1)
    (hcop : (γ - α * β) * (γ - α * β) = (1 - α * α) * (1 - β * β))
    (h1 : α < β * γ) (h2 : α * γ < β) (h3 : -α < -β * (2 * α * β - γ)) (h4 : -α * (2 * α * β - γ) < -β) :
    False := by
  obtain ⟨x, hx⟩ : ∃ x, x = γ - α * β := ⟨_, rfl⟩
  have hγ : γ = x + α * β := by linarith
  rw [hγ] at h1 h2 h3 h4
  rw [← hx] at hcop
  obtain ⟨A, hA⟩ : ∃ A, A = 1 - α * α := ⟨_, rfl⟩
  obtain ⟨B, hB⟩ : ∃ B, B = 1 - β * β := ⟨_, rfl⟩
  have hA0 : 0 ≤ A := by linarith
  have hB0 : 0 ≤ B := by linarith
  rw [← hA, ← hB] at hcop
  have k1 : α * B < β * x := by rw [hB]; nlinarith
  have k3 : -(α * B) < β * x := by rw [hB]; nlinarith
  have k2 : α * x < β * A := by rw [hA]; nlinarith
  have k4 : α * x < -(β * A) := by rw [hA]; nlinarith
  have l1 : |α * B| < β * x := abs_lt.2 ⟨by linarith, by linarith⟩
  have l2 : |β * A| < -(α * x) := abs_lt.2 ⟨by linarith, by linarith⟩
  have l3 := mul_lt_mul'' l1 l2 (abs_nonneg _) (abs_nonneg _)
  rw [← abs_mul] at l3
  have e1 : α * B * (β * A) = α * β * (x * x) := by rw [hcop]; ring
  have e2 : β * x * -(α * x) = -(α * β * (x * x)) := by ring
  rw [e1, e2] at l3
  have := neg_le_abs (α * β * (x * x))
  linarith

theorem dot_sq_le {a b : V3} (ha : a.sqNorm = 1) (hb : b.sqNorm = 1) : a.dot b * a.dot b ≤ 1 := by
  have h := V3.sqNorm_nonneg (a.cross b)
  have e1 : (a.cross b).sqNorm = a.sqNorm * b.sqNorm - a.dot b * a.dot b := by
    simp only [V3.sqNorm, V3.cross, V3.dot]; ring
  rw [e1, ha, hb] at h; linarith

/-- Of the solutions for an essential matrix, at most one puts a noise-free correspondence in front. -/
theorem front_unique {e : Env} (he : SvdCorrect e)
    (htri : ∀ m p q d, triangulate m p q = some d → e.tri m p q = d) {E : M3} {m m' : Motion3}
    (hm : m ∈ solutions e E) (hm' : m' ∈ solutions e E) (hess : HasEssential m E) {p q : V3}
    (hp : p.sqNorm = 1) (hq : q.sqNorm = 1) (hepi : q.dot (E.mulVec p) = 0)
    (hpar : (m.rot.mulVec p).cross q ≠ 0) (hpar' : (m'.rot.mulVec p).cross q ≠ 0)
    (hf : 0 < (e.tri m p q).1 ∧ 0 < (e.tri m p q).2) (hf' : 0 < (e.tri m' p q).1 ∧ 0 < (e.tri m' p q).2) :
    m' = m := by
  have hu := solutions_unit he hm
  have hu' := solutions_unit he hm'
  have ha : (m.rot.mulVec p).sqNorm = 1 := by rw [sqNorm_mulVec hu.1.1, hp]
  have ha' : (m'.rot.mulVec p).sqNorm = 1 := by rw [sqNorm_mulVec hu'.1.1, hp]
  obtain ⟨d, hd, hd1, hd2⟩ := triangulate_signs ha hq hpar
  obtain ⟨d', hd', hd1', hd2'⟩ := triangulate_signs ha' hq hpar'
  rw [htri _ _ _ _ hd] at hf
  rw [htri _ _ _ _ hd'] at hf'
  have f1 := hd1.1 hf.1
  have f2 := hd2.1 hf.2
  have f1' := hd1'.1 hf'.1
  have f2' := hd2'.1 hf'.2
  rcases solutions_related he hm hm' with h | ⟨h1, h2⟩ | ⟨h1, h2⟩
  · exact h
  · exfalso
    rw [h1, h2] at f1' f2'
    have e1 : ∀ v : V3, v.dot (-m.t) = -(v.dot m.t) := by intro v; simp [V3.dot]; ring
    rw [e1, e1] at f1' f2'
    linarith
  · exfalso
    -- coplanarity
    have hcop : q.dot (m.t.cross (m.rot.mulVec p)) = 0 := by
      obtain ⟨c, hc, hE⟩ := hess
      have h3 : (toEssential m).mulVec p = m.t.cross (m.rot.mulVec p) := by
        ext <;> simp [toEssential, M3.mul, M3.mulVec, hat, V3.dot, V3.cross] <;> ring
      have h4 : (M3.scale c E).mulVec p = c • E.mulVec p := by
        ext <;> simp [M3.scale, M3.mulVec, V3.dot] <;> ring
      rw [← h3, hE, h4]
      have h5 : q.dot (c • E.mulVec p) = c * q.dot (E.mulVec p) := by simp [V3.dot]; ring
      rw [h5, hepi, mul_zero]
    obtain ⟨a, hadef⟩ : ∃ a, a = m.rot.mulVec p := ⟨_, rfl⟩
    have h2p := h2 p
    rw [← hadef] at ha f1 f2 hcop h2p
    rw [h2p] at f1' f2'
    have ht := hu.2
    have gram : (a.dot q - a.dot m.t * q.dot m.t) * (a.dot q - a.dot m.t * q.dot m.t) =
        (1 - a.dot m.t * a.dot m.t) * (1 - q.dot m.t * q.dot m.t) := by
      have e1 : q.dot (m.t.cross a) * q.dot (m.t.cross a) = a.sqNorm * q.sqNorm * m.t.sqNorm +
          2 * a.dot m.t * q.dot m.t * a.dot q - a.sqNorm * (q.dot m.t * q.dot m.t) -
          q.sqNorm * (a.dot m.t * a.dot m.t) - m.t.sqNorm * (a.dot q * a.dot q) := by
        simp only [V3.dot, V3.cross, V3.sqNorm]; ring
      rw [hcop, ha, hq, ht] at e1
      linarith
    have g1 : (halfTurn m.t a).dot m.t = a.dot m.t := by
      have : (halfTurn m.t a).dot m.t = 2 * a.dot m.t * m.t.sqNorm - a.dot m.t := by
        simp only [halfTurn, V3.dot, V3.sqNorm, V3.sub_x, V3.sub_y, V3.sub_z, V3.smul_x, V3.smul_y, V3.smul_z]
        ring
      rw [this, ht]; ring
    have g2 : (halfTurn m.t a).dot q = 2 * a.dot m.t * q.dot m.t - a.dot q := by
      simp only [halfTurn, V3.dot, V3.sub_x, V3.sub_y, V3.sub_z, V3.smul_x, V3.smul_y, V3.smul_z]
      ring
    have b1 := dot_sq_le ha ht
    have b2 := dot_sq_le hq ht
    rcases h1 with h1 | h1
    · rw [h1, g1, g2] at f1' f2'
      exact signs_same b1 b2 gram f1 f2 f1' f2'
    · have e1 : ∀ v : V3, v.dot (-m.t) = -(v.dot m.t) := by intro v; simp [V3.dot]; ring
      rw [h1, e1, e1, g1, g2] at f1' f2'
      exact signs_opposite b1 b2 gram f1 f2 f1' f2'

/-! ## Choosing with inliers that are all in front of a solution -/

section
variable {e : Env} {corr : List (V2 × V2)} {g : Estimator}

theorem extractMotion_all {E : M3} {m : Motion3} {inds : List Nat} (hm : m ∈ solutions e E) (hne : inds ≠ [])
    (hall : ∀ i ∈ inds, inFront e g m i = true) :
    ∃ m' ∈ solutions e E, extractMotion e g E inds = (m', inds) ∧ ∀ i ∈ inds, inFront e g m' i = true := by
  obtain ⟨h1, h2⟩ := extractMotion_spec (e := e) (g := g) E inds
  have hfull : findInliersMotion e g m inds = inds := List.filter_eq_self.2 hall
  have h3 := h2 m hm
  rw [hfull] at h3
  have hpos : 0 < inds.length := List.length_pos_of_ne_nil hne
  rcases h1 with h1 | ⟨m', hm', h1, -⟩
  · rw [h1] at h3
    have h3' : inds.length ≤ 0 := h3
    omega
  · rw [h1] at h3
    have h4 : findInliersMotion e g m' inds = inds :=
      (List.filter_sublist (p := inFront e g m') (l := inds)).eq_of_length_le h3
    exact ⟨m', hm', by rw [h1, h4], List.filter_eq_self.1 h4⟩

theorem toEssential_self (m : Motion3) : HasEssential m (toEssential m) :=
  ⟨1, one_ne_zero, (M3.scale_one _).symm⟩

theorem mem_indices {P : V2 × V2 → Prop} {i : Nat} :
    i ∈ indices corr P ↔ ∃ c, corr[i]? = some c ∧ P c := by
  unfold indices
  simp only [List.mem_filter, List.mem_range, decide_eq_true_eq]
  constructor
  · exact fun h => h.2
  · rintro ⟨c, hc, h⟩
    exact ⟨(List.getElem?_eq_some_iff.1 hc).1, c, hc, h⟩

/-! ## Depths -/

theorem fillDepths_spec (h : Made e corr g) (inds : List Nat) (d0 : List (ℝ × ℝ)) (hl : d0.length = corr.length)
    (hi : ∀ i ∈ inds, i < corr.length) :
    ∃ d, fillDepths e g inds d0 = .ok d ∧ d.length = corr.length ∧
      (∀ i c, corr[i]? = some c → (i ∈ inds → d[i]? = some (e.tri g.motion (rayOf e c.1) (rayOf e c.2))) ∧
        (i ∉ inds → d[i]? = d0[i]?)) := by
  induction inds generalizing d0 with
  | nil => exact ⟨d0, rfl, hl, by simp⟩
  | cons j js ih =>
    have hlt : j < corr.length := hi j (by simp)
    have hr : at' g.rays j = .ok (rayOf e corr[j].1, rayOf e corr[j].2) := by
      have hl : j < g.rays.length := by rw [made_length h]; exact hlt
      rw [at'_lt hl]; congr 1
      simp only [h.2, List.getElem_map]
    obtain ⟨d, h1, h2, h3⟩ := ih (d0.set j (e.tri g.motion (rayOf e corr[j].1) (rayOf e corr[j].2)))
      (by simpa using hl) (fun i hx => hi i (by simp [hx]))
    refine ⟨d, by unfold fillDepths; rw [hr]; exact h1, h2, ?_⟩
    intro i c hc
    obtain ⟨h4, h5⟩ := h3 i c hc
    constructor
    · intro hmem
      by_cases hjs : i ∈ js
      · exact h4 hjs
      · rcases List.mem_cons.1 hmem with rfl | hmem
        · rw [h5 hjs, List.getElem?_set_self (by omega)]
          rw [List.getElem?_eq_getElem hlt] at hc; cases hc; rfl
        · exact absurd hmem hjs
    · intro hmem
      simp only [List.mem_cons, not_or] at hmem
      rw [h5 hmem.2, List.getElem?_set_ne (Ne.symm hmem.1)]

theorem depths_spec (h : Made e corr g) (hl : g.depths.length = corr.length) (hf : g.depthsEvaluated = false)
    (hi : ∀ i ∈ g.inliersInds, i < corr.length) :
    ∃ d, depths e g = .ok (d, { g with depthsEvaluated := true, depths := d }) ∧ d.length = corr.length ∧
      (∀ i c, corr[i]? = some c →
        (i ∈ g.inliersInds → d[i]? = some (e.tri g.motion (rayOf e c.1) (rayOf e c.2))) ∧
        (i ∉ g.inliersInds → d[i]? = g.depths[i]?)) := by
  obtain ⟨d, h1, h2, h3⟩ := fillDepths_spec h g.inliersInds g.depths hl hi
  refine ⟨d, ?_, h2, h3⟩
  unfold depths
  rw [hf, h1]; rfl

/-- `report` after the depths are evaluated. -/
theorem report_evaluated (hg : g.imgCorresps = corr) (hf : g.depthsEvaluated = true)
    (F : V2 × V2 → ℝ × ℝ) (inds : List Nat)
    (hd : ∀ i ∈ inds, ∃ c, corr[i]? = some c ∧ g.depths[i]? = some (F c)) :
    ∃ pts, report e g inds = .ok pts ∧
      List.Forall₂ (fun i pt => ∃ c, corr[i]? = some c ∧ pt = (c, F c)) inds pts := by
  induction inds with
  | nil => exact ⟨[], rfl, List.Forall₂.nil⟩
  | cons i is ih =>
    obtain ⟨pts, h1, h2⟩ := ih (fun j hj => hd j (by simp [hj]))
    obtain ⟨c, hc, hz⟩ := hd i (by simp)
    refine ⟨(c, F c) :: pts, ?_, List.Forall₂.cons ⟨c, hc, rfl⟩ h2⟩
    have e1 : at' g.imgCorresps i = .ok c := by unfold at'; rw [hg, hc]
    have e2 : at' g.depths i = .ok (F c) := by unfold at'; rw [hz]
    have e3 : depths e g = .ok (g.depths, g) := by unfold depths; rw [hf]; rfl
    unfold report
    rw [e3]
    simp only [e1, e2, h1]

theorem report_spec (h : Made e corr g) (hl : g.depths.length = corr.length) (hf : g.depthsEvaluated = false)
    (hi : ∀ i ∈ g.inliersInds, i < corr.length) :
    ∃ pts, report e g g.inliersInds = .ok pts ∧
      List.Forall₂ (fun i pt => ∃ c, corr[i]? = some c ∧
        pt = (c, e.tri g.motion (rayOf e c.1) (rayOf e c.2))) g.inliersInds pts := by
  obtain ⟨d, h1, h2, h3⟩ := depths_spec h hl hf hi
  have hd : ∀ i ∈ g.inliersInds, ∃ c, corr[i]? = some c ∧
      d[i]? = some (e.tri g.motion (rayOf e c.1) (rayOf e c.2)) := by
    intro i hx
    have := List.getElem?_eq_getElem (hi i hx)
    exact ⟨_, this, (h3 i _ this).1 hx⟩
  cases hin : g.inliersInds with
  | nil => exact ⟨[], rfl, List.Forall₂.nil⟩
  | cons i is =>
    rw [hin] at hd
    obtain ⟨c, hc, hz⟩ := hd i (by simp)
    obtain ⟨pts, h4, h5⟩ := report_evaluated (e := e) (corr := corr)
      (g := { g with depthsEvaluated := true, depths := d }) h.1 rfl
      (fun c => e.tri g.motion (rayOf e c.1) (rayOf e c.2)) is (fun j hj => hd j (by simp [hj]))
    refine ⟨(c, e.tri g.motion (rayOf e c.1) (rayOf e c.2)) :: pts, ?_, List.Forall₂.cons ⟨c, hc, rfl⟩ h5⟩
    have e1 : at' g.imgCorresps i = .ok c := by unfold at'; rw [h.1, hc]
    have e2 : at' d i = .ok (e.tri g.motion (rayOf e c.1) (rayOf e c.2)) := by unfold at'; rw [hz]
    unfold report
    rw [h1]
    simp only [e1, e2, h4]

end

end Mdso.Stereo
