import Verif.Spec.Exchange
import Verif.Props.Averaging

/-!
# C178: exchanging the two pictures inverts the estimated motion
-/

set_option autoImplicit false

namespace Mdso.Stereo

open Mdso.Geom Mdso.Cam Mdso.StereoSpec

/-! ## The motion back -/

theorem back_back {m : Motion3} (h : IsRotation m.rot) : back (back m) = m := by
  obtain ⟨R, t⟩ := m
  have hR : R.mul R.transpose = M3.one := h.1
  unfold back
  simp only [M3.transpose_transpose]
  congr 1
  have e : R.mulVec (-(R.transpose.mulVec t)) = -(R.mulVec (R.transpose.mulVec t)) := by
    ext <;> simp [M3.mulVec, V3.dot] <;> ring
  rw [e, ← M3.mulVec_mul, hR, M3.mulVec_one]
  ext <;> simp

/-- The motion back takes every moved point back. -/
theorem back_act {m : Motion3} (h : IsRotation m.rot) (p : V3) : (back m).act (m.act p) = p := by
  obtain ⟨R, t⟩ := m
  have hR : R.transpose.mul R = M3.one := M3.transpose_mul_self h.1
  unfold back Motion3.act
  have e : ∀ a b : V3, R.transpose.mulVec (a + b) = R.transpose.mulVec a + R.transpose.mulVec b := by
    intro a b; ext <;> simp [M3.mulVec, V3.dot] <;> ring
  rw [e, ← M3.mulVec_mul, hR, M3.mulVec_one]
  ext <;> simp

theorem back_one : back Motion3.one = Motion3.one := by
  unfold back Motion3.one
  congr 1
  ext <;> simp [M3.mulVec, M3.transpose, M3.one, V3.dot]

theorem back_unit {m : Motion3} (h : IsUnitMotion m) : IsUnitMotion (back m) := by
  refine ⟨isRotation_transpose h.1, ?_⟩
  have h1 := sqNorm_mulVec (isRotation_transpose h.1).1 m.t
  have h2 : ∀ v : V3, (-v).sqNorm = v.sqNorm := by intro v; simp [V3.sqNorm]
  show (-(m.rot.transpose.mulVec m.t)).sqNorm = 1
  rw [h2, h1, h.2]

theorem hat_transpose (t : V3) : (hat t).transpose = M3.scale (-1) (hat t) := by
  apply M3.ext' <;> ext <;> simp [hat, M3.transpose, M3.scale]

/-- The essential matrix of the motion back is the transposed one. -/
theorem essential_back {m : Motion3} (h : IsRotation m.rot) : toEssential (back m) = (toEssential m).transpose := by
  unfold toEssential back
  simp only
  rw [hat_neg, M3.scale_mul, ← mul_hat (isRotation_transpose h), M3.transpose_mul, hat_transpose, M3.mul_scale]

theorem hasEssential_back {m : Motion3} {E : M3} (h : IsRotation m.rot) (hE : HasEssential m E) : HasEssential (back m) E.transpose := by
  obtain ⟨c, hc, h1⟩ := hE
  exact ⟨c, hc, by rw [essential_back h, h1]; rfl⟩

/-- **C178, candidates.** The motions considered for the exchanged views are those back. -/
theorem C178_candidates {e : Env} (he : SvdCorrect e) {E : M3} (hE : ∃ m, IsUnitMotion m ∧ HasEssential m E) (m : Motion3) (hm : IsUnitMotion m) :
    back m ∈ solutions e E.transpose ↔ m ∈ solutions e E := by
  obtain ⟨m0, h0, hE0⟩ := hE
  constructor
  · intro h
    have h1 := solutions_sound he (back_unit h0) (hasEssential_back h0.1 hE0) h
    have h2 := hasEssential_back (back_unit hm).1 h1
    rw [back_back hm.1, M3.transpose_transpose] at h2
    exact solutions_complete he hm h2
  · intro h
    exact solutions_complete he (back_unit hm) (hasEssential_back hm.1 (solutions_sound he h0 hE0 h))

/-! ## Depths -/

/-- Triangulating from the other view gives the same two depths. -/
theorem triangulate_back {m : Motion3} (h : IsRotation m.rot) (p q : V3) : triangulate (back m) q p = (triangulate m p q).map Prod.swap := by
  obtain ⟨R, t⟩ := m
  obtain ⟨a, ha⟩ : ∃ a, a = R.mulVec p := ⟨_, rfl⟩
  have hR : R.mul R.transpose = M3.one := h.1
  have k1 : (R.transpose.mulVec q).dot (R.transpose.mulVec q) = q.dot q := by
    rw [M3.dot_mulVec, M3.transpose_transpose, ← M3.mulVec_mul, hR, M3.mulVec_one]
  have k2 : (R.transpose.mulVec q).dot p = q.dot a := by rw [ha, M3.dot_mulVec]
  have k3 : a.dot a = p.dot p := by
    rw [ha, M3.dot_mulVec, ← M3.mulVec_mul, M3.transpose_mul_self hR, M3.mulVec_one]
  have k4 : (R.transpose.mulVec q).dot (R.transpose.mulVec t) = q.dot t := by
    rw [M3.dot_mulVec, M3.transpose_transpose, ← M3.mulVec_mul, hR, M3.mulVec_one]
  have k5 : p.dot (R.transpose.mulVec t) = a.dot t := by rw [M3.dot_mulVec, M3.transpose_transpose, ha]
  have n1 : ∀ u v : V3, u.dot (-v) = -(u.dot v) := by intro u v; simp only [V3.dot, V3.neg_x, V3.neg_y, V3.neg_z]; ring
  have n2 : ∀ u v : V3, (-u).dot v = -(u.dot v) := by intro u v; simp only [V3.dot, V3.neg_x, V3.neg_y, V3.neg_z]; ring
  have n3 : ∀ u v : V3, u.dot v = v.dot u := by intro u v; simp only [V3.dot]; ring
  unfold triangulate back lsq2
  simp only [← ha, n1, n2, neg_neg, k1, k2, k3, k4, k5, n3 a q]
  have hd : q.dot q * p.dot p - -(q.dot a) * -(q.dot a) = p.dot p * q.dot q - -(q.dot a) * -(q.dot a) := by ring
  rw [hd]
  by_cases h0 : p.dot p * q.dot q - -(q.dot a) * -(q.dot a) = 0
  · rw [if_pos h0, if_pos h0]; rfl
  · rw [if_neg h0, if_neg h0]
    simp only [Option.map_some, Prod.swap_prod_mk]
    congr 2
    · congr 1; ring
    · congr 1; ring

theorem triangulate_clear {m : Motion3} (p q : V3) (hpar : (m.rot.mulVec p).cross q ≠ 0) : ∃ d, triangulate m p q = some d := by
  unfold triangulate lsq2
  have h0 : (m.rot.mulVec p).dot (m.rot.mulVec p) * (-q).dot (-q) - (m.rot.mulVec p).dot (-q) * (m.rot.mulVec p).dot (-q) ≠ 0 := by
    have := V3.sqNorm_pos hpar
    have e1 : (m.rot.mulVec p).dot (m.rot.mulVec p) * (-q).dot (-q) - (m.rot.mulVec p).dot (-q) * (m.rot.mulVec p).dot (-q) =
        ((m.rot.mulVec p).cross q).sqNorm := by
      simp only [V3.dot, V3.sqNorm, V3.cross, V3.neg_x, V3.neg_y, V3.neg_z]; ring
    rw [e1]; exact this.ne'
  simp only [if_neg h0]
  exact ⟨_, rfl⟩

theorem tri_back {e : Env} (htri : ∀ m p q d, triangulate m p q = some d → e.tri m p q = d) {m : Motion3} (h : IsRotation m.rot) {p q : V3}
    (hpar : (m.rot.mulVec p).cross q ≠ 0) : e.tri (back m) q p = (e.tri m p q).swap := by
  obtain ⟨d, hd⟩ := triangulate_clear p q hpar
  rw [htri _ _ _ _ hd]
  apply htri
  rw [triangulate_back h, hd]; rfl

/-- **C178, depths.** A correspondence lies in front of the exchanged views exactly if it lies in front of the views. -/
theorem C178_front {e : Env} (htri : ∀ m p q d, triangulate m p q = some d → e.tri m p q = d) {m : Motion3} (h : IsRotation m.rot) (c : V2 × V2)
    (hpar : (m.rot.mulVec (rayOf e c.1)).cross (rayOf e c.2) ≠ 0) : Front e (back m) c.swap ↔ Front e m c := by
  unfold Front
  simp only [Prod.fst_swap, Prod.snd_swap]
  rw [tri_back htri h hpar]
  exact and_comm

/-- **C178, agreement.** A correspondence agrees with the transposed matrix exactly if it agrees with the matrix. -/
theorem C178_fits (e : Env) (E : M3) (c : V2 × V2) : Fits e E.transpose c.swap ↔ Fits e E c := by
  unfold Fits
  simp only [Prod.fst_swap, Prod.snd_swap, M3.transpose_transpose]
  constructor
  · rintro ⟨w1, w2, h1, h2, h3⟩; exact ⟨w2, w1, h2, h1, h3.symm⟩
  · rintro ⟨w1, w2, h1, h2, h3⟩; exact ⟨w2, w1, h2, h1, h3.symm⟩

/-- **C178, error.** The residuals minimized by the averaging are those of the exchanged views in the other order, so both have the same error for a motion and the motion
back. -/
theorem C178_residuals (map : V3 → V2) {m : Motion3} (h : IsRotation m.rot) (r : Residual) :
    (⟨r.q, r.p, r.qMapped, r.pMapped⟩ : Residual).eval map (back m) = (r.eval map m).swap := by
  have hE : (hat (back m).t).mul (back m).rot = ((hat m.t).mul m.rot).transpose := essential_back h
  unfold Residual.eval
  simp only [hE, M3.transpose_transpose]
  by_cases h0 : (((hat m.t).mul m.rot).mulVec r.p).sqNorm < 1 / 10000 ∨ (((hat m.t).mul m.rot).transpose.mulVec r.q).sqNorm < 1 / 10000
  · rw [if_pos h0, if_pos (Or.symm h0)]; rfl
  · rw [if_neg h0, if_neg (fun h1 => h0 (Or.symm h1))]; rfl

/-! ## Lists of inliers -/

theorem indices_exchanged (corr : List (V2 × V2)) (P Q : V2 × V2 → Prop) (h : ∀ c ∈ corr, P c.swap ↔ Q c) :
    indices (exchanged corr) P = indices corr Q := by
  unfold indices exchanged
  rw [List.length_map]
  apply List.filter_congr
  intro i _
  rw [Bool.eq_iff_iff]
  simp only [decide_eq_true_eq, List.getElem?_map]
  cases hc : corr[i]? with
  | none => simp
  | some c =>
    have := h c (List.mem_of_getElem? hc)
    simp only [Option.map_some, Option.some.injEq, exists_eq_left']
    exact this

theorem fits_exchanged (e : Env) (corr : List (V2 × V2)) (E : M3) : indices (exchanged corr) (Fits e E.transpose) = indices corr (Fits e E) :=
  indices_exchanged corr _ _ fun c _ => C178_fits e E c

/-- **C178, inliers.** The exchanged views have the same inliers. -/
theorem C178_inliers {e : Env} (htri : ∀ m p q d, triangulate m p q = some d → e.tri m p q = d) (corr : List (V2 × V2)) (E : M3) {m : Motion3}
    (h : IsRotation m.rot) (hc : Clear e corr m) : inliers e (exchanged corr) E.transpose (back m) = inliers e corr E m :=
  indices_exchanged corr _ _ fun c hm => and_congr (C178_fits e E c) (C178_front htri h c (hc c hm))

section
variable {e : Env} {corr : List (V2 × V2)} {g g' : Estimator}

theorem front_exchanged (htri : ∀ m p q d, triangulate m p q = some d → e.tri m p q = d) (hg : Made e corr g) (hg' : Made e (exchanged corr) g')
    {m : Motion3} (h : IsRotation m.rot) (hc : Clear e corr m) (i : Nat) : inFront e g' (back m) i = inFront e g m i := by
  rw [Bool.eq_iff_iff, inFront_iff hg, inFront_iff hg']
  unfold exchanged
  rw [List.getElem?_map]
  cases hi : corr[i]? with
  | none => simp
  | some c =>
    simp only [Option.map_some, Option.some.injEq, exists_eq_left']
    exact C178_front htri h c (hc c (List.mem_of_getElem? hi))

theorem motion_exchanged (htri : ∀ m p q d, triangulate m p q = some d → e.tri m p q = d) (hg : Made e corr g) (hg' : Made e (exchanged corr) g')
    {m : Motion3} (h : IsRotation m.rot) (hc : Clear e corr m) (inds : List Nat) :
    findInliersMotion e g' (back m) inds = findInliersMotion e g m inds := by
  unfold findInliersMotion
  exact List.filter_congr fun i _ => front_exchanged htri hg hg' h hc i

/-- With one best motion, it is the result. -/
theorem extract_unique {E : M3} {inds : List Nat} {m : Motion3} (hm : m ∈ solutions e E)
    (hbest : ∀ m' ∈ solutions e E, m' = m ∨ (findInliersMotion e g m' inds).length < (findInliersMotion e g m inds).length)
    (hpos : 0 < (findInliersMotion e g m inds).length) : extractMotion e g E inds = (m, findInliersMotion e g m inds) := by
  obtain ⟨h1, h2⟩ := extractMotion_spec (e := e) (g := g) E inds
  have h3 := h2 m hm
  rcases h1 with h1 | ⟨m', hm', h1, -⟩
  · rw [h1] at h3; simp at h3; rw [h3] at hpos; simp at hpos
  · rcases hbest m' hm' with rfl | h4
    · exact h1
    · rw [h1] at h3; simp only at h3; omega

/-- If no motion has a point in front, the result is the identity. -/
theorem extract_none {E : M3} {inds : List Nat} (h : ∀ m ∈ solutions e E, findInliersMotion e g m inds = []) :
    extractMotion e g E inds = (Motion3.one, []) := by
  rcases (extractMotion_spec (e := e) (g := g) E inds).1 with h1 | ⟨m, hm, -, h2⟩
  · exact h1
  · rw [h m hm] at h2; simp at h2

/-- The choice of the motion for the exchanged views, when one motion is best. -/
theorem extract_exchanged (he : SvdCorrect e) (htri : ∀ m p q d, triangulate m p q = some d → e.tri m p q = d) (hg : Made e corr g)
    (hg' : Made e (exchanged corr) g') {E : M3} {inds : List Nat} (hclear : ∀ m, IsUnitMotion m → HasEssential m E → Clear e corr m) {m : Motion3}
    (hu : IsUnitMotion m) (hE : HasEssential m E)
    (hbest : ∀ m', IsUnitMotion m' → HasEssential m' E →
      m' = m ∨ (findInliersMotion e g m' inds).length < (findInliersMotion e g m inds).length) :
    extractMotion e g' E.transpose inds = (back (extractMotion e g E inds).1, (extractMotion e g E inds).2) := by
  have hsol : ∀ m', m' ∈ solutions e E → IsUnitMotion m' ∧ HasEssential m' E := fun m' h' =>
    ⟨solutions_unit he h', solutions_sound he hu hE h'⟩
  have hsol' : ∀ m', m' ∈ solutions e E.transpose → ∃ m'', m' = back m'' ∧ IsUnitMotion m'' ∧ HasEssential m'' E := by
    intro m' h'
    have h1 := solutions_unit he h'
    have h2 := solutions_sound he (back_unit hu) (hasEssential_back hu.1 hE) h'
    have h3 := hasEssential_back h1.1 h2
    rw [M3.transpose_transpose] at h3
    exact ⟨back m', (back_back h1.1).symm, back_unit h1, h3⟩
  have hcnt : ∀ m', IsUnitMotion m' → HasEssential m' E → findInliersMotion e g' (back m') inds = findInliersMotion e g m' inds := fun m' h1 h2 =>
    motion_exchanged htri hg hg' h1.1 (hclear m' h1 h2) inds
  rcases Nat.eq_zero_or_pos (findInliersMotion e g m inds).length with h0 | hpos
  · have hz : ∀ m', IsUnitMotion m' → HasEssential m' E → findInliersMotion e g m' inds = [] := by
      intro m' h1 h2
      rcases hbest m' h1 h2 with rfl | h3
      · exact List.length_eq_zero_iff.1 h0
      · omega
    rw [extract_none (g := g) fun m' h' => hz m' (hsol m' h').1 (hsol m' h').2, extract_none (g := g') ?_, back_one]
    intro m' h'
    obtain ⟨m'', rfl, h1, h2⟩ := hsol' m' h'
    rw [hcnt m'' h1 h2, hz m'' h1 h2]
  · have hm := solutions_complete he hu hE
    rw [extract_unique hm (fun m' h' => hbest m' (hsol m' h').1 (hsol m' h').2) hpos]
    have hback : back m ∈ solutions e E.transpose := solutions_complete he (back_unit hu) (hasEssential_back hu.1 hE)
    rw [extract_unique (g := g') hback ?_ (by rw [hcnt m hu hE]; exact hpos), hcnt m hu hE]
    intro m' h'
    obtain ⟨m'', rfl, h1, h2⟩ := hsol' m' h'
    rw [hcnt m'' h1 h2, hcnt m hu hE]
    rcases hbest m'' h1 h2 with rfl | h3
    · exact Or.inl rfl
    · exact Or.inr h3

/-- **C178, choice.** If the correspondences decide which of the motions with an essential matrix is meant, the motion chosen for the exchanged views is the motion back,
with the same inliers. -/
theorem C178_choice (he : SvdCorrect e) (htri : ∀ m p q d, triangulate m p q = some d → e.tri m p q = d) {E : M3} (hd : Decided e corr E) :
    extractMotion e (create e (exchanged corr)) E.transpose (indices (exchanged corr) (Fits e E.transpose)) =
      (back (extractMotion e (create e corr) E (indices corr (Fits e E))).1, (extractMotion e (create e corr) E (indices corr (Fits e E))).2) := by
  obtain ⟨m, hu, hE, hbest⟩ := hd.best
  rw [fits_exchanged]
  refine extract_exchanged he htri (made_create e corr) (made_create e _) hd.clear hu hE ?_
  intro m' h1 h2
  rw [inliers_eq (made_create e corr), inliers_eq (made_create e corr)]
  exact hbest m' h1 h2

/-! ## RANSAC -/

/-- The variables of the loop for the exchanged views. -/
def mirrorLoop (l : Loop) : Loop :=
  { l with results := l.results.map (Option.map M3.transpose), bestMotion := back l.bestMotion }

theorem hypothesis_exchanged (rays : List (V3 × V3)) (inds : List Nat) {pairs : List (V3 × V3)} (h : hypothesis rays inds = .ok pairs) :
    hypothesis (rays.map Prod.swap) inds = .ok (pairs.map Prod.swap) := by
  induction inds generalizing pairs with
  | nil => unfold hypothesis at h ⊢; cases h; rfl
  | cons i is ih =>
    unfold hypothesis at h
    cases h1 : at' rays i with
    | error f => rw [h1] at h; cases h
    | ok r =>
      cases h2 : hypothesis rays is with
      | error f => rw [h1, h2] at h; cases h
      | ok rs =>
        rw [h1, h2] at h; cases h
        have h3 : at' (rays.map Prod.swap) i = .ok r.swap := by
          unfold at' at h1 ⊢
          rw [List.getElem?_map]
          cases hr : rays[i]? with
          | none => rw [hr] at h1; cases h1
          | some x => rw [hr] at h1; cases h1; rfl
        unfold hypothesis
        rw [h3, ih h2]; rfl

theorem bestEssential_exchanged (hg : Made e corr g) (hg' : Made e (exchanged corr) g') (i : Nat) (Es : List M3) (b : Nat × Nat × List Nat) :
    bestEssential e g' i (Es.map M3.transpose) b = bestEssential e g i Es b := by
  induction Es generalizing i b with
  | nil => rfl
  | cons E Es ih =>
    rw [List.map_cons]
    unfold bestEssential
    simp only
    rw [findInliersEssential_eq hg, findInliersEssential_eq hg', fits_exchanged, ih]

theorem conclude_exchanged (n : Nat) (results : List (Option M3)) (cur : Motion3 × List Nat) (l : Loop) :
    conclude e n (results.map (Option.map M3.transpose)) (back cur.1, cur.2) (mirrorLoop l) = mirrorLoop (conclude e n results cur l) := by
  unfold conclude mirrorLoop
  simp only
  by_cases h1 : l.bestInliers < cur.2.length
  · simp only [if_pos h1]
    by_cases h2 : (cur.2.length : ℝ) / n > l.q
    · simp only [if_pos h2]
    · simp only [if_neg h2]
  · simp only [if_neg h1]
    by_cases h2 : (cur.2.length : ℝ) / n > l.q
    · simp only [if_pos h2]
    · simp only [if_neg h2]

/-- An iteration in which a matrix agrees with some correspondence. -/
theorem iteration_found (hg : Made e corr g) {sample inds : List Nat} {l : Loop} (hinds : inds = sample.mergeSort (fun a b => decide (a ≤ b)))
    (hr : isRepeated inds = false) {pairs : List (V3 × V3)} (hp : hypothesis g.rays inds = .ok pairs) {before after : List M3} {E : M3}
    (hs : e.solve5 pairs = before ++ E :: after)
    (hb : bestEssential e g 0 (e.solve5 pairs) (0, 0, l.bestInliersInds) =
      ((findInliersEssential e g E).length, before.length, findInliersEssential e g E)) :
    iteration e g sample l =
      .ok (conclude e corr.length (overwrite l.results (e.solve5 pairs)) (extractMotion e g E (indices corr (Fits e E))) l) := by
  unfold iteration
  simp only
  rw [← hinds, hr, hp]
  simp only [Bool.false_eq_true, if_false]
  rw [hb]
  have hres : (overwrite l.results (e.solve5 pairs))[before.length]? = some (some E) := by
    unfold overwrite
    rw [hs, List.map_append, List.append_assoc, List.getElem?_append_right (by simp)]
    simp
  simp only [hres, findInliersEssential_eq hg, made_length hg]
  unfold conclude
  by_cases h2 : ((extractMotion e g E (indices corr (Fits e E))).2.length : ℝ) / corr.length > l.q
  · simp only [if_pos h2]
  · simp only [if_neg h2]

theorem iteration_exchanged (he : SvdCorrect e) (htri : ∀ m p q d, triangulate m p q = some d → e.tri m p q = d) (hfair : SolverFair e)
    (hg : Made e corr g) (hg' : Made e (exchanged corr) g') {sample : List Nat} (hi : ∀ i ∈ sample, i < corr.length)
    (hd : ∀ pairs, SamplePairs e corr sample pairs → e.solve5 pairs ≠ [] ∧ ∀ E ∈ e.solve5 pairs, Decided e corr E) (l : Loop) :
    ∃ l', iteration e g sample l = .ok l' ∧ iteration e g' sample (mirrorLoop l) = .ok (mirrorLoop l') := by
  obtain ⟨inds, hinds⟩ : ∃ inds, inds = sample.mergeSort (fun a b => decide (a ≤ b)) := ⟨_, rfl⟩
  cases hr : isRepeated inds with
  | true =>
    refine ⟨l, ?_, ?_⟩
    · unfold iteration; simp only; rw [← hinds, hr]; rfl
    · unfold iteration; simp only; rw [← hinds, hr]; rfl
  | false =>
    have hperm : inds.Perm sample := by rw [hinds]; exact List.mergeSort_perm _ _
    obtain ⟨pairs, hp, hf⟩ := hypothesis_ok hg (inds := inds) fun i hx => hi i (hperm.subset hx)
    have hsp : SamplePairs e corr sample pairs :=
      ⟨inds, hperm, isRepeated_false (by rw [hinds]; exact sort_sorted sample) hr, hf⟩
    obtain ⟨hne, hdec⟩ := hd pairs hsp
    have hrays : g'.rays = g.rays.map Prod.swap := by
      rw [hg.2, hg'.2]; unfold exchanged; rw [List.map_map, List.map_map]; rfl
    have hp' : hypothesis g'.rays inds = .ok (pairs.map Prod.swap) := by rw [hrays]; exact hypothesis_exchanged _ _ hp
    rcases bestEssential_spec (e := e) (g := g) 0 (e.solve5 pairs) (0, 0, l.bestInliersInds) with ⟨-, h2⟩ | ⟨before, E, after, hs, hb, -⟩
    · exfalso
      obtain ⟨E, hE⟩ := List.exists_mem_of_ne_nil _ hne
      have h3 := h2 E hE
      rw [findInliersEssential_eq hg] at h3
      exact (hdec E hE).fits (List.length_eq_zero_iff.1 (by simpa using h3))
    · have hE : E ∈ e.solve5 pairs := by rw [hs]; simp
      rw [Nat.zero_add] at hb
      refine ⟨_, iteration_found hg hinds hr hp hs hb, ?_⟩
      have hs' : e.solve5 (pairs.map Prod.swap) = before.map M3.transpose ++ E.transpose :: after.map M3.transpose := by
        rw [hfair, hs]; simp
      have hb' : bestEssential e g' 0 (e.solve5 (pairs.map Prod.swap)) (0, 0, (mirrorLoop l).bestInliersInds) =
          ((findInliersEssential e g' E.transpose).length, (before.map M3.transpose).length, findInliersEssential e g' E.transpose) := by
        rw [hfair, bestEssential_exchanged hg hg', findInliersEssential_eq hg', fits_exchanged, ← findInliersEssential_eq hg, List.length_map]
        exact hb
      rw [iteration_found hg' hinds hr hp' hs' hb']
      have hx : extractMotion e g' E.transpose (indices corr (Fits e E)) =
          (back (extractMotion e g E (indices corr (Fits e E))).1, (extractMotion e g E (indices corr (Fits e E))).2) := by
        obtain ⟨m, hu, hmE, hbest⟩ := (hdec E hE).best
        refine extract_exchanged he htri hg hg' (hdec E hE).clear hu hmE ?_
        intro m' h1 h2
        rw [inliers_eq hg, inliers_eq hg]
        exact hbest m' h1 h2
      rw [fits_exchanged, hx]
      have hover : overwrite (mirrorLoop l).results (e.solve5 (pairs.map Prod.swap)) =
          (overwrite l.results (e.solve5 pairs)).map (Option.map M3.transpose) := by
        rw [hfair]
        unfold overwrite mirrorLoop
        simp [List.map_drop]
      have hlen : (exchanged corr).length = corr.length := by unfold exchanged; exact List.length_map _
      rw [hover, hlen, conclude_exchanged]

theorem ransac_exchanged (he : SvdCorrect e) (htri : ∀ m p q d, triangulate m p q = some d → e.tri m p q = d) (hfair : SolverFair e)
    (hg : Made e corr g) (hg' : Made e (exchanged corr) g') {samples : Nat → List Nat} (hi : ∀ it, ∀ i ∈ samples it, i < corr.length)
    (hd : AllDecided e corr samples) (fuel it : Nat) (l : Loop) :
    (ransac e g samples fuel it l = .ok none ∧ ransac e g' samples fuel it (mirrorLoop l) = .ok none) ∨
      ∃ k l', ransac e g samples fuel it l = .ok (some (k, l')) ∧ ransac e g' samples fuel it (mirrorLoop l) = .ok (some (k, mirrorLoop l')) := by
  induction fuel generalizing it l with
  | zero =>
    unfold ransac
    by_cases h : (it : Int) < l.iterNum
    · left; exact ⟨by rw [if_pos h], by rw [if_pos (show (it : Int) < (mirrorLoop l).iterNum from h)]⟩
    · right; exact ⟨it, l, by rw [if_neg h], by rw [if_neg (show ¬ (it : Int) < (mirrorLoop l).iterNum from h)]⟩
  | succ fuel ih =>
    unfold ransac
    by_cases h : (it : Int) < l.iterNum
    · rw [if_pos h, if_pos (show (it : Int) < (mirrorLoop l).iterNum from h)]
      obtain ⟨l', h1, h2⟩ := iteration_exchanged he htri hfair hg hg' (hi it) (hd it) l
      simp only [h1, h2]
      exact ih (it + 1) l'
    · right; exact ⟨it, l, by rw [if_neg h], by rw [if_neg (show ¬ (it : Int) < (mirrorLoop l).iterNum from h)]⟩

end

/-! ## The whole estimation -/

/-- **C178, RANSAC.** If the motion is decided for every sample, the estimation for the exchanged views with the same random numbers does as many iterations, reports the same
inliers and the motion back. -/
theorem C178_coarse {e : Env} (he : SvdCorrect e) (htri : ∀ m p q d, triangulate m p q = some d → e.tri m p q = d) (hfair : SolverFair e)
    (hp0 : 0 < e.s.successProb) (hp1 : e.s.successProb < 1) (hn : 1 ≤ e.s.maxRansacIter) {corr : List (V2 × V2)} (hne : corr ≠ [])
    {samples : Nat → List Nat} (hdr : Drawn corr.length samples) (hd : AllDecided e corr samples) {fuel : Nat} {r : Motion3 × Estimator}
    (h : findCoarseMotion e samples fuel (create e corr) = .ok (some r)) :
    findCoarseMotion e samples fuel (create e (exchanged corr)) = .ok (some (back r.1, mirror r.2)) ∧
      (r.2.inliersInds = [] ∨ (IsUnitMotion r.2.motion ∧ Clear e corr r.2.motion)) := by
  obtain ⟨k, l, hr, -, h1, h2⟩ := coarse_unfold h
  have hg := made_create e corr
  have hg' := made_create e (exchanged corr)
  have hstart : start e (create e (exchanged corr)) = mirrorLoop (start e (create e corr)) := by
    unfold start mirrorLoop create
    simp only [back_one, List.map_replicate, Option.map_none]
  have hcorr : 0 < corr.length := List.length_pos_of_ne_nil hne
  obtain ⟨-, g2, -⟩ := ransac_inv hg hcorr hp0 hp1 hn (fun it => (hdr it).2) fuel 0 k _ l (start_inv rfl hp0 hp1 hn) (by omega) hr
  have hr' : ransac e (create e (exchanged corr)) samples fuel 0 (start e (create e (exchanged corr))) = .ok (some (k, mirrorLoop l)) := by
    rcases ransac_exchanged he htri hfair hg hg' (fun it => (hdr it).2) hd fuel 0 (start e (create e corr)) with ⟨a, -⟩ | ⟨k', l', a, b⟩
    · rw [hr] at a; cases a
    · rw [hr] at a; cases a
      rw [hstart, b]
  -- the last choice
  have hlast : extractMotion e (create e (exchanged corr)) (toEssential (back l.bestMotion)) l.inliersInds =
      (back (extractMotion e (create e corr) (toEssential l.bestMotion) l.inliersInds).1,
        (extractMotion e (create e corr) (toEssential l.bestMotion) l.inliersInds).2) ∧
      ((extractMotion e (create e corr) (toEssential l.bestMotion) l.inliersInds).2 = [] ∨ (IsUnitMotion l.bestMotion ∧ Clear e corr l.bestMotion)) := by
    by_cases hnil : l.inliersInds = []
    · rw [hnil, extractMotion_nil, extractMotion_nil, back_one]
      exact ⟨rfl, Or.inl rfl⟩
    · obtain ⟨j, hj, E, hE, hsol, hin, hb⟩ : ∃ j < k, ∃ E, IsHypothesis e corr (samples j) E ∧ l.bestMotion ∈ solutions e E ∧
          l.inliersInds = inliers e corr E l.bestMotion ∧ l.bestInliers = l.inliersInds.length := by
        rcases g2.best with ⟨-, h3, -⟩ | ⟨h3, h4⟩
        · exact absurd h3 hnil
        · rcases h4 with ⟨h4, -⟩ | ⟨j, hj, E, hE, hs, hi⟩
          · exact absurd h4 hnil
          · exact ⟨j, hj, E, hE, hs, hi, h3⟩
      obtain ⟨pairs, before, after, hsp, hs5, -, -⟩ := id hE
      have hdE : Decided e corr E := (hd j pairs hsp).2 E (by rw [hs5]; simp)
      obtain ⟨m, hmu, hmE, hbest⟩ := hdE.best
      have hu := solutions_unit he hsol
      have hEss := solutions_sound he hmu hmE hsol
      have hbm : l.bestMotion = m := by
        rcases hbest _ hu hEss with h3 | h3
        · exact h3
        · have h4 := g2.maxi j hj E hE m (solutions_complete he hmu hmE)
          rw [hb, hin] at h4
          omega
      obtain ⟨c, hc, hcE⟩ := hEss
      have htrans : ∀ m', HasEssential m' (toEssential l.bestMotion) → HasEssential m' E := by
        rintro m' ⟨d, hd0, hd1⟩
        exact ⟨d * c, mul_ne_zero hd0 hc, by rw [hd1, hcE, M3.scale_scale]⟩
      have hclear : ∀ m', IsUnitMotion m' → HasEssential m' (toEssential l.bestMotion) → Clear e corr m' := fun m' h3 h4 => hdE.clear m' h3 (htrans m' h4)
      refine ⟨?_, Or.inr ⟨hu, hclear _ hu (toEssential_self _)⟩⟩
      rw [essential_back hu.1]
      refine extract_exchanged he htri hg hg' hclear hu (toEssential_self _) ?_
      intro m' h3 h4
      by_cases heq : m' = l.bestMotion
      · exact Or.inl heq
      · right
        have hlt : (inliers e corr E m').length < (inliers e corr E l.bestMotion).length := by
          rcases hbest m' h3 (htrans m' h4) with h5 | h5
          · exact absurd (h5.trans hbm.symm) heq
          · rw [hbm]; exact h5
        have hself : findInliersMotion e (create e corr) l.bestMotion l.inliersInds = l.inliersInds := by
          refine List.filter_eq_self.2 ?_
          intro i hi
          rw [hin] at hi
          obtain ⟨c', hc', -, hf⟩ := mem_indices.1 hi
          exact (inFront_iff hg _ _).2 ⟨c', hc', hf⟩
        rw [hself]
        refine lt_of_le_of_lt ?_ (by rw [hin]; exact hlt)
        rw [hin, ← inliers_eq hg, ← inliers_eq hg]
        unfold findInliersMotion
        rw [List.filter_filter]
        refine List.Sublist.length_le ?_
        exact List.monotone_filter_right _ fun i hi => by
          rw [Bool.and_eq_true] at hi
          exact hi.1
  refine ⟨?_, by rw [h2]; exact hlast.2⟩
  unfold findCoarseMotion
  have hlen : ¬ (create e (exchanged corr)).rays.length = 0 := by
    unfold create exchanged
    simp only [List.length_map]
    omega
  have hc : ((create e (exchanged corr)).coarseFound || (create e (exchanged corr)).preciseFound) = false := rfl
  rw [hc]
  simp only [Bool.false_eq_true, if_false, if_neg hlen, hr']
  have hbm : (mirrorLoop l).bestMotion = back l.bestMotion := rfl
  have hin : (mirrorLoop l).inliersInds = l.inliersInds := rfl
  rw [hbm, hin, hlast.1, h1, h2]
  congr 3
  unfold mirror create exchanged
  simp only [List.map_map]
  congr 1

/-! ## Averaging -/

theorem blocks_mirror (g : Estimator) (inds : List Nat) {bs : List Residual} (h : blocksOf g inds = .ok bs) :
    blocksOf (mirror g) inds = .ok (bs.map fun r => ⟨r.q, r.p, r.qMapped, r.pMapped⟩) := by
  have hat : ∀ (T : Type) (l : List (T × T)) (i : Nat) (x : T × T), at' l i = .ok x → at' (l.map Prod.swap) i = .ok x.swap := by
    intro T l i x hx
    unfold at' at hx ⊢
    rw [List.getElem?_map]
    cases hr : l[i]? with
    | none => rw [hr] at hx; cases hx
    | some y => rw [hr] at hx; cases hx; rfl
  induction inds generalizing bs with
  | nil => unfold blocksOf at h ⊢; cases h; rfl
  | cons i is ih =>
    unfold blocksOf at h
    cases h1 : blockOf g i with
    | error f => rw [h1] at h; cases h
    | ok b =>
      cases h2 : blocksOf g is with
      | error f => rw [h1, h2] at h; cases h
      | ok bs' =>
        rw [h1, h2] at h; cases h
        have h3 : blockOf (mirror g) i = .ok ⟨b.q, b.p, b.qMapped, b.pMapped⟩ := by
          unfold blockOf at h1 ⊢
          cases h4 : at' g.rays i with
          | error f => rw [h4] at h1; cases h1
          | ok ray =>
            cases h5 : at' g.imgCorresps i with
            | error f => rw [h4] at h1; simp only [h5] at h1; cases h1
            | ok img =>
              rw [h4] at h1; simp only [h5] at h1; cases h1
              have h6 : at' (mirror g).rays i = .ok ray.swap := hat _ _ _ _ h4
              have h7 : at' (mirror g).imgCorresps i = .ok img.swap := hat _ _ _ _ h5
              rw [h6]; simp only [h7]; rfl
        unfold blocksOf
        rw [h3, ih h2]; rfl

/-- **C178, averaging.** The problem solved for the exchanged views starts with the motion back, and its cost at the motion back of any motion is the cost of the motion. -/
theorem C178_averaging {e : Env} {g : Estimator} {P : Averaging} (h : averaging e g = .ok P) :
    ∃ P', averaging e (mirror g) = .ok P' ∧ P'.start = back P.start ∧
      ∀ m, IsRotation m.rot → Averaging.cost P' (back m) = Averaging.cost P m := by
  unfold averaging at h
  cases hb : blocksOf g g.inliersInds with
  | error f => rw [hb] at h; cases h
  | ok bs =>
    rw [hb] at h; cases h
    refine ⟨{ map := e.map, start := back g.motion, blocks := bs.map fun r => ⟨r.q, r.p, r.qMapped, r.pMapped⟩,
              huber := Real.sqrt 2 * e.s.outlierReprojError }, ?_, rfl, ?_⟩
    · unfold averaging
      have : (mirror g).inliersInds = g.inliersInds := rfl
      rw [this, blocks_mirror g _ hb]
      rfl
    · intro m hm
      unfold Averaging.cost
      simp only [List.map_map]
      congr 3
      funext r
      simp only [Function.comp_apply]
      rw [C178_residuals e.map hm r]
      congr 1
      unfold sqLen
      simp only [Prod.fst_swap, Prod.snd_swap]
      ring

/-! ## The result for the exchanged views -/

section
variable {e : Env} {corr : List (V2 × V2)} {g : Estimator}

theorem at_swap {T : Type} (l : List (T × T)) (i : Nat) : at' (l.map Prod.swap) i = (at' l i).map Prod.swap := by
  unfold at'
  rw [List.getElem?_map]
  cases l[i]? <;> rfl

theorem fillDepths_mirror (htri : ∀ m p q d, triangulate m p q = some d → e.tri m p q = d) (hg : Made e corr g) (hrot : IsRotation g.motion.rot)
    (hc : Clear e corr g.motion) (inds : List Nat) (d : List (ℝ × ℝ)) :
    fillDepths e (mirror g) inds (d.map Prod.swap) = (fillDepths e g inds d).map (List.map Prod.swap) := by
  induction inds generalizing d with
  | nil => rfl
  | cons i is ih =>
    unfold fillDepths
    have h1 : at' (mirror g).rays i = (at' g.rays i).map Prod.swap := at_swap _ _
    rw [h1]
    cases hr : at' g.rays i with
    | error f => rfl
    | ok ray =>
      simp only [Except.map]
      have hray : ∃ c ∈ corr, ray = (rayOf e c.1, rayOf e c.2) := by
        unfold at' at hr
        rw [hg.2, List.getElem?_map] at hr
        cases hci : corr[i]? with
        | none => rw [hci] at hr; cases hr
        | some c => rw [hci] at hr; cases hr; exact ⟨c, List.mem_of_getElem? hci, rfl⟩
      obtain ⟨c, hcm, rfl⟩ := hray
      have h2 : e.tri (mirror g).motion (Prod.swap (rayOf e c.1, rayOf e c.2)).1 (Prod.swap (rayOf e c.1, rayOf e c.2)).2 =
          (e.tri g.motion (rayOf e c.1) (rayOf e c.2)).swap := tri_back htri hrot (hc c hcm)
      rw [h2, ← List.map_set]
      exact ih _

theorem depths_mirror (htri : ∀ m p q d, triangulate m p q = some d → e.tri m p q = d) (hg : Made e corr g)
    (hc : g.inliersInds = [] ∨ (IsRotation g.motion.rot ∧ Clear e corr g.motion)) :
    depths e (mirror g) = (depths e g).map fun r => (r.1.map Prod.swap, mirror r.2) := by
  unfold depths
  have h1 : (mirror g).depthsEvaluated = g.depthsEvaluated := rfl
  have h2 : (mirror g).inliersInds = g.inliersInds := rfl
  have h3 : (mirror g).depths = g.depths.map Prod.swap := rfl
  have h4 : fillDepths e (mirror g) g.inliersInds (g.depths.map Prod.swap) = (fillDepths e g g.inliersInds g.depths).map (List.map Prod.swap) := by
    rcases hc with hc | ⟨hr, hc⟩
    · rw [hc]; rfl
    · exact fillDepths_mirror htri hg hr hc _ _
  rw [h1, h2, h3, h4]
  cases g.depthsEvaluated with
  | true => rfl
  | false =>
    cases fillDepths e g g.inliersInds g.depths with
    | error f => rfl
    | ok d => rfl

theorem report_mirror (htri : ∀ m p q d, triangulate m p q = some d → e.tri m p q = d) (inds : List Nat) (g : Estimator) (hg : Made e corr g)
    (hc : g.inliersInds = [] ∨ (IsRotation g.motion.rot ∧ Clear e corr g.motion)) :
    report e (mirror g) inds = (report e g inds).map (List.map fun r => (r.1.swap, r.2.swap)) := by
  induction inds generalizing g with
  | nil => rfl
  | cons i is ih =>
    unfold report
    rw [depths_mirror htri hg hc]
    cases hd : depths e g with
    | error f => rfl
    | ok d =>
      simp only [Except.map]
      have hd2 : d.2.imgCorresps = g.imgCorresps ∧ d.2.rays = g.rays ∧ d.2.inliersInds = g.inliersInds ∧ d.2.motion = g.motion := by
        unfold depths at hd
        by_cases h0 : g.depthsEvaluated = true
        · rw [if_pos h0] at hd; cases hd; exact ⟨rfl, rfl, rfl, rfl⟩
        · rw [if_neg h0] at hd
          cases hf : fillDepths e g g.inliersInds g.depths with
          | error f => rw [hf] at hd; cases hd
          | ok x => rw [hf] at hd; cases hd; exact ⟨rfl, rfl, rfl, rfl⟩
      have h1 : at' (mirror g).imgCorresps i = (at' g.imgCorresps i).map Prod.swap := at_swap _ _
      have h2 : at' (d.1.map Prod.swap) i = (at' d.1 i).map Prod.swap := at_swap _ _
      have h3 := ih d.2 ⟨hd2.1.trans hg.1, hd2.2.1.trans hg.2⟩ (by rw [hd2.2.2.1, hd2.2.2.2]; exact hc)
      rw [h1, h2, h3]
      cases at' g.imgCorresps i with
      | error f => rfl
      | ok c =>
        cases at' d.1 i with
        | error f => rfl
        | ok z =>
          cases report e d.2 is with
          | error f => rfl
          | ok rest => rfl

end

/-- What a match reports for the exchanged views. -/
def exchangedPoints (pts : List ((V2 × V2) × (ℝ × ℝ))) : List ((V2 × V2) × (ℝ × ℝ)) := pts.map fun r => (r.1.swap, r.2.swap)

/-- **C178, match without averaging.** The exchanged views give the motion back, and the same matches with pixels and depths exchanged. -/
theorem C178_match {e : Env} (he : SvdCorrect e) (htri : ∀ m p q d, triangulate m p q = some d → e.tri m p q = d) (hfair : SolverFair e)
    (hp0 : 0 < e.s.successProb) (hp1 : e.s.successProb < 1) (hn : 1 ≤ e.s.maxRansacIter) {corr : List (V2 × V2)} (hne : corr ≠ [])
    {samples : Nat → List Nat} (hdr : Drawn corr.length samples) (hd : AllDecided e corr samples) {fuel : Nat} {m : Motion3}
    {pts : List ((V2 × V2) × (ℝ × ℝ))} (h : matchGeometry e samples fuel false corr = .ok (some (m, pts))) :
    matchGeometry e samples fuel false (exchanged corr) = .ok (some (back m, exchangedPoints pts)) := by
  unfold matchGeometry at h ⊢
  simp only [Bool.false_eq_true, if_false] at h ⊢
  cases hc : findCoarseMotion e samples fuel (create e corr) with
  | error f => rw [hc] at h; cases h
  | ok o =>
    cases o with
    | none => rw [hc] at h; cases h
    | some r =>
      rw [hc] at h
      obtain ⟨h1, h2⟩ := C178_coarse he htri hfair hp0 hp1 hn hne hdr hd hc
      obtain ⟨hmade, -, -, -⟩ := coarse_inliers he hp0 hp1 hn hdr hc
      have h3 : r.2.inliersInds = [] ∨ (IsRotation r.2.motion.rot ∧ Clear e corr r.2.motion) := by
        rcases h2 with h2 | ⟨h2, h4⟩
        · exact Or.inl h2
        · exact Or.inr ⟨h2.1, h4⟩
      rw [h1]
      simp only at h ⊢
      have h4 : (mirror r.2).inliersInds = r.2.inliersInds := rfl
      rw [h4, report_mirror htri _ _ hmade h3]
      cases hp : report e r.2 r.2.inliersInds with
      | error f => rw [hp] at h; cases h
      | ok x => rw [hp] at h; cases h; rfl

/-! Only the averaging calls the solver. -/

theorem bestSolution_solve (e : Env) (s : Motion3 → List Nat → Motion3) (g : Estimator) (inds : List Nat) (sols : List Motion3) (b : Motion3 × List Nat) :
    bestSolution { e with solve := s } g inds sols b = bestSolution e g inds sols b := by
  induction sols generalizing b with
  | nil => rfl
  | cons x xs ih =>
    unfold bestSolution
    exact ih _

theorem extractMotion_solve (e : Env) (s : Motion3 → List Nat → Motion3) (g : Estimator) (E : M3) (inds : List Nat) :
    extractMotion { e with solve := s } g E inds = extractMotion e g E inds := bestSolution_solve e s g inds _ _

theorem bestEssential_solve (e : Env) (s : Motion3 → List Nat → Motion3) (g : Estimator) (i : Nat) (Es : List M3) (b : Nat × Nat × List Nat) :
    bestEssential { e with solve := s } g i Es b = bestEssential e g i Es b := by
  induction Es generalizing i b with
  | nil => rfl
  | cons x xs ih =>
    unfold bestEssential
    exact ih _ _

theorem iteration_solve (e : Env) (s : Motion3 → List Nat → Motion3) (g : Estimator) (sample : List Nat) (l : Loop) :
    iteration { e with solve := s } g sample l = iteration e g sample l := by
  unfold iteration
  simp only [bestEssential_solve, extractMotion_solve]

theorem ransac_solve (e : Env) (s : Motion3 → List Nat → Motion3) (g : Estimator) (samples : Nat → List Nat) (fuel it : Nat) (l : Loop) :
    ransac { e with solve := s } g samples fuel it l = ransac e g samples fuel it l := by
  induction fuel generalizing it l with
  | zero => rfl
  | succ fuel ih =>
    unfold ransac
    rw [iteration_solve]
    cases iteration e g (samples it) l with
    | error f => rfl
    | ok l' => simp only [ih]

theorem coarse_solve (e : Env) (s : Motion3 → List Nat → Motion3) (samples : Nat → List Nat) (fuel : Nat) (g : Estimator) :
    findCoarseMotion { e with solve := s } samples fuel g = findCoarseMotion e samples fuel g := by
  unfold findCoarseMotion
  have h1 : start { e with solve := s } g = start e g := rfl
  rw [ransac_solve, h1]
  simp only [extractMotion_solve]

theorem fillDepths_solve (e : Env) (s : Motion3 → List Nat → Motion3) (g : Estimator) (is : List Nat) (d : List (ℝ × ℝ)) :
    fillDepths { e with solve := s } g is d = fillDepths e g is d := by
  induction is generalizing d with
  | nil => rfl
  | cons i is ih =>
    unfold fillDepths
    cases at' g.rays i with
    | error f => rfl
    | ok r => exact ih _

theorem report_solve (e : Env) (s : Motion3 → List Nat → Motion3) (is : List Nat) (g : Estimator) :
    report { e with solve := s } g is = report e g is := by
  induction is generalizing g with
  | nil => rfl
  | cons i is ih =>
    unfold report
    have h1 : depths { e with solve := s } g = depths e g := by unfold depths; rw [fillDepths_solve]
    rw [h1]
    cases depths e g with
    | error f => rfl
    | ok d => simp only [ih]

/-- **C178, match with averaging.** If the solver, started with the motion back, finds the motion back, then averaging gives the motion back as well: the solver of the
exchanged views is `solve'`. -/
theorem C178_precise {e : Env} (he : SvdCorrect e) (htri : ∀ m p q d, triangulate m p q = some d → e.tri m p q = d) (hfair : SolverFair e)
    (hp0 : 0 < e.s.successProb) (hp1 : e.s.successProb < 1) (hn : 1 ≤ e.s.maxRansacIter) {corr : List (V2 × V2)} (hne : corr ≠ [])
    {samples : Nat → List Nat} (hdr : Drawn corr.length samples) (hd : AllDecided e corr samples) {solve' : Motion3 → List Nat → Motion3}
    (hsolve : ∀ m inds, solve' (back m) inds = back (e.solve m inds)) {fuel : Nat} {m : Motion3}
    {pts : List ((V2 × V2) × (ℝ × ℝ))} (h : matchGeometry e samples fuel true corr = .ok (some (m, pts))) (hm : IsRotation m.rot) (hcl : Clear e corr m) :
    matchGeometry { e with solve := solve' } samples fuel true (exchanged corr) = .ok (some (back m, exchangedPoints pts)) := by
  unfold matchGeometry findPreciseMotion at h ⊢
  have c1 : (create e corr).preciseFound = false := rfl
  have c2 : (create e corr).coarseFound = false := rfl
  have c3 : (create { e with solve := solve' } (exchanged corr)).preciseFound = false := rfl
  have c4 : (create { e with solve := solve' } (exchanged corr)).coarseFound = false := rfl
  have c5 : create { e with solve := solve' } (exchanged corr) = create e (exchanged corr) := rfl
  simp only [c1, c2, c3, c4, Bool.false_eq_true, if_false, if_true] at h ⊢
  cases hc : findCoarseMotion e samples fuel (create e corr) with
  | error f => rw [hc] at h; cases h
  | ok o =>
    cases o with
    | none => rw [hc] at h; cases h
    | some r =>
      rw [hc] at h
      obtain ⟨h1, h2⟩ := C178_coarse he htri hfair hp0 hp1 hn hne hdr hd hc
      obtain ⟨hmade, -, -, -⟩ := coarse_inliers he hp0 hp1 hn hdr hc
      rw [c5, coarse_solve, h1]
      simp only at h ⊢
      have hmade' : Made e (exchanged corr) (mirror r.2) := by
        obtain ⟨k, l, -, -, -, h5⟩ := coarse_unfold h1
        rw [show mirror r.2 = _ from h5]; exact ⟨rfl, rfl⟩
      have hms : (refineMotion e r.2).1 = m := by
        cases hp : report e (refineMotion e r.2).2 (refineMotion e r.2).2.inliersInds with
        | error f => rw [hp] at h; cases h
        | ok x => rw [hp] at h; cases h; rfl
      have hmot : e.solve r.2.motion r.2.inliersInds = m := hms
      have href : refineMotion { e with solve := solve' } (mirror r.2) = (back m, mirror (refineMotion e r.2).2) := by
        unfold refineMotion
        have q1 : (mirror r.2).motion = back r.2.motion := rfl
        have q2 : (mirror r.2).inliersInds = r.2.inliersInds := rfl
        simp only [q1, q2, hsolve, hmot]
        have q3 : findInliersEssential { e with solve := solve' } (mirror r.2) (toEssential (back m)) = findInliersEssential e r.2 (toEssential m) := by
          show findInliersEssential e (mirror r.2) (toEssential (back m)) = _
          rw [findInliersEssential_eq hmade', findInliersEssential_eq hmade, essential_back hm, fits_exchanged]
        have q4 : findInliersMotion { e with solve := solve' } (mirror r.2) (back m) (findInliersEssential e r.2 (toEssential m)) =
            findInliersMotion e r.2 m (findInliersEssential e r.2 (toEssential m)) :=
          motion_exchanged htri hmade hmade' hm hcl _
        rw [q3, q4]
        rfl
      rw [href]
      simp only
      have h4 : (mirror (refineMotion e r.2).2).inliersInds = (refineMotion e r.2).2.inliersInds := rfl
      have hmade2 : Made e corr (refineMotion e r.2).2 := hmade
      have hmo : (refineMotion e r.2).2.motion = m := hms
      rw [report_solve, h4, report_mirror htri _ _ hmade2 (Or.inr (by rw [hmo]; exact ⟨hm, hcl⟩))]
      cases hp : report e (refineMotion e r.2).2 (refineMotion e r.2).2.inliersInds with
      | error f => rw [hp] at h; cases h
      | ok x => rw [hp] at h; cases h; rfl

/-! ## An example -/

open Classical in
/-- A solver that tells the views apart by the first pair of rays. -/
noncomputable def fair5 : List (V3 × V3) → List M3
  | [] => []
  | p :: _ => if p.2.x < p.1.x then [toEssential m0] else if p.1.x < p.2.x then [(toEssential m0).transpose] else []

theorem fair5_fair (pairs : List (V3 × V3)) : fair5 (pairs.map Prod.swap) = (fair5 pairs).map M3.transpose := by
  cases pairs with
  | nil => rfl
  | cons p ps =>
    simp only [List.map_cons, fair5, Prod.fst_swap, Prod.snd_swap]
    by_cases h1 : p.2.x < p.1.x
    · rw [if_neg (not_lt.2 h1.le), if_pos h1, if_pos h1]; rfl
    · by_cases h2 : p.1.x < p.2.x
      · rw [if_pos h2, if_neg h1, if_pos h2]; rfl
      · rw [if_neg h1, if_neg h2, if_neg h2, if_neg h1]; rfl

/-- The example of RANSAC with this solver. -/
noncomputable def demoX : Env := { demo 1 (fun m _ => m) with solve5 := fair5 }

theorem demoX_decided : Decided demoX corr5 (toEssential m0) := by
  have hclear : ∀ m, IsUnitMotion m → HasEssential m (toEssential m0) → Clear demoX corr5 m := fun m hm hE c hc =>
    corr5_nondeg (solve := fun m _ => m) hc m hm hE
  have hfit : ∀ c ∈ corr5, Fits demoX (toEssential m0) c := fun c hc =>
    C80_fits (e := demo 1 fun m _ => m) (by norm_num [demo]) (demo_cam one_ne_zero _) (corr5_epi hc)
  have hall : inliers demoX corr5 (toEssential m0) m0 = [0, 1, 2, 3, 4] := by
    have : ∀ i ∈ List.range corr5.length, ∃ c, corr5[i]? = some c ∧ (Fits demoX (toEssential m0) c ∧ Front demoX m0 c) := by
      intro i hi
      have hlt := List.mem_range.1 hi
      have hmem := List.getElem_mem hlt
      exact ⟨_, List.getElem?_eq_getElem hlt, hfit _ hmem, corr5_front (solve := fun m _ => m) hmem⟩
    unfold inliers indices
    rw [List.filter_eq_self.2 (fun i hi => by simpa using this i hi)]
    rfl
  refine ⟨?_, hclear, m0, m0_unit, toEssential_self _, ?_⟩
  · intro h0
    have : 0 ∈ indices corr5 (Fits demoX (toEssential m0)) := mem_indices.2 ⟨_, rfl, hfit _ (by simp [corr5])⟩
    rw [h0] at this; exact absurd this (by simp)
  · intro m hm hE
    by_cases h0 : inliers demoX corr5 (toEssential m0) m = []
    · right; rw [h0, hall]; simp
    · left
      obtain ⟨i, hi⟩ := List.exists_mem_of_ne_nil _ h0
      obtain ⟨c, hc, -, hf⟩ := mem_indices.1 hi
      have hmem := List.mem_of_getElem? hc
      obtain ⟨_, -, -, u1⟩ := ray_eq (f := 1) (solve := fun m _ => m) c.1
      obtain ⟨_, -, -, u2⟩ := ray_eq (f := 1) (solve := fun m _ => m) c.2
      have hm0 := solutions_complete (demo_svd (f := 1) (solve := fun m _ => m)) m0_unit (toEssential_self m0)
      have hmm := solutions_complete (demo_svd (f := 1) (solve := fun m _ => m)) hm hE
      exact front_unique demo_svd demo_tri hm0 hmm (toEssential_self m0) u1 u2 (corr5_epi hmem)
        (corr5_nondeg hmem m0 m0_unit (toEssential_self m0)) (corr5_nondeg hmem m hm hE) (corr5_front hmem) hf

theorem demoX_inliers : inliers demoX corr5 (toEssential m0) m0 = [0, 1, 2, 3, 4] := by
  have : ∀ i ∈ List.range corr5.length, ∃ c, corr5[i]? = some c ∧ (Fits demoX (toEssential m0) c ∧ Front demoX m0 c) := by
    intro i hi
    have hlt := List.mem_range.1 hi
    have hmem := List.getElem_mem hlt
    exact ⟨_, List.getElem?_eq_getElem hlt,
      C80_fits (e := demo 1 fun m _ => m) (by norm_num [demo]) (demo_cam one_ne_zero _) (corr5_epi hmem), corr5_front (solve := fun m _ => m) hmem⟩
  unfold inliers indices
  rw [List.filter_eq_self.2 (fun i hi => by simpa using this i hi)]
  rfl

theorem demoX_pairs {it : Nat} {pairs : List (V3 × V3)} (hp : SamplePairs demoX corr5 (samples5 it) pairs) : demoX.solve5 pairs = [toEssential m0] := by
  obtain ⟨inds, hperm, -, hf⟩ := hp
  cases hf with
  | nil => exact absurd hperm.length_eq (by simp [samples5])
  | cons hx _ =>
    obtain ⟨c, hc, rfl⟩ := hx
    obtain ⟨y, rfl⟩ := corr5_form (List.mem_of_getElem? hc)
    obtain ⟨n1, hn1, h1, -⟩ := ray_eq (f := 1) (solve := fun m _ => m) ⟨0, y⟩
    obtain ⟨n2, hn2, h2, -⟩ := ray_eq (f := 1) (solve := fun m _ => m) ⟨1, y⟩
    have e1 : rayOf demoX ⟨0, y⟩ = rayOf (demo 1 fun m _ => m) ⟨0, y⟩ := rfl
    have e2 : rayOf demoX ⟨1, y⟩ = rayOf (demo 1 fun m _ => m) ⟨1, y⟩ := rfl
    rw [show demoX.solve5 = fair5 from rfl]
    simp only [fair5]
    rw [if_pos]
    simp only [e1, e2, h1, h2]
    simp [hn2]

theorem demoX_all : AllDecided demoX corr5 samples5 := by
  intro it pairs hp
  have h1 := demoX_pairs hp
  rw [h1]
  refine ⟨by simp, ?_⟩
  intro E hE
  rw [List.mem_singleton.1 hE]
  exact demoX_decided

theorem demoX_solver : SolverCorrect demoX := by
  intro pairs E hE
  rw [show demoX.solve5 = fair5 from rfl] at hE
  have h : E = toEssential m0 ∨ E = (toEssential m0).transpose := by
    cases pairs with
    | nil => simp [fair5] at hE
    | cons p ps =>
      simp only [fair5] at hE
      by_cases h1 : p.2.x < p.1.x
      · rw [if_pos h1] at hE; exact Or.inl (List.mem_singleton.1 hE)
      · by_cases h2 : p.1.x < p.2.x
        · rw [if_neg h1, if_pos h2] at hE; exact Or.inr (List.mem_singleton.1 hE)
        · rw [if_neg h1, if_neg h2] at hE; exact absurd hE (by simp)
  rcases h with rfl | rfl
  · exact ⟨m0, m0_unit, toEssential_self _⟩
  · exact ⟨back m0, back_unit m0_unit, hasEssential_back m0_unit.1 (toEssential_self _)⟩

theorem demoX_svd : SvdCorrect demoX := demo_svd (f := 1) (solve := fun m _ => m)

theorem demoX_run : ∃ r, findCoarseMotion demoX samples5 1 (create demoX corr5) = .ok (some r) ∧
    r.1 = m0 ∧ r.2.motion = m0 ∧ r.2.inliersInds = [0, 1, 2, 3, 4] := by
  have hp0 : 0 < demoX.s.successProb := by norm_num [demoX, demo]
  have hp1 : demoX.s.successProb < 1 := by norm_num [demoX, demo]
  have hn : 1 ≤ demoX.s.maxRansacIter := le_refl _
  obtain ⟨r, hr⟩ := C85_defined_partial hp0 hp1 hn (corr := corr5) (by simp [corr5]) samples5_drawn
    (fun it pairs h => by rw [demoX_pairs h]; simp) (fuel := 1) (le_refl _)
  obtain ⟨k, hk0, -, -, -, -, hin, hmax⟩ := C51_ransac_partial demoX_svd demoX_solver hp0 hp1 hn samples5_drawn hr
  have huniq : ∀ j E, IsHypothesis demoX corr5 (samples5 j) E → E = toEssential m0 := by
    rintro j E ⟨pairs, before, after, hsp, hsol, -⟩
    have : E ∈ demoX.solve5 pairs := by rw [hsol]; simp
    rw [demoX_pairs hsp] at this
    exact List.mem_singleton.1 this
  have hhyp : IsHypothesis demoX corr5 (samples5 0) (toEssential m0) := by
    obtain ⟨pairs, hp⟩ := corr5_pairs (solve := fun m _ => m)
    exact ⟨pairs, [], [], hp, demoX_pairs (it := 0) hp, by simp, by simp⟩
  have h5 := hmax 0 hk0 _ hhyp m0 m0_unit (toEssential_self _)
  rw [demoX_inliers] at h5
  rcases hin with hin | ⟨j, -, E, hE, hu, hess, hin, hu1, hess1, hin1⟩
  · rw [hin] at h5; simp at h5
  · have := huniq j E hE
    subst this
    have hlist : r.2.inliersInds = [0, 1, 2, 3, 4] := by
      have hsub : (inliers demoX corr5 (toEssential m0) r.2.motion).Sublist (List.range corr5.length) := List.filter_sublist
      rw [← hin] at hsub
      exact hsub.eq_of_length_le h5
    have hone : ∀ m, IsUnitMotion m → HasEssential m (toEssential m0) → r.2.inliersInds = inliers demoX corr5 (toEssential m0) m → m = m0 := by
      intro m hmu hmE hmin
      obtain ⟨m', -, -, hb⟩ := demoX_decided.best
      have c1 := hb m hmu hmE
      have c2 := hb m0 m0_unit (toEssential_self _)
      have c3 : (inliers demoX corr5 (toEssential m0) m').length ≤ 5 := by
        have hs : (inliers demoX corr5 (toEssential m0) m').Sublist (List.range corr5.length) := List.filter_sublist
        exact hs.length_le
      have c4 : (inliers demoX corr5 (toEssential m0) m).length = 5 := by rw [← hmin, hlist]; rfl
      have c5 : (inliers demoX corr5 (toEssential m0) m0).length = 5 := by rw [demoX_inliers]; rfl
      rcases c1 with rfl | c1
      · rcases c2 with h | c2
        · exact h.symm
        · omega
      · omega
    exact ⟨r, hr, hone _ hu1 hess1 hin1, hone _ hu hess hin, hlist⟩

theorem back_m0 : back m0 = ⟨M3.one, ⟨-1, 0, 0⟩⟩ := by
  unfold back m0
  congr 1
  ext <;> simp [M3.mulVec, M3.transpose, M3.one, V3.dot]

/-- The hypotheses of `C178_coarse`, `C178_match` and `C178_precise` are met: five points seen before and after a move to the right, of which the exchanged views give the move
to the left with the same points. -/
example : ∃ pts pts', matchGeometry demoX samples5 1 false corr5 = .ok (some (m0, pts)) ∧ pts.length = 5 ∧
    matchGeometry demoX samples5 1 true corr5 = .ok (some (m0, pts')) ∧ pts'.length = 5 ∧
    matchGeometry demoX samples5 1 false (exchanged corr5) = .ok (some (⟨M3.one, ⟨-1, 0, 0⟩⟩, exchangedPoints pts)) ∧
    matchGeometry demoX samples5 1 true (exchanged corr5) = .ok (some (⟨M3.one, ⟨-1, 0, 0⟩⟩, exchangedPoints pts')) := by
  have hp0 : 0 < demoX.s.successProb := by norm_num [demoX, demo]
  have hp1 : demoX.s.successProb < 1 := by norm_num [demoX, demo]
  have hn : 1 ≤ demoX.s.maxRansacIter := le_refl _
  have htri : ∀ m p q d, triangulate m p q = some d → demoX.tri m p q = d := demo_tri (f := 1) (solve := fun m _ => m)
  have hfair : SolverFair demoX := fair5_fair
  have hne : corr5 ≠ [] := by simp [corr5]
  obtain ⟨r, hr, h1, h2, h3⟩ := demoX_run
  obtain ⟨hmade, -, -, hi⟩ := coarse_inliers demoX_svd hp0 hp1 hn samples5_drawn hr
  obtain ⟨k, l, -, -, -, h5⟩ := coarse_unfold hr
  have hlen : r.2.depths.length = corr5.length := by rw [h5]; simp [create]
  have hev : r.2.depthsEvaluated = false := by rw [h5]; rfl
  obtain ⟨pts, hpts, hf⟩ := report_spec hmade hlen hev hi
  have hm : matchGeometry demoX samples5 1 false corr5 = .ok (some (m0, pts)) := by
    unfold matchGeometry
    simp only [Bool.false_eq_true, if_false, hr, hpts, h1]
  have href : refineMotion demoX r.2 = (m0, { r.2 with preciseFound := true }) := by
    unfold refineMotion
    have q1 : demoX.solve r.2.motion r.2.inliersInds = m0 := h2
    have q2 : findInliersMotion demoX r.2 m0 (findInliersEssential demoX r.2 (toEssential m0)) = [0, 1, 2, 3, 4] := by
      rw [findInliersEssential_eq hmade, inliers_eq hmade, demoX_inliers]
    simp only [q1, q2]
    obtain ⟨r1, r2⟩ := r
    cases r2
    simp only at h2 h3
    subst h2 h3
    rfl
  obtain ⟨pts', hpts', hf'⟩ := report_spec (e := demoX) (g := { r.2 with preciseFound := true }) hmade hlen hev hi
  have hm' : matchGeometry demoX samples5 1 true corr5 = .ok (some (m0, pts')) := by
    unfold matchGeometry findPreciseMotion
    have c1 : (create demoX corr5).preciseFound = false := rfl
    have c2 : (create demoX corr5).coarseFound = false := rfl
    simp only [c1, c2, Bool.false_eq_true, if_false, if_true, hr, href]
    rw [hpts']
  refine ⟨pts, pts', hm, by rw [← hf.length_eq, h3]; rfl, hm', ?_, ?_, ?_⟩
  · rw [← hf'.length_eq]; show r.2.inliersInds.length = 5; rw [h3]; rfl
  · rw [← back_m0]; exact C178_match demoX_svd htri hfair hp0 hp1 hn hne samples5_drawn demoX_all hm
  · rw [← back_m0]
    exact C178_precise (solve' := fun m _ => m) demoX_svd htri hfair hp0 hp1 hn hne samples5_drawn demoX_all (fun _ _ => rfl) hm' m0_unit.1
      (demoX_decided.clear m0 m0_unit (toEssential_self _))

end Mdso.Stereo
