import Verif.Lemmas.StereoDemo

/-!
# Properties of the estimation of the motion between two views
-/

set_option autoImplicit false

namespace Mdso.Stereo

open Mdso.Geom Mdso.Cam Mdso.StereoSpec

/-- What `findCoarseMotion` leaves behind. -/
theorem coarse_unfold {e : Env} {corr : List (V2 × V2)} {samples : Nat → List Nat} {fuel : Nat}
    {r : Motion3 × Estimator} (h : findCoarseMotion e samples fuel (create e corr) = .ok (some r)) :
    ∃ k l, ransac e (create e corr) samples fuel 0 (start e (create e corr)) = .ok (some (k, l)) ∧
      corr ≠ [] ∧
      r.1 = (extractMotion e (create e corr) (toEssential l.bestMotion) l.inliersInds).1 ∧
      r.2 = { create e corr with
        coarseFound := true
        motion := l.bestMotion
        inliersInds := (extractMotion e (create e corr) (toEssential l.bestMotion) l.inliersInds).2 } := by
  unfold findCoarseMotion at h
  have h1 : ((create e corr).coarseFound || (create e corr).preciseFound) = false := rfl
  rw [h1] at h
  by_cases h2 : (create e corr).rays.length = 0
  · simp only [Bool.false_eq_true, if_false, if_pos h2] at h; cases h
  · simp only [Bool.false_eq_true, if_false, if_neg h2] at h
    split at h
    · cases h
    · cases h
    · rename_i k l hr
      cases h
      refine ⟨k, l, hr, ?_, rfl, rfl⟩
      rintro rfl
      exact h2 rfl

/-- The last choice among four solutions keeps the inliers. -/
theorem final_choice {e : Env} {corr : List (V2 × V2)} {samples : Nat → List Nat} {k : Nat} {l : Loop}
    (he : SvdCorrect e) (hinv : Inv e corr samples k l) :
    (l.inliersInds = [] ∧ l.bestMotion = Motion3.one ∧
      extractMotion e (create e corr) (toEssential l.bestMotion) l.inliersInds = (Motion3.one, [])) ∨
    (∃ j < k, ∃ E m, IsHypothesis e corr (samples j) E ∧ l.bestMotion ∈ solutions e E ∧
      l.inliersInds = inliers e corr E l.bestMotion ∧ m ∈ solutions e (toEssential l.bestMotion) ∧
      extractMotion e (create e corr) (toEssential l.bestMotion) l.inliersInds = (m, l.inliersInds) ∧
      ∀ i ∈ l.inliersInds, inFront e (create e corr) m i = true) ∨
    (l.inliersInds = [] ∧ ∃ j < k, ∃ E, IsHypothesis e corr (samples j) E ∧ l.bestMotion ∈ solutions e E ∧
      l.inliersInds = inliers e corr E l.bestMotion ∧
      extractMotion e (create e corr) (toEssential l.bestMotion) l.inliersInds = (Motion3.one, [])) := by
  have hcase : (l.inliersInds = [] ∧ l.bestMotion = Motion3.one) ∨
      ∃ j < k, ∃ E, IsHypothesis e corr (samples j) E ∧ l.bestMotion ∈ solutions e E ∧
        l.inliersInds = inliers e corr E l.bestMotion := by
    rcases hinv.best with ⟨-, h1, h2⟩ | ⟨-, h1⟩
    · exact Or.inl ⟨h1, h2⟩
    · exact h1
  rcases hcase with ⟨h1, h2⟩ | ⟨j, hj, E, hE, hm, hin⟩
  · left; refine ⟨h1, h2, ?_⟩; rw [h1, extractMotion_nil]
  · right
    by_cases hne : l.inliersInds = []
    · right; refine ⟨hne, j, hj, E, hE, hm, hin, ?_⟩; rw [hne, extractMotion_nil]
    · left
      have hself : l.bestMotion ∈ solutions e (toEssential l.bestMotion) :=
        solutions_complete he (solutions_unit he hm) (toEssential_self _)
      have hall : ∀ i ∈ l.inliersInds, inFront e (create e corr) l.bestMotion i = true := by
        intro i hi
        rw [hin] at hi
        obtain ⟨c, hc, -, hf⟩ := mem_indices.1 hi
        exact (inFront_iff (made_create e corr) _ _).2 ⟨c, hc, hf⟩
      obtain ⟨m, hm', h3, h4⟩ := extractMotion_all hself hne hall
      exact ⟨j, hj, E, m, hE, hm, hin, hm', h3, h4⟩

/-! ## C51 -/

/-- **C51** (partial). Of `findCoarseMotion` on any non-empty correspondences with any random numbers: for some number
`k` of iterations, at least one and at most the configured maximum, the result depends on the first `k` samples only;
unless `k` is the maximum, which it is if all iterations are asked for, the share of inliers reported is such that
`k + 1` samples, each good with the fifth power of it as probability, are all bad with a probability below the one
configured; the reported inliers are none, or precisely the correspondences that agree with the essential
matrix of a hypothesis and lie in front of both views for the motion found, and they are in front for the motion
returned as well; and no motion having the essential matrix of the hypothesis of any of the `k` samples has more inliers.
Missing: the other matrices found for a sample. A matrix with which fewer correspondences agree is dropped before
looking at depths, and may have more inliers. -/
theorem C51_ransac_partial {e : Env} (he : SvdCorrect e) (hs : SolverCorrect e)
    (hp0 : 0 < e.s.successProb) (hp1 : e.s.successProb < 1) (hn : 1 ≤ e.s.maxRansacIter)
    {corr : List (V2 × V2)} {samples : Nat → List Nat} (hd : Drawn corr.length samples) {fuel : Nat}
    {r : Motion3 × Estimator} (h : findCoarseMotion e samples fuel (create e corr) = .ok (some r)) :
    ∃ k : Nat, 0 < k ∧ (k : Int) ≤ e.s.maxRansacIter ∧
      (e.s.runMaxRansacIter = true → (k : Int) = e.s.maxRansacIter) ∧
      ((k : Int) = e.s.maxRansacIter ∨
        (1 - ((r.2.inliersInds.length : ℝ) / corr.length) ^ 5) ^ (k + 1) < 1 - e.s.successProb) ∧
      (∀ samples', (∀ j < k, samples' j = samples j) →
        findCoarseMotion e samples' fuel (create e corr) = .ok (some r)) ∧
      (r.2.inliersInds = [] ∨ ∃ j < k, ∃ E, IsHypothesis e corr (samples j) E ∧ IsUnitMotion r.2.motion ∧
        HasEssential r.2.motion E ∧ r.2.inliersInds = inliers e corr E r.2.motion ∧
        IsUnitMotion r.1 ∧ HasEssential r.1 E ∧ r.2.inliersInds = inliers e corr E r.1) ∧
      (∀ j < k, ∀ E, IsHypothesis e corr (samples j) E → ∀ m, IsUnitMotion m → HasEssential m E →
        (inliers e corr E m).length ≤ r.2.inliersInds.length) := by
  obtain ⟨k, l, hr, hne, h1, h2⟩ := coarse_unfold h
  have hcorr : 0 < corr.length := List.length_pos_of_ne_nil hne
  have hmade := made_create e corr
  obtain ⟨g1, g2, -, g4, g6, g5⟩ := ransac_inv hmade hcorr hp0 hp1 hn (fun it => (hd it).2) fuel 0 k _ l
    (start_inv rfl hp0 hp1 hn) (by omega) hr
  have hfin : (extractMotion e (create e corr) (toEssential l.bestMotion) l.inliersInds).2 = l.inliersInds := by
    rcases final_choice he g2 with ⟨h3, -, h5⟩ | ⟨_, _, _, _, _, _, _, _, h5, _⟩ | ⟨h3, -, -, -, -, -, -, h5⟩
    · rw [h5, h3]
    · rw [h5]
    · rw [h5, h3]
  refine ⟨k, g6 (by simp only [start]; omega), g1, ?_, ?_, ?_, ?_, ?_⟩
  · intro hrun; have := g2.runMax hrun; omega
  · rcases g2.stop with h3 | ⟨h3, h4⟩
    · left; omega
    · by_cases hq0 : 0 < l.q
      · right
        have hlen : (l.inliersInds.length : ℝ) / corr.length = l.q ∧ l.inliersInds.length ≤ corr.length := by
          rcases g2.best with ⟨h5, -, -⟩ | ⟨h5, h6⟩
          · exfalso
            rw [h4, h5] at hq0
            have : ((-1 : Int) : ℝ) / corr.length ≤ 0 :=
              div_nonpos_of_nonpos_of_nonneg (by norm_num) (Nat.cast_nonneg _)
            linarith
          · refine ⟨by rw [h4, h5]; simp, ?_⟩
            rcases h6 with ⟨h6, -⟩ | ⟨_, _, _, _, _, h6⟩
            · rw [h6]; simp
            · rw [h6]; exact indices_length_le _
        have hq1 : l.q ≤ 1 := by
          rw [← hlen.1, div_le_one (by exact_mod_cast hcorr)]; exact_mod_cast hlen.2
        rw [h2]
        show (1 - (((extractMotion e (create e corr) (toEssential l.bestMotion) l.inliersInds).2.length : ℝ) /
          corr.length) ^ 5) ^ (k + 1) < _
        rw [hfin, hlen.1]
        exact newIterNum_enough hp0 hp1 hq0 hq1 (by rw [← h3]; exact g4)
      · exfalso
        have h5 := firstQ_nonneg hp0 hp1 hn
        have h6 : 0 < firstQ e.s.successProb e.s.maxRansacIter := by
          rcases lt_or_eq_of_le h5.1 with h7 | h7
          · exact h7
          · exfalso
            have h8 := h5.2
            rw [← h7] at h8
            have h9 : (1 - e.s.successProb) ^ (1 / (e.s.maxRansacIter : ℝ)) < 1 :=
              Real.rpow_lt_one (by linarith) (by linarith)
                (one_div_pos.2 (by exact_mod_cast (by omega : 0 < e.s.maxRansacIter)))
            norm_num at h8
            norm_num at h9
            linarith
        have := g2.firstq
        linarith
  · intro samples' hsame
    have hr' := g5 samples' (fun j _ hj => hsame j hj)
    unfold findCoarseMotion at h ⊢
    have h3 : ((create e corr).coarseFound || (create e corr).preciseFound) = false := rfl
    rw [h3] at h ⊢
    simp only [Bool.false_eq_true, if_false] at h ⊢
    rw [hr] at h; rw [hr']; exact h
  · rcases final_choice he g2 with ⟨h3, h4, h5⟩ | ⟨j, hj, E, m, hE, hm, hin, hm', h5, h6⟩ | ⟨h3, -, -, -, -, -, -, h5⟩
    · left; rw [h2, h5]
    · right
      have hbu := solutions_unit he hm
      have hbE : HasEssential l.bestMotion E := by
        obtain ⟨ps, before, after, -, hsol, -⟩ := hE
        obtain ⟨m0, hm0, hm0E⟩ := hs ps E (by rw [hsol]; simp)
        exact solutions_sound he hm0 hm0E hm
      have hmE : HasEssential m E := by
        obtain ⟨c1, hc1, e1⟩ := solutions_sound he hbu (toEssential_self _) hm'
        obtain ⟨c2, hc2, e2⟩ := hbE
        exact ⟨c1 * c2, mul_ne_zero hc1 hc2, by rw [e1, e2, M3.scale_scale]⟩
      refine ⟨j, hj, E, hE, ?_, ?_, ?_, ?_, ?_, ?_⟩
      · rw [h2]; exact hbu
      · rw [h2]; exact hbE
      · rw [h2, h5]; exact hin
      · rw [h1, h5]; exact solutions_unit he hm'
      · rw [h1, h5]; exact hmE
      · rw [h1, h2, h5]
        show l.inliersInds = inliers e corr E m
        -- as many inliers as the best motion, which has most
        have hsub : ∀ i ∈ l.inliersInds, i ∈ inliers e corr E m := by
          intro i hi
          have hf := (inFront_iff hmade m i).1 (h6 i hi)
          rw [hin] at hi
          obtain ⟨c, hc, hfit, -⟩ := mem_indices.1 hi
          obtain ⟨c', hc', hf⟩ := hf
          rw [hc] at hc'; cases hc'
          exact mem_indices.2 ⟨c, hc, hfit, hf⟩
        have hmE' : m ∈ solutions e E := solutions_complete he (solutions_unit he hm') hmE
        have hlen : (inliers e corr E m).length ≤ l.inliersInds.length := by
          have h7 := g2.maxi j hj E hE m hmE'
          rcases g2.best with ⟨h8, h9, -⟩ | ⟨h8, -⟩
          · rw [h8] at h7; omega
          · rw [h8] at h7; exact_mod_cast h7
        have hnd : ∀ P : V2 × V2 → Prop, (indices corr P).Pairwise (· < ·) := by
          intro P; exact List.Pairwise.filter _ List.pairwise_lt_range
        have hs1 : l.inliersInds.Pairwise (· < ·) := by rw [hin]; exact hnd _
        have hs2 : (inliers e corr E m).Pairwise (· < ·) := hnd _
        have hsp : l.inliersInds.Subperm (inliers e corr E m) :=
          List.subperm_of_subset (hs1.imp (fun h => ne_of_lt h)) hsub
        exact (hsp.perm_of_length_le hlen).eq_of_pairwise (fun a b _ _ h1 h2 => absurd h1 (not_lt.2 h2.le)) hs1 hs2
    · left; rw [h2, h5]
  · intro j hj E hE m hm hmE
    have h7 := g2.maxi j hj E hE m (solutions_complete he hm hmE)
    have hlen : ((inliers e corr E m).length : Int) ≤ l.inliersInds.length := by
      rcases g2.best with ⟨h8, h9, -⟩ | ⟨h8, -⟩
      · rw [h8] at h7; omega
      · rw [h8] at h7; exact h7
    rw [h2]
    show (inliers e corr E m).length ≤
      (extractMotion e (create e corr) (toEssential l.bestMotion) l.inliersInds).2.length
    rw [hfin]; exact_mod_cast hlen

/-- **C51** (iterations). The loop ends: as many rounds as the configured maximum suffice. -/
theorem C51_terminates {e : Env} (hp0 : 0 < e.s.successProb) (hp1 : e.s.successProb < 1)
    (hn : 1 ≤ e.s.maxRansacIter) {corr : List (V2 × V2)} {samples : Nat → List Nat}
    (hd : Drawn corr.length samples) {fuel : Nat} (hfuel : e.s.maxRansacIter ≤ fuel) :
    findCoarseMotion e samples fuel (create e corr) ≠ .ok none := by
  unfold findCoarseMotion
  have h1 : ((create e corr).coarseFound || (create e corr).preciseFound) = false := rfl
  rw [h1]
  by_cases h2 : (create e corr).rays.length = 0
  · simp only [Bool.false_eq_true, if_false, if_pos h2]; simp
  · simp only [Bool.false_eq_true, if_false, if_neg h2]
    have hcorr : 0 < corr.length := by
      have := made_length (made_create e corr); omega
    have := ransac_fuel (samples := samples) (made_create e corr) hcorr hp0 hp1 hn (fun it => (hd it).2) fuel 0
      (start e (create e corr)) (start_inv rfl hp0 hp1 hn) (by omega)
    split
    · simp
    · rename_i h'; exact absurd h' this
    · simp

/-! ## C79 -/

/-- **C79**. The motion that `findCoarseMotion` returns and the one it keeps are each a rotation with a translation of
length one, or the identity; the identity is kept or returned only without inliers. -/
theorem C79_coarse {e : Env} (he : SvdCorrect e) (hp0 : 0 < e.s.successProb) (hp1 : e.s.successProb < 1)
    (hn : 1 ≤ e.s.maxRansacIter) {corr : List (V2 × V2)} {samples : Nat → List Nat}
    (hd : Drawn corr.length samples) {fuel : Nat}
    {r : Motion3 × Estimator} (h : findCoarseMotion e samples fuel (create e corr) = .ok (some r)) :
    (IsUnitMotion r.1 ∨ (r.1 = Motion3.one ∧ r.2.inliersInds = [])) ∧
    (IsUnitMotion r.2.motion ∨ (r.2.motion = Motion3.one ∧ r.2.inliersInds = [])) := by
  obtain ⟨k, l, hr, hne, h1, h2⟩ := coarse_unfold h
  have hcorr : 0 < corr.length := List.length_pos_of_ne_nil hne
  obtain ⟨-, g2, -⟩ := ransac_inv (made_create e corr) hcorr hp0 hp1 hn (fun it => (hd it).2) fuel 0 k _ l
    (start_inv rfl hp0 hp1 hn) (by omega) hr
  rcases final_choice he g2 with ⟨h3, h4, h5⟩ | ⟨_, _, _, m, _, hm, _, hm', h5, _⟩ | ⟨h3, _, _, _, _, hm, _, h5⟩
  · refine ⟨Or.inr ⟨by rw [h1, h5], by rw [h2, h5]⟩, Or.inr ⟨by rw [h2]; exact h4, by rw [h2, h5]⟩⟩
  · refine ⟨Or.inl ?_, Or.inl ?_⟩
    · rw [h1, h5]; exact solutions_unit he hm'
    · rw [h2]; exact solutions_unit he hm
  · refine ⟨Or.inr ⟨by rw [h1, h5], by rw [h2, h5]⟩, Or.inl ?_⟩
    rw [h2]; exact solutions_unit he hm

/-- **C79** with averaging: if the solver started at a rotation with a unit translation ends at one, and without
residuals leaves the motion as it is, so does `findPreciseMotion`. -/
theorem C79_precise {e : Env} (he : SvdCorrect e) (hp0 : 0 < e.s.successProb) (hp1 : e.s.successProb < 1)
    (hn : 1 ≤ e.s.maxRansacIter) (hsolve : ∀ m inds, IsUnitMotion m → IsUnitMotion (e.solve m inds))
    (hsolve0 : ∀ m, e.solve m [] = m) {corr : List (V2 × V2)} {samples : Nat → List Nat}
    (hd : Drawn corr.length samples) {fuel : Nat}
    {r : Motion3 × Estimator} (h : findPreciseMotion e samples fuel (create e corr) = .ok (some r)) :
    r.2.motion = r.1 ∧ (IsUnitMotion r.1 ∨ r.1 = Motion3.one) := by
  unfold findPreciseMotion at h
  have e1 : (create e corr).preciseFound = false := rfl
  have e2 : (create e corr).coarseFound = false := rfl
  rw [e1, e2] at h
  simp only [Bool.false_eq_true, if_false] at h
  split at h
  · cases h
  · cases h
  · rename_i r0 hr0
    cases h
    refine ⟨rfl, ?_⟩
    rcases (C79_coarse he hp0 hp1 hn hd hr0).2 with h1 | ⟨h1, h2⟩
    · exact Or.inl (hsolve _ _ h1)
    · right
      show e.solve r0.2.motion r0.2.inliersInds = _
      rw [h1, h2, hsolve0]

/-! ## C80 -/

/-- **C80** (essential matrix). A noise-free correspondence agrees with the essential matrix of the motion, whatever the
threshold. -/
theorem C80_fits {e : Env} {E : M3} {c : V2 × V2} (htol : 0 < e.s.outlierReprojError)
    (hcam : e.map (rayOf e c.1) = c.1) (hepi : (rayOf e c.2).dot (E.mulVec (rayOf e c.1)) = 0) : Fits e E c := by
  have hself : ∀ n v : V3, n.dot v = 0 → Corrected n v v := by
    intro n v h
    by_cases hn : n.sqNorm ≤ 1 / 10000
    · exact Or.inl ⟨hn, rfl⟩
    · exact Or.inr ⟨not_le.1 hn, h, 0, by ext <;> simp⟩
  refine ⟨_, _, hself _ _ ?_, hself _ _ ?_, Or.inl ?_⟩
  · rw [M3.dot_mulVec] at hepi; exact hepi
  · rw [← hepi]; simp only [V3.dot]; ring
  · rw [hcam]
    have : norm2 (c.1 - c.1) = 0 := by simp [norm2, sqNorm]
    rw [this]; exact htol

/-- **C80** (motion). The decomposition of an essential matrix chooses the right one of the four motions: if all
inliers are in front for the motion `m`, and one of them is noise-free and not degenerate, `m` is the result. -/
theorem C80_decomposition {e : Env} (he : SvdCorrect e)
    (htri : ∀ m p q d, triangulate m p q = some d → e.tri m p q = d) {corr : List (V2 × V2)} {E : M3}
    {m : Motion3} (hm : IsUnitMotion m) (hE : HasEssential m E) {inds : List Nat}
    (hall : ∀ i ∈ inds, ∃ c, corr[i]? = some c ∧ Front e m c)
    {i : Nat} {c : V2 × V2} (hi : i ∈ inds) (hc : corr[i]? = some c)
    (hp : (rayOf e c.1).sqNorm = 1) (hq : (rayOf e c.2).sqNorm = 1)
    (hepi : (rayOf e c.2).dot (E.mulVec (rayOf e c.1)) = 0)
    (hpar : ∀ m', IsUnitMotion m' → HasEssential m' E → (m'.rot.mulVec (rayOf e c.1)).cross (rayOf e c.2) ≠ 0) :
    extractMotion e (create e corr) E inds = (m, inds) := by
  have hmem := solutions_complete he hm hE
  obtain ⟨m', hm', h1, h2⟩ := extractMotion_all (g := create e corr) hmem
    (by intro h; rw [h] at hi; simp at hi)
    (fun j hj => (inFront_iff (made_create e corr) m j).2 (hall j hj))
  obtain ⟨c', hc', hf'⟩ := (inFront_iff (made_create e corr) m' i).1 (h2 i hi)
  obtain ⟨c'', hc'', hf⟩ := hall i hi
  rw [hc] at hc' hc''; cases hc'; cases hc''
  have hm'u := solutions_unit he hm'
  have hm'E := solutions_sound he hm hE hm'
  rw [h1, front_unique he htri hmem hm' hE hp hq hepi (hpar m hm hE) (hpar m' hm'u hm'E) hf hf']

/-! ## C81 -/

/-- **C81**. After averaging, the reported inliers are precisely the correspondences that agree with the essential
matrix of the motion returned and have positive depths for it, in increasing order; calling again changes nothing. -/
theorem C81_precise {e : Env} {corr : List (V2 × V2)} {samples : Nat → List Nat} {fuel : Nat}
    {r : Motion3 × Estimator} (h : findPreciseMotion e samples fuel (create e corr) = .ok (some r)) :
    r.2.inliersInds = inliers e corr (toEssential r.1) r.1 ∧
    (∀ samples' fuel', findPreciseMotion e samples' fuel' r.2 = .ok (some r)) ∧
    (∀ samples' fuel', findCoarseMotion e samples' fuel' r.2 = .ok (some r)) := by
  unfold findPreciseMotion at h
  have e1 : (create e corr).preciseFound = false := rfl
  have e2 : (create e corr).coarseFound = false := rfl
  rw [e1, e2] at h
  simp only [Bool.false_eq_true, if_false] at h
  split at h
  · cases h
  · cases h
  · rename_i r0 hr0
    cases h
    obtain ⟨k, l, -, -, -, h2⟩ := coarse_unfold hr0
    have hmade : Made e corr r0.2 := by rw [h2]; exact ⟨rfl, rfl⟩
    refine ⟨?_, ?_, ?_⟩
    · show findInliersMotion e r0.2 _ (findInliersEssential e r0.2 _) = _
      rw [findInliersEssential_eq hmade, inliers_eq hmade]
      rfl
    · intro samples' fuel'
      unfold findPreciseMotion; rfl
    · intro samples' fuel'
      unfold findCoarseMotion
      have : ((refineMotion e r0.2).2.coarseFound || (refineMotion e r0.2).2.preciseFound) = true := by
        simp [refineMotion]
      rw [this]; rfl

/-! ## C82 -/

/-- **C82** with averaging. `StereoMatcher::match` reports the correspondences that agree with the returned motion, each
with the depths triangulated for that motion, which are positive. -/
theorem C82_match {e : Env} {corr : List (V2 × V2)} {samples : Nat → List Nat} {fuel : Nat}
    {r : Motion3 × List ((V2 × V2) × (ℝ × ℝ))} (h : matchGeometry e samples fuel true corr = .ok (some r)) :
    List.Forall₂ (fun i pt => ∃ c, corr[i]? = some c ∧ pt = (c, e.tri r.1 (rayOf e c.1) (rayOf e c.2)))
      (inliers e corr (toEssential r.1) r.1) r.2 ∧
    ∀ pt ∈ r.2, 0 < pt.2.1 ∧ 0 < pt.2.2 := by
  unfold matchGeometry at h
  simp only [if_true] at h
  split at h
  · cases h
  · cases h
  · rename_i r0 hr0
    have h81 := (C81_precise hr0).1
    unfold findPreciseMotion at hr0
    have e1 : (create e corr).preciseFound = false := rfl
    have e2 : (create e corr).coarseFound = false := rfl
    rw [e1, e2] at hr0
    simp only [Bool.false_eq_true, if_false] at hr0
    split at hr0
    · cases hr0
    · cases hr0
    · rename_i r1 hr1
      cases hr0
      obtain ⟨k, l, -, -, -, h2⟩ := coarse_unfold hr1
      have hmade : Made e corr (refineMotion e r1.2).2 := by
        unfold refineMotion; rw [h2]; exact ⟨rfl, rfl⟩
      have hlen : (refineMotion e r1.2).2.depths.length = corr.length := by
        unfold refineMotion; rw [h2]; simp [create]
      have hev : (refineMotion e r1.2).2.depthsEvaluated = false := by
        unfold refineMotion; rw [h2]; rfl
      have hi : ∀ i ∈ (refineMotion e r1.2).2.inliersInds, i < corr.length := by
        intro i hx
        rw [h81] at hx
        obtain ⟨c, hc, -⟩ := mem_indices.1 hx
        exact (List.getElem?_eq_some_iff.1 hc).1
      obtain ⟨pts, hp, hf⟩ := report_spec hmade hlen hev hi
      rw [hp] at h; cases h
      rw [h81] at hf
      refine ⟨hf, ?_⟩
      intro pt hpt
      obtain ⟨i, hi', c, hc, rfl⟩ : ∃ i ∈ inliers e corr (toEssential (refineMotion e r1.2).1)
          (refineMotion e r1.2).1, ∃ c, corr[i]? = some c ∧
          pt = (c, e.tri (refineMotion e r1.2).1 (rayOf e c.1) (rayOf e c.2)) := by
        clear hp h81
        generalize inliers e corr (toEssential (refineMotion e r1.2).1) (refineMotion e r1.2).1 = L at hf
        change List.Forall₂ (fun i pt => ∃ c, corr[i]? = some c ∧
          pt = (c, e.tri (refineMotion e r1.2).1 (rayOf e c.1) (rayOf e c.2))) L pts at hf
        induction hf with
        | nil => simp at hpt
        | cons h1 _ ih =>
          rcases List.mem_cons.1 hpt with rfl | hpt
          · exact ⟨_, by simp, h1⟩
          · obtain ⟨i, hi', h3⟩ := ih hpt
            exact ⟨i, by simp [hi'], h3⟩
      obtain ⟨c', hc', -, hfr⟩ := mem_indices.1 hi'
      rw [hc] at hc'; cases hc'
      exact hfr

/-- **C82** without averaging. All depths reported are positive. -/
theorem C82_match_coarse {e : Env} (he : SvdCorrect e) (hp0 : 0 < e.s.successProb) (hp1 : e.s.successProb < 1)
    (hn : 1 ≤ e.s.maxRansacIter) {corr : List (V2 × V2)} {samples : Nat → List Nat}
    (hd : Drawn corr.length samples) {fuel : Nat}
    {r : Motion3 × List ((V2 × V2) × (ℝ × ℝ))} (h : matchGeometry e samples fuel false corr = .ok (some r)) :
    ∀ pt ∈ r.2, pt.1 ∈ corr ∧ 0 < pt.2.1 ∧ 0 < pt.2.2 := by
  unfold matchGeometry at h
  simp only [Bool.false_eq_true, if_false] at h
  split at h
  · cases h
  · cases h
  · rename_i r0 hr0
    obtain ⟨k, l, hr, hne, -, h2⟩ := coarse_unfold hr0
    have hcorr : 0 < corr.length := List.length_pos_of_ne_nil hne
    obtain ⟨-, g2, -⟩ := ransac_inv (made_create e corr) hcorr hp0 hp1 hn (fun it => (hd it).2) fuel 0 k _ l
      (start_inv rfl hp0 hp1 hn) (by omega) hr
    have hfront : ∀ i ∈ r0.2.inliersInds, ∃ c, corr[i]? = some c ∧ Front e r0.2.motion c := by
      intro i hi
      rw [h2] at hi ⊢
      rcases final_choice he g2 with ⟨-, -, h5⟩ | ⟨_, _, _, _, _, _, hin, _, h5, _⟩ | ⟨-, _, _, _, _, _, _, h5⟩
      · rw [h5] at hi; exact absurd hi (by simp)
      · rw [h5] at hi
        have hi' : i ∈ l.inliersInds := hi
        rw [hin] at hi'
        obtain ⟨c, hc, -, hf⟩ := mem_indices.1 hi'
        exact ⟨c, hc, hf⟩
      · rw [h5] at hi; exact absurd hi (by simp)
    have hmade : Made e corr r0.2 := by rw [h2]; exact ⟨rfl, rfl⟩
    have hlen : r0.2.depths.length = corr.length := by rw [h2]; simp [create]
    have hev : r0.2.depthsEvaluated = false := by rw [h2]; rfl
    have hi : ∀ i ∈ r0.2.inliersInds, i < corr.length := by
      intro i hx
      obtain ⟨c, hc, -⟩ := hfront i hx
      exact (List.getElem?_eq_some_iff.1 hc).1
    obtain ⟨pts, hp, hf⟩ := report_spec hmade hlen hev hi
    rw [hp] at h; cases h
    intro pt hpt
    obtain ⟨i, hi', c, hc, rfl⟩ : ∃ i ∈ r0.2.inliersInds, ∃ c, corr[i]? = some c ∧
        pt = (c, e.tri r0.2.motion (rayOf e c.1) (rayOf e c.2)) := by
      clear hp hfront hi
      generalize r0.2.inliersInds = L at hf
      change List.Forall₂ (fun i pt => ∃ c, corr[i]? = some c ∧
          pt = (c, e.tri r0.2.motion (rayOf e c.1) (rayOf e c.2))) L pts at hf
      induction hf with
      | nil => simp at hpt
      | cons h1 _ ih =>
        rcases List.mem_cons.1 hpt with rfl | hpt
        · exact ⟨_, by simp, h1⟩
        · obtain ⟨i, hi', h3⟩ := ih hpt
          exact ⟨i, by simp [hi'], h3⟩
    obtain ⟨c', hc', hfr⟩ := hfront i hi'
    rw [hc] at hc'; cases hc'
    exact ⟨List.mem_of_getElem? hc, hfr⟩

/-! ## C83 -/

/-- **C83** (partial). A reported inlier away from the epipoles is, in one of the images, closer than the threshold to
the image of a ray that satisfies the epipolar constraint exactly, namely the projection of its own ray to the epipolar
plane of the other. -/
theorem C83_epipolar_partial {e : Env} {E : M3} {c : V2 × V2} (h : Fits e E c)
    (h1 : 1 / 10000 < (E.transpose.mulVec (rayOf e c.2)).sqNorm)
    (h2 : 1 / 10000 < (E.mulVec (rayOf e c.1)).sqNorm) :
    (∃ w, (rayOf e c.2).dot (E.mulVec w) = 0 ∧ norm2 (e.map w - c.1) < e.s.outlierReprojError) ∨
    (∃ w, w.dot (E.mulVec (rayOf e c.1)) = 0 ∧ norm2 (e.map w - c.2) < e.s.outlierReprojError) := by
  obtain ⟨w1, w2, hc1, hc2, h⟩ := h
  rcases h with h | h
  · left
    refine ⟨w1, ?_, h⟩
    rcases hc1 with ⟨hle, -⟩ | ⟨-, hd, -⟩
    · linarith
    · rw [M3.dot_mulVec]; exact hd
  · right
    refine ⟨w2, ?_, h⟩
    rcases hc2 with ⟨hle, -⟩ | ⟨-, hd, -⟩
    · linarith
    · rw [← hd]; simp only [V3.dot]; ring

/-! ## C85 -/

/-- **C85** (partial). With at least one correspondence, and a solver that finds a matrix for every sample drawn,
`findCoarseMotion` has defined behaviour and, given enough fuel, returns. -/
theorem C85_defined_partial {e : Env} (hp0 : 0 < e.s.successProb) (hp1 : e.s.successProb < 1)
    (hn : 1 ≤ e.s.maxRansacIter) {corr : List (V2 × V2)} (hne : corr ≠ []) {samples : Nat → List Nat}
    (hd : Drawn corr.length samples)
    (hs : ∀ it pairs, SamplePairs e corr (samples it) pairs → e.solve5 pairs ≠ []) {fuel : Nat}
    (hfuel : e.s.maxRansacIter ≤ fuel) :
    ∃ r, findCoarseMotion e samples fuel (create e corr) = .ok (some r) := by
  have hterm := C51_terminates (e := e) hp0 hp1 hn hd hfuel
  obtain ⟨r, hr⟩ := ransac_ok (made_create e corr) (fun it => (hd it).2) hs fuel 0 (start e (create e corr))
  unfold findCoarseMotion at hterm ⊢
  have h1 : ((create e corr).coarseFound || (create e corr).preciseFound) = false := rfl
  have h2 : ¬ (create e corr).rays.length = 0 := by
    rw [made_length (made_create e corr)]
    exact fun h => hne (List.length_eq_zero_iff.1 h)
  rw [h1] at hterm ⊢
  simp only [Bool.false_eq_true, if_false, if_neg h2] at hterm ⊢
  rw [hr] at hterm ⊢
  cases r with
  | none => exact absurd rfl hterm
  | some r => exact ⟨_, rfl⟩

/-- With fewer than five correspondences, every sample repeats one: no solver is needed, the identity is returned and
there are no inliers. -/
theorem C85_few {e : Env} (hp0 : 0 < e.s.successProb) (hp1 : e.s.successProb < 1)
    (hn : 1 ≤ e.s.maxRansacIter) {corr : List (V2 × V2)} (hne : corr ≠ []) (hfew : corr.length < 5)
    {samples : Nat → List Nat} (hd : Drawn corr.length samples) {fuel : Nat} (hfuel : e.s.maxRansacIter ≤ fuel) :
    ∃ r, findCoarseMotion e samples fuel (create e corr) = .ok (some r) ∧ r.1 = Motion3.one ∧
      r.2.motion = Motion3.one ∧ r.2.inliersInds = [] := by
  have hno : ∀ it pairs, ¬ SamplePairs e corr (samples it) pairs := by
    rintro it pairs ⟨inds, hperm, hsort, -⟩
    have hnd : inds.Nodup := hsort.imp (fun h => ne_of_lt h)
    have hsub : inds ⊆ List.range corr.length := by
      intro i hi
      exact List.mem_range.2 ((hd it).2 i (hperm.subset hi))
    have h1 := (List.subperm_of_subset hnd hsub).length_le
    rw [List.length_range, hperm.length_eq, (hd it).1] at h1
    omega
  obtain ⟨r, hr⟩ := C85_defined_partial hp0 hp1 hn hne hd (fun it ps h => absurd h (hno it ps)) hfuel
  refine ⟨r, hr, ?_⟩
  obtain ⟨k, l, hrr, -, h1, h2⟩ := coarse_unfold hr
  obtain ⟨-, g2, -⟩ := ransac_inv (made_create e corr) (List.length_pos_of_ne_nil hne) hp0 hp1 hn
    (fun it => (hd it).2) fuel 0 k _ l (start_inv rfl hp0 hp1 hn) (by omega) hrr
  have hbest : l.inliersInds = [] ∧ l.bestMotion = Motion3.one := by
    rcases g2.best with ⟨-, h3, h4⟩ | ⟨-, h3 | ⟨j, -, E, ⟨ps, _, _, hps, _⟩, -⟩⟩
    · exact ⟨h3, h4⟩
    · exact h3
    · exact absurd hps (hno j ps)
  rw [h1, h2, hbest.1, hbest.2, extractMotion_nil]
  exact ⟨rfl, rfl, rfl⟩

/-- **C85** is violated: without correspondences, for example when all matched points stand still and are filtered out,
`match` has undefined behaviour: the random indices are drawn from an empty range. -/
theorem C85_empty_violated (e : Env) (samples : Nat → List Nat) (fuel : Nat) (averaging : Bool) :
    matchGeometry e samples fuel averaging [] = .error .ub := by
  cases averaging <;> rfl

/-- **C85** is violated: if the solver finds no matrix for the first sample, an uninitialized matrix is decomposed. -/
theorem C85_no_matrix_violated {e : Env} (hn : 1 ≤ e.s.maxRansacIter) (hsol : ∀ pairs, e.solve5 pairs = [])
    {corr : List (V2 × V2)} {samples : Nat → List Nat} (hd : Drawn corr.length samples)
    (hdist : (samples 0).Nodup) (fuel : Nat) :
    findCoarseMotion e samples (fuel + 1) (create e corr) = .error .ub := by
  have h5 := (hd 0).1
  have hne : corr ≠ [] := by
    rintro rfl
    have : (samples 0)[0]'(by omega) < 0 := (hd 0).2 _ (List.getElem_mem _)
    omega
  unfold findCoarseMotion
  have h1 : ((create e corr).coarseFound || (create e corr).preciseFound) = false := rfl
  have h2 : ¬ (create e corr).rays.length = 0 := by
    rw [made_length (made_create e corr)]
    exact fun h => hne (List.length_eq_zero_iff.1 h)
  rw [h1]
  simp only [Bool.false_eq_true, if_false, if_neg h2]
  have hperm : ((samples 0).mergeSort (fun a b => decide (a ≤ b))).Perm (samples 0) := List.mergeSort_perm _ _
  have hrep : isRepeated ((samples 0).mergeSort (fun a b => decide (a ≤ b))) = false := by
    by_contra h
    exact isRepeated_true (by simpa using h) (hperm.nodup_iff.2 hdist)
  obtain ⟨pairs, hp, -⟩ := hypothesis_ok (made_create e corr)
    (inds := (samples 0).mergeSort (fun a b => decide (a ≤ b))) (fun i hx => (hd 0).2 i (hperm.subset hx))
  have hit : iteration e (create e corr) (samples 0) (start e (create e corr)) = .error .ub := by
    unfold iteration
    simp only [hrep, Bool.false_eq_true, if_false, hp, hsol]
    rfl
  unfold ransac
  have h0 : ((0 : Nat) : Int) < (start e (create e corr)).iterNum := by simp only [start]; omega
  rw [if_pos h0]
  simp only [hit]

/-! ## The example -/

/-- In the example, the five correspondences are found to be inliers of the move to the right. -/
theorem demo_run (solve : Motion3 → List Nat → Motion3) :
    ∃ r, findCoarseMotion (demo 1 solve) samples5 1 (create (demo 1 solve) corr5) = .ok (some r) ∧
      r.1 = m0 ∧ r.2.motion = m0 ∧ r.2.inliersInds = [0, 1, 2, 3, 4] := by
  have hp0 : 0 < (demo 1 solve).s.successProb := by norm_num [demo]
  have hp1 : (demo 1 solve).s.successProb < 1 := by norm_num [demo]
  have hn : 1 ≤ (demo 1 solve).s.maxRansacIter := le_refl _
  obtain ⟨r, hr⟩ := C85_defined_partial hp0 hp1 hn (corr := corr5) (by simp [corr5]) samples5_drawn
    (fun it pairs _ => by simp [demo]) (fuel := 1) (le_refl _)
  obtain ⟨k, hk0, -, -, -, -, hin, hmax⟩ := C51_ransac_partial demo_svd demo_solver hp0 hp1 hn samples5_drawn hr
  refine ⟨r, hr, ?_⟩
  have hall : inliers (demo 1 solve) corr5 (toEssential m0) m0 = [0, 1, 2, 3, 4] := by
    have : ∀ i ∈ List.range corr5.length, ∃ c, corr5[i]? = some c ∧
        (Fits (demo 1 solve) (toEssential m0) c ∧ Front (demo 1 solve) m0 c) := by
      intro i hi
      have hlt := List.mem_range.1 hi
      have hmem := List.getElem_mem hlt
      refine ⟨_, List.getElem?_eq_getElem hlt, ?_, corr5_front hmem⟩
      exact C80_fits (by norm_num [demo]) (demo_cam one_ne_zero _) (corr5_epi hmem)
    unfold inliers indices
    rw [List.filter_eq_self.2 (fun i hi => by simpa using this i hi)]
    rfl
  have huniq : ∀ j E, IsHypothesis (demo 1 solve) corr5 (samples5 j) E → E = toEssential m0 := by
    rintro j E ⟨pairs, before, after, -, hsol, -⟩
    have : E ∈ (demo 1 solve).solve5 pairs := by rw [hsol]; simp
    simpa [demo] using this
  have h5 := hmax 0 hk0 _ (corr5_hypothesis 0) m0 m0_unit (toEssential_self _)
  rw [hall] at h5
  rcases hin with hin | ⟨j, -, E, hE, hu, hess, hin, hu1, hess1, hin1⟩
  · rw [hin] at h5; simp at h5
  · have := huniq j E hE
    subst this
    have hlist : r.2.inliersInds = [0, 1, 2, 3, 4] := by
      have hsub : (inliers (demo 1 solve) corr5 (toEssential m0) r.2.motion).Sublist (List.range corr5.length) :=
        List.filter_sublist
      rw [← hin] at hsub
      exact hsub.eq_of_length_le h5
    have hone : ∀ m, IsUnitMotion m → HasEssential m (toEssential m0) →
        r.2.inliersInds = inliers (demo 1 solve) corr5 (toEssential m0) m → m = m0 := by
      intro m hmu hmE hmin
      have hz : 0 ∈ inliers (demo 1 solve) corr5 (toEssential m0) m := by rw [← hmin, hlist]; simp
      obtain ⟨c, hc, -, hf⟩ := mem_indices.1 hz
      have hmem := List.mem_of_getElem? hc
      obtain ⟨_, -, -, u1⟩ := ray_eq (f := 1) (solve := solve) c.1
      obtain ⟨_, -, -, u2⟩ := ray_eq (f := 1) (solve := solve) c.2
      have hm0 := solutions_complete (demo_svd (f := 1) (solve := solve)) m0_unit (toEssential_self m0)
      have hmm := solutions_complete (demo_svd (f := 1) (solve := solve)) hmu hmE
      exact front_unique demo_svd demo_tri hm0 hmm (toEssential_self m0) u1 u2 (corr5_epi hmem)
        (corr5_nondeg hmem m0 m0_unit (toEssential_self m0)) (corr5_nondeg hmem m hmu hmE) (corr5_front hmem) hf
    exact ⟨hone _ hu1 hess1 hin1, hone _ hu hess hin, hlist⟩

/-- The hypotheses of `C51_ransac_partial`, `C51_terminates`, `C79_coarse` and `C85_defined_partial` are met by the
example, which has a result with five inliers. -/
example : ∃ (e : Env) (corr : List (V2 × V2)) (samples : Nat → List Nat) (r : Motion3 × Estimator),
    SvdCorrect e ∧ SolverCorrect e ∧ 0 < e.s.successProb ∧ e.s.successProb < 1 ∧ 1 ≤ e.s.maxRansacIter ∧
      Drawn corr.length samples ∧ findCoarseMotion e samples 1 (create e corr) = .ok (some r) ∧
      r.2.inliersInds = [0, 1, 2, 3, 4] := by
  obtain ⟨r, h1, -, -, h4⟩ := demo_run (fun m _ => m)
  exact ⟨_, _, _, r, demo_svd, demo_solver, by norm_num [demo], by norm_num [demo], le_refl _, samples5_drawn, h1, h4⟩

/-- Those of `C79_precise` and `C81_precise` are. -/
example : ∃ r, findPreciseMotion (demo 1 fun m _ => m) samples5 1 (create (demo 1 fun m _ => m) corr5) =
    .ok (some r) ∧ r.1 = m0 ∧ (∀ m inds, IsUnitMotion m → IsUnitMotion ((demo 1 fun m _ => m).solve m inds)) ∧
    ∀ m, (demo 1 fun m _ => m).solve m [] = m := by
  obtain ⟨r, h1, -, h3, -⟩ := demo_run (fun m _ => m)
  refine ⟨refineMotion (demo 1 fun m _ => m) r.2, ?_, ?_, fun _ _ h => h, fun _ => rfl⟩
  · unfold findPreciseMotion
    have e1 : (create (demo 1 fun m _ => m) corr5).preciseFound = false := rfl
    have e2 : (create (demo 1 fun m _ => m) corr5).coarseFound = false := rfl
    rw [e1, e2, h1]
    simp
  · exact h3

/-- Those of `C80_fits` and `C80_decomposition` are, for every correspondence of the example. -/
example (solve : Motion3 → List Nat → Motion3) :
    extractMotion (demo 1 solve) (create (demo 1 solve) corr5) (toEssential m0) [0, 1, 2, 3, 4] =
      (m0, [0, 1, 2, 3, 4]) := by
  have hmem : ((⟨0, 0⟩, ⟨1, 0⟩) : V2 × V2) ∈ corr5 := by simp [corr5]
  obtain ⟨_, -, -, u1⟩ := ray_eq (f := 1) (solve := solve) ⟨0, 0⟩
  obtain ⟨_, -, -, u2⟩ := ray_eq (f := 1) (solve := solve) ⟨1, 0⟩
  refine C80_decomposition demo_svd demo_tri m0_unit (toEssential_self _) ?_ (i := 0) (c := (⟨0, 0⟩, ⟨1, 0⟩))
    (by simp) rfl u1 u2 (corr5_epi hmem) (fun m hm hE => corr5_nondeg hmem m hm hE)
  intro i hi
  have hlt : i < corr5.length := by
    simp only [List.mem_cons, List.not_mem_nil, or_false] at hi
    simp only [corr5, List.length_cons, List.length_nil]; omega
  exact ⟨_, List.getElem?_eq_getElem hlt, corr5_front (List.getElem_mem hlt)⟩

/-! ## C84 -/

/-- **C84** (partial). The first call of `depths` after the motion is estimated gives for every reported inlier the
depths triangulated with the motion kept, and zeros for the other correspondences. -/
theorem C84_depths_partial {e : Env} {corr : List (V2 × V2)} {samples : Nat → List Nat} {fuel : Nat}
    {r : Motion3 × Estimator} (h : findPreciseMotion e samples fuel (create e corr) = .ok (some r)) :
    ∃ d g', depths e r.2 = .ok (d, g') ∧ d.length = corr.length ∧
      ∀ i c, corr[i]? = some c →
        (i ∈ r.2.inliersInds → d[i]? = some (e.tri r.1 (rayOf e c.1) (rayOf e c.2))) ∧
        (i ∉ r.2.inliersInds → d[i]? = some (0, 0)) := by
  have h81 := (C81_precise h).1
  unfold findPreciseMotion at h
  have e1 : (create e corr).preciseFound = false := rfl
  have e2 : (create e corr).coarseFound = false := rfl
  rw [e1, e2] at h
  simp only [Bool.false_eq_true, if_false] at h
  split at h
  · cases h
  · cases h
  · rename_i r1 hr1
    cases h
    obtain ⟨k, l, -, -, -, h2⟩ := coarse_unfold hr1
    have hmade : Made e corr (refineMotion e r1.2).2 := by
      unfold refineMotion; rw [h2]; exact ⟨rfl, rfl⟩
    have hdep : (refineMotion e r1.2).2.depths = corr.map fun _ => (0, 0) := by
      unfold refineMotion; rw [h2]; rfl
    have hev : (refineMotion e r1.2).2.depthsEvaluated = false := by
      unfold refineMotion; rw [h2]; rfl
    have hi : ∀ i ∈ (refineMotion e r1.2).2.inliersInds, i < corr.length := by
      intro i hx
      rw [h81] at hx
      obtain ⟨c, hc, -⟩ := mem_indices.1 hx
      exact (List.getElem?_eq_some_iff.1 hc).1
    obtain ⟨d, h3, h4, h5⟩ := depths_spec hmade (by rw [hdep, List.length_map]) hev hi
    refine ⟨d, _, h3, h4, ?_⟩
    intro i c hc
    obtain ⟨h6, h7⟩ := h5 i c hc
    refine ⟨h6, ?_⟩
    intro hx
    rw [h7 hx, hdep, List.getElem?_map, hc]; rfl

/-- The motion after averaging in the next theorem. -/
noncomputable def m1 : Motion3 := ⟨M3.one, ⟨4 / 5, 0, 3 / 5⟩⟩

/-- **C84** is violated: depths asked for between coarse estimation and averaging are not evaluated again, so that
afterwards `depths` has values that do not belong to the motion returned. -/
theorem C84_stale_violated :
    ∃ (e : Env) (corr : List (V2 × V2)) (samples : Nat → List Nat) (r : Motion3 × Estimator)
      (d : List (ℝ × ℝ)) (g : Estimator) (r' : Motion3 × Estimator) (d' : List (ℝ × ℝ)) (g' : Estimator)
      (c : V2 × V2), SvdCorrect e ∧ Drawn corr.length samples ∧
      (∀ m p q d, triangulate m p q = some d → e.tri m p q = d) ∧
      findCoarseMotion e samples 1 (create e corr) = .ok (some r) ∧ depths e r.2 = .ok (d, g) ∧
      findPreciseMotion e samples 1 g = .ok (some r') ∧ depths e r'.2 = .ok (d', g') ∧
      IsUnitMotion r'.1 ∧ 0 ∈ r'.2.inliersInds ∧ corr[0]? = some c ∧
      ∃ z z', d'[0]? = some z ∧ triangulate r'.1 (rayOf e c.1) (rayOf e c.2) = some z' ∧ z.1 = 1 ∧ z'.1 = 1 / 5 := by
  obtain ⟨e, he⟩ : ∃ e, e = demo 1 (fun _ _ => m1) := ⟨_, rfl⟩
  obtain ⟨r, h1, h2, h3, h4⟩ := demo_run (fun _ _ => m1)
  rw [← he] at h1
  have hr := coarse_unfold h1
  obtain ⟨k, l, -, -, -, hr2⟩ := hr
  have hmade : Made e corr5 r.2 := by rw [hr2]; exact ⟨rfl, rfl⟩
  have hlen : r.2.depths.length = corr5.length := by rw [hr2]; simp [create]
  have hev : r.2.depthsEvaluated = false := by rw [hr2]; rfl
  have hcf : r.2.coarseFound = true := by rw [hr2]
  have hpf : r.2.preciseFound = false := by rw [hr2]; rfl
  have hi : ∀ i ∈ r.2.inliersInds, i < corr5.length := by
    rw [h4]; intro i hi
    simp only [List.mem_cons, List.not_mem_nil, or_false] at hi
    simp only [corr5, List.length_cons, List.length_nil]; omega
  obtain ⟨d, hd, -, hd3⟩ := depths_spec hmade hlen hev hi
  have hd0 := (hd3 0 (⟨0, 0⟩, ⟨1, 0⟩) rfl).1 (by rw [h4]; simp)
  rw [h3] at hd0
  have hmade' : Made e corr5 { r.2 with depthsEvaluated := true, depths := d } := ⟨hmade.1, hmade.2⟩
  obtain ⟨n1, hn1, hr1, u1⟩ := ray_eq (f := 1) (solve := fun _ _ => m1) ⟨0, 0⟩
  obtain ⟨n2, hn2, hr2', u2⟩ := ray_eq (f := 1) (solve := fun _ _ => m1) ⟨1, 0⟩
  rw [← he] at hr1 hr2' u1 u2
  have hn1' : n1 = 1 := by
    rw [hr1, V3.sqNorm_smul] at u1
    simp [V3.sqNorm] at u1
    nlinarith
  have hn2' : n2 * n2 = 1 / 2 := by
    rw [hr2', V3.sqNorm_smul] at u2
    simp [V3.sqNorm] at u2
    linarith
  have v1 : rayOf e ⟨0, 0⟩ = ⟨0, 0, 1⟩ := by rw [hr1, hn1']; ext <;> simp
  have v2 : rayOf e ⟨1, 0⟩ = ⟨n2, 0, n2⟩ := by rw [hr2']; ext <;> simp
  have htri0 : ∃ z : ℝ × ℝ, triangulate m0 (rayOf e ⟨0, 0⟩) (rayOf e ⟨1, 0⟩) = some z ∧ z.1 = 1 := by
    rw [v1, v2]
    unfold triangulate lsq2
    simp only [m0, M3.mulVec_one]
    rw [if_neg (by simp [V3.dot]; nlinarith)]
    refine ⟨_, rfl, ?_⟩
    simp [V3.dot]
    exact hn2.ne'
  have htri1 : ∃ z : ℝ × ℝ, triangulate m1 (rayOf e ⟨0, 0⟩) (rayOf e ⟨1, 0⟩) = some z ∧ z.1 = 1 / 5 ∧ 0 < z.2 := by
    rw [v1, v2]
    unfold triangulate lsq2
    simp only [m1, M3.mulVec_one]
    rw [if_neg (by simp [V3.dot]; nlinarith)]
    refine ⟨_, rfl, ?_, ?_⟩
    · simp [V3.dot]
      rw [div_eq_iff (by nlinarith)]
      nlinarith
    · simp [V3.dot]
      apply div_pos <;> nlinarith
  obtain ⟨z0, hz0, hz0'⟩ := htri0
  obtain ⟨z1, hz1, hz1', hz1''⟩ := htri1
  have htri : ∀ m p q d, triangulate m p q = some d → e.tri m p q = d := by rw [he]; exact demo_tri
  have hm1 : IsUnitMotion m1 := ⟨isRotation_one, by norm_num [m1, V3.sqNorm]⟩
  refine ⟨e, corr5, samples5, r, d, { r.2 with depthsEvaluated := true, depths := d },
    refineMotion e { r.2 with depthsEvaluated := true, depths := d }, d,
    (refineMotion e { r.2 with depthsEvaluated := true, depths := d }).2, (⟨0, 0⟩, ⟨1, 0⟩), ?_, samples5_drawn, htri,
    h1, hd, ?_, ?_, ?_, ?_, rfl, z0, z1, ?_, ?_, hz0', hz1'⟩
  · rw [he]; exact demo_svd
  · unfold findPreciseMotion
    simp only [hpf, hcf]
    simp
  · unfold depths; rfl
  · show IsUnitMotion (e.solve _ _)
    rw [he]; exact hm1
  · show 0 ∈ findInliersMotion e _ (e.solve _ _) (findInliersEssential e _ (toEssential (e.solve _ _)))
    rw [findInliersEssential_eq hmade', inliers_eq hmade']
    have hsv : ∀ m i, e.solve m i = m1 := by rw [he]; intros; rfl
    rw [hsv]
    refine mem_indices.2 ⟨(⟨0, 0⟩, ⟨1, 0⟩), rfl, ?_, ?_⟩
    · refine C80_fits ?_ ?_ ?_
      · rw [he]; norm_num [demo]
      · rw [he]; exact demo_cam one_ne_zero _
      · simp only [v1, v2]
        simp [toEssential, m1, M3.mul, M3.mulVec, hat, V3.dot, M3.one]
    · unfold Front
      simp only
      rw [htri _ _ _ _ hz1]
      exact ⟨by rw [hz1']; norm_num, hz1''⟩
  · rw [hd0, htri _ _ _ _ hz0]
  · have hsv : ∀ m i, e.solve m i = m1 := by rw [he]; intros; rfl
    show triangulate (e.solve _ _) _ _ = _
    rw [hsv]; exact hz1

/-! ## C83, near an epipole -/

/-- One step forward. -/
def mF : Motion3 := ⟨M3.one, ⟨0, 0, 1⟩⟩

/-- **C83** is violated close to an epipole: a correspondence is reported as an inlier of the motion returned although
in both images it is farther than twice the threshold from every point of its epipolar line. -/
theorem C83_epipole_violated :
    ∃ (e : Env) (corr : List (V2 × V2)) (samples : Nat → List Nat) (r : Motion3 × Estimator) (c : V2 × V2),
      SvdCorrect e ∧ Drawn corr.length samples ∧
      (∀ m p q d, triangulate m p q = some d → e.tri m p q = d) ∧
      (∀ px, e.map (rayOf e px) = px) ∧
      findPreciseMotion e samples 1 (create e corr) = .ok (some r) ∧ IsUnitMotion r.1 ∧
      corr[0]? = some c ∧ 0 ∈ r.2.inliersInds ∧ 0 < e.s.outlierReprojError ∧
      (∀ w, (rayOf e c.2).dot ((toEssential r.1).mulVec w) = 0 →
        2 * e.s.outlierReprojError < norm2 (e.map w - c.1)) ∧
      (∀ w : V3, w.dot ((toEssential r.1).mulVec (rayOf e c.1)) = 0 →
        2 * e.s.outlierReprojError < norm2 (e.map w - c.2)) := by
  obtain ⟨e, he⟩ : ∃ e, e = demo 1000 (fun _ _ => mF) := ⟨_, rfl⟩
  have hd : Drawn [((⟨9, 0⟩, ⟨3, 3⟩) : V2 × V2)].length (fun _ => [0, 0, 0, 0, 0]) := by
    intro it; exact ⟨rfl, by simp⟩
  obtain ⟨r0, hr0, -, -, -⟩ := C85_few (e := e) (by rw [he]; norm_num [demo]) (by rw [he]; norm_num [demo])
    (by rw [he]; norm_num [demo]) (corr := [((⟨9, 0⟩, ⟨3, 3⟩) : V2 × V2)]) (by simp) (by simp) hd (fuel := 1)
    (by rw [he]; norm_num [demo])
  have hmF : IsUnitMotion mF := ⟨isRotation_one, by norm_num [mF, V3.sqNorm]⟩
  have hsv : ∀ m i, e.solve m i = mF := by rw [he]; intros; rfl
  have htri : ∀ m p q d, triangulate m p q = some d → e.tri m p q = d := by rw [he]; exact demo_tri
  have hcam : ∀ px, e.map (rayOf e px) = px := by rw [he]; exact fun px => demo_cam (by norm_num) px
  have hpre : findPreciseMotion e (fun _ => [0, 0, 0, 0, 0]) 1 (create e [((⟨9, 0⟩, ⟨3, 3⟩) : V2 × V2)]) =
      .ok (some (refineMotion e r0.2)) := by
    unfold findPreciseMotion
    have e1 : (create e [((⟨9, 0⟩, ⟨3, 3⟩) : V2 × V2)]).preciseFound = false := rfl
    have e2 : (create e [((⟨9, 0⟩, ⟨3, 3⟩) : V2 × V2)]).coarseFound = false := rfl
    rw [e1, e2, hr0]
    simp
  have h1 : (refineMotion e r0.2).1 = mF := hsv _ _
  obtain ⟨n1, hn1, hr1, u1⟩ := ray_eq (f := 1000) (solve := fun _ _ => mF) ⟨9, 0⟩
  obtain ⟨n2, hn2, hr2, u2⟩ := ray_eq (f := 1000) (solve := fun _ _ => mF) ⟨3, 3⟩
  rw [← he] at hr1 hr2 u1 u2
  have hn1' : n1 * n1 * (1000081 / 1000000) = 1 := by
    rw [hr1, V3.sqNorm_smul] at u1
    rw [← u1]; simp [V3.sqNorm]; norm_num
  have hn2' : n2 * n2 * (1000018 / 1000000) = 1 := by
    rw [hr2, V3.sqNorm_smul] at u2
    rw [← u2]; simp [V3.sqNorm]; norm_num
  have hmap : ∀ w : V3, e.map w = ⟨1000 * (w.x / w.z), 1000 * (w.y / w.z)⟩ := by rw [he]; intro w; rfl
  have htol : e.s.outlierReprojError = 5 / 4 := by rw [he]; rfl
  refine ⟨e, _, _, refineMotion e r0.2, (⟨9, 0⟩, ⟨3, 3⟩), ?_, hd, htri, hcam, hpre, ?_, rfl, ?_, ?_, ?_, ?_⟩
  · rw [he]; exact demo_svd
  · rw [h1]; exact hmF
  · rw [(C81_precise hpre).1, h1]
    refine mem_indices.2 ⟨(⟨9, 0⟩, ⟨3, 3⟩), rfl, ?_, ?_⟩
    · refine ⟨_, rayOf e ⟨3, 3⟩, project_corrected _ _, Or.inl ⟨?_, rfl⟩, Or.inr ?_⟩
      · simp only [hr1]
        simp [toEssential, mF, M3.mul, M3.mulVec, hat, V3.dot, M3.one, V3.sqNorm]
        nlinarith
      · rw [hcam, htol]
        simp [norm2, sqNorm]
    · have e1 : ∀ v, mF.rot.mulVec v = v := M3.mulVec_one
      have hpar : (rayOf e ⟨9, 0⟩).cross (rayOf e ⟨3, 3⟩) ≠ 0 := by
        intro h
        have := congrArg V3.x h
        rw [hr1, hr2] at this
        simp [V3.cross] at this
        rcases this with h' | h'
        · exact hn1.ne' h'
        · exact hn2.ne' h'
      obtain ⟨d, hd', hd1, hd2⟩ := triangulate_signs (m := mF) (p := rayOf e ⟨9, 0⟩) (q := rayOf e ⟨3, 3⟩)
        (by rw [e1]; exact u1) u2 (by rw [e1]; exact hpar)
      unfold Front
      simp only
      rw [htri _ _ _ _ hd', hd1, hd2, e1, hr1, hr2]
      constructor
      · simp [V3.dot, mF]
        have : n2 * (n1 * (9 / 1000) * (n2 * (3 / 1000)) + n1 * n2) = n1 * (n2 * n2) * (1 + 27 / 1000000) := by ring
        rw [this]
        nlinarith
      · simp [V3.dot, mF]
        have : n1 * (n1 * (9 / 1000) * (n2 * (3 / 1000)) + n1 * n2) = n2 * (n1 * n1) * (1 + 27 / 1000000) := by ring
        rw [this]
        nlinarith
  · rw [htol]; norm_num
  · intro w hw
    rw [h1] at hw
    simp only [hr2] at hw
    simp [toEssential, mF, M3.mul, M3.mulVec, hat, V3.dot, M3.one] at hw
    have hxy : w.x = w.y := by
      have : n2 * (w.x - w.y) = 0 := by linarith
      rcases mul_eq_zero.1 this with h' | h'
      · exact absurd h' hn2.ne'
      · linarith
    rw [hmap, htol, hxy]
    unfold norm2
    apply Real.lt_sqrt_of_sq_lt
    simp [sqNorm]
    nlinarith [sq_nonneg (1000 * (w.y / w.z) - 9 / 2)]
  · intro w hw
    rw [h1] at hw
    simp only [hr1] at hw
    simp [toEssential, mF, M3.mul, M3.mulVec, hat, V3.dot, M3.one] at hw
    have hy : w.y = 0 := by
      rcases hw with h' | h'
      · exact h'
      · exact absurd h' hn1.ne'
    rw [hmap, htol, hy]
    unfold norm2
    apply Real.lt_sqrt_of_sq_lt
    simp [sqNorm]
    nlinarith [sq_nonneg (1000 * (w.x / w.z) - 3)]

end Mdso.Stereo
