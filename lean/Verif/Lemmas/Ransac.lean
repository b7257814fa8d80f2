import Verif.Lemmas.StereoGeometry

/-!
# Lemmas: invariant of the RANSAC loop
-/

set_option autoImplicit false

namespace Mdso.Stereo

open Mdso.Geom Mdso.Cam Mdso.StereoSpec

/-! ## The number of iterations -/

theorem truncInt_le {x : ℝ} {n : Int} (h : x ≤ n) : Util.truncInt x ≤ n := by
  unfold Util.truncInt
  by_cases h0 : 0 ≤ x
  · rw [if_pos h0]
    have := Int.floor_le x
    exact_mod_cast this.trans h
  · rw [if_neg h0]; exact Int.ceil_le.2 h

theorem firstQ_nonneg {p : ℝ} {n : Int} (h0 : 0 < p) (h1 : p < 1) (hn : 1 ≤ n) :
    0 ≤ firstQ p n ∧ firstQ p n ^ 5 = 1 - (1 - p) ^ (1 / (n : ℝ)) := by
  have hn' : (0 : ℝ) < n := by exact_mod_cast (by omega : 0 < n)
  have hb : (0 : ℝ) ≤ 1 - (1 - p) ^ (1 / (n : ℝ)) := by
    have := Real.rpow_le_one (x := 1 - p) (z := 1 / (n : ℝ)) (by linarith) (by linarith) (by positivity)
    linarith
  refine ⟨Real.rpow_nonneg hb _, ?_⟩
  unfold firstQ
  rw [← Real.rpow_natCast, ← Real.rpow_mul hb]
  norm_num

theorem newIterNum_le {p q : ℝ} {n : Int} (h0 : 0 < p) (h1 : p < 1) (hn : 1 ≤ n) (hq : firstQ p n < q)
    (hq1 : q ≤ 1) : newIterNum p q ≤ n := by
  have hn' : (0 : ℝ) < n := by exact_mod_cast (by omega : 0 < n)
  obtain ⟨hf0, hf5⟩ := firstQ_nonneg h0 h1 hn
  have hq0 : 0 ≤ q := hf0.trans hq.le
  have hlt : firstQ p n ^ 5 < q ^ 5 := pow_lt_pow_left₀ hq hf0 (by norm_num)
  have hle : q ^ 5 ≤ 1 := pow_le_one₀ hq0 hq1
  unfold newIterNum
  apply truncInt_le
  rcases lt_or_eq_of_le hle with hl | hl
  · have hx : 0 < 1 - q ^ 5 := by linarith
    have hx2 : 1 - q ^ 5 < (1 - p) ^ (1 / (n : ℝ)) := by linarith
    have hlog : Real.log (1 - q ^ 5) < 1 / (n : ℝ) * Real.log (1 - p) := by
      rw [← Real.log_rpow (by linarith : 0 < 1 - p)]
      exact Real.log_lt_log hx hx2
    have hlp : Real.log (1 - p) < 0 := Real.log_neg (by linarith) (by linarith)
    have hneg : Real.log (1 - q ^ 5) < 0 :=
      hlog.trans (mul_neg_of_pos_of_neg (by positivity) hlp)
    rw [div_le_iff_of_neg hneg]
    have h2 : (n : ℝ) * (1 / (n : ℝ) * Real.log (1 - p)) = Real.log (1 - p) := by field_simp
    have h3 := mul_lt_mul_of_pos_left hlog hn'
    linarith
  · rw [hl]; simp; omega

/-- With that many iterations, and one more, all failing is improbable enough. -/
theorem newIterNum_enough {p q : ℝ} {k : Nat} (h0 : 0 < p) (h1 : p < 1) (hq0 : 0 < q) (hq1 : q ≤ 1)
    (h : newIterNum p q ≤ k) : (1 - q ^ 5) ^ (k + 1) < 1 - p := by
  have hlp : Real.log (1 - p) < 0 := Real.log_neg (by linarith) (by linarith)
  rcases lt_or_eq_of_le (pow_le_one₀ hq0.le hq1 : q ^ 5 ≤ 1) with hl | hl
  · have hx : 0 < 1 - q ^ 5 := by linarith
    have hx1 : 1 - q ^ 5 < 1 := by have := pow_pos hq0 5; linarith
    have hneg : Real.log (1 - q ^ 5) < 0 := Real.log_neg hx hx1
    have hpos : 0 ≤ Real.log (1 - p) / Real.log (1 - q ^ 5) := (div_pos_of_neg_of_neg hlp hneg).le
    unfold newIterNum Util.truncInt at h
    rw [if_pos hpos] at h
    have h2 : Real.log (1 - p) / Real.log (1 - q ^ 5) < (k : ℝ) + 1 := by
      have := Int.lt_floor_add_one (Real.log (1 - p) / Real.log (1 - q ^ 5))
      have h3 : ((⌊Real.log (1 - p) / Real.log (1 - q ^ 5)⌋ : Int) : ℝ) ≤ k := by exact_mod_cast h
      linarith
    rw [div_lt_iff_of_neg hneg] at h2
    have h4 : Real.log ((1 - q ^ 5) ^ (k + 1)) < Real.log (1 - p) := by
      rw [Real.log_pow]; push_cast; exact h2
    exact (Real.log_lt_log_iff (pow_pos hx _) (by linarith)).1 h4
  · rw [hl, sub_self, zero_pow (by omega)]; linarith

/-! ## The invariant -/

/-- What holds of the local variables after `k` iterations. -/
structure Inv (e : Env) (corr : List (V2 × V2)) (samples : Nat → List Nat) (k : Nat) (l : Loop) : Prop where
  iter : l.iterNum ≤ e.s.maxRansacIter
  runMax : e.s.runMaxRansacIter = true → l.iterNum = e.s.maxRansacIter
  firstq : firstQ e.s.successProb e.s.maxRansacIter ≤ l.q
  stale : (l.bestInliersInds.length : Int) ≤ max l.bestInliers 0
  best : (l.bestInliers = -1 ∧ l.inliersInds = [] ∧ l.bestMotion = Motion3.one) ∨
    (l.bestInliers = l.inliersInds.length ∧ ((l.inliersInds = [] ∧ l.bestMotion = Motion3.one) ∨
      ∃ j < k, ∃ E, IsHypothesis e corr (samples j) E ∧ l.bestMotion ∈ solutions e E ∧
        l.inliersInds = inliers e corr E l.bestMotion))
  maxi : ∀ j < k, ∀ E, IsHypothesis e corr (samples j) E → ∀ m ∈ solutions e E,
    ((inliers e corr E m).length : Int) ≤ l.bestInliers
  qb : (l.bestInliers : ℝ) / corr.length ≤ l.q
  stop : l.iterNum = e.s.maxRansacIter ∨
    (l.iterNum = newIterNum e.s.successProb l.q ∧ l.q = (l.bestInliers : ℝ) / corr.length)

theorem first_unique {f : M3 → Nat} {b1 b2 a1 a2 : List M3} {x1 x2 : M3}
    (h : b1 ++ x1 :: a1 = b2 ++ x2 :: a2)
    (h1 : ∀ E ∈ b1, f E < f x1) (h1' : ∀ E ∈ a1, f E ≤ f x1)
    (h2 : ∀ E ∈ b2, f E < f x2) (h2' : ∀ E ∈ a2, f E ≤ f x2) : x1 = x2 := by
  rcases List.append_eq_append_iff.1 h with ⟨c, hc1, hc2⟩ | ⟨c, hc1, hc2⟩
  · cases c with
    | nil => simp at hc2; exact hc2.1
    | cons y c =>
      simp only [List.cons_append, List.cons.injEq] at hc2
      obtain ⟨rfl, rfl⟩ := hc2
      have e1 := h2 x1 (by rw [hc1]; simp)
      have e2 := h1' x2 (by simp)
      omega
  · cases c with
    | nil => simp at hc2; exact hc2.1.symm
    | cons y c =>
      simp only [List.cons_append, List.cons.injEq] at hc2
      obtain ⟨rfl, rfl⟩ := hc2
      have e1 := h1 x2 (by rw [hc1]; simp)
      have e2 := h2' x1 (by simp)
      omega

/-- The part of an iteration after a matrix is chosen. -/
noncomputable def conclude (e : Env) (n : Nat) (results : List (Option M3)) (cur : Motion3 × List Nat) (l : Loop) :
    Loop :=
  let l1 : Loop :=
    if l.bestInliers < cur.2.length then
      { l with results := results, bestInliers := cur.2.length, bestMotion := cur.1,
               bestInliersInds := l.inliersInds, inliersInds := cur.2 }
    else { l with results := results, bestInliersInds := cur.2 }
  if (cur.2.length : ℝ) / n > l.q then
    { l1 with
      q := (cur.2.length : ℝ) / n
      iterNum := if e.s.runMaxRansacIter then l.iterNum
        else newIterNum e.s.successProb ((cur.2.length : ℝ) / n) }
  else l1

section
variable {e : Env} {corr : List (V2 × V2)} {g : Estimator} {samples : Nat → List Nat}

theorem iteration_cases (h : Made e corr g) {k : Nat} (hi : ∀ i ∈ samples k, i < corr.length) {l l' : Loop}
    (hit : iteration e g (samples k) l = .ok l') :
    (l' = l ∧ ∀ E, ¬ IsHypothesis e corr (samples k) E) ∨
    ∃ results E inds, l' = conclude e corr.length results (extractMotion e g E inds) l ∧
      ((inds = l.bestInliersInds ∧ ∀ E', IsHypothesis e corr (samples k) E' → indices corr (Fits e E') = []) ∨
       (IsHypothesis e corr (samples k) E ∧ inds = indices corr (Fits e E) ∧
         ∀ E', IsHypothesis e corr (samples k) E' → E' = E)) := by
  unfold iteration at hit
  simp only at hit
  by_cases hr : isRepeated ((samples k).mergeSort (fun a b => decide (a ≤ b))) = true
  · rw [if_pos hr] at hit; cases hit
    left; refine ⟨rfl, ?_⟩
    rintro E ⟨ps, before, after, ⟨inds, hperm, hs, -⟩, -⟩
    rw [← sort_eq hperm hs] at hr
    exact isRepeated_true hr (hs.imp (fun h => ne_of_lt h))
  · rw [if_neg hr] at hit
    right
    have hr' : isRepeated ((samples k).mergeSort (fun a b => decide (a ≤ b))) = false := by simpa using hr
    have hsorted := isRepeated_false (sort_sorted (samples k)) hr'
    have hperm : ((samples k).mergeSort (fun a b => decide (a ≤ b))).Perm (samples k) := List.mergeSort_perm _ _
    obtain ⟨pairs, hp, hf⟩ := hypothesis_ok h (inds := (samples k).mergeSort (fun a b => decide (a ≤ b)))
      (fun i hx => hi i (hperm.subset hx))
    rw [hp] at hit
    simp only at hit
    rcases bestEssential_spec (e := e) (g := g) 0 (e.solve5 pairs) (0, 0, l.bestInliersInds) with
      ⟨hb, hall⟩ | ⟨before, E, after, hsol, hb, hpos, hbef, haft⟩
    · rw [hb] at hit
      simp only at hit
      split at hit
      · rename_i E hE
        refine ⟨overwrite l.results (e.solve5 pairs), E, l.bestInliersInds, ?_, Or.inl ⟨rfl, ?_⟩⟩
        · unfold conclude
          simp only
          rw [made_length h] at hit
          split at hit
          · rename_i hc; rw [if_pos hc]; exact (Except.ok.inj hit).symm
          · rename_i hc; rw [if_neg hc]; exact (Except.ok.inj hit).symm
        · intro E' hE'
          obtain ⟨before, after, hsol, -, -⟩ := isHypothesis_of h hp hi hE'
          have := hall E' (by rw [hsol]; simp)
          rw [findInliersEssential_eq h] at this
          exact List.length_eq_zero_iff.1 (by simpa using this)
      · cases hit
    · rw [hb] at hit
      simp only at hit
      split at hit
      · rename_i E2 hE2
        have hEE : E2 = E := by
          unfold overwrite at hE2
          have hlen : 0 + before.length < ((e.solve5 pairs).map some).length := by
            rw [hsol]; simp
          rw [List.getElem?_append_left hlen, List.getElem?_map, hsol] at hE2
          simp at hE2
          exact hE2.symm
        subst hEE
        refine ⟨overwrite l.results (e.solve5 pairs), E2, findInliersEssential e g E2, ?_, Or.inr ⟨?_, ?_, ?_⟩⟩
        · unfold conclude
          simp only
          rw [made_length h] at hit
          split at hit
          · rename_i hc; rw [if_pos hc]; exact (Except.ok.inj hit).symm
          · rename_i hc; rw [if_neg hc]; exact (Except.ok.inj hit).symm
        · simp only [findInliersEssential_eq h] at hbef haft
          exact ⟨pairs, before, after, ⟨_, hperm, hsorted, hf⟩, hsol, hbef, haft⟩
        · exact findInliersEssential_eq h E2
        · intro E' hE'
          obtain ⟨b2, a2, hsol2, hb2, ha2⟩ := isHypothesis_of h hp hi hE'
          rw [hsol] at hsol2
          exact (first_unique (f := fun E => (findInliersEssential e g E).length) hsol2 hbef haft hb2 ha2).symm
      · cases hit

theorem conclude_inv {k : Nat} {l : Loop} (hinv : Inv e corr samples k l)
    (hp0 : 0 < e.s.successProb) (hp1 : e.s.successProb < 1) (hn : 1 ≤ e.s.maxRansacIter)
    (results : List (Option M3)) {cur : Motion3 × List Nat} (hlen : cur.2.length ≤ corr.length)
    (hcorr : 0 < corr.length)
    (hcur : l.bestInliers < cur.2.length → (cur.2 = [] ∧ cur.1 = Motion3.one) ∨
      ∃ j < k + 1, ∃ E, IsHypothesis e corr (samples j) E ∧ cur.1 ∈ solutions e E ∧
        cur.2 = inliers e corr E cur.1)
    (hmax : ∀ E, IsHypothesis e corr (samples k) E → ∀ m ∈ solutions e E,
      ((inliers e corr E m).length : Int) ≤ max l.bestInliers cur.2.length) :
    Inv e corr samples (k + 1) (conclude e corr.length results cur l) := by
  have hc0 : (0 : ℝ) < corr.length := by exact_mod_cast hcorr
  have hmaxi : ∀ j < k + 1, ∀ E, IsHypothesis e corr (samples j) E → ∀ m ∈ solutions e E,
      ((inliers e corr E m).length : Int) ≤ max l.bestInliers cur.2.length := by
    intro j hj E hE m hm
    rcases Nat.lt_succ_iff_lt_or_eq.1 hj with h' | rfl
    · exact (hinv.maxi j h' E hE m hm).trans (le_max_left _ _)
    · exact hmax E hE m hm
  have hqle : (cur.2.length : ℝ) / corr.length ≤ 1 := by
    rw [div_le_one hc0]; exact_mod_cast hlen
  -- the step without the change of the number of iterations
  unfold conclude
  simp only
  by_cases hb : l.bestInliers < cur.2.length
  · simp only [if_pos hb]
    have hbest := hcur hb
    have hm : max l.bestInliers (cur.2.length : Int) = cur.2.length := max_eq_right hb.le
    rw [hm] at hmaxi
    have hst : (l.inliersInds.length : Int) ≤ max (cur.2.length : Int) 0 := by
      rcases hinv.best with ⟨-, h2, -⟩ | ⟨h1, -⟩
      · rw [h2]; simp
      · rw [← h1]; exact le_trans hb.le (le_max_left _ _)
    by_cases hq : (cur.2.length : ℝ) / corr.length > l.q
    · rw [if_pos hq]
      refine ⟨?_, ?_, hinv.firstq.trans hq.le, hst, Or.inr ⟨rfl, hbest⟩, hmaxi, by simp, ?_⟩
      · by_cases hr : e.s.runMaxRansacIter = true
        · simp only [if_pos hr]; exact hinv.iter
        · simp only [if_neg hr]
          exact newIterNum_le hp0 hp1 hn (lt_of_le_of_lt hinv.firstq hq) hqle
      · intro hr; simp only [if_pos hr]; exact hinv.runMax hr
      · by_cases hr : e.s.runMaxRansacIter = true
        · left; simp only [if_pos hr]; exact hinv.runMax hr
        · right; simp only [if_neg hr]; exact ⟨trivial, by simp⟩
    · rw [if_neg hq]
      refine ⟨hinv.iter, hinv.runMax, hinv.firstq, hst, Or.inr ⟨rfl, hbest⟩, hmaxi, ?_, ?_⟩
      · simpa using not_lt.1 hq
      · rcases hinv.stop with h' | ⟨-, h'⟩
        · exact Or.inl h'
        · exfalso
          apply hq
          rw [h']
          have : (l.bestInliers : ℝ) < (cur.2.length : ℝ) := by exact_mod_cast hb
          exact div_lt_div_of_pos_right this hc0
  · simp only [if_neg hb]
    have hm : max l.bestInliers (cur.2.length : Int) = l.bestInliers := max_eq_left (not_lt.1 hb)
    rw [hm] at hmaxi
    have hq : ¬ (cur.2.length : ℝ) / corr.length > l.q := by
      have h1 : (cur.2.length : ℝ) ≤ l.bestInliers := by exact_mod_cast not_lt.1 hb
      have h2 : (cur.2.length : ℝ) / corr.length ≤ l.bestInliers / corr.length := by gcongr
      exact not_lt.2 (h2.trans hinv.qb)
    rw [if_neg hq]
    refine ⟨hinv.iter, hinv.runMax, hinv.firstq, ?_, ?_, hmaxi, hinv.qb, hinv.stop⟩
    · exact (not_lt.1 hb).trans (le_max_left _ _)
    · rcases hinv.best with h1 | ⟨h1, h2⟩
      · exact Or.inl h1
      · refine Or.inr ⟨h1, ?_⟩
        rcases h2 with h2 | ⟨j, hj, h2⟩
        · exact Or.inl h2
        · exact Or.inr ⟨j, by omega, h2⟩

theorem iteration_inv (h : Made e corr g) (hcorr : 0 < corr.length)
    (hp0 : 0 < e.s.successProb) (hp1 : e.s.successProb < 1) (hn : 1 ≤ e.s.maxRansacIter)
    {k : Nat} (hi : ∀ i ∈ samples k, i < corr.length) {l l' : Loop} (hinv : Inv e corr samples k l)
    (hit : iteration e g (samples k) l = .ok l') : Inv e corr samples (k + 1) l' := by
  rcases iteration_cases h hi hit with ⟨rfl, hno⟩ | ⟨results, E, inds, rfl, hc⟩
  · refine ⟨hinv.iter, hinv.runMax, hinv.firstq, hinv.stale, ?_, ?_, hinv.qb, hinv.stop⟩
    · rcases hinv.best with h1 | ⟨h1, h2⟩
      · exact Or.inl h1
      · refine Or.inr ⟨h1, ?_⟩
        rcases h2 with h2 | ⟨j, hj, h2⟩
        · exact Or.inl h2
        · exact Or.inr ⟨j, by omega, h2⟩
    · intro j hj E hE
      rcases Nat.lt_succ_iff_lt_or_eq.1 hj with h' | rfl
      · exact hinv.maxi j h' E hE
      · exact absurd hE (hno E)
  · rcases hc with ⟨rfl, hzero⟩ | ⟨hE, rfl, huniq⟩
    · have hle := extractMotion_le (e := e) (g := g) E l.bestInliersInds
      have hst := hinv.stale
      have hin : ∀ E', IsHypothesis e corr (samples k) E' → ∀ m, inliers e corr E' m = [] := by
        intro E' hE' m
        rw [← inliers_eq h, hzero E' hE']; rfl
      have hbl : l.bestInliers ≤ corr.length := by
        rcases hinv.best with ⟨h1, -⟩ | ⟨h1, h2⟩
        · rw [h1]; omega
        · rw [h1]
          rcases h2 with ⟨h2, -⟩ | ⟨j, -, E', -, -, h2⟩
          · rw [h2]; simp
          · rw [h2]; exact_mod_cast indices_length_le (corr := corr) _
      apply conclude_inv hinv hp0 hp1 hn results
      · omega
      · exact hcorr
      · intro hlt
        left
        have hb : l.bestInliersInds = [] := by
          rcases hinv.best with ⟨h1, -⟩ | ⟨h1, -⟩
          · rw [h1] at hst
            exact List.length_eq_zero_iff.1 (by simpa using hst)
          · exfalso
            have : 0 ≤ l.bestInliers := by rw [h1]; exact Int.natCast_nonneg _
            rw [max_eq_left this] at hst
            omega
        rw [hb, extractMotion_nil]; exact ⟨rfl, rfl⟩
      · intro E' hE' m _
        rw [hin E' hE' m]
        exact le_max_of_le_right (by simp)
    · obtain ⟨h1, h2⟩ := extractMotion_spec (e := e) (g := g) E (indices corr (Fits e E))
      apply conclude_inv hinv hp0 hp1 hn results
      · exact (extractMotion_le _ _).trans (indices_length_le _)
      · exact hcorr
      · intro _
        rcases h1 with h1 | ⟨m, hm, h1, -⟩
        · left; rw [h1]; exact ⟨rfl, rfl⟩
        · right
          refine ⟨k, by omega, E, hE, ?_, ?_⟩
          · rw [h1]; exact hm
          · rw [h1]; exact inliers_eq h E m
      · intro E' hE' m hm
        have := huniq E' hE'
        subst this
        have := h2 m hm
        rw [inliers_eq h] at this
        exact le_max_of_le_right (by exact_mod_cast this)

theorem start_inv (hg : g.inliersInds = []) (hp0 : 0 < e.s.successProb) (hp1 : e.s.successProb < 1)
    (hn : 1 ≤ e.s.maxRansacIter) : Inv e corr samples 0 (start e g) := by
  refine ⟨le_refl _, fun _ => rfl, le_refl _, by simp [start], Or.inl ⟨rfl, hg, rfl⟩, by simp, ?_, Or.inl rfl⟩
  have := (firstQ_nonneg hp0 hp1 hn).1
  refine le_trans ?_ this
  simp only [start]
  apply div_nonpos_of_nonpos_of_nonneg
  · norm_num
  · exact Nat.cast_nonneg _

/-- The loop: number of iterations, invariant, and that later samples do not matter. -/
theorem ransac_inv (h : Made e corr g) (hcorr : 0 < corr.length)
    (hp0 : 0 < e.s.successProb) (hp1 : e.s.successProb < 1) (hn : 1 ≤ e.s.maxRansacIter)
    (hd : ∀ it, ∀ i ∈ samples it, i < corr.length) (fuel it k : Nat) (l l' : Loop)
    (hinv : Inv e corr samples it l) (hle : (it : Int) ≤ e.s.maxRansacIter)
    (hr : ransac e g samples fuel it l = .ok (some (k, l'))) :
    (k : Int) ≤ e.s.maxRansacIter ∧ Inv e corr samples k l' ∧ it ≤ k ∧ l'.iterNum ≤ k ∧
      ((it : Int) < l.iterNum → it < k) ∧
      ∀ samples', (∀ j, it ≤ j → j < k → samples' j = samples j) →
        ransac e g samples' fuel it l = .ok (some (k, l')) := by
  induction fuel generalizing it l with
  | zero =>
    unfold ransac at hr
    by_cases hi : (it : Int) < l.iterNum
    · simp only [if_pos hi] at hr; cases hr
    · simp only [if_neg hi] at hr; cases hr
      refine ⟨hle, hinv, le_refl _, not_lt.1 hi, fun h' => absurd h' hi, ?_⟩
      intro s _; unfold ransac; simp only [if_neg hi]
  | succ fuel ih =>
    unfold ransac at hr
    by_cases hi : (it : Int) < l.iterNum
    · simp only [if_pos hi] at hr
      split at hr
      · cases hr
      · rename_i l1 hl1
        have hinv1 := iteration_inv h hcorr hp0 hp1 hn (hd it) hinv hl1
        obtain ⟨h1, h2, h3, h4, -, h5⟩ := ih (it + 1) l1 hinv1 (by have := hinv.iter; push_cast; omega) hr
        refine ⟨h1, h2, by omega, h4, fun _ => by omega, ?_⟩
        intro s hs
        unfold ransac
        simp only [if_pos hi]
        rw [hs it (le_refl _) (by omega), hl1]
        exact h5 s (fun j hj hj' => hs j (by omega) hj')
    · simp only [if_neg hi] at hr; cases hr
      refine ⟨hle, hinv, le_refl _, not_lt.1 hi, fun h' => absurd h' hi, ?_⟩
      intro s _; unfold ransac; simp only [if_neg hi]

/-- Enough fuel. -/
theorem ransac_fuel (h : Made e corr g) (hcorr : 0 < corr.length)
    (hp0 : 0 < e.s.successProb) (hp1 : e.s.successProb < 1) (hn : 1 ≤ e.s.maxRansacIter)
    (hd : ∀ it, ∀ i ∈ samples it, i < corr.length) (fuel it : Nat) (l : Loop)
    (hinv : Inv e corr samples it l) (hle : e.s.maxRansacIter ≤ it + fuel) :
    ransac e g samples fuel it l ≠ .ok none := by
  induction fuel generalizing it l with
  | zero =>
    unfold ransac
    have hi : ¬ (it : Int) < l.iterNum := by have := hinv.iter; omega
    simp only [if_neg hi]; simp
  | succ fuel ih =>
    unfold ransac
    by_cases hi : (it : Int) < l.iterNum
    · simp only [if_pos hi]
      split
      · simp
      · rename_i l1 hl1
        exact ih (it + 1) l1 (iteration_inv h hcorr hp0 hp1 hn (hd it) hinv hl1) (by push_cast at *; omega)
    · simp only [if_neg hi]; simp

/-- An iteration is defined if the solver finds a matrix. -/
theorem iteration_ok (h : Made e corr g) {sample : List Nat} (hi : ∀ i ∈ sample, i < corr.length)
    (hs : ∀ pairs, SamplePairs e corr sample pairs → e.solve5 pairs ≠ []) (l : Loop) :
    ∃ l', iteration e g sample l = .ok l' := by
  unfold iteration
  simp only
  by_cases hr : isRepeated (sample.mergeSort (fun a b => decide (a ≤ b))) = true
  · rw [if_pos hr]; exact ⟨l, rfl⟩
  · rw [if_neg hr]
    have hr' : isRepeated (sample.mergeSort (fun a b => decide (a ≤ b))) = false := by simpa using hr
    have hsorted := isRepeated_false (sort_sorted sample) hr'
    have hperm : (sample.mergeSort (fun a b => decide (a ≤ b))).Perm sample := List.mergeSort_perm _ _
    obtain ⟨pairs, hp, hf⟩ := hypothesis_ok h (inds := sample.mergeSort (fun a b => decide (a ≤ b)))
      (fun i hx => hi i (hperm.subset hx))
    rw [hp]
    simp only
    have hne := hs pairs ⟨_, hperm, hsorted, hf⟩
    have hlen : 0 < (e.solve5 pairs).length := List.length_pos_of_ne_nil hne
    have hidx : (bestEssential e g 0 (e.solve5 pairs) (0, 0, l.bestInliersInds)).2.1 < (e.solve5 pairs).length := by
      rcases bestEssential_spec (e := e) (g := g) 0 (e.solve5 pairs) (0, 0, l.bestInliersInds) with
        ⟨hb, -⟩ | ⟨before, E, after, hsol, hb, -⟩
      · rw [hb]; exact hlen
      · rw [hb]; simp only [hsol]; simp
    have hval : (overwrite l.results (e.solve5 pairs))[(bestEssential e g 0 (e.solve5 pairs)
        (0, 0, l.bestInliersInds)).2.1]? = some (some ((e.solve5 pairs)[(bestEssential e g 0 (e.solve5 pairs)
        (0, 0, l.bestInliersInds)).2.1])) := by
      unfold overwrite
      rw [List.getElem?_append_left (by rw [List.length_map]; exact hidx), List.getElem?_map,
        List.getElem?_eq_getElem hidx]
      rfl
    rw [hval]
    simp only
    split
    · exact ⟨_, rfl⟩
    · exact ⟨_, rfl⟩

theorem ransac_ok (h : Made e corr g) (hd : ∀ it, ∀ i ∈ samples it, i < corr.length)
    (hs : ∀ it pairs, SamplePairs e corr (samples it) pairs → e.solve5 pairs ≠ []) (fuel it : Nat) (l : Loop) :
    ∃ r, ransac e g samples fuel it l = .ok r := by
  induction fuel generalizing it l with
  | zero =>
    unfold ransac
    by_cases hi : (it : Int) < l.iterNum
    · simp only [if_pos hi]; exact ⟨_, rfl⟩
    · simp only [if_neg hi]; exact ⟨_, rfl⟩
  | succ fuel ih =>
    unfold ransac
    by_cases hi : (it : Int) < l.iterNum
    · simp only [if_pos hi]
      obtain ⟨l1, hl1⟩ := iteration_ok h (hd it) (hs it) l
      rw [hl1]; exact ih (it + 1) l1
    · simp only [if_neg hi]; exact ⟨_, rfl⟩

end

end Mdso.Stereo
