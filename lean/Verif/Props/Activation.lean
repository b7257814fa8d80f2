import Verif.Lemmas.Activation

/-!
# C19, C20: activation of points
-/

set_option autoImplicit false

namespace Mdso.Act

theorem sum_set {α : Type} (f : α → Nat) (l : List α) (k : Nat) (a b : α) (h : l[k]? = some a) :
    ((l.set k b).map f).sum + f a = (l.map f).sum + f b := by
  induction l generalizing k with
  | nil => simp at h
  | cons x l ih =>
    cases k with
    | zero => simp at h; subst h; simp; omega
    | succ k =>
      simp at h
      have := ih k h
      simp only [List.set_cons_succ, List.map_cons, List.sum_cons]
      omega

theorem activateAll_count (l : List (Nat × Nat)) (kfs kfs' : List KeyFrame) (h : activateAll l kfs = .ok kfs') :
    curOptPoints kfs' = curOptPoints kfs + l.length := by
  induction l generalizing kfs with
  | nil => cases h; rfl
  | cons q l ih =>
    obtain ⟨k, ind⟩ := q
    simp only [activateAll] at h
    cases hk : kfs[k]? with
    | none => rw [hk] at h; cases h
    | some kf =>
      rw [hk] at h
      simp only at h
      cases h1 : activateOne kf ind with
      | error e => rw [h1] at h; cases h
      | ok kf1 =>
        rw [h1] at h
        have := ih _ h
        have hs := sum_set (fun kf : KeyFrame => kf.optimized.length) kfs k kf kf1 hk
        have hl : kf1.optimized.length = kf.optimized.length + 1 := by
          unfold activateOne at h1
          cases hi : kf.immature[ind]? with
          | none => rw [hi] at h1; cases h1
          | some ip => rw [hi] at h1; cases h1; simp
        unfold curOptPoints at this ⊢
        rw [this]
        simp only [List.length_cons]
        simp only [hl] at hs
        omega

theorem apply_ok (sort : List Nat → (Nat → Nat) → List Nat) (hs : IsSort sort) (e : Env) (kfs : List KeyFrame)
    (chosen : List Nat) (hnd : chosen.Nodup) (hin : ∀ i ∈ chosen, i < (candidates e 0 kfs).length) :
    ∃ kfs' l, apply sort (candidates e 0 kfs) chosen kfs = .ok kfs' ∧ activateAll l kfs = .ok kfs' ∧
      l.length = chosen.length ∧ kfs'.length = kfs.length ∧
      ∀ (k : Nat) kf, kfs[k]? = some kf → ∃ kf' act, ∃ inds : List Nat, kfs'[k]? = some kf' ∧
        (act ++ kf'.immature).Perm kf.immature ∧
        kf'.optimized = kf.optimized ++ act.map Optimized.ofImmature ∧
        (∀ ip ∈ act, ip.isReady e.optimizedStddev) ∧
        inds.map (fun i => kf.immature[i]?) = act.map some ∧ inds.Nodup ∧
        ∀ ind, ind ∈ inds ↔ ∃ i ∈ chosen, ((candidates e 0 kfs).map Prod.snd)[i]? = some (k, ind) := by
  obtain ⟨P, hP⟩ : ∃ P, P = (candidates e 0 kfs).map Prod.snd := ⟨_, rfl⟩
  have hPnd : P.Nodup := by rw [hP]; exact candidates_nodup e 0 kfs
  have hPlen : P.length = (candidates e 0 kfs).length := by rw [hP, List.length_map]
  obtain ⟨key, hkey⟩ : ∃ key : Nat → Nat, key = keyOf P := ⟨_, rfl⟩
  obtain ⟨hperm, hsorted⟩ := hs chosen key
  obtain ⟨S, hS⟩ : ∃ S, S = sort chosen key := ⟨_, rfl⟩
  rw [← hS] at hperm hsorted
  obtain ⟨l, hl1, hl2⟩ := mapM_pos P S (by
    intro i hi; rw [hPlen]; exact hin i (hperm.mem_iff.1 hi))
  have hllen : l.length = chosen.length := by
    have := congrArg List.length hl2
    simp only [List.length_map] at this
    rw [← this, hperm.length_eq]
  -- entries of `l`
  have hget : ∀ (a : Nat) q, l[a]? = some q → ∃ i, S[a]? = some i ∧ P[i]? = some q := by
    intro a q hq
    have := congrArg (fun L => L[a]?) hl2
    simp only [List.getElem?_map, hq, Option.map_some] at this
    cases hSa : S[a]? with
    | none => rw [hSa] at this; simp at this
    | some i => rw [hSa] at this; simp at this; exact ⟨i, rfl, this⟩
  have hmem : ∀ q, q ∈ l ↔ ∃ i ∈ chosen, P[i]? = some q := by
    intro q
    have : some q ∈ l.map some ↔ some q ∈ S.map (fun i => P[i]?) := by rw [hl2]
    rw [List.mem_map, List.mem_map] at this
    constructor
    · intro hq
      obtain ⟨i, h1, h2⟩ := this.1 ⟨q, hq, rfl⟩
      exact ⟨i, hperm.mem_iff.1 h1, h2⟩
    · rintro ⟨i, h1, h2⟩
      obtain ⟨q', h3, h4⟩ := this.2 ⟨i, hperm.mem_iff.2 h1, h2⟩
      cases h4; exact h3
  have hSnd : S.Nodup := hperm.nodup_iff.2 hnd
  -- strict descent within a keyframe
  have hpair : l.Pairwise fun q r => q.1 = r.1 → r.2 < q.2 := by
    rw [List.pairwise_iff_getElem]
    intro a b ha hb hab heq
    obtain ⟨i, hi1, hi2⟩ := hget a _ (List.getElem?_eq_getElem ha)
    obtain ⟨j, hj1, hj2⟩ := hget b _ (List.getElem?_eq_getElem hb)
    obtain ⟨ha', hi1'⟩ := List.getElem?_eq_some_iff.1 hi1
    obtain ⟨hb', hj1'⟩ := List.getElem?_eq_some_iff.1 hj1
    have hle := List.pairwise_iff_getElem.1 hsorted a b ha' hb' hab
    rw [hi1', hj1', hkey] at hle
    simp only [keyOf, hi2, hj2] at hle
    have hij : i ≠ j := by
      intro h
      have := List.nodup_iff_injective_get.1 hSnd (a₁ := ⟨a, ha'⟩) (a₂ := ⟨b, hb'⟩)
        (by simp only [List.get_eq_getElem]; rw [hi1', hj1', h])
      simp at this; omega
    have hne : l[a] ≠ l[b] := by
      intro h
      rw [h] at hi2
      obtain ⟨hi3, hi4⟩ := List.getElem?_eq_some_iff.1 hi2
      obtain ⟨hj3, hj4⟩ := List.getElem?_eq_some_iff.1 hj2
      exact hij ((List.Nodup.getElem_inj_iff hPnd).1 (hi4.trans hj4.symm))
    rcases Nat.lt_or_ge l[b].2 l[a].2 with h | h
    · exact h
    · exact absurd (Prod.ext heq (by omega)) hne
  have hcand : ∀ q ∈ l, ∃ kf ip, kfs[q.1]? = some kf ∧ kf.immature[q.2]? = some ip ∧
      ip.isReady e.optimizedStddev := by
    intro q hq
    obtain ⟨i, -, h2⟩ := (hmem q).1 hq
    have : q ∈ P := List.mem_of_getElem? h2
    rw [hP] at this
    obtain ⟨c, hc, rfl⟩ := List.mem_map.1 this
    obtain ⟨-, kf, ip, h3, h4, h5⟩ := candidates_mem hc
    exact ⟨kf, ip, by simpa using h3, h4, h5⟩
  have hinds : ∀ k, (indsOf k l).Pairwise fun a b => b < a := by
    intro k
    unfold indsOf
    rw [List.pairwise_map]
    refine (hpair.filter _).imp_of_mem ?_
    intro a b ha hb h
    have h1 := (List.mem_filter.1 ha).2
    have h2 := (List.mem_filter.1 hb).2
    simp only [decide_eq_true_eq] at h1 h2
    exact h (h1.trans h2.symm)
  have hindmem : ∀ k ind, ind ∈ indsOf k l ↔ (k, ind) ∈ l := by
    intro k ind
    unfold indsOf
    rw [List.mem_map]
    constructor
    · rintro ⟨q, hq, rfl⟩
      obtain ⟨h1, h2⟩ := List.mem_filter.1 hq
      simp only [decide_eq_true_eq] at h2
      subst h2; exact h1
    · intro h
      exact ⟨(k, ind), List.mem_filter.2 ⟨h, by simp⟩, rfl⟩
  have hkf : ∀ (k : Nat) kf, kfs[k]? = some kf → ∃ kf' act, activateKf (indsOf k l) kf = .ok kf' ∧
      (indsOf k l).map (fun i => kf.immature[i]?) = act.map some ∧
      (act ++ kf'.immature).Perm kf.immature ∧
      kf'.optimized = kf.optimized ++ act.map Optimized.ofImmature := by
    intro k kf hk
    apply activateKf_ok _ (hinds k)
    intro i hi
    obtain ⟨kf', ip, h1, h2, -⟩ := hcand _ ((hindmem k i).1 hi)
    simp only at h1 h2
    rw [hk] at h1; cases h1
    exact (List.getElem?_eq_some_iff.1 h2).1
  obtain ⟨kfs', a1, a2, a3⟩ := activateAll_ok l kfs
    (by
      intro q hq
      obtain ⟨kf, ip, h1, -⟩ := hcand q hq
      exact (List.getElem?_eq_some_iff.1 h1).1)
    (by intro k kf hk; obtain ⟨kf', act, h, -⟩ := hkf k kf hk; exact ⟨kf', h⟩)
  refine ⟨kfs', l, ?_, a1, hllen, a2, ?_⟩
  · unfold apply
    simp only [← hP, ← hkey, ← hS]
    rw [hl1]; exact a1
  · intro k kf hk
    obtain ⟨kf', act, h1, h2, h3, h4⟩ := hkf k kf hk
    obtain ⟨kf'', h5, h6⟩ := a3 k kf hk
    rw [h1] at h6; cases h6
    refine ⟨kf', act, indsOf k l, h5, h3, h4, ?_, h2, ?_, ?_⟩
    · intro ip hip
      have : some ip ∈ act.map some := List.mem_map.2 ⟨ip, hip, rfl⟩
      rw [← h2] at this
      obtain ⟨i, hi1, hi2⟩ := List.mem_map.1 this
      obtain ⟨kf', ip', g1, g2, g3⟩ := hcand _ ((hindmem k i).1 hi1)
      simp only at g1 g2
      rw [hk] at g1; cases g1
      rw [hi2] at g2; cases g2
      exact g3
    · exact (hinds k).imp (fun h => by omega)
    · intro ind
      rw [hindmem, hmem, hP]

/-- C19: whenever the distance map can be built and the choice succeeds, activation succeeds (for every allowed
behaviour of `nth_element` and `sort`). In each keyframe some ready immature points `act` are taken out — they
and the remaining immature points together are exactly the former ones — and the optimized points are the
former ones followed by one for each point of `act`. The points taken out, over all keyframes, are exactly the
chosen ones. -/
theorem C19_activation (nth : List (Nat × Int) → Nat → List (Nat × Int)) (hn : DistMap.IsNthElement nth)
    (sort : List Nat → (Nat → Nat) → List Nat) (hs : IsSort sort) (fuel : Nat) (e : Env) (maxOpt : Int)
    (kfs : List KeyFrame) (m : DistMap.Map)
    (hm : DistMap.build e.width e.height ⟨480, 302⟩ (optPoints e 0 kfs) fuel = .ok (some m))
    (chosen : List Nat) (hc : DistMap.choose nth m ((candidates e 0 kfs).map Prod.fst)
      (maxOpt - curOptPoints kfs) = .ok chosen) :
    ∃ kfs', activate nth sort fuel e maxOpt kfs = .ok (some kfs') ∧ kfs'.length = kfs.length ∧
      curOptPoints kfs' = curOptPoints kfs + chosen.length ∧
      ∀ (k : Nat) kf, kfs[k]? = some kf → ∃ kf' act, ∃ inds : List Nat, kfs'[k]? = some kf' ∧
        (act ++ kf'.immature).Perm kf.immature ∧
        kf'.optimized = kf.optimized ++ act.map Optimized.ofImmature ∧
        (∀ ip ∈ act, ip.state = .active ∧ ip.stddev < e.optimizedStddev) ∧
        inds.map (fun i => kf.immature[i]?) = act.map some ∧ inds.Nodup ∧
        ∀ ind, ind ∈ inds ↔ ∃ i ∈ chosen, ((candidates e 0 kfs).map Prod.snd)[i]? = some (k, ind) := by
  obtain ⟨h0, h1, h2, h3⟩ := choose_facts hn hc
  obtain ⟨kfs', l, a1, a2, a3, a4, a5⟩ := apply_ok sort hs e kfs chosen h1 (by simpa using h2)
  refine ⟨kfs', ?_, a4, ?_, a5⟩
  · unfold activate
    rw [hm]
    simp only [activateWith, hc, a1]
  · rw [activateAll_count l kfs kfs' a2, a3]

/-- C19: the new optimized point is active, at the same pixel, with the same depth (if that is positive) and
the same standard deviation. -/
theorem C19_point (ip : Immature) (h : 0 < ip.depth) :
    (Optimized.ofImmature ip).p = ip.p ∧ (Optimized.ofImmature ip).depth = ip.depth ∧
    (Optimized.ofImmature ip).stddev = ip.stddev ∧ (Optimized.ofImmature ip).state = .active := by
  refine ⟨rfl, ?_, rfl, rfl⟩
  simp [Optimized.ofImmature, Optimized.depth, Real.exp_log h]

/-- C20: whenever activation returns, the number of optimized points was within the budget before and still
is. -/
theorem C20_budget (nth : List (Nat × Int) → Nat → List (Nat × Int)) (hn : DistMap.IsNthElement nth)
    (sort : List Nat → (Nat → Nat) → List Nat) (hs : IsSort sort) (fuel : Nat) (e : Env) (maxOpt : Int)
    (kfs kfs' : List KeyFrame) (h : activate nth sort fuel e maxOpt kfs = .ok (some kfs')) :
    (curOptPoints kfs : Int) ≤ maxOpt ∧ (curOptPoints kfs' : Int) ≤ maxOpt := by
  have h' := h
  unfold activate at h'
  cases hm : DistMap.build e.width e.height ⟨480, 302⟩ (optPoints e 0 kfs) fuel with
  | error er => rw [hm] at h'; simp only [activateWith] at h'; cases h'
  | ok o =>
    cases o with
    | none => rw [hm] at h'; simp only [activateWith] at h'; cases h'
    | some m =>
      rw [hm] at h'
      simp only [activateWith] at h'
      cases hc : DistMap.choose nth m ((candidates e 0 kfs).map Prod.fst) (maxOpt - curOptPoints kfs) with
      | error er => rw [hc] at h'; cases h'
      | ok chosen =>
        obtain ⟨h0, h1, h2, h3⟩ := choose_facts hn hc
        obtain ⟨kfs'', b1, -, b3, -⟩ := C19_activation nth hn sort hs fuel e maxOpt kfs m hm chosen hc
        rw [h] at b1
        cases b1
        rw [b3]
        push_cast
        omega

/-- C20: more optimized points than the budget before activation make the selection index out of bounds, whatever
the points are (given that the map is built). -/
theorem C20_overfull_ub (nth : List (Nat × Int) → Nat → List (Nat × Int))
    (sort : List Nat → (Nat → Nat) → List Nat) (fuel : Nat) (e : Env) (maxOpt : Int)
    (kfs : List KeyFrame) (m : DistMap.Map)
    (hm : DistMap.build e.width e.height ⟨480, 302⟩ (optPoints e 0 kfs) fuel = .ok (some m))
    (h : maxOpt < curOptPoints kfs) : activate nth sort fuel e maxOpt kfs = .error .ub := by
  unfold activate
  rw [hm]
  simp only [activateWith, DistMap.C22_negative_ub nth m _ _ (show maxOpt - (curOptPoints kfs : Int) < 0 by omega)]

/-! ## Non-vacuity -/

/-- Sorting with `mergeSort` is an allowed behaviour of `sort`. -/
theorem mergeSort_isSort : IsSort (fun l key => l.mergeSort (fun a b => decide (key b ≤ key a))) := by
  intro l key
  refine ⟨List.mergeSort_perm _ _, ?_⟩
  have := List.pairwise_mergeSort (le := fun a b : Nat => decide (key b ≤ key a))
    (by intro a b c h1 h2; simp only [decide_eq_true_eq] at *; omega)
    (by intro a b; simp only [Bool.or_eq_true, decide_eq_true_eq]; omega) l
  simpa using this

/-- Two keyframes, the first the base one: an optimized point, a ready and an unready immature point; one more
ready point. -/
noncomputable def window : List KeyFrame :=
  [⟨[⟨(3, 4), 2, 1, .active⟩, ⟨(5, 5), 2, 1, .outlier⟩], [⟨(7, 8), 0, 1, .active⟩]⟩,
   ⟨[⟨(30, 40), 2, 1, .active⟩], []⟩]

/-- A 960×604 picture; points of the second keyframe reproject to (100, 100). -/
noncomputable def env : Env := ⟨960, 604, 0, fun _ _ _ => (100, 100), 10⟩

/-- For this window the map is built and `choose` succeeds, so `C19_activation` applies with a budget of 2 (one
point is activated); with a budget of 0 `C20_overfull_ub` applies. -/
example : ∃ fuel m chosen,
    DistMap.build env.width env.height ⟨480, 302⟩ (optPoints env 0 window) fuel = .ok (some m) ∧
    DistMap.choose (fun l _ => l.mergeSort (fun a b => decide (b.2 ≤ a.2))) m
      ((candidates env 0 window).map Prod.fst) (2 - curOptPoints window) = .ok chosen ∧ chosen.length = 1 := by
  have hopt : optPoints env 0 window = [(7, 8)] := by
    simp [optPoints, window, env, Env.pos]
  have hcand : candidates env 0 window = [((3, 4), (0, 0)), ((100, 100), (1, 0))] := by
    simp [candidates, readyOf, window, env, Env.pos, Immature.isReady]
  have hpyr : DistMap.pyrDown 960 604 ⟨480, 302⟩ = 2 := by
    have h1 : DistMap.divisor 960 480 = 2 := by
      refine le_antisymm ((DistMap.divisor_spec (by norm_num) (by norm_num) 2).2 (by norm_num)) ?_
      by_contra h
      have := (DistMap.divisor_spec (by norm_num) (by norm_num) 1).1 (show DistMap.divisor 960 480 ≤ 1 by omega)
      norm_num at this
    have h2 : DistMap.divisor 604 302 = 2 := by
      refine le_antisymm ((DistMap.divisor_spec (by norm_num) (by norm_num) 2).2 (by norm_num)) ?_
      by_contra h
      have := (DistMap.divisor_spec (by norm_num) (by norm_num) 1).1 (show DistMap.divisor 604 302 ≤ 1 by omega)
      norm_num at this
    unfold DistMap.pyrDown
    simp only [h1, h2]
    decide
  obtain ⟨m, N, h1, h2, h3, h4, -⟩ := DistMap.C21_distance 960 604 ⟨480, 302⟩ [(7, 8)] (by rw [hpyr]; decide)
    (by
      rw [hpyr]
      exact fun p _ h => DistMap.C23_inside_partial 960 604 2 (by norm_num) (by norm_num) (by norm_num) p h)
  rw [hpyr] at h2
  rw [h2] at h3 h4
  have hcell : ∀ x y : ℝ, 0 ≤ x → 0 ≤ y → DistMap.cellOf m.pyr (x, y) = (⌊x / 2⌋, ⌊y / 2⌋) := by
    intro x y hx hy
    rw [DistMap.cellOf_nonneg hx hy, h2]
    simp [DistMapSpec.cell]
  have f1 : ⌊(3 : ℝ) / 2⌋ = 1 := by norm_num [Int.floor_eq_iff]
  have f2 : ⌊(4 : ℝ) / 2⌋ = 2 := by norm_num [Int.floor_eq_iff]
  have f3 : ⌊(100 : ℝ) / 2⌋ = 50 := by norm_num [Int.floor_eq_iff]
  have c1 := hcell 3 4 (by norm_num) (by norm_num)
  have c2 := hcell 100 100 (by norm_num) (by norm_num)
  rw [f1, f2] at c1
  rw [f3] at c2
  have hb : (2 : Int) - (curOptPoints window : Int) = 1 := by simp [curOptPoints, window]
  obtain ⟨c, g1, g2, g3, g4, g5⟩ := DistMap.C22_choose_partial _ DistMap.sort_isNth m [(3, 4), (100, 100)] 1
    (by norm_num) (by
      intro p hp
      simp only [List.mem_cons, List.not_mem_nil, or_false] at hp
      unfold DistMap.OnEdge
      rcases hp with rfl | rfl
      · rw [c1, h3, h4]; norm_num
      · rw [c2, h3, h4]; norm_num)
  refine ⟨N, m, c, ?_, ?_, ?_⟩
  · have hw : env.width = 960 := rfl
    have hh : env.height = 604 := rfl
    rw [hopt, hw, hh]; exact h1 N (le_refl _)
  · rw [hb, hcand]; exact g1
  · by_cases h0 : 0 ∈ c
    · by_cases h1' : 1 ∈ c
      · have : [0, 1].Subperm c := List.subperm_of_subset (by decide) (by
          intro x hx; simp at hx; rcases hx with rfl | rfl <;> assumption)
        have := this.length_le
        simp at this
        omega
      · have := (g5 1 (100, 100) rfl (by
          unfold DistMapSpec.InMap; rw [c2, h3, h4]; norm_num) h1').1
        exact_mod_cast this
    · have := (g5 0 (3, 4) rfl (by
          unfold DistMapSpec.InMap; rw [c1, h3, h4]; norm_num) h0).1
      exact_mod_cast this

end Mdso.Act
