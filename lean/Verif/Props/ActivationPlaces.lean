import Verif.Spec.ActivationPlaces
import Verif.Props.Activation

/-!
# Where points are activated: C170
-/

set_option autoImplicit false

namespace Mdso.Act

theorem optPoints_eq (e : Env) : ∀ (kfs : List KeyFrame) (k : Nat),
    optPoints e k kfs = (kfs.zipIdx k).flatMap fun q => (q.1.optimized.filter fun op => op.state = .active).map fun op => seenAt e q.2 op.p (Real.exp (-op.logInvDepth))
  | [], _ => rfl
  | kf :: kfs, k => by
    rw [optPoints, optPoints_eq e kfs (k + 1), List.zipIdx_cons, List.flatMap_cons]
    rfl

theorem readyOf_of {e : Env} {k : Nat} : ∀ (ips : List Immature) (ind : Nat), ∀ c ∈ readyOf e k ind ips,
    c.2.1 = k ∧ ∃ i ip, c.2.2 = ind + i ∧ ips[i]? = some ip ∧ ip.isReady e.optimizedStddev ∧ c.1 = seenAt e k ip.p ip.depth
  | [], _, c, hc => by simp [readyOf] at hc
  | ip :: ips, ind, c, hc => by
    rw [readyOf] at hc
    have hrest : c ∈ readyOf e k (ind + 1) ips →
        c.2.1 = k ∧ ∃ i ip', c.2.2 = ind + i ∧ (ip :: ips)[i]? = some ip' ∧ ip'.isReady e.optimizedStddev ∧ c.1 = seenAt e k ip'.p ip'.depth := fun h => by
      obtain ⟨h1, i, ip', h2, h3, h4, h5⟩ := readyOf_of ips (ind + 1) c h
      exact ⟨h1, i + 1, ip', by omega, by simpa using h3, h4, h5⟩
    by_cases hr : ip.isReady e.optimizedStddev
    · rw [if_pos hr] at hc
      rcases List.mem_cons.1 hc with rfl | hc
      · exact ⟨rfl, 0, ip, rfl, rfl, hr, rfl⟩
      · exact hrest hc
    · rw [if_neg hr] at hc
      exact hrest hc

theorem readyOf_has {e : Env} {k : Nat} : ∀ (ips : List Immature) (ind i : Nat) (ip : Immature), ips[i]? = some ip →
    ip.isReady e.optimizedStddev → (seenAt e k ip.p ip.depth, (k, ind + i)) ∈ readyOf e k ind ips
  | [], _, _, _, h, _ => by simp at h
  | ip' :: ips, ind, 0, ip, h, hr => by
    obtain rfl : ip' = ip := by simpa using h
    rw [readyOf, if_pos hr]
    exact List.mem_cons_self
  | ip' :: ips, ind, i + 1, ip, h, hr => by
    have := readyOf_has (e := e) (k := k) ips (ind + 1) i ip (by simpa using h) hr
    rw [show ind + 1 + i = ind + (i + 1) by omega] at this
    rw [readyOf]
    split
    · exact List.mem_cons_of_mem _ this
    · exact this

theorem candidates_of {e : Env} : ∀ (kfs : List KeyFrame) (k : Nat), ∀ c ∈ candidates e k kfs,
    ∃ j kf ip, c.2.1 = k + j ∧ kfs[j]? = some kf ∧ kf.immature[c.2.2]? = some ip ∧ ip.isReady e.optimizedStddev ∧ c.1 = seenAt e (k + j) ip.p ip.depth
  | [], _, c, hc => by simp [candidates] at hc
  | kf :: kfs, k, c, hc => by
    rw [candidates] at hc
    rcases List.mem_append.1 hc with hc | hc
    · obtain ⟨h1, i, ip, h2, h3, h4, h5⟩ := readyOf_of _ _ c hc
      refine ⟨0, kf, ip, h1, rfl, ?_, h4, h5⟩
      rw [h2, Nat.zero_add]; exact h3
    · obtain ⟨j, kf', ip, h1, h2, h3⟩ := candidates_of kfs (k + 1) c hc
      rw [show k + 1 + j = k + (j + 1) by omega] at h1 h3
      exact ⟨j + 1, kf', ip, h1, by simpa using h2, h3⟩

theorem candidates_has {e : Env} : ∀ (kfs : List KeyFrame) (k j ind : Nat) (kf : KeyFrame) (ip : Immature), kfs[j]? = some kf →
    kf.immature[ind]? = some ip → ip.isReady e.optimizedStddev → (seenAt e (k + j) ip.p ip.depth, (k + j, ind)) ∈ candidates e k kfs
  | [], _, _, _, _, _, h, _, _ => by simp at h
  | kf' :: kfs, k, 0, ind, kf, ip, h, hi, hr => by
    obtain rfl : kf' = kf := by simpa using h
    rw [candidates]
    have := readyOf_has (e := e) (k := k) kf'.immature 0 ind ip hi hr
    rw [Nat.zero_add] at this
    exact List.mem_append_left _ this
  | kf' :: kfs, k, j + 1, ind, kf, ip, h, hi, hr => by
    rw [candidates]
    have := candidates_has (e := e) kfs (k + 1) j ind kf ip (by simpa using h) hi hr
    rw [show k + 1 + j = k + (j + 1) by omega] at this
    exact List.mem_append_right _ this

theorem isNearest_unique {top : Nat} {seeds : List (Int × Int)} {c : Int × Int} {d d' : Nat}
    (h : DistMapSpec.IsNearest top seeds c d) (h' : DistMapSpec.IsNearest top seeds c d') : d = d' := by
  obtain ⟨h1, h2, h3⟩ := h
  obtain ⟨g1, g2, g3⟩ := h'
  apply le_antisymm
  · rcases g3 with g3 | ⟨s, hs, g3⟩
    · omega
    · have := h2 s hs; omega
  · rcases h3 with h3 | ⟨s, hs, h3⟩
    · omega
    · have := g2 s hs; omega

/-- C170: points are activated where good points are farthest. If the picture is divided into cells without a rest, no ready point is seen in the cells just behind
the picture, and the number of points is within the budget, then activation returns, and there are lists of indices of the points taken from each keyframe, which
are exactly the points appended to its optimized ones, such that a ready point seen on the picture is left out only if the budget is used up, and then no point
taken is nearer to the good points of the window than it. -/
theorem C170_places_partial (nth : List (Nat × Int) → Nat → List (Nat × Int)) (hn : DistMap.IsNthElement nth)
    (sort : List Nat → (Nat → Nat) → List Nat) (hs : IsSort sort) (e : Env) (maxOpt : Int) (kfs : List KeyFrame) (n : Nat)
    (hfac : DistMap.pyrDown e.width e.height ⟨480, 302⟩ = n) (hpos : 0 < n) (hw : n ∣ e.width) (hh : n ∣ e.height)
    (hbudget : (curOptPoints kfs : Int) ≤ maxOpt)
    (hedge : ∀ (k : Nat) kf, kfs[k]? = some kf → ∀ ip ∈ kf.immature, ip.state = .active → ip.stddev < e.optimizedStddev → ¬ Behind e n (seenAt e k ip.p ip.depth)) :
    ∃ N kfs', ∃ taken : Nat → List Nat, (∀ fuel ≥ N, activate nth sort fuel e maxOpt kfs = .ok (some kfs')) ∧ kfs'.length = kfs.length ∧
      (∀ (k : Nat) kf, kfs[k]? = some kf → ∃ kf', ∃ act : List Immature, kfs'[k]? = some kf' ∧ (taken k).Nodup ∧ (taken k).map (fun i => kf.immature[i]?) = act.map some ∧
        kf'.optimized = kf.optimized ++ act.map Optimized.ofImmature) ∧
      ∀ (k : Nat) kf (ind : Nat) ip, kfs[k]? = some kf → kf.immature[ind]? = some ip → ip.state = .active → ip.stddev < e.optimizedStddev →
        DistMapSpec.OnImage e.width e.height (seenAt e k ip.p ip.depth) → ind ∉ taken k →
        (curOptPoints kfs' : Int) = maxOpt ∧
        ∀ (k' : Nat) kf' (ind' : Nat) ip', kfs[k']? = some kf' → ind' ∈ taken k' → kf'.immature[ind']? = some ip' →
          ∀ d d', IsFree e n kfs (seenAt e k ip.p ip.depth) d → IsFree e n kfs (seenAt e k' ip'.p ip'.depth) d' → d ≤ d' := by
  obtain ⟨m, N, b1, b2, b3, b4, b5⟩ := DistMap.C21_distance e.width e.height ⟨480, 302⟩ (optPoints e 0 kfs)
    (by rw [hfac]; omega)
    (by
      intro q _ hq
      rw [hfac]
      exact DistMap.C23_inside_partial _ _ n hpos hw hh q hq)
  rw [hfac] at b2
  rw [b2] at b3 b4 b5
  have hgood : optPoints e 0 kfs = goodPlaces e kfs := optPoints_eq e kfs 0
  rw [hgood] at b5
  obtain ⟨C, hC⟩ : ∃ C, C = candidates e 0 kfs := ⟨_, rfl⟩
  obtain ⟨chosen, c1, c2, c3, c4, c5⟩ := DistMap.C22_choose_partial nth hn m (C.map Prod.fst)
    (maxOpt - curOptPoints kfs) (by omega) (by
      intro q hq
      obtain ⟨c, hc, rfl⟩ := List.mem_map.1 hq
      rw [hC] at hc
      obtain ⟨j, kf, ip, h1, h2, h3, h4, h5⟩ := candidates_of kfs 0 c hc
      rw [Nat.zero_add] at h5
      have := hedge j kf h2 ip (List.mem_of_getElem? h3) h4.1 h4.2
      rw [b2, b3, b4, h5]
      exact this)
  rw [hC] at c1
  obtain ⟨kfs', d1, d2, d3, d4⟩ := C19_activation nth hn sort hs N e maxOpt kfs m (b1 N (le_refl _)) chosen c1
  rw [← hC] at d4
  have hex : ∀ k : Nat, ∃ inds : List Nat, ∀ kf, kfs[k]? = some kf → ∃ kf', ∃ act : List Immature, kfs'[k]? = some kf' ∧
      kf'.optimized = kf.optimized ++ act.map Optimized.ofImmature ∧
      inds.map (fun i => kf.immature[i]?) = act.map some ∧ inds.Nodup ∧
      ∀ ind, ind ∈ inds ↔ ∃ i ∈ chosen, (C.map Prod.snd)[i]? = some (k, ind) := by
    intro k
    cases hk : kfs[k]? with
    | none => exact ⟨[], fun kf h => by cases h⟩
    | some kf =>
      obtain ⟨kf', act, inds, g1, g2, g3, g4, g5, g6, g7⟩ := d4 k kf hk
      refine ⟨inds, fun kf0 h => ?_⟩
      cases h
      exact ⟨kf', act, g1, g3, g5, g6, g7⟩
  choose taken htaken using hex
  refine ⟨N, kfs', taken, fun fuel hf => ?_, d2, fun k kf hk => ?_, ?_⟩
  · rw [← d1]
    unfold activate
    rw [b1 fuel hf, b1 N (le_refl _)]
  · obtain ⟨kf', act, g1, g2, g3, g4, g5⟩ := htaken k kf hk
    exact ⟨kf', act, g1, g4, g3, g2⟩
  · intro k kf ind ip hk hind hst hsd hon hnot
    obtain ⟨kf', act, g1, g2, g3, g4, g5⟩ := htaken k kf hk
    have hmem := candidates_has (e := e) kfs 0 k ind kf ip hk hind ⟨hst, hsd⟩
    rw [Nat.zero_add, ← hC] at hmem
    obtain ⟨j, hj⟩ := List.mem_iff_getElem?.1 hmem
    have hcell : DistMap.cellOf n (seenAt e k ip.p ip.depth) = DistMapSpec.cell n (seenAt e k ip.p ip.depth) :=
      DistMap.cellOf_nonneg (n := n) hon.1 hon.2.2.1
    have hin : DistMapSpec.InMap m.w m.h (DistMap.cellOf m.pyr (seenAt e k ip.p ip.depth)) := by
      rw [b2, b3, b4, hcell]
      exact DistMap.C23_inside_partial _ _ n hpos hw hh _ hon
    obtain ⟨f1, f2⟩ := c5 j _ (by rw [List.getElem?_map, hj]; rfl) hin (by
      intro hjc
      exact hnot ((g5 ind).2 ⟨j, hjc, by rw [List.getElem?_map, hj]; rfl⟩))
    refine ⟨by rw [d3]; push_cast; omega, ?_⟩
    intro k' kf2 ind' ip' hk' hind' hip' d d' hd hd'
    obtain ⟨-, -, -, -, -, -, t5⟩ := htaken k' kf2 hk'
    obtain ⟨i, hi, hic⟩ := (t5 ind').1 hind'
    obtain ⟨q, hq, hqin⟩ := c4 i hi
    have hle := f2 i hi q hq
    rw [List.getElem?_map] at hic hq
    cases hci : C[i]? with
    | none => rw [hci] at hic; cases hic
    | some c =>
      rw [hci] at hic hq
      simp only [Option.map_some, Option.some.injEq] at hic hq
      have hc := List.mem_of_getElem? hci
      rw [hC] at hc
      obtain ⟨j', kf3, ip3, u1, u2, u3, u4, u5⟩ := candidates_of kfs 0 c hc
      rw [Nat.zero_add] at u1 u5
      rw [hic] at u1 u3
      simp only at u1 u3
      subst u1
      rw [hk'] at u2
      cases u2
      rw [hip'] at u3
      cases u3
      rw [u5] at hq
      rw [← hq, b2] at hqin
      rw [← hq, b2] at hle
      rw [b2] at hin
      have e1 := isNearest_unique hd (b5 _ hin)
      have e2 := isNearest_unique hd' (b5 _ hqin)
      rw [e1, e2]
      exact hle

/-! ## Non-vacuity -/

theorem pyr_960 : DistMap.pyrDown 960 604 ⟨480, 302⟩ = 2 := by
  have h1 : DistMap.divisor 960 480 = 2 := by
    refine le_antisymm ((DistMap.divisor_spec (by norm_num) (by norm_num) 2).2 (by norm_num)) ?_
    by_contra h
    have := (DistMap.divisor_spec (by norm_num) (by norm_num) 1).1 (show DistMap.divisor 960 480 ≤ 1 by omega)
    norm_num at this
  have h2 : DistMap.divisor 604 302 = 2 := by
    refine le_antisymm ((DistMap.divisor_spec (by norm_num) (by norm_num) 2).2 (by norm_num)) ?_
    by_contra h
    have := (DistMap.divisor_spec (by norm_num) (by norm_num) 1).1 (show DistMap.divisor 604 302 ≤ 1 by omega)
    norm_num at this
  unfold DistMap.pyrDown
  simp only [h1, h2]
  decide

/-- The window of the example of C19 meets the hypotheses with a budget of two points, so one of its two ready points is taken. The one at (100, 100) is farther
from the good point at (7, 8): it is 93 cells away, the other one is 4 cells away. -/
example : ∃ n, DistMap.pyrDown env.width env.height ⟨480, 302⟩ = n ∧ 0 < n ∧ n ∣ env.width ∧ n ∣ env.height ∧ (curOptPoints window : Int) ≤ 2 ∧
    (∀ (k : Nat) kf, window[k]? = some kf → ∀ ip ∈ kf.immature, ip.state = .active → ip.stddev < env.optimizedStddev → ¬ Behind env n (seenAt env k ip.p ip.depth)) ∧
    IsFree env n window (3, 4) 4 ∧ IsFree env n window (100, 100) 93 := by
  have f1 : ⌊(3 : ℝ) / 2⌋ = 1 := by norm_num [Int.floor_eq_iff]
  have f2 : ⌊(4 : ℝ) / 2⌋ = 2 := by norm_num [Int.floor_eq_iff]
  have f3 : ⌊(100 : ℝ) / 2⌋ = 50 := by norm_num [Int.floor_eq_iff]
  have f4 : ⌊(7 : ℝ) / 2⌋ = 3 := by norm_num [Int.floor_eq_iff]
  have f5 : ⌊(8 : ℝ) / 2⌋ = 4 := by norm_num [Int.floor_eq_iff]
  have c1 : DistMap.cellOf 2 (3, 4) = (1, 2) := by
    rw [DistMap.cellOf_nonneg (by norm_num) (by norm_num)]
    simp only [DistMapSpec.cell, Nat.cast_ofNat, f1, f2]
  have c2 : DistMap.cellOf 2 (100, 100) = (50, 50) := by
    rw [DistMap.cellOf_nonneg (by norm_num) (by norm_num)]
    simp only [DistMapSpec.cell, Nat.cast_ofNat, f3]
  have c3 : DistMapSpec.cell 2 (7, 8) = (3, 4) := by
    simp only [DistMapSpec.cell, Nat.cast_ofNat, f4, f5]
  have hgood : goodPlaces env window = [(7, 8)] := by
    simp [goodPlaces, window, env, seenAt]
  have hon : DistMapSpec.OnImage env.width env.height (7, 8) := by
    norm_num [DistMapSpec.OnImage, env]
  refine ⟨2, pyr_960, by norm_num, by norm_num [env], by norm_num [env], by simp [curOptPoints, window], ?_, ?_, ?_⟩
  · intro k kf hk ip hip _ _
    rcases k with _ | _ | k
    · obtain rfl : _ = kf := by simpa [window] using hk
      simp only [List.mem_cons, List.not_mem_nil, or_false] at hip
      rcases hip with rfl | rfl
      · simp only [Behind, seenAt, env, if_pos, c1]
        norm_num
      · have : DistMap.cellOf 2 (5, 5) = (2, 2) := by
          have f6 : ⌊(5 : ℝ) / 2⌋ = 2 := by norm_num [Int.floor_eq_iff]
          rw [DistMap.cellOf_nonneg (by norm_num) (by norm_num)]
          simp only [DistMapSpec.cell, Nat.cast_ofNat, f6]
        simp only [Behind, seenAt, env, if_pos, this]
        norm_num
    · obtain rfl : _ = kf := by simpa [window] using hk
      simp only [List.mem_cons, List.not_mem_nil, or_false] at hip
      subst hip
      have : seenAt env (0 + 1) (30, 40) 2 = (100, 100) := by simp [seenAt, env]
      rw [this]
      simp only [Behind, env, c2]
      norm_num
    · simp [window] at hk
  · unfold IsFree
    rw [hgood, c1]
    simp only [List.filter_cons, hon, decide_true, if_true, List.filter_nil, List.map_cons, List.map_nil, c3]
    exact ⟨by decide, by decide, Or.inr ⟨_, List.mem_cons_self, by decide⟩⟩
  · unfold IsFree
    rw [hgood, c2]
    simp only [List.filter_cons, hon, decide_true, if_true, List.filter_nil, List.map_cons, List.map_nil, c3]
    exact ⟨by decide, by decide, Or.inr ⟨_, List.mem_cons_self, by decide⟩⟩

end Mdso.Act
