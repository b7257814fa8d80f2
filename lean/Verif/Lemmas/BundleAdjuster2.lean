import Verif.Lemmas.BundleAdjuster

/-!
# Lemmas about bundle adjustment: the set of keyframes, the median, the result
-/

set_option autoImplicit false

namespace Mdso.BA

open Mdso.Geom Mdso.Light Mdso.BA.Spec

/-! ### The set of keyframes -/

theorem insertKf_mem {kf : Kf} {ks : List Kf} (h : ∀ x ∈ ks, x.addr ≠ kf.addr) (x : Kf) : x ∈ insertKf kf ks ↔ x = kf ∨ x ∈ ks := by
  induction ks with
  | nil => simp [insertKf]
  | cons k ks ih =>
    unfold insertKf
    by_cases h1 : kf.addr < k.addr
    · rw [if_pos h1]; simp
    · rw [if_neg h1, if_neg (fun e => h k List.mem_cons_self e.symm), List.mem_cons,
        ih fun y hy => h y (List.mem_cons_of_mem _ hy), List.mem_cons]
      tauto

theorem insertKf_sorted {kf : Kf} {ks : List Kf} (h : ∀ x ∈ ks, x.addr ≠ kf.addr) (hs : ks.Pairwise fun a b => a.addr < b.addr) :
    (insertKf kf ks).Pairwise fun a b => a.addr < b.addr := by
  induction ks with
  | nil => simp [insertKf]
  | cons k ks ih =>
    obtain ⟨h2, h3⟩ := List.pairwise_cons.1 hs
    have h0 := h k List.mem_cons_self
    unfold insertKf
    by_cases h1 : kf.addr < k.addr
    · rw [if_pos h1]
      refine List.pairwise_cons.2 ⟨?_, hs⟩
      intro x hx
      rcases List.mem_cons.1 hx with rfl | hx
      · exact h1
      · exact h1.trans (h2 x hx)
    · rw [if_neg h1, if_neg (fun e => h0 e.symm)]
      have h' : ∀ x ∈ ks, x.addr ≠ kf.addr := fun y hy => h y (List.mem_cons_of_mem _ hy)
      refine List.pairwise_cons.2 ⟨?_, ih h' h3⟩
      intro x hx
      rcases (insertKf_mem h' x).1 hx with rfl | hx
      · omega
      · exact h2 x hx

theorem fold_add (added : List Kf) (a : Adjuster) (hs : a.keyFrames.Pairwise fun a b => a.addr < b.addr)
    (hd : Distinct added) (hx : ∀ x ∈ a.keyFrames, ∀ y ∈ added, x.addr ≠ y.addr) :
    (∀ x, x ∈ (added.foldl addKeyFrame a).keyFrames ↔ x ∈ a.keyFrames ∨ x ∈ added) ∧
    ((added.foldl addKeyFrame a).keyFrames.Pairwise fun a b => a.addr < b.addr) ∧
    (added.foldl addKeyFrame a).firstKeyFrame = a.firstKeyFrame.orElse fun _ => added.head?.map Kf.addr := by
  induction added generalizing a with
  | nil =>
    refine ⟨fun x => by simp, hs, ?_⟩
    show a.firstKeyFrame = _
    cases a.firstKeyFrame <;> rfl
  | cons k ks ih =>
    unfold Distinct at hd
    rw [List.map_cons, List.nodup_cons] at hd
    have hne : ∀ x ∈ a.keyFrames, x.addr ≠ k.addr := fun x h => hx x h k List.mem_cons_self
    obtain ⟨i1, i2, i3⟩ := ih (addKeyFrame a k) (insertKf_sorted hne hs) hd.2 (by
      intro x hm y hy
      rcases (insertKf_mem hne x).1 hm with rfl | hm
      · intro e; exact hd.1 (e ▸ List.mem_map_of_mem hy)
      · exact hx x hm y (List.mem_cons_of_mem _ hy))
    refine ⟨?_, i2, ?_⟩
    · intro x
      rw [List.foldl_cons, i1 x]
      show x ∈ insertKf k a.keyFrames ∨ _ ↔ _
      rw [insertKf_mem hne, List.mem_cons]
      tauto
    · rw [List.foldl_cons, i3]
      show (a.firstKeyFrame.orElse fun _ => some k.addr).orElse _ = _
      cases a.firstKeyFrame <;> rfl

theorem construct_spec {added : List Kf} (hd : Distinct added) :
    (∀ x, x ∈ (construct added).keyFrames ↔ x ∈ added) ∧
    ((construct added).keyFrames.Pairwise fun a b => a.addr < b.addr) ∧
    (construct added).firstKeyFrame = added.head?.map Kf.addr := by
  obtain ⟨h1, h2, h3⟩ := fold_add added ⟨[], none⟩ List.Pairwise.nil hd (fun x hx => by simp at hx)
  exact ⟨fun x => by rw [construct, h1]; simp, h2, h3⟩

theorem addr_inj {ks : List Kf} (h : ks.Pairwise fun a b => a.addr < b.addr) {i j : Nat} {a b : Kf} (ha : ks[i]? = some a)
    (hb : ks[j]? = some b) : (a.addr < b.addr ↔ i < j) ∧ (a.addr = b.addr ↔ i = j) := by
  rw [List.pairwise_iff_getElem] at h
  obtain ⟨hi, rfl⟩ := List.getElem?_eq_some_iff.1 ha
  obtain ⟨hj, rfl⟩ := List.getElem?_eq_some_iff.1 hb
  rcases Nat.lt_trichotomy i j with hij | rfl | hij
  · have := h i j hi hj hij
    constructor <;> omega
  · constructor <;> simp
  · have := h j i hj hi hij
    constructor <;> omega

/-- Where the first and the second keyframe are. -/
theorem positions {added : List Kf} (hd : Distinct added) {f : Kf} (hf : added.head? = some f) :
    ∃ first, (construct added).keyFrames[first]? = some f ∧
      ((construct added).keyFrames.findIdx fun kf => kf.addr == f.addr) = first ∧
      (∀ k, IsFirst added (construct added).keyFrames k ↔ k = first) ∧
      (∀ k, IsLowest added (construct added).keyFrames k ↔ k = secondIndex first ∧ k < (construct added).keyFrames.length) := by
  obtain ⟨h1, h2, -⟩ := construct_spec hd
  obtain ⟨ks, hks⟩ : ∃ ks, ks = (construct added).keyFrames := ⟨_, rfl⟩
  rw [← hks] at h1 h2 ⊢
  have hm : f ∈ ks := (h1 f).2 (List.mem_of_mem_head? (by rw [hf]; rfl))
  obtain ⟨first, hfirst⟩ := List.getElem?_of_mem hm
  obtain ⟨hlt, hget⟩ := List.getElem?_eq_some_iff.1 hfirst
  have hff : ∀ k, IsFirst added ks k ↔ k = first := by
    intro k
    constructor
    · rintro ⟨g, hg, hk⟩
      rw [hf] at hg; cases hg
      exact ((addr_inj h2 hk hfirst).2).1 rfl
    · rintro rfl; exact ⟨f, hf, hfirst⟩
  refine ⟨first, hfirst, ?_, hff, ?_⟩
  · rw [List.findIdx_eq hlt]
    refine ⟨by rw [hget]; simp, ?_⟩
    intro j hj
    have := (addr_inj h2 (List.getElem?_eq_getElem (hj.trans hlt)) hfirst).2
    simp only [beq_eq_false_iff_ne, ne_eq]
    intro e
    exact absurd (this.1 e) (by omega)
  · intro k
    have hsi : secondIndex first ≠ first ∧ ∀ j, j ≠ first → secondIndex first ≤ j := by
      unfold secondIndex
      exact ⟨by split <;> omega, fun j hj => by split <;> omega⟩
    constructor
    · rintro ⟨sk, hk, hn, hmin⟩
      obtain ⟨hkl, -⟩ := List.getElem?_eq_some_iff.1 hk
      rw [hff] at hn
      have hle := hsi.2 k hn
      have hl2 : secondIndex first < ks.length := by omega
      have := hmin (secondIndex first) ks[secondIndex first] (List.getElem?_eq_getElem hl2) (by rw [hff]; exact hsi.1)
      have h3 := addr_inj h2 (List.getElem?_eq_getElem hl2) hk
      refine ⟨?_, hkl⟩
      rcases Nat.lt_or_ge (secondIndex first) k with hlt2 | hge
      · have := h3.1.2 hlt2; omega
      · omega
    · rintro ⟨rfl, hl2⟩
      refine ⟨_, List.getElem?_eq_getElem hl2, by rw [hff]; exact hsi.1, ?_⟩
      intro j kf hj hn
      rw [hff] at hn
      have hle := hsi.2 j hn
      have h3 := addr_inj h2 (List.getElem?_eq_getElem hl2) hj
      rcases Nat.lt_or_ge (secondIndex first) j with hlt2 | hge
      · exact (h3.1.2 hlt2).le
      · exact (h3.2.2 (by omega)).le

/-! ### The median -/

theorem upperMedian_spec {values : List ℝ} (h : values ≠ []) : IsUpperMedian values (upperMedian values) := by
  have hp := List.mergeSort_perm values (fun a b => decide (a ≤ b))
  have hs : (values.mergeSort fun a b => decide (a ≤ b)).Pairwise (fun a b => a ≤ b) := by
    have := List.pairwise_mergeSort (le := fun a b : ℝ => decide (a ≤ b)) (by
      intro a b c; simp only [decide_eq_true_eq]; exact le_trans) (by
      intro a b; simp only [Bool.or_eq_true, decide_eq_true_eq]; exact le_total a b) values
    exact this.imp (by intro a b h; simpa using h)
  unfold upperMedian
  obtain ⟨L, hL⟩ : ∃ L, L = values.mergeSort fun a b => decide (a ≤ b) := ⟨_, rfl⟩
  rw [← hL] at hp hs ⊢
  have hlen := hp.length_eq
  have hpos : 0 < values.length := List.length_pos_iff.2 h
  have hn : values.length / 2 < L.length := by omega
  rw [List.getD_eq_getElem?_getD, List.getElem?_eq_getElem hn, Option.getD_some]
  rw [List.pairwise_iff_getElem] at hs
  obtain ⟨m, hm⟩ : ∃ m, m = L[values.length / 2] := ⟨_, rfl⟩
  rw [← hm]
  refine ⟨hp.mem_iff.1 (hm ▸ List.getElem_mem hn), ?_, ?_⟩
  · rw [← (hp.filter _).length_eq]
    conv_lhs => rw [← List.take_append_drop (values.length / 2) L, List.filter_append]
    have : (L.drop (values.length / 2)).filter (fun v => decide (v < m)) = [] := by
      rw [List.filter_eq_nil_iff]
      intro v hv
      obtain ⟨j, hj, rfl⟩ := List.mem_iff_getElem.1 hv
      rw [List.getElem_drop, hm]
      simp only [decide_eq_true_eq, not_lt]
      rw [List.length_drop] at hj
      rcases Nat.eq_zero_or_pos j with rfl | hj0
      · simp
      · exact hs _ _ hn (by omega) (by omega)
    rw [this, List.append_nil]
    refine (List.length_filter_le _ _).trans ?_
    rw [List.length_take]; omega
  · rw [← (hp.filter _).length_eq]
    conv_rhs => rw [← List.take_append_drop (values.length / 2 + 1) L, List.filter_append]
    have : (L.take (values.length / 2 + 1)).filter (fun v => decide (v ≤ m)) = L.take (values.length / 2 + 1) := by
      rw [List.filter_eq_self]
      intro v hv
      obtain ⟨j, hj, rfl⟩ := List.mem_iff_getElem.1 hv
      rw [List.getElem_take, hm]
      simp only [decide_eq_true_eq]
      rw [List.length_take] at hj
      rcases Nat.lt_or_ge j (values.length / 2) with h1 | h1
      · exact hs _ _ _ hn h1
      · have : j = values.length / 2 := by omega
        subst this; exact le_refl _
    rw [this, List.length_append, List.length_take]
    omega

theorem upperMedian_unique {values : List ℝ} {m m' : ℝ} (h : IsUpperMedian values m) (h' : IsUpperMedian values m') : m = m' := by
  have key : ∀ a b, IsUpperMedian values a → IsUpperMedian values b → ¬ a < b := by
    intro a b ha hb hab
    have : (values.filter fun v => v ≤ a).length ≤ (values.filter fun v => v < b).length := by
      rw [← List.countP_eq_length_filter, ← List.countP_eq_length_filter]
      refine List.countP_mono_left ?_
      intro x _ hx
      simp only [decide_eq_true_eq] at hx ⊢
      exact lt_of_le_of_lt hx hab
    have h1 := ha.2.2
    have h2 := hb.2.1
    omega
  exact le_antisymm (not_lt.1 (key m' m h' h)) (not_lt.1 (key m m' h h'))

/-! ### The result -/

theorem mk_ok_of_ne {a b : V3} (h : b ≠ a) : ∃ p, Gauge.mk' a (b - a).norm b = .ok p := by
  have hpos : 0 < (b - a).norm := by
    refine V3.norm_pos fun h0 => h ?_
    ext
    · have := congrArg V3.x h0; simp at this; linarith
    · have := congrArg V3.y h0; simp at this; linarith
    · have := congrArg V3.z h0; simp at this; linarith
  unfold Gauge.mk'
  have hc : (b - a).norm ≠ 0 ∧ ((b - a).norm - (b - a).norm) / (b - a).norm < 1 / 10000 := by
    refine ⟨hpos.ne', ?_⟩
    rw [sub_self, zero_div]; norm_num
  simp only [if_pos hc]
  exact ⟨_, rfl⟩

theorem mk_same {a b : V3} (h : b = a) : Gauge.mk' a (b - a).norm b = .error .abort := by
  subst h
  have : (b - b).norm = 0 := by simp [V3.norm, V3.sqNorm]
  unfold Gauge.mk'
  rw [this]
  simp

/-- A successful run. -/
theorem adjust_ok {c : Cam.Cam} {s : Settings} {solve : Solver} {added out : List Kf} (hd : Distinct added)
    (h : adjust c s solve (construct added) = .ok out) :
    ∃ f first sk sp bs, added.head? = some f ∧ (construct added).keyFrames[first]? = some f ∧
      (construct added).keyFrames[secondIndex first]? = some sk ∧
      (∀ k, IsFirst added (construct added).keyFrames k ↔ k = first) ∧
      (∀ k, IsLowest added (construct added).keyFrames k ↔ k = secondIndex first ∧ k < (construct added).keyFrames.length) ∧
      Gauge.mk' f.thisToWorld.t (sk.thisToWorld.t - f.thisToWorld.t).norm sk.thisToWorld.t = .ok sp ∧
      allBlocks c s (construct added).keyFrames = .ok bs ∧
      out = label c s ((construct added).keyFrames.mapIdx
        (moveKf (solve (problemOf c s (construct added).keyFrames first sp bs)))) (secondIndex first) bs := by
  unfold adjust at h
  rw [(construct_spec hd).2.2] at h
  cases hf : added.head? with
  | none => rw [hf] at h; cases h
  | some f =>
    rw [hf] at h
    obtain ⟨first, h1, h2, h3, h4⟩ := positions hd hf
    simp only [Option.map_some] at h
    rw [h2] at h
    unfold adjustAt at h
    have e1 : at' (construct added).keyFrames first = .ok f := by unfold at'; rw [h1]
    simp only [e1, bind, Except.bind] at h
    cases e2 : at' (construct added).keyFrames (secondIndex first) with
    | error e => rw [e2] at h; cases h
    | ok sk =>
    simp only [e2] at h
    have h5 := at'_ok e2
    cases e3 : Gauge.mk' f.thisToWorld.t (sk.thisToWorld.t - f.thisToWorld.t).norm sk.thisToWorld.t with
    | error e => rw [e3] at h; cases h
    | ok sp =>
    simp only [e3] at h
    cases e4 : allBlocks c s (construct added).keyFrames with
    | error e => rw [e4] at h; cases h
    | ok bs =>
    simp only [e4] at h
    cases h
    exact ⟨f, first, sk, sp, bs, rfl, h1, h5, h3, h4, e3, rfl, rfl⟩

end Mdso.BA
