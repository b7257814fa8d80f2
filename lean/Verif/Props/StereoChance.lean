import Verif.Spec.StereoChance
import Verif.Props.StereoGeometry
import Verif.Lemmas.TriChance
import Mathlib.Data.Fintype.CardEmbedding
import Mathlib.Data.Fintype.Fin
import Mathlib.Data.Fintype.BigOperators

/-!
# C165: how likely the motion between two views is found
-/

set_option autoImplicit false

namespace Mdso.Stereo

open Mdso.Geom Mdso.Cam Mdso.StereoSpec Mdso.Tri Mdso.Tri.Spec

/-! ### Independent rounds -/

theorem share_pi {M : Nat} {α : Type} [Fintype α] (P : Fin M → α → Prop) : share (fun d : Fin M → α => ∀ i, P i (d i)) = ∏ i, share (P i) := by
  classical
  unfold share
  rw [Finset.prod_div_distrib]
  have h : (Finset.univ.filter fun d : Fin M → α => ∀ i, P i (d i)) = Fintype.piFinset fun i => Finset.univ.filter (P i) := by
    ext d; simp [Fintype.mem_piFinset]
  have e : ((Finset.univ.filter fun d : Fin M → α => ∀ i, P i (d i)).card : ℝ) = ∏ i, ((Finset.univ.filter (P i)).card : ℝ) := by
    rw [h, Fintype.card_piFinset]; push_cast; rfl
  congr 1
  · convert e
  · rw [Fintype.card_fun, Finset.prod_const, Finset.card_univ]; push_cast; rfl

/-- The first `m` rounds all have a property. -/
theorem share_rounds {M m : Nat} (hm : m ≤ M) {α : Type} [Fintype α] [Nonempty α] (P : α → Prop) :
    share (fun d : Fin M → α => ∀ i : Fin M, i.val < m → P (d i)) = share P ^ m := by
  classical
  rw [share_pi fun (i : Fin M) a => i.val < m → P a]
  have h : ∀ i : Fin M, share (fun a : α => i.val < m → P a) = if i.val < m then share P else 1 := by
    intro i
    by_cases hi : i.val < m
    · rw [if_pos hi]; exact share_congr fun a => ⟨fun h => h hi, fun h _ => h⟩
    · rw [if_neg hi]; exact share_true fun a h => absurd h hi
  rw [Finset.prod_congr rfl fun i _ => h i, Finset.prod_ite, Finset.prod_const, Finset.prod_const_one, mul_one]
  have := Fin.card_filter_val_lt (n := M) (m := m)
  rw [min_eq_right hm] at this
  rw [this]

/-- The share of the samples whose members are different and in `G`. -/
theorem share_members {n : Nat} {G : Finset Nat} (hG : ∀ i ∈ G, i < n) :
    share (fun s : Fin 5 → Fin n => Function.Injective s ∧ ∀ i, (s i).val ∈ G) = (G.card.descFactorial 5 : ℝ) / n ^ 5 := by
  classical
  have hc : Fintype.card {s : Fin 5 → Fin n // Function.Injective s ∧ ∀ i, (s i).val ∈ G} = G.card.descFactorial 5 := by
    have h1 : Fintype.card (Fin 5 ↪ G) = G.card.descFactorial 5 := by
      rw [Fintype.card_embedding_eq, Fintype.card_coe, Fintype.card_fin]
    rw [← h1]
    refine Fintype.card_congr
      { toFun := fun s => ⟨fun i => ⟨(s.1 i).val, s.2.2 i⟩, fun i j h => s.2.1 (Fin.ext (congrArg Subtype.val h))⟩
        invFun := fun f => ⟨fun i => ⟨(f i).val, hG _ (f i).2⟩, fun i j h => f.injective (Subtype.ext (congrArg Fin.val h)), fun i => (f i).2⟩
        left_inv := fun s => rfl
        right_inv := fun f => rfl }
  rw [Fintype.card_subtype] at hc
  unfold share
  rw [Fintype.card_fun, Fintype.card_fin, Fintype.card_fin]
  push_cast
  congr 2
  convert hc

theorem descFactorial_five (k : Nat) : (k * (k - 1) * (k - 2) * (k - 3) * (k - 4) : ℝ) = (k.descFactorial 5 : ℝ) := by
  match k with
  | 0 => norm_num
  | 1 => norm_num
  | 2 => norm_num
  | 3 => norm_num
  | 4 => norm_num
  | c + 5 =>
    simp only [Nat.descFactorial_succ, Nat.descFactorial_zero]
    rw [show c + 5 - 0 = c + 5 by omega, show c + 5 - 1 = c + 4 by omega, show c + 5 - 2 = c + 3 by omega, show c + 5 - 3 = c + 2 by omega,
      show c + 5 - 4 = c + 1 by omega]
    push_cast
    ring

/-! ### Samples -/

theorem sampleOf_length {n : Nat} (s : Fin 5 → Fin n) : (sampleOf s).length = 5 := List.length_ofFn

theorem mem_sampleOf {n : Nat} {s : Fin 5 → Fin n} {i : Nat} : i ∈ sampleOf s ↔ ∃ j, (s j).val = i := by
  unfold sampleOf; rw [List.mem_ofFn]

theorem sampleOf_nodup {n : Nat} {s : Fin 5 → Fin n} : (sampleOf s).Nodup ↔ Function.Injective s := by
  unfold sampleOf
  rw [List.nodup_ofFn]
  exact ⟨fun h a b hab => h (congrArg Fin.val hab), fun h a b hab => h (Fin.ext hab)⟩

theorem drawsOf_drawn {M n : Nat} (hn : 0 < n) (d : Fin M → Fin 5 → Fin n) : Drawn n (drawsOf d) := by
  intro it
  unfold drawsOf
  split
  · refine ⟨sampleOf_length _, fun i hi => ?_⟩
    obtain ⟨j, rfl⟩ := mem_sampleOf.1 hi
    exact (d _ j).2
  · refine ⟨by simp, fun i hi => ?_⟩
    rw [List.eq_of_mem_replicate hi]; exact hn

/-! ### C165 -/

/-- If fewer inliers than `K` are reported, none of the first `m` samples is good, where `m` is any number of rounds, each good with the probability that
belongs to `K - 1` inliers, that are all bad with at least the probability configured. -/
theorem missed {e : Env} (he : SvdCorrect e) (hs : SolverCorrect e) (hp0 : 0 < e.s.successProb) (hp1 : e.s.successProb < 1)
    (hn : 1 ≤ e.s.maxRansacIter) {corr : List (V2 × V2)} {samples : Nat → List Nat} (hd : Drawn corr.length samples) {fuel : Nat}
    {r : Motion3 × Estimator} (h : findCoarseMotion e samples fuel (create e corr) = .ok (some r)) {K m : Nat}
    (hr : r.2.inliersInds.length < K) (hK : K ≤ corr.length) (hm : m ≤ e.s.maxRansacIter.toNat)
    (hstop : e.s.runMaxRansacIter = true ∨ 1 - e.s.successProb ≤ (1 - (((K : ℝ) - 1) / corr.length) ^ 5) ^ m) :
    ∀ j < m, ¬ Good e corr K (samples j) := by
  obtain ⟨k, -, hk, hrun, hend, -, -, hmax⟩ := C51_ransac_partial he hs hp0 hp1 hn hd h
  have hcorr : (0 : ℝ) < corr.length := by exact_mod_cast (by omega : 0 < corr.length)
  have hmk : m ≤ k := by
    rcases hstop with hstop | hstop
    · have := hrun hstop; omega
    · rcases hend with hend | hend
      · omega
      · by_contra hlt
        have h1 : ((r.2.inliersInds.length : ℝ)) ≤ (K : ℝ) - 1 := by
          have : r.2.inliersInds.length + 1 ≤ K := hr
          have : ((r.2.inliersInds.length : ℝ)) + 1 ≤ K := by exact_mod_cast this
          linarith
        have h2 : ((r.2.inliersInds.length : ℝ) / corr.length) ^ 5 ≤ (((K : ℝ) - 1) / corr.length) ^ 5 :=
          pow_le_pow_left₀ (by positivity) (div_le_div_of_nonneg_right h1 hcorr.le) 5
        have h0 : (0 : ℝ) ≤ ((K : ℝ) - 1) / corr.length := div_nonneg (le_trans (by positivity) h1) hcorr.le
        have h3 : (((K : ℝ) - 1) / corr.length) ^ 5 ≤ 1 := by
          apply pow_le_one₀ h0
          rw [div_le_one hcorr]
          have : (K : ℝ) ≤ corr.length := by exact_mod_cast hK
          linarith
        have h4 : (1 - (((K : ℝ) - 1) / corr.length) ^ 5) ^ m ≤ (1 - ((r.2.inliersInds.length : ℝ) / corr.length) ^ 5) ^ m :=
          pow_le_pow_left₀ (by linarith) (by linarith) m
        have h5 : (1 - ((r.2.inliersInds.length : ℝ) / corr.length) ^ 5) ^ m ≤
            (1 - ((r.2.inliersInds.length : ℝ) / corr.length) ^ 5) ^ (k + 1) :=
          pow_le_pow_of_le_one (by linarith) (by have : (0 : ℝ) ≤ ((r.2.inliersInds.length : ℝ) / corr.length) ^ 5 := by positivity
                                                 linarith) (by omega)
        linarith
  rintro j hj ⟨E, mo, hE, hu, hess, hin⟩
  have := hmax j (by omega) E hE mo hu hess
  omega

/-- C165 (partial): a motion with at least `K` inliers is missed with at most the probability that `m` samples are all bad, for every number `m` of rounds up to
the maximum that, each good with the fifth power of the share (K - 1)/n as probability, are all bad with at least the probability configured; if all rounds are
asked for, for every `m` up to the maximum. Missing: that this is at most the probability configured, see `C165_promise_violated`. -/
theorem C165_chance_partial {e : Env} (he : SvdCorrect e) (hs : SolverCorrect e) (hp0 : 0 < e.s.successProb) (hp1 : e.s.successProb < 1)
    (hn : 1 ≤ e.s.maxRansacIter) {corr : List (V2 × V2)}
    (hsol : ∀ sample pairs, SamplePairs e corr sample pairs → e.solve5 pairs ≠ []) {K m : Nat} (hK0 : 0 < K) (hK : K ≤ corr.length)
    (hm : m ≤ e.s.maxRansacIter.toNat)
    (hstop : e.s.runMaxRansacIter = true ∨ 1 - e.s.successProb ≤ (1 - (((K : ℝ) - 1) / corr.length) ^ 5) ^ m) :
    1 - (1 - share fun s : Fin 5 → Fin corr.length => Good e corr K (sampleOf s)) ^ m ≤
      share fun d : Fin e.s.maxRansacIter.toNat → Fin 5 → Fin corr.length => Finds e corr K (drawsOf d) := by
  have hpos : 0 < corr.length := by omega
  have hne : corr ≠ [] := List.length_pos_iff.1 hpos
  have : Nonempty (Fin corr.length) := ⟨⟨0, hpos⟩⟩
  rw [share_not (fun d : Fin e.s.maxRansacIter.toNat → Fin 5 → Fin corr.length => Finds e corr K (drawsOf d))]
  have h1 : (share fun d : Fin e.s.maxRansacIter.toNat → Fin 5 → Fin corr.length => ¬ Finds e corr K (drawsOf d)) ≤
      share fun d : Fin e.s.maxRansacIter.toNat → Fin 5 → Fin corr.length => ∀ i, i.val < m → ¬ Good e corr K (sampleOf (d i)) := by
    apply share_mono
    intro d hno i hi
    have hdr := drawsOf_drawn hpos d
    obtain ⟨r, hr⟩ := C85_defined_partial hp0 hp1 hn hne hdr (fun it pairs h => hsol _ pairs h) (fuel := e.s.maxRansacIter.toNat)
      (by omega)
    have hlt : r.2.inliersInds.length < K := by
      by_contra h
      exact hno ⟨r, hr, not_lt.1 h⟩
    have := missed he hs hp0 hp1 hn hdr hr hlt hK hm hstop i.val hi
    unfold drawsOf at this
    rw [dif_pos i.2] at this
    exact this
  rw [share_rounds hm fun s : Fin 5 → Fin corr.length => ¬ Good e corr K (sampleOf s)] at h1
  rw [share_not (fun s : Fin 5 → Fin corr.length => ¬ Good e corr K (sampleOf s))] at h1
  simp only [not_not] at h1
  linarith

/-- C165 (partial): for a set of `K` correspondences that agree on a motion, one sample is good with probability at least K (K - 1) (K - 2) (K - 3) (K - 4) / n⁵, and
so a motion with `K` inliers is found with at least the probability below. -/
theorem C165_consensus_partial {e : Env} (he : SvdCorrect e) (hs : SolverCorrect e) (hp0 : 0 < e.s.successProb) (hp1 : e.s.successProb < 1)
    (hn : 1 ≤ e.s.maxRansacIter) {corr : List (V2 × V2)}
    (hsol : ∀ sample pairs, SamplePairs e corr sample pairs → e.solve5 pairs ≠ []) {G : Finset Nat} (hG : Consensus e corr G) (hG0 : G.Nonempty)
    {m : Nat} (hm : m ≤ e.s.maxRansacIter.toNat)
    (hstop : e.s.runMaxRansacIter = true ∨ 1 - e.s.successProb ≤ (1 - (((G.card : ℝ) - 1) / corr.length) ^ 5) ^ m) :
    1 - (1 - (G.card * (G.card - 1) * (G.card - 2) * (G.card - 3) * (G.card - 4) : ℝ) / corr.length ^ 5) ^ m ≤
      share fun d : Fin e.s.maxRansacIter.toNat → Fin 5 → Fin corr.length => Finds e corr G.card (drawsOf d) := by
  have hK : G.card ≤ corr.length := by
    have : G ⊆ Finset.range corr.length := fun i hi => Finset.mem_range.2 (hG.1 i hi)
    simpa using Finset.card_le_card this
  refine le_trans ?_ (C165_chance_partial he hs hp0 hp1 hn hsol (Finset.card_pos.2 hG0) hK hm hstop)
  have hdf : (G.card * (G.card - 1) * (G.card - 2) * (G.card - 3) * (G.card - 4) : ℝ) = (G.card.descFactorial 5 : ℝ) := by
    exact descFactorial_five _
  have h1 : (G.card.descFactorial 5 : ℝ) / corr.length ^ 5 ≤ share fun s : Fin 5 → Fin corr.length => Good e corr G.card (sampleOf s) := by
    rw [← share_members hG.1]
    apply share_mono
    rintro s ⟨hi, hmem⟩
    refine hG.2 _ (sampleOf_length s) (sampleOf_nodup.2 hi) fun i hi => ?_
    obtain ⟨j, rfl⟩ := mem_sampleOf.1 hi
    exact hmem j
  rw [hdf]
  have h2 := share_le_one fun s : Fin 5 → Fin corr.length => Good e corr G.card (sampleOf s)
  have h3 := pow_le_pow_left₀ (by linarith) (sub_le_sub_left h1 1) m
  linarith

/-- C165 (partial): if all rounds are asked for, and the maximum is large enough for samples without repetitions, the promise about a set is kept. -/
theorem C165_all_rounds_partial {e : Env} (he : SvdCorrect e) (hs : SolverCorrect e) (hp0 : 0 < e.s.successProb) (hp1 : e.s.successProb < 1)
    (hn : 1 ≤ e.s.maxRansacIter) {corr : List (V2 × V2)}
    (hsol : ∀ sample pairs, SamplePairs e corr sample pairs → e.solve5 pairs ≠ []) {G : Finset Nat} (hG : Consensus e corr G) (hG0 : G.Nonempty)
    (hrun : e.s.runMaxRansacIter = true)
    (henough : (1 - (G.card * (G.card - 1) * (G.card - 2) * (G.card - 3) * (G.card - 4) : ℝ) / corr.length ^ 5) ^ e.s.maxRansacIter.toNat ≤
      1 - e.s.successProb) :
    e.s.successProb ≤ share fun d : Fin e.s.maxRansacIter.toNat → Fin 5 → Fin corr.length => Finds e corr G.card (drawsOf d) := by
  have := C165_consensus_partial he hs hp0 hp1 hn hsol hG hG0 le_rfl (.inl hrun)
  linarith

/-! ### The promise is not kept -/

/-- With samples that all repeat an index nothing is found. -/
theorem repeated_finds_nothing {e : Env} (hp0 : 0 < e.s.successProb) (hp1 : e.s.successProb < 1) (hn : 1 ≤ e.s.maxRansacIter)
    {corr : List (V2 × V2)} {samples : Nat → List Nat} (hd : Drawn corr.length samples) (hrep : ∀ it, ¬ (samples it).Nodup) {K : Nat} (hK : 0 < K) :
    ¬ Finds e corr K samples := by
  rintro ⟨r, hr, hlen⟩
  obtain ⟨k, l, hrr, hne, h1, h2⟩ := coarse_unfold hr
  obtain ⟨-, g2, -⟩ := ransac_inv (made_create e corr) (List.length_pos_of_ne_nil hne) hp0 hp1 hn
    (fun it => (hd it).2) _ 0 k _ l (start_inv rfl hp0 hp1 hn) (by omega) hrr
  have hno : ∀ it pairs, ¬ SamplePairs e corr (samples it) pairs := by
    rintro it pairs ⟨inds, hperm, hsort, -⟩
    exact hrep it (hperm.nodup_iff.1 (hsort.imp fun h => ne_of_lt h))
  have hbest : l.inliersInds = [] ∧ l.bestMotion = Motion3.one := by
    rcases g2.best with ⟨-, h3, h4⟩ | ⟨-, h3 | ⟨j, -, E, ⟨ps, _, _, hps, _⟩, -⟩⟩
    · exact ⟨h3, h4⟩
    · exact h3
    · exact absurd hps (hno j ps)
  rw [h2, hbest.1, hbest.2, extractMotion_nil] at hlen
  simp at hlen
  omega

/-- The example with `M` rounds and a success probability of 99.9%. -/
noncomputable def demoRounds (M : Nat) (run : Bool) : Env :=
  { demo 1 (fun m _ => m) with s := ⟨5 / 4, 999 / 1000, M, run⟩ }

theorem demoRounds_svd (M : Nat) (run : Bool) : SvdCorrect (demoRounds M run) := demo_svd (f := 1) (solve := fun m _ => m)

theorem demoRounds_solver (M : Nat) (run : Bool) : SolverCorrect (demoRounds M run) := demo_solver (f := 1) (solve := fun m _ => m)

/-- The five correspondences of the example agree on the move to the right. -/
theorem demo_consensus (M : Nat) (run : Bool) : Consensus (demoRounds M run) corr5 (Finset.range 5) := by
  refine ⟨fun i hi => by simpa [corr5] using hi, fun sample h5 hnd hmem => ?_⟩
  have hperm : (samples5 0).Perm sample := by
    have hsub : sample ⊆ samples5 0 := by
      intro i hi
      have := Finset.mem_range.1 (hmem i hi)
      simp only [samples5, List.mem_cons, List.not_mem_nil, or_false]
      omega
    exact ((List.subperm_of_subset hnd hsub).perm_of_length_le (by rw [h5]; rfl)).symm
  obtain ⟨pairs, before, after, ⟨inds, hp, hs, hf⟩, h1, h2, h3⟩ := corr5_hypothesis (solve := fun m _ => m) 0
  refine ⟨toEssential m0, m0, ⟨pairs, before, after, ⟨inds, hp.trans hperm, hs, hf⟩, h1, h2, h3⟩, m0_unit, toEssential_self _, ?_⟩
  have hall : ∀ i ∈ List.range corr5.length, ∃ c, corr5[i]? = some c ∧
      (Fits (demo 1 fun m _ => m) (toEssential m0) c ∧ Front (demo 1 fun m _ => m) m0 c) := by
    intro i hi
    have hlt := List.mem_range.1 hi
    have hmem := List.getElem_mem hlt
    refine ⟨_, List.getElem?_eq_getElem hlt, ?_, corr5_front hmem⟩
    exact C80_fits (by norm_num [demo]) (demo_cam one_ne_zero _) (corr5_epi hmem)
  have e : inliers (demoRounds M run) corr5 (toEssential m0) m0 = List.range corr5.length := by
    unfold inliers indices
    rw [List.filter_eq_self]
    intro i hi
    obtain ⟨c, hc, hf, hfr⟩ := hall i hi
    have hx : ∃ c, corr5[i]? = some c ∧ (Fits (demoRounds M run) (toEssential m0) c ∧ Front (demoRounds M run) m0 c) := ⟨c, hc, hf, hfr⟩
    simpa using hx
  rw [e]
  simp [corr5]

theorem demo_pairs_solved (M : Nat) (run : Bool) (sample : List Nat) (pairs : List (V3 × V3)) (_ : SamplePairs (demoRounds M run) corr5 sample pairs) :
    (demoRounds M run).solve5 pairs ≠ [] := by
  show [toEssential m0] ≠ []
  simp

/-- The share of the samples of five indices below 5 that repeat one. -/
theorem share_repeated : share (fun s : Fin 5 → Fin corr5.length => ¬ (sampleOf s).Nodup) = 3005 / 3125 := by
  have : Nonempty (Fin corr5.length) := ⟨⟨0, by simp [corr5]⟩⟩
  have h := share_members (n := corr5.length) (G := Finset.range 5) (fun i hi => by simpa [corr5] using hi)
  have h2 : share (fun s : Fin 5 → Fin corr5.length => ¬ ¬ (sampleOf s).Nodup) = 120 / 3125 := by
    rw [show (120 / 3125 : ℝ) = ((Finset.range 5).card.descFactorial 5 : ℝ) / (corr5.length : ℝ) ^ 5 by
      rw [Finset.card_range, show corr5.length = 5 from rfl]; norm_num [Nat.descFactorial], ← h]
    apply share_congr
    intro s
    rw [not_not, sampleOf_nodup]
    exact ⟨fun hi => ⟨hi, fun i => Finset.mem_range.2 (by have := (s i).2; simpa [corr5] using this)⟩, fun hi => hi.1⟩
  rw [share_not, h2]
  norm_num

/-- C165 is violated: of five correspondences that all agree on a motion, where by the formula of the code a single round suffices, 100 rounds find the motion
with less than 98.1%, not with the 99.9% configured; for rounds that repeat an index are counted but not used. -/
theorem C165_promise_violated (run : Bool) : ¬ KeepsPromise (demoRounds 100 run) corr5 ∧
    (share fun d : Fin 100 → Fin 5 → Fin corr5.length => Finds (demoRounds 100 run) corr5 5 (drawsOf d)) < 981 / 1000 := by
  have : Nonempty (Fin corr5.length) := ⟨⟨0, by simp [corr5]⟩⟩
  have hlt : (share fun d : Fin 100 → Fin 5 → Fin corr5.length => Finds (demoRounds 100 run) corr5 5 (drawsOf d)) < 981 / 1000 := by
    rw [share_not]
    have h1 : (share fun d : Fin 100 → Fin 5 → Fin corr5.length => ∀ i, i.val < 100 → ¬ (sampleOf (d i)).Nodup) ≤
        share fun d : Fin 100 → Fin 5 → Fin corr5.length => ¬ Finds (demoRounds 100 run) corr5 5 (drawsOf d) := by
      apply share_mono
      intro d hd
      apply repeated_finds_nothing (e := demoRounds 100 run) (by norm_num [demoRounds]) (by norm_num [demoRounds]) (by norm_num [demoRounds])
        (drawsOf_drawn (by simp [corr5]) d) _ (by norm_num)
      intro it
      unfold drawsOf
      split
      · next h => exact hd ⟨it, h⟩ h
      · decide
    rw [share_rounds le_rfl (fun s : Fin 5 → Fin corr5.length => ¬ (sampleOf s).Nodup), share_repeated] at h1
    have h2 : (19 / 1000 : ℝ) < (3005 / 3125) ^ 100 := by norm_num
    linarith
  refine ⟨fun h => ?_, hlt⟩
  have h3 := h (Finset.range 5) (demo_consensus 100 run) (by
    rw [Finset.card_range, show corr5.length = 5 from rfl]
    norm_num [demoRounds])
  rw [Finset.card_range] at h3
  have h4 : (demoRounds 100 run).s.successProb = 999 / 1000 := rfl
  rw [h4] at h3
  have h5 : (999 / 1000 : ℝ) ≤ share fun d : Fin 100 → Fin 5 → Fin corr5.length => Finds (demoRounds 100 run) corr5 5 (drawsOf d) := h3
  linarith

/-! ### Demonstration -/

/-- The hypotheses of the theorems are met: with 1000 rounds, the promise is kept for the five correspondences. -/
example : (999 / 1000 : ℝ) ≤ share fun d : Fin 1000 → Fin 5 → Fin corr5.length => Finds (demoRounds 1000 true) corr5 5 (drawsOf d) := by
  have := C165_all_rounds_partial (e := demoRounds 1000 true) (demoRounds_svd _ _) (demoRounds_solver _ _) (by norm_num [demoRounds])
    (by norm_num [demoRounds]) (by norm_num [demoRounds]) (demo_pairs_solved _ _) (demo_consensus _ _) ⟨0, by simp⟩ rfl (by
      rw [Finset.card_range, show corr5.length = 5 from rfl]
      show _ ^ 1000 ≤ (1 : ℝ) - 999 / 1000
      have h1 : ((1 : ℝ) - (((5 : Nat) : ℝ) * ((5 : Nat) - 1) * ((5 : Nat) - 2) * ((5 : Nat) - 3) * ((5 : Nat) - 4)) / ((5 : Nat) : ℝ) ^ 5) ≤ 97 / 100 := by
        norm_num
      refine le_trans (pow_le_pow_left₀ (by norm_num) h1 1000) ?_
      refine le_trans (pow_le_pow_of_le_one (by norm_num) (by norm_num) (show 250 ≤ 1000 by norm_num)) ?_
      norm_num)
  rw [Finset.card_range] at this
  exact this

/-- And without asking for all rounds, for any number of rounds: the bound for `m` rounds applies as long as (1 - (4/5)⁵)ᵐ is at least 0.1%. -/
example : (1 : ℝ) - (601 / 625) ^ 10 ≤ share fun d : Fin 1000 → Fin 5 → Fin corr5.length => Finds (demoRounds 1000 false) corr5 5 (drawsOf d) := by
  have := C165_consensus_partial (e := demoRounds 1000 false) (demoRounds_svd _ _) (demoRounds_solver _ _) (by norm_num [demoRounds])
    (by norm_num [demoRounds]) (by norm_num [demoRounds]) (demo_pairs_solved _ _) (demo_consensus _ _) ⟨0, by simp⟩ (m := 10)
    (by norm_num [demoRounds]) (.inr (by
      rw [Finset.card_range, show corr5.length = 5 from rfl]
      show (1 : ℝ) - 999 / 1000 ≤ _
      norm_num))
  rw [Finset.card_range, show corr5.length = 5 from rfl] at this
  refine le_trans (le_of_eq ?_) this
  norm_num

end Mdso.Stereo
