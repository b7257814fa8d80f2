import Verif.Props.PixelSelector

/-!
# C175: when a selection of pixels returns
-/

set_option autoImplicit false

namespace Mdso.PixSel

open Mdso.PixSelSpec

section
variable {K : Type} [Field K] [LinearOrder K]

theorem adapt_floor {factor : ℝ} {st : State} {needed : Nat} (hn : 0 < needed) (hf : 0 < factor)
    (hi : (st.lastBlockSize : ℝ) * Real.sqrt (st.lastPointsFound / (needed * factor)) < 2147483648) :
    ∃ bs, adapt factor st needed = .ok bs ∧ (bs : ℝ) ≤ st.lastBlockSize * Real.sqrt (st.lastPointsFound / (needed * factor)) ∧
      (st.lastBlockSize : ℝ) * Real.sqrt (st.lastPointsFound / (needed * factor)) < bs + 1 := by
  have hd : ¬ ((needed : ℝ) * factor ≤ 0) := not_le.2 (mul_pos (Nat.cast_pos.2 hn) hf)
  obtain ⟨v, hv⟩ : ∃ v, v = (st.lastBlockSize : ℝ) * Real.sqrt (st.lastPointsFound / (needed * factor)) := ⟨_, rfl⟩
  have hv0 : 0 ≤ v := by rw [hv]; positivity
  rw [← hv] at hi ⊢
  refine ⟨(Util.truncInt v).toNat, ?_, ?_⟩
  · unfold adapt
    simp only [if_neg hd, ← hv]
    rw [if_pos hi]
  · unfold Util.truncInt
    rw [if_pos hv0]
    have h1 : (0 : Int) ≤ ⌊v⌋ := Int.floor_nonneg.2 hv0
    have h2 : (((⌊v⌋.toNat : Nat) : Int) : ℝ) = (⌊v⌋ : ℝ) := by rw [Int.toNat_of_nonneg h1]
    have h3 : ((⌊v⌋.toNat : Nat) : ℝ) = (⌊v⌋ : ℝ) := by exact_mod_cast h2
    rw [h3]
    exact ⟨Int.floor_le v, Int.lt_floor_add_one v⟩

theorem block_iff {a b c : ℝ} (ha : 0 ≤ a) (hc : 0 < c) : 1 ≤ a * Real.sqrt (b / c) ↔ c ≤ a ^ 2 * b := by
  constructor
  · intro h
    have h0 : 0 ≤ b / c := by
      by_contra hn
      rw [Real.sqrt_eq_zero_of_nonpos (not_le.1 hn).le] at h
      norm_num at h
    have h2 : 1 ≤ (a * Real.sqrt (b / c)) ^ 2 := by nlinarith
    rw [mul_pow, Real.sq_sqrt h0] at h2
    have h3 : a ^ 2 * (b / c) = a ^ 2 * b / c := by ring
    rw [h3, le_div_iff₀ hc] at h2
    linarith
  · intro h
    have h3 : a * Real.sqrt (b / c) = Real.sqrt (a ^ 2 * (b / c)) := by
      rw [Real.sqrt_mul (sq_nonneg a), Real.sqrt_sq ha]
    rw [h3, Real.one_le_sqrt]
    have h4 : a ^ 2 * (b / c) = a ^ 2 * b / c := by ring
    rw [h4, le_div_iff₀ hc]
    linarith

theorem stuck {fuel : Nat} {shuffle : Nat → List Pt → List Pt} {s : Settings K} {st : State} {g : Grad K} {needed : Nat} (hne : s.gradThresholds ≠ [])
    (hr : 0 < g.rows) (ha : adapt s.adaptToFactor st needed = .ok 0) : select fuel shuffle s st g needed = .ok none := by
  unfold select
  rw [ha]
  simp only
  unfold selectInternal
  rw [if_neg (by simpa using hne)]
  cases hts : s.gradThresholds with
  | nil => exact absurd hts hne
  | cons t ts =>
    have : layers fuel shuffle g 0 0 (t :: ts) = .ok none := by
      unfold layers
      rw [if_neg (by norm_num), Nat.mul_zero, selectLayer_stuck _ _ _ hr]
    rw [this]

/-- **C175.** A selection of at least one point on a picture that is not empty returns exactly if the number of points requested, times the factor of the settings, is at most the
square of the last block size times the number of points found then; otherwise it runs forever. (The largest block has to fit an `int`.) -/
theorem C175_returns_iff (shuffle : Nat → List Pt → List Pt) (s : Settings K) (st : State) (g : Grad K) {needed : Nat} (hn : 0 < needed) (hf : 0 < s.adaptToFactor)
    (hne : s.gradThresholds ≠ []) (hr : 0 < g.rows)
    (hi : 2 ^ s.gradThresholds.length * ((st.lastBlockSize : ℝ) * Real.sqrt (st.lastPointsFound / (needed * s.adaptToFactor))) ≤ 2147483648) :
    ((needed : ℝ) * s.adaptToFactor ≤ (st.lastBlockSize : ℝ) ^ 2 * st.lastPointsFound → ∃ fuel pts st', select fuel shuffle s st g needed = .ok (some (pts, st'))) ∧
    (¬ (needed : ℝ) * s.adaptToFactor ≤ (st.lastBlockSize : ℝ) ^ 2 * st.lastPointsFound → ∀ fuel, select fuel shuffle s st g needed = .ok none) := by
  have hc : (0 : ℝ) < needed * s.adaptToFactor := mul_pos (Nat.cast_pos.2 hn) hf
  obtain ⟨v, hv⟩ : ∃ v, v = (st.lastBlockSize : ℝ) * Real.sqrt (st.lastPointsFound / (needed * s.adaptToFactor)) := ⟨_, rfl⟩
  have hv0 : 0 ≤ v := by rw [hv]; positivity
  have hp : (2 : ℝ) ≤ 2 ^ s.gradThresholds.length := by
    have : 1 ≤ s.gradThresholds.length := by
      cases h : s.gradThresholds with
      | nil => exact absurd h hne
      | cons _ _ => simp
    calc (2 : ℝ) = 2 ^ 1 := by norm_num
      _ ≤ 2 ^ s.gradThresholds.length := pow_le_pow_right₀ (by norm_num) this
  have hv1 : v < 2147483648 := by
    rw [← hv] at hi
    nlinarith
  obtain ⟨bs, hb, hb1, hb2⟩ := adapt_floor (st := st) hn hf (by rw [← hv]; exact hv1)
  have hiff := block_iff (a := (st.lastBlockSize : ℝ)) (b := (st.lastPointsFound : ℝ)) (Nat.cast_nonneg _) hc
  rw [← hv] at hb1 hb2 hiff hi
  rw [← hiff]
  constructor
  · intro h
    refine C26_returns_partial shuffle s st g needed bs hne hb ?_ ?_
    · by_contra hcon
      have : bs = 0 := by omega
      rw [this] at hb2
      norm_num at hb2
      linarith
    · have : (2 : ℝ) ^ s.gradThresholds.length * bs ≤ 2147483648 := le_trans (mul_le_mul_of_nonneg_left hb1 (by positivity)) hi
      exact_mod_cast this
  · intro h fuel
    have : bs = 0 := by
      by_contra hcon
      have : (1 : ℝ) ≤ bs := by exact_mod_cast Nat.one_le_iff_ne_zero.2 hcon
      linarith
    exact stuck hne hr (this ▸ hb)

/-- **C175, a new selector.** Its first selection is decided by the initial block size and the initial number of points of the settings. -/
theorem C175_first (shuffle : Nat → List Pt → List Pt) (s : Settings K) (g : Grad K) {needed : Nat} (hn : 0 < needed) (hf : 0 < s.adaptToFactor)
    (hne : s.gradThresholds ≠ []) (hr : 0 < g.rows)
    (hi : 2 ^ s.gradThresholds.length * ((s.initialAdaptiveBlockSize : ℝ) * Real.sqrt (s.initialPointsFound / (needed * s.adaptToFactor))) ≤ 2147483648) :
    ((needed : ℝ) * s.adaptToFactor ≤ (s.initialAdaptiveBlockSize : ℝ) ^ 2 * s.initialPointsFound →
      ∃ fuel pts st', select fuel shuffle s (init s) g needed = .ok (some (pts, st'))) ∧
    (¬ (needed : ℝ) * s.adaptToFactor ≤ (s.initialAdaptiveBlockSize : ℝ) ^ 2 * s.initialPointsFound → ∀ fuel, select fuel shuffle s (init s) g needed = .ok none) :=
  C175_returns_iff shuffle s (init s) g hn hf hne hr hi

/-- **C175, a selection after another.** If the last selection, with blocks of `bs` pixels, found `found` points, the next returns exactly if the number requested,
times the factor of the settings, is at most `bs² found`. -/
theorem C175_next {fuel : Nat} {shuffle shuffle' : Nat → List Pt → List Pt} (hs : IsShuffle shuffle) {s : Settings K} {st st' : State} {g : Grad K} {needed : Nat} {pts : List Pt}
    (h : select fuel shuffle s st g needed = .ok (some (pts, st'))) {found : Nat} (hfound : found = (counts g.rows g.cols g.px st'.lastBlockSize 0 s.gradThresholds).sum)
    (g' : Grad K) {needed' : Nat} (hn : 0 < needed') (hf : 0 < s.adaptToFactor) (hr : 0 < g'.rows)
    (hi : 2 ^ s.gradThresholds.length * ((st'.lastBlockSize : ℝ) * Real.sqrt (found / (needed' * s.adaptToFactor))) ≤ 2147483648) :
    ((needed' : ℝ) * s.adaptToFactor ≤ (st'.lastBlockSize : ℝ) ^ 2 * found → ∃ fuel' pts' st'', select fuel' shuffle' s st' g' needed' = .ok (some (pts', st''))) ∧
    (¬ (needed' : ℝ) * s.adaptToFactor ≤ (st'.lastBlockSize : ℝ) ^ 2 * found → ∀ fuel', select fuel' shuffle' s st' g' needed' = .ok none) := by
  have h0 : st'.lastPointsFound = found := by rw [hfound]; exact (C24_count hs h).1
  have hne : s.gradThresholds ≠ [] := by
    intro he
    obtain ⟨l0, rest, ls', hl, -⟩ := select_ok h
    have := (layers_some 0 _ _ hl).1
    rw [he] at this
    cases this
  rw [← h0] at hi ⊢
  exact C175_returns_iff shuffle' s st' g' hn hf hne hr hi

/-- **C175, the default settings.** With blocks of 25 pixels, 1000 points and the factor 1.1 to begin with and three thresholds, the first selection returns for
every picture and any number of points from 1 up to 568181, and never returns on a picture that is not empty for more. -/
theorem C175_default (shuffle : Nat → List Pt → List Pt) (t₁ t₂ t₃ : K) (g : Grad K) (hr : 0 < g.rows) {needed : Nat} (hn : 0 < needed) :
    (needed ≤ 568181 → ∃ fuel pts st', select fuel shuffle ⟨25, 1000, 11 / 10, [t₁, t₂, t₃]⟩ (init ⟨25, 1000, 11 / 10, [t₁, t₂, t₃]⟩) g needed = .ok (some (pts, st'))) ∧
    (568181 < needed → ∀ fuel, select fuel shuffle ⟨25, 1000, 11 / 10, [t₁, t₂, t₃]⟩ (init ⟨25, 1000, 11 / 10, [t₁, t₂, t₃]⟩) g needed = .ok none) := by
  have h1 : (1 : ℝ) ≤ needed := by exact_mod_cast hn
  have hsq : Real.sqrt (1000 / ((needed : ℝ) * (11 / 10))) ≤ 1000 := by
    rw [Real.sqrt_le_left (by norm_num), div_le_iff₀ (by positivity)]
    nlinarith
  obtain ⟨a, b⟩ := C175_first shuffle ⟨25, 1000, 11 / 10, [t₁, t₂, t₃]⟩ g hn (by norm_num) (by simp) hr (by
    simp only [List.length_cons, List.length_nil]
    push_cast
    nlinarith [Real.sqrt_nonneg (1000 / ((needed : ℝ) * (11 / 10)))])
  constructor
  · intro h
    refine a ?_
    have : (needed : ℝ) ≤ 568181 := by exact_mod_cast h
    push_cast
    linarith
  · intro h
    refine b ?_
    have : (568182 : ℝ) ≤ needed := by exact_mod_cast h
    push_cast
    rw [not_le]
    linarith

end

/-- Non-vacuity of `C175_next`: the selection of `C25_filled_with_origin_violated` found two points with blocks of one pixel; after it, a request for one point returns and
one for two points does not. -/
example (g : Grad ℚ) (hr : 0 < g.rows) :
    (∃ fuel pts st', select fuel (fun _ l => l) demoSettings ⟨1, 2⟩ g 1 = .ok (some (pts, st'))) ∧ ∀ fuel, select fuel (fun _ l => l) demoSettings ⟨1, 2⟩ g 2 = .ok none := by
  have h8 : ∀ x : ℝ, x ≤ 4 → (2 : ℝ) ^ demoSettings.gradThresholds.length * (((1 : Nat) : ℝ) * Real.sqrt x) ≤ 2147483648 := by
    intro x hx
    have : Real.sqrt x ≤ 2 := by rw [Real.sqrt_le_left (by norm_num)]; linarith
    simp only [demoSettings, List.length_cons, List.length_nil]
    push_cast
    nlinarith [Real.sqrt_nonneg x]
  have hf : demoSettings.adaptToFactor = 11 / 10 := rfl
  constructor
  · refine (C175_returns_iff (fun _ l => l) demoSettings ⟨1, 2⟩ g (needed := 1) (by norm_num) (by rw [hf]; norm_num) (by simp [demoSettings]) hr (h8 _ ?_)).1 ?_
    · rw [hf]; norm_num
    · rw [hf]; norm_num
  · refine (C175_returns_iff (fun _ l => l) demoSettings ⟨1, 2⟩ g (needed := 2) (by norm_num) (by rw [hf]; norm_num) (by simp [demoSettings]) hr (h8 _ ?_)).2 ?_
    · rw [hf]; norm_num
    · rw [hf]; norm_num

end Mdso.PixSel
