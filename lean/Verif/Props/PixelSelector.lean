import Verif.Lemmas.PixelSelector
import Mathlib.Tactic.NormNum

/-!
# Properties of the pixel selector (C24, C25, C26, C70)
-/

set_option autoImplicit false

namespace Mdso.PixSel

open Mdso.PixSelSpec

section
variable {K : Type} [Field K] [LinearOrder K]

theorem select_ok {fuel : Nat} {shuffle : Nat → List Pt → List Pt} {s : Settings K} {st st' : State} {g : Grad K}
    {needed : Nat} {pts : List Pt} (h : select fuel shuffle s st g needed = .ok (some (pts, st'))) :
    ∃ l0 rest ls', layers fuel shuffle g st'.lastBlockSize 0 s.gradThresholds = .ok (some (l0 :: rest)) ∧
      trim needed (l0 :: rest) = .ok ls' ∧ pts = ls'.flatten ∧
      st'.lastPointsFound = ((l0 :: rest).map List.length).sum ∧
      adapt s.adaptToFactor st needed = .ok st'.lastBlockSize := by
  unfold select at h
  cases ha : adapt s.adaptToFactor st needed with
  | error e => rw [ha] at h; cases h
  | ok bs =>
    rw [ha] at h
    simp only at h
    unfold selectInternal at h
    split at h
    · cases h
    · rename_i hne
      cases hl : layers fuel shuffle g bs 0 s.gradThresholds with
      | error e => rw [hl] at h; cases h
      | ok o =>
        rw [hl] at h
        cases o with
        | none => cases h
        | some ls =>
          simp only at h
          cases ls with
          | nil =>
            have := (layers_some 0 _ _ hl).1
            rw [List.length_nil] at this
            exact absurd (List.isEmpty_iff.2 (List.length_eq_zero_iff.1 this.symm)) (by simpa using hne)
          | cons l0 rest =>
            cases ht : trim needed (l0 :: rest) with
            | error e => rw [ht] at h; cases h
            | ok ls' =>
              rw [ht] at h
              cases h
              exact ⟨l0, rest, ls', hl, ht, rfl, rfl, rfl⟩

/-- **C24.** When a selection returns, the number of points returned is the number requested or the number of
points found, whichever is smaller. The number found is the number of strong blocks, counted for every threshold
with its own block size. When no more were found than requested, every strong block of every layer has its
point in the result. -/
theorem C24_count {fuel : Nat} {shuffle : Nat → List Pt → List Pt} (hs : IsShuffle shuffle) {s : Settings K}
    {st st' : State} {g : Grad K} {needed : Nat} {pts : List Pt}
    (h : select fuel shuffle s st g needed = .ok (some (pts, st'))) :
    let found := (counts g.rows g.cols g.px st'.lastBlockSize 0 s.gradThresholds).sum
    st'.lastPointsFound = found ∧ pts.length = min needed found ∧
    (found ≤ needed → ∀ (i : Nat) (t : K), s.gradThresholds[i]? = some t → ∀ a b,
      (a + 1) * (2 ^ i * st'.lastBlockSize) < g.rows → (b + 1) * (2 ^ i * st'.lastBlockSize) < g.cols →
      Strong g.px (2 ^ i * st'.lastBlockSize) t a b →
      ∃ p ∈ pts, IsPick g.rows g.cols g.px (2 ^ i * st'.lastBlockSize) t p ∧
        a * (2 ^ i * st'.lastBlockSize) ≤ p.2 ∧ p.2 < (a + 1) * (2 ^ i * st'.lastBlockSize) ∧
        b * (2 ^ i * st'.lastBlockSize) ≤ p.1 ∧ p.1 < (b + 1) * (2 ^ i * st'.lastBlockSize)) := by
  obtain ⟨l0, rest, ls', hl, ht, rfl, hf, -⟩ := select_ok h
  have hc := counts_eq hs 0 _ _ hl
  rw [← hc]
  refine ⟨hf, ?_, ?_⟩
  · rcases trim_ok needed l0 rest with ⟨h1, h2⟩ | ⟨h1, h2, h3⟩
    · rw [h2] at ht
      cases ht
      rw [List.length_flatten, min_eq_right h1]
    · rw [h3] at ht
      cases ht
      rw [List.length_flatten, List.map_cons, List.sum_cons, resize_length, List.map_map, min_eq_left h1.le]
      have : (rest.map (List.length ∘ fun l => l.take (l.length * needed / ((l0 :: rest).map List.length).sum))).sum
          = (rest.map fun l => l.length * needed / ((l0 :: rest).map List.length).sum).sum := by
        congr 1
        apply List.map_congr_left
        intro l _
        simp only [Function.comp, List.length_take]
        apply min_eq_left
        apply Nat.div_le_of_le_mul
        rw [Nat.mul_comm _ l.length]
        exact Nat.mul_le_mul_left _ h1.le
      rw [this]
      omega
  · intro hle i t hi a b ha hb hst
    rcases trim_ok needed l0 rest with ⟨h1, h2⟩ | ⟨h1, h2, h3⟩
    · rw [h2] at ht
      cases ht
      obtain ⟨e1, e2⟩ := layers_some 0 _ _ hl
      have hlt : i < (l0 :: rest).length := by
        rw [e1]
        exact (List.getElem?_eq_some_iff.1 hi).1
      obtain ⟨l, hli⟩ : ∃ l, (l0 :: rest)[i]? = some l := ⟨_, List.getElem?_eq_getElem hlt⟩
      obtain ⟨t', h3, h4⟩ := e2 i l hli
      rw [hi] at h3
      cases h3
      rw [Nat.zero_add] at h4
      obtain ⟨p, hp, hpos⟩ := found_strong ha hb hst
      refine ⟨p, ?_, mem_found hp, hpos⟩
      refine List.mem_flatten.2 ⟨l, List.mem_of_getElem? hli, ?_⟩
      rw [h4]
      exact (hs i _).mem_iff.2 hp
    · omega

/-- **C25, partial.** Every returned pixel is the maximum of its block and exceeds the mean of the block by more
than the threshold of its layer, provided that no more points were found than requested or that the finest layer
has enough of its own to fill what the others leave over. Missing: without that condition the result is filled
with `(0, 0)`, see `C25_filled_with_origin_violated`. -/
theorem C25_picks_partial {fuel : Nat} {shuffle : Nat → List Pt → List Pt} (hs : IsShuffle shuffle) {s : Settings K}
    {st st' : State} {g : Grad K} {needed : Nat} {pts : List Pt}
    (h : select fuel shuffle s st g needed = .ok (some (pts, st')))
    (hfit : ∀ c cs, counts g.rows g.cols g.px st'.lastBlockSize 0 s.gradThresholds = c :: cs →
      (c :: cs).sum ≤ needed ∨ needed ≤ c + (cs.map fun n => n * needed / (c :: cs).sum).sum) :
    ∀ p ∈ pts, ∃ (i : Nat) (t : K), s.gradThresholds[i]? = some t ∧
      IsPick g.rows g.cols g.px (2 ^ i * st'.lastBlockSize) t p := by
  obtain ⟨l0, rest, ls', hl, ht, rfl, -, -⟩ := select_ok h
  have hc := counts_eq hs 0 _ _ hl
  have hfit := hfit l0.length (rest.map List.length) hc.symm
  rw [List.map_map, ← List.map_cons (f := List.length) (a := l0) (l := rest)] at hfit
  have key : ∀ l ∈ l0 :: rest, ∀ p ∈ l, ∃ (i : Nat) (t : K), s.gradThresholds[i]? = some t ∧
      IsPick g.rows g.cols g.px (2 ^ i * st'.lastBlockSize) t p := by
    intro l hlm p hp
    obtain ⟨i, hi, rfl⟩ := List.mem_iff_getElem.1 hlm
    obtain ⟨t, h1, h2⟩ := (layers_some 0 _ _ hl).2 i _ (List.getElem?_eq_getElem hi)
    rw [h2] at hp
    rw [Nat.zero_add] at hp
    exact ⟨i, t, h1, mem_found ((hs i _).mem_iff.1 hp)⟩
  intro p hp
  obtain ⟨l, hlm, hpl⟩ := List.mem_flatten.1 hp
  rcases trim_ok needed l0 rest with ⟨h1, h2⟩ | ⟨h1, h2, h3⟩
  · rw [h2] at ht
    cases ht
    exact key l hlm p hpl
  · rw [h3] at ht
    cases ht
    rcases List.mem_cons.1 hlm with rfl | hlm
    · have hle : needed - (rest.map fun l => l.length * needed / ((l0 :: rest).map List.length).sum).sum
          ≤ l0.length := by
        rcases hfit with hfit | hfit
        · omega
        · simp only [Function.comp_def] at hfit
          omega
      rw [resize_of_le hle] at hpl
      exact key l0 (List.mem_cons_self ..) p (List.mem_of_mem_take hpl)
    · obtain ⟨l', hl', rfl⟩ := List.mem_map.1 hlm
      exact key l' (List.mem_cons_of_mem _ hl') p (List.mem_of_mem_take hpl)

/-- **C26, partial.** A selection with an adapted block size of at least one pixel, whose largest block still
fits an `int`, returns. Missing: block size zero, see `C26_never_returns_violated`. -/
theorem C26_returns_partial (shuffle : Nat → List Pt → List Pt) (s : Settings K) (st : State) (g : Grad K)
    (needed bs : Nat) (hne : s.gradThresholds ≠ []) (ha : adapt s.adaptToFactor st needed = .ok bs) (hb : 1 ≤ bs)
    (hi : 2 ^ s.gradThresholds.length * bs ≤ 2147483648) :
    ∃ fuel pts st', select fuel shuffle s st g needed = .ok (some (pts, st')) := by
  refine ⟨max g.rows g.cols, ?_⟩
  obtain ⟨ls, hl⟩ := layers_total (fuel := max g.rows g.cols) shuffle g (bs := bs) hb (le_max_left _ _)
    (le_max_right _ _) 0 s.gradThresholds (by rwa [Nat.zero_add])
  have hlen := (layers_some 0 _ _ hl).1
  unfold select
  rw [ha]
  simp only
  unfold selectInternal
  rw [if_neg (by simpa using hne), hl]
  simp only
  cases ls with
  | nil => exact absurd (List.length_eq_zero_iff.1 hlen.symm) hne
  | cons l0 rest =>
    rcases trim_ok needed l0 rest with ⟨-, h2⟩ | ⟨-, -, h2⟩ <;> rw [h2] <;> exact ⟨_, _, rfl⟩

/-- **C70, partial.** Within one layer no pixel is found twice. Missing: the layers are not compared, see
`C70_same_pixel_twice_violated`. -/
theorem C70_distinct_in_layer_partial {fuel : Nat} {g : Grad K} {bs : Nat} {thr : K} {l : List Pt}
    (h : selectLayer fuel g bs thr = some l) : l.Nodup := by
  rw [selectLayer_some h]
  exact found_nodup g bs thr

/-- **C26, violated.** A selection that finds nothing leaves the selector in a state in which the next selection
that asks for points on a non-empty picture never returns, whatever the picture. -/
theorem C26_never_returns_violated {fuel : Nat} {shuffle shuffle' : Nat → List Pt → List Pt} (hs : IsShuffle shuffle)
    {s : Settings K} (hfac : 0 < s.adaptToFactor) {st st' : State} {g : Grad K} {needed : Nat} {pts : List Pt}
    (h : select fuel shuffle s st g needed = .ok (some (pts, st')))
    (hnone : (counts g.rows g.cols g.px st'.lastBlockSize 0 s.gradThresholds).sum = 0)
    (g' : Grad K) (hr : 0 < g'.rows) (needed' : Nat) (hn : 0 < needed') (fuel' : Nat) :
    select fuel' shuffle' s st' g' needed' = .ok none := by
  obtain ⟨l0, rest, ls', hl, ht, rfl, hf, -⟩ := select_ok h
  have h0 := (C24_count hs h).1
  rw [hnone] at h0
  have ha : adapt s.adaptToFactor st' needed' = .ok 0 := by
    unfold adapt
    have hd : ¬ ((needed' : ℝ) * s.adaptToFactor ≤ 0) := by
      have : (0 : ℝ) < needed' := Nat.cast_pos.2 hn
      exact not_le.2 (mul_pos this hfac)
    simp only [if_neg hd, h0, Nat.cast_zero, zero_div, Real.sqrt_zero, mul_zero]
    rw [if_pos (by norm_num)]
    simp [Util.truncInt]
  have hne : s.gradThresholds ≠ [] := by
    intro he
    have := (layers_some 0 _ _ hl).1
    rw [he] at this
    cases this
  unfold select
  rw [ha]
  simp only
  unfold selectInternal
  rw [if_neg (by simpa using hne)]
  cases hts : s.gradThresholds with
  | nil => exact absurd hts hne
  | cons t ts =>
    have : layers fuel' shuffle' g' 0 0 (t :: ts) = .ok none := by
      unfold layers
      rw [if_neg (by norm_num), Nat.mul_zero, selectLayer_stuck _ _ _ hr]
    rw [this]

end

/-! ## Concrete cases -/

/-- A picture without gradient, save for one pixel. -/
def spike (n : Nat) : Grad ℚ := ⟨n, n, fun y x => if y = 1 ∧ x = 1 then 100 else 0⟩

/-- The thresholds of the default settings. -/
noncomputable def demoSettings : Settings ℚ := ⟨1, 2, 11 / 10, [20, 8, 5]⟩

theorem adapt_demo {bs f n : Nat} (k : Nat) (h0 : 0 < n)
    (h1 : (k : ℝ) ≤ bs * Real.sqrt (f / (n * (11 / 10))))
    (h2 : (bs : ℝ) * Real.sqrt (f / (n * (11 / 10))) < k + 1) (hk : k < 2147483647) :
    adapt (11 / 10) ⟨bs, f⟩ n = .ok k := by
  unfold adapt
  have hn : (0 : ℝ) < n := Nat.cast_pos.2 h0
  have hd : ¬ ((n : ℝ) * (11 / 10) ≤ 0) := not_le.2 (by positivity)
  have hk' : (k : ℝ) + 1 ≤ 2147483647 := by exact_mod_cast hk
  simp only [if_neg hd]
  rw [if_pos (by linarith)]
  have hnn : (0 : ℝ) ≤ k := Nat.cast_nonneg k
  have hf : ⌊(bs : ℝ) * Real.sqrt (f / (n * (11 / 10)))⌋ = (k : Int) := by
    rw [Int.floor_eq_iff]
    exact ⟨by exact_mod_cast h1, by exact_mod_cast h2⟩
  unfold Util.truncInt
  rw [if_pos (le_trans hnn h1), hf]
  rfl

theorem adapt_spike : adapt (11 / 10) ⟨1, 2⟩ 1 = .ok 1 := by
  have h : Real.sqrt (((2 : Nat) : ℝ) / (((1 : Nat) : ℝ) * (11 / 10))) < 2 := by
    rw [Real.sqrt_lt' (by norm_num)]; norm_num
  have h' : 1 ≤ Real.sqrt (((2 : Nat) : ℝ) / (((1 : Nat) : ℝ) * (11 / 10))) := by
    rw [Real.one_le_sqrt]; norm_num
  exact adapt_demo 1 (by norm_num) (by simpa using h') (by push_cast; push_cast at h; linarith) (by norm_num)

theorem adapt_spike2 : adapt (11 / 10) ⟨1, 3⟩ 2 = .ok 1 := by
  have h : Real.sqrt (((3 : Nat) : ℝ) / (((2 : Nat) : ℝ) * (11 / 10))) < 2 := by
    rw [Real.sqrt_lt' (by norm_num)]; norm_num
  have h' : 1 ≤ Real.sqrt (((3 : Nat) : ℝ) / (((2 : Nat) : ℝ) * (11 / 10))) := by
    rw [Real.one_le_sqrt]; norm_num
  exact adapt_demo 1 (by norm_num) (by simpa using h') (by push_cast; push_cast at h; linarith) (by norm_num)

/-- **C25, violated.** A picture of five by five pixels with one bright pixel. With blocks of one pixel the finest
layer finds nothing, the two coarser ones find the bright pixel each. One point is requested: the shares of the
coarser layers round down to nothing and the result is `(0, 0)`, where the picture is flat: the pixel is a strong
maximum of no block of any layer. -/
theorem C25_filled_with_origin_violated :
    select 5 (fun _ l => l) demoSettings ⟨1, 2⟩ (spike 5) 1 = .ok (some ([(0, 0)], ⟨1, 2⟩)) ∧
    ∀ (bs : Nat) (t : ℚ), 0 ≤ t → ¬ IsPick (spike 5).rows (spike 5).cols (spike 5).px bs t (0, 0) := by
  constructor
  · unfold select
    have : demoSettings.adaptToFactor = 11 / 10 := rfl
    rw [this, adapt_spike]
    have : demoSettings.gradThresholds = [20, 8, 5] := rfl
    simp only [this]
    decide +kernel
  · rintro bs t ht ⟨a, b, -, -, -, -, -, -, hmax, hlt⟩
    have hz : (spike 5).px 0 0 = 0 := by simp [spike]
    simp only [hz] at hlt hmax
    have hm : 0 ≤ mean (spike 5).px bs a b := by
      unfold mean
      apply div_nonneg
      · apply Finset.sum_nonneg
        intro y _
        apply Finset.sum_nonneg
        intro x _
        simp only [spike]
        split <;> norm_num
      · exact Nat.cast_nonneg _
    linarith

/-- **C70, violated.** The same pixel is returned twice when it is the strong maximum of its block in two
layers. -/
theorem C70_same_pixel_twice_violated :
    select 5 (fun _ l => l) demoSettings ⟨1, 3⟩ (spike 5) 2 = .ok (some ([(1, 1), (1, 1)], ⟨1, 2⟩)) := by
  unfold select
  have : demoSettings.adaptToFactor = 11 / 10 := rfl
  rw [this, adapt_spike2]
  have : demoSettings.gradThresholds = [20, 8, 5] := rfl
  simp only [this]
  decide +kernel

/-- The identity is a shuffle. -/
theorem isShuffle_id : IsShuffle fun _ l => l := fun _ l => List.Perm.refl l

/-- C24 applies to a selection that returns. -/
example : ([(1, 1), (1, 1)] : List Pt).length = min 2
    (counts 5 5 (spike 5).px 1 0 [20, 8, 5]).sum :=
  (C24_count isShuffle_id C70_same_pixel_twice_violated).2.1

/-- C25 applies to a selection that returns: two were found, two requested. -/
example : ∃ (i : Nat) (t : ℚ), ([20, 8, 5] : List ℚ)[i]? = some t ∧
    IsPick 5 5 (spike 5).px (2 ^ i * 1) t (1, 1) :=
  C25_picks_partial isShuffle_id C70_same_pixel_twice_violated (fun c cs hc => by
    left
    have h2 : 2 = (counts 5 5 (spike 5).px 1 0 [20, 8, 5]).sum :=
      (C24_count isShuffle_id C70_same_pixel_twice_violated).1
    have hc' : counts 5 5 (spike 5).px 1 0 [20, 8, 5] = c :: cs := hc
    rw [hc'] at h2
    exact h2.symm.le) (1, 1) (by simp)

/-- C26 applies to the same selection. -/
example : ∃ fuel pts st', select fuel (fun _ l => l) demoSettings ⟨1, 2⟩ (spike 5) 1 = .ok (some (pts, st')) :=
  C26_returns_partial _ _ _ _ _ 1 (by simp [demoSettings]) adapt_spike (le_refl _) (by simp [demoSettings])

/-- A flat picture. -/
def flat : Grad ℚ := ⟨5, 5, fun _ _ => 0⟩

/-- On a flat picture nothing is found... -/
theorem select_flat : select 5 (fun _ l => l) demoSettings ⟨1, 2⟩ flat 1 = .ok (some ([], ⟨1, 0⟩)) := by
  unfold select
  have : demoSettings.adaptToFactor = 11 / 10 := rfl
  rw [this, adapt_spike]
  have : demoSettings.gradThresholds = [20, 8, 5] := rfl
  simp only [this]
  decide +kernel

/-- ... and the next selection does not return, although its picture has strong pixels. -/
example (fuel : Nat) : select fuel (fun _ l => l) demoSettings ⟨1, 0⟩ (spike 5) 1 = .ok none :=
  C26_never_returns_violated isShuffle_id (by norm_num [demoSettings]) select_flat
    ((C24_count isShuffle_id select_flat).1.symm) (spike 5) (by norm_num [spike]) 1 (by norm_num) fuel

end Mdso.PixSel
