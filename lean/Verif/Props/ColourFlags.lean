import Verif.Spec.ColourFlags
import Verif.Props.DepthColour

/-!
# The shares of depths drawn red and blue (C187)
-/

set_option autoImplicit false

namespace Mdso.Util

open Mdso.ColourSpec

theorem validate_iff (v : Option ℝ) : validateDepthsPart v = true ↔ ∃ x, v = some x ∧ 0 ≤ x ∧ x ≤ 1 := by
  cases v with
  | none => simp [validateDepthsPart]
  | some x => simp [validateDepthsPart]

theorem between_red {mind maxd d : ℝ} (h : mind < maxd) (h1 : mind ≤ d) (h2 : d ≤ (mind + maxd) / 2) :
    depthCol d mind maxd = some ⟨0, 255 * ((d - mind) / ((maxd - mind) / 2)), 255 * (1 - (d - mind) / ((maxd - mind) / 2))⟩ := by
  have hp : 0 < (maxd - mind) / 2 := by linarith
  have := (C53_colour_partial h).2.2.1 ((d - mind) / ((maxd - mind) / 2)) (div_nonneg (by linarith) hp.le) ((div_le_one hp).2 (by linarith))
  rwa [div_mul_cancel₀ _ hp.ne', add_sub_cancel] at this

theorem between_blue {mind maxd d : ℝ} (h : mind < maxd) (h1 : (mind + maxd) / 2 ≤ d) (h2 : d ≤ maxd) :
    depthCol d mind maxd = some ⟨255 * ((d - (mind + maxd) / 2) / ((maxd - mind) / 2)), 255 * (1 - (d - (mind + maxd) / 2) / ((maxd - mind) / 2)), 0⟩ := by
  have hp : 0 < (maxd - mind) / 2 := by linarith
  have := (C53_colour_partial h).2.2.2 ((d - (mind + maxd) / 2) / ((maxd - mind) / 2)) (div_nonneg (by linarith) hp.le) ((div_le_one hp).2 (by linarith))
  rwa [div_mul_cancel₀ _ hp.ne', add_sub_cancel] at this

theorem red_iff {mind maxd d : ℝ} (h : mind < maxd) : depthCol d mind maxd = some red ↔ d ≤ mind := by
  have hp : 0 < (maxd - mind) / 2 := by linarith
  constructor
  · intro hr
    by_contra hd
    push Not at hd
    rcases le_or_gt d ((mind + maxd) / 2) with h1 | h1
    · rw [between_red h hd.le h1] at hr
      injection hr with hr
      have hg := congrArg Colour.g hr
      have : 0 < (d - mind) / ((maxd - mind) / 2) := div_pos (by linarith) hp
      simp only [red] at hg
      linarith
    · rcases le_or_gt d maxd with h2 | h2
      · rw [between_blue h h1.le h2] at hr
        injection hr with hr
        have hg := congrArg Colour.r hr
        simp only [red] at hg
        norm_num at hg
      · rw [(C53_colour_partial h).2.1 d h2] at hr
        injection hr with hr
        have hg := congrArg Colour.r hr
        simp only [red, blue] at hg
        norm_num at hg
  · intro hd
    rcases lt_or_eq_of_le hd with hd | hd
    · exact (C53_colour_partial h).1 d hd
    · rw [between_red h hd.ge (by linarith), hd]
      unfold red
      norm_num

theorem blue_iff {mind maxd d : ℝ} (h : mind < maxd) : depthCol d mind maxd = some blue ↔ maxd ≤ d := by
  have hp : 0 < (maxd - mind) / 2 := by linarith
  constructor
  · intro hr
    by_contra hd
    push Not at hd
    rcases le_or_gt ((mind + maxd) / 2) d with h1 | h1
    · rw [between_blue h h1 hd.le] at hr
      injection hr with hr
      have hg := congrArg Colour.g hr
      have : (d - (mind + maxd) / 2) / ((maxd - mind) / 2) < 1 := (div_lt_one hp).2 (by linarith)
      simp only [blue] at hg
      linarith
    · rcases le_or_gt mind d with h2 | h2
      · rw [between_red h h2 h1.le] at hr
        injection hr with hr
        have hg := congrArg Colour.b hr
        simp only [blue] at hg
        norm_num at hg
      · rw [(C53_colour_partial h).1 d h2] at hr
        injection hr with hr
        have hg := congrArg Colour.b hr
        simp only [red, blue] at hg
        norm_num at hg
  · intro hd
    rcases lt_or_eq_of_le hd with hd | hd
    · exact (C53_colour_partial h).2.1 d hd
    · rw [between_blue h (by linarith) hd.ge, ← hd]
      unfold blue
      have : (maxd - (mind + maxd) / 2) / ((maxd - mind) / 2) = 1 := by
        rw [div_eq_one_iff_eq hp.ne']
        ring
      rw [this]
      norm_num

theorem count_map {α β : Type} (P : β → Prop) (Q : α → Prop) (f : α → β) (l : List α) (h : ∀ a ∈ l, P (f a) ↔ Q a) : Count P (l.map f) = Count Q l := by
  classical
  unfold Count
  rw [List.filter_map, List.length_map]
  congr 2
  apply List.filter_congr
  intro a ha
  simp only [Function.comp_apply, decide_eq_decide]
  exact h a ha

theorem count_le_lt {l : List ℝ} (hl : l.Nodup) (v : ℝ) : Count (fun x => x ≤ v) l ≤ Count (fun x => x < v) l + 1 := by
  classical
  unfold Count
  have key : ∀ l : List ℝ, (l.filter fun x => decide (x ≤ v)).length = (l.filter fun x => decide (x < v)).length + l.count v := by
    intro l
    induction l with
    | nil => rfl
    | cons a l ih =>
      rcases lt_trichotomy a v with h | h | h
      · rw [List.filter_cons_of_pos (by simp [h.le]), List.filter_cons_of_pos (by simp [h]), List.count_cons_of_ne h.ne]
        simp only [List.length_cons]
        omega
      · subst h
        rw [List.filter_cons_of_pos (by simp), List.filter_cons_of_neg (by simp), List.count_cons_self]
        simp only [List.length_cons]
        omega
      · rw [List.filter_cons_of_neg (by simp [h]), List.filter_cons_of_neg (by simp [h.le]), List.count_cons_of_ne h.ne']
        exact ih
  have h1 := List.nodup_iff_count_le_one.1 hl v
  have h2 : (l.filter fun x => decide (x ≤ v)).length ≤ (l.filter fun x => decide (x < v)).length + 1 := by rw [key l]; omega
  exact_mod_cast h2

theorem count_pos {α : Type} {P : α → Prop} {l : List α} {a : α} (ha : a ∈ l) (hP : P a) : 1 ≤ Count P l := by
  unfold Count
  rw [Nat.one_le_cast]
  exact List.length_pos_of_mem (List.mem_filter.2 ⟨ha, by simpa using hP⟩)

/-- The bounds set from depths, and what they mean for the colours. -/
theorem own_bounds {r s : ℝ} (hr : validateDepthsPart (some r) = true) (hs : validateDepthsPart (some s) = true) {b : ColBounds} {depths : List ℝ}
    (h0 : depths ≠ []) {cols : List (Option Colour)} (h : drawWithOwnBounds r s b depths = .ok cols) :
    ∃ lo hi, setDepthColBounds r s depths b = .ok ⟨lo, hi⟩ ∧ cols = depths.map (fun d => depthCol d lo hi) ∧ IsQuantile r depths lo ∧
      IsQuantile s depths hi ∧ (r ≤ s → lo ≤ hi) := by
  obtain ⟨_, e, hr0, hr1⟩ := (validate_iff _).1 hr
  cases e
  obtain ⟨_, e, hs0, hs1⟩ := (validate_iff _).1 hs
  cases e
  obtain ⟨lo, hi, h1, h2⟩ := (C53_bounds hr0 hr1 hs0 hs1 depths b).2 h0
  refine ⟨lo, hi, h1, ?_, h2⟩
  unfold drawWithOwnBounds at h
  rw [h1] at h
  injection h with h
  exact h.symm

/-- **C187, red.** If both flags are accepted and the depths are drawn with their own bounds, which differ, at least the share `red_depths_part` of them is
red; if the depths are different, at most one more than that. -/
theorem C187_red {r s : ℝ} (hr : validateDepthsPart (some r) = true) (hs : validateDepthsPart (some s) = true) {b : ColBounds} {depths : List ℝ}
    {cols : List (Option Colour)} (h : drawWithOwnBounds r s b depths = .ok cols)
    (hb : ∀ lo hi, setDepthColBounds r s depths b = .ok ⟨lo, hi⟩ → lo < hi) :
    r * depths.length ≤ Count (· = some red) cols ∧ (depths.Nodup → Count (· = some red) cols ≤ r * depths.length + 1) := by
  obtain ⟨_, e, hr0, hr1⟩ := (validate_iff _).1 hr
  cases e
  by_cases h0 : depths = []
  · subst h0
    have e : cols = [] := by
      cases h
      rfl
    subst e
    simp [Count]
  obtain ⟨lo, hi, h1, rfl, ⟨_, q1, q2⟩, _⟩ := own_bounds hr hs h0 h
  have hlt := hb lo hi h1
  rw [count_map _ (fun d => d ≤ lo) _ _ fun d _ => red_iff hlt]
  refine ⟨q2, fun hn => (count_le_lt hn lo).trans ?_⟩
  exact add_le_add_left q1 1

/-- **C187, blue.** At most the share `blue_depths_part` is not completely blue; if the depths are different, at most one less than that. -/
theorem C187_blue {r s : ℝ} (hr : validateDepthsPart (some r) = true) (hs : validateDepthsPart (some s) = true) {b : ColBounds} {depths : List ℝ}
    {cols : List (Option Colour)} (h : drawWithOwnBounds r s b depths = .ok cols)
    (hb : ∀ lo hi, setDepthColBounds r s depths b = .ok ⟨lo, hi⟩ → lo < hi) :
    Count (· ≠ some blue) cols ≤ s * depths.length ∧ (depths.Nodup → s * depths.length ≤ Count (· ≠ some blue) cols + 1) := by
  by_cases h0 : depths = []
  · subst h0
    have e : cols = [] := by
      cases h
      rfl
    subst e
    simp [Count]
  obtain ⟨lo, hi, h1, rfl, _, ⟨_, q1, q2⟩, _⟩ := own_bounds hr hs h0 h
  have hlt := hb lo hi h1
  rw [count_map _ (fun d => d < hi) _ _ fun d _ => by rw [ne_eq, blue_iff hlt, not_le]]
  exact ⟨q1, fun hn => le_trans q2 (count_le_lt hn hi)⟩

/-- **C187, ends.** Whatever the flags say, at least one depth is red and at least one is completely blue. -/
theorem C187_ends {r s : ℝ} (hr : validateDepthsPart (some r) = true) (hs : validateDepthsPart (some s) = true) {b : ColBounds} {depths : List ℝ}
    (h0 : depths ≠ []) {cols : List (Option Colour)} (h : drawWithOwnBounds r s b depths = .ok cols)
    (hb : ∀ lo hi, setDepthColBounds r s depths b = .ok ⟨lo, hi⟩ → lo < hi) : some red ∈ cols ∧ some blue ∈ cols := by
  obtain ⟨lo, hi, h1, rfl, ⟨m1, _⟩, ⟨m2, _⟩, _⟩ := own_bounds hr hs h0 h
  have hlt := hb lo hi h1
  exact ⟨List.mem_map.2 ⟨lo, m1, (red_iff hlt).2 le_rfl⟩, List.mem_map.2 ⟨hi, m2, (blue_iff hlt).2 le_rfl⟩⟩

/-- **C187, crossed flags.** Flags whose shares overlap so far that the bounds are in the wrong order leave no colours in between: every depth is red or blue,
and at most the share `red_depths_part` is red. -/
theorem C187_crossed {r s : ℝ} (hr : validateDepthsPart (some r) = true) (hs : validateDepthsPart (some s) = true) {b : ColBounds} {depths : List ℝ}
    (h0 : depths ≠ []) {cols : List (Option Colour)} (h : drawWithOwnBounds r s b depths = .ok cols)
    (hb : ∀ lo hi, setDepthColBounds r s depths b = .ok ⟨lo, hi⟩ → hi < lo) :
    (∀ c ∈ cols, c = some red ∨ c = some blue) ∧ Count (· = some red) cols ≤ r * depths.length ∧ s < r := by
  obtain ⟨lo, hi, h1, rfl, ⟨m1, q1, _⟩, _, hle⟩ := own_bounds hr hs h0 h
  have hlt := hb lo hi h1
  have col : ∀ d, depthCol d lo hi = if d < lo then some red else some blue := by
    intro d
    unfold depthCol
    by_cases hd : d < lo
    · rw [if_pos hd, if_pos hd]
    · rw [if_neg hd, if_neg hd, if_pos (by linarith)]
  have ne : red ≠ blue := by
    intro h
    have := congrArg Colour.r h
    simp only [red, blue] at this
    norm_num at this
  refine ⟨?_, ?_, ?_⟩
  · intro c hc
    obtain ⟨d, _, rfl⟩ := List.mem_map.1 hc
    rw [col]
    split
    · exact Or.inl rfl
    · exact Or.inr rfl
  · rw [count_map _ (fun d => d < lo) _ _ fun d _ => ?_]
    · exact q1
    · rw [col]
      split
      · rename_i hd
        exact ⟨fun _ => hd, fun _ => rfl⟩
      · rename_i hd
        exact ⟨fun h => absurd (Option.some.inj h).symm ne, fun h => absurd h hd⟩
  · by_contra hrs
    push Not at hrs
    linarith [hle hrs]

/-- **C187, flags.** Exactly the numbers from 0 to 1 are accepted, for each flag on its own. -/
theorem C187_flags (v : Option ℝ) : validateDepthsPart v = true ↔ ∃ x, v = some x ∧ 0 ≤ x ∧ x ≤ 1 := validate_iff v

/-- **C187, the defaults.** The one more is there also for the default `red_depths_part` 0: of two different depths one is red. The hypotheses of the
theorems above are met. -/
theorem C187_default : ∃ (depths : List ℝ) (b : ColBounds) (cols : List (Option Colour)), depths.Nodup ∧
    drawWithOwnBounds 0 0.7 b depths = .ok cols ∧ Count (· = some red) cols = 1 := by
  have hr : validateDepthsPart (some 0) = true := (validate_iff _).2 ⟨0, rfl, le_rfl, by norm_num⟩
  have hs : validateDepthsPart (some 0.7) = true := (validate_iff _).2 ⟨0.7, rfl, by norm_num, by norm_num⟩
  obtain ⟨lo, hi, e, q1, q2, hle⟩ := (C53_bounds (redPart := 0) (bluePart := 0.7) (by norm_num) (by norm_num) (by norm_num) (by norm_num) [1, 2] ⟨0, 1⟩).2
    (by simp)
  have hn : ([1, 2] : List ℝ).Nodup := by simp
  have hlt : lo < hi := by
    rcases lt_or_eq_of_le (hle (by norm_num)) with h | h
    · exact h
    · exfalso
      obtain ⟨_, a1, _⟩ := q1
      obtain ⟨m, _, a2⟩ := q2
      subst h
      have b1 := count_le_lt hn lo
      unfold Count at b1
      have : (0.7 : ℝ) * 2 ≤ 1 := by
        simp only [List.length_cons, List.length_nil] at a1 a2
        push_cast at a1 a2
        linarith
      norm_num at this
  have hd : drawWithOwnBounds 0 0.7 ⟨0, 1⟩ [1, 2] = .ok (([1, 2] : List ℝ).map fun d => depthCol d lo hi) := by
    unfold drawWithOwnBounds
    rw [e]
  refine ⟨[1, 2], ⟨0, 1⟩, _, hn, hd, ?_⟩
  have hb : ∀ lo' hi', setDepthColBounds 0 0.7 [1, 2] ⟨0, 1⟩ = .ok ⟨lo', hi'⟩ → lo' < hi' := by
    intro lo' hi' h
    rw [e] at h
    cases h
    exact hlt
  have h1 := (C187_red hr hs hd hb).2 hn
  have h2 := (C187_ends hr hs (by simp) hd hb).1
  apply le_antisymm
  · linarith
  · exact count_pos h2 rfl

end Mdso.Util
