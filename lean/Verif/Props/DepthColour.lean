import Verif.Model.DepthColour
import Mathlib.Tactic.Linarith
import Mathlib.Tactic.NormNum
import Mathlib.Tactic.FieldSimp
import Mathlib.Tactic.Ring
import Mathlib.Tactic.Push

/-!
# C53, C54: depth colours and the drawing of pyramid levels
-/

set_option autoImplicit false

namespace Mdso.Util

/-! ## C53 -/

open Classical in
/-- `v` is the quantile of `l` for the fraction `p`: it is one of the values, at most the fraction `p` of
the values are smaller, and at least the fraction `p` are not greater. -/
def IsQuantile (p : ℝ) (l : List ℝ) (v : ℝ) : Prop :=
  v ∈ l ∧ ((l.filter (fun x => decide (x < v))).length : ℝ) ≤ p * l.length ∧
    p * l.length ≤ ((l.filter (fun x => decide (x ≤ v))).length : ℝ)

theorem colIndex_eq {p : ℝ} {n : Nat} (h : 0 ≤ p * (n : ℝ)) :
    colIndex p n = if ⌊p * (n : ℝ)⌋.toNat ≥ n then n - 1 else ⌊p * (n : ℝ)⌋.toNat := by
  have hf : ¬ ⌊p * (n : ℝ)⌋ < 0 := not_lt.2 (Int.floor_nonneg.2 h)
  unfold colIndex truncInt
  simp only [if_pos h, if_neg hf]

theorem colIndex_spec {p : ℝ} (h0 : 0 ≤ p) (h1 : p ≤ 1) {n : Nat} (hn : 0 < n) :
    colIndex p n < n ∧ (colIndex p n : ℝ) ≤ p * n ∧ p * n ≤ colIndex p n + 1 := by
  have hnn : (0 : ℝ) < n := by exact_mod_cast hn
  have hp0 : 0 ≤ p * n := by positivity
  have hp1 : p * n ≤ n := by nlinarith
  have hf0 : 0 ≤ ⌊p * (n : ℝ)⌋ := Int.floor_nonneg.2 hp0
  have hfl := Int.floor_le (p * (n : ℝ))
  have hfu := Int.lt_floor_add_one (p * (n : ℝ))
  rw [colIndex_eq hp0]
  generalize hk : ⌊p * (n : ℝ)⌋ = k at *
  obtain ⟨m, rfl⟩ := Int.eq_ofNat_of_zero_le hf0
  simp only [Int.ofNat_eq_natCast, Int.toNat_natCast, Int.cast_natCast] at *
  split
  · rename_i hge
    have hge' : (n : ℝ) ≤ m := by exact_mod_cast hge
    have hcast : ((n - 1 : Nat) : ℝ) = n - 1 := by
      rw [Nat.cast_sub (by omega)]; simp
    refine ⟨by omega, ?_, ?_⟩ <;> rw [hcast] <;> linarith
  · exact ⟨by omega, hfl, by linarith⟩

open Classical in
theorem sorted_quantile {p : ℝ} {l s : List ℝ} (hp : s.Perm l) (hs : s.Pairwise (· ≤ ·)) {k : Nat}
    (hk : k < s.length) (h1 : (k : ℝ) ≤ p * l.length) (h2 : p * l.length ≤ k + 1) :
    IsQuantile p l s[k] := by
  refine ⟨hp.subset (List.getElem_mem hk), ?_, ?_⟩
  · rw [← (hp.filter _).length_eq]
    have : (s.filter (fun x => decide (x < s[k]))).length ≤ k := by
      have hsplit : s = s.take k ++ s.drop k := (List.take_append_drop k s).symm
      have hdrop : (s.drop k).filter (fun x => decide (x < s[k])) = [] := by
        rw [List.filter_eq_nil_iff]
        intro x hx
        obtain ⟨i, hi, rfl⟩ := List.getElem_of_mem hx
        rw [List.getElem_drop]
        have hlen : k + i < s.length := by rw [List.length_drop] at hi; omega
        have : s[k] ≤ s[k + i] := by
          rcases Nat.eq_zero_or_pos i with h | h
          · subst h; simp
          · exact List.pairwise_iff_getElem.1 hs k (k + i) hk hlen (by omega)
        simpa using this
      calc (s.filter (fun x => decide (x < s[k]))).length
          = ((s.take k ++ s.drop k).filter (fun x => decide (x < s[k]))).length := by rw [← hsplit]
        _ ≤ k := by
          rw [List.filter_append, hdrop, List.append_nil]
          exact (List.length_filter_le _ _).trans (by simp)
    exact le_trans (by exact_mod_cast this) h1
  · rw [← (hp.filter _).length_eq]
    have : k + 1 ≤ (s.filter (fun x => decide (x ≤ s[k]))).length := by
      have hsplit : s = s.take (k + 1) ++ s.drop (k + 1) := (List.take_append_drop _ s).symm
      have htake : (s.take (k + 1)).filter (fun x => decide (x ≤ s[k])) = s.take (k + 1) := by
        rw [List.filter_eq_self]
        intro x hx
        obtain ⟨i, hi, rfl⟩ := List.getElem_of_mem hx
        rw [List.getElem_take]
        have hlen : i < k + 1 := by rw [List.length_take] at hi; omega
        have : s[i] ≤ s[k] := by
          rcases Nat.lt_or_ge i k with h | h
          · exact List.pairwise_iff_getElem.1 hs i k (by omega) hk h
          · have : i = k := by omega
            subst this; exact le_refl _
        simpa using this
      calc k + 1 = (s.take (k + 1)).length := by rw [List.length_take]; omega
        _ ≤ ((s.take (k + 1) ++ s.drop (k + 1)).filter (fun x => decide (x ≤ s[k]))).length := by
          rw [List.filter_append, htake]; simp
        _ = (s.filter (fun x => decide (x ≤ s[k]))).length := by rw [← hsplit]
    exact h2.trans (by exact_mod_cast this)

theorem mergeSort_sorted (l : List ℝ) :
    (l.mergeSort (fun x y => decide (x ≤ y))).Pairwise (· ≤ ·) := by
  have := List.pairwise_mergeSort (le := fun x y : ℝ => decide (x ≤ y))
    (by intro a b c h1 h2; simp at *; exact h1.trans h2) (by intro a b; simp; exact le_total a b) l
  simpa using this

/-- C53. Whatever the bounds were and for all fractions in [0, 1] (the flags' validators admit no others):
empty input leaves the bounds alone; otherwise they become the quantiles of the depths for the two
fractions, in the right order if the fractions are. -/
theorem C53_bounds {redPart bluePart : ℝ} (hr0 : 0 ≤ redPart) (hr1 : redPart ≤ 1) (hb0 : 0 ≤ bluePart)
    (hb1 : bluePart ≤ 1) (depths : List ℝ) (b : ColBounds) :
    (depths = [] → setDepthColBounds redPart bluePart depths b = .ok b) ∧
    (depths ≠ [] → ∃ lo hi, setDepthColBounds redPart bluePart depths b = .ok ⟨lo, hi⟩ ∧
      IsQuantile redPart depths lo ∧ IsQuantile bluePart depths hi ∧ (redPart ≤ bluePart → lo ≤ hi)) := by
  constructor
  · intro h; subst h; rfl
  · intro h
    have hperm := List.mergeSort_perm depths (fun x y : ℝ => decide (x ≤ y))
    have hsort := mergeSort_sorted depths
    have hlen := hperm.length_eq
    have hpos : 0 < depths.length := List.length_pos_of_ne_nil h
    obtain ⟨a1, a2, a3⟩ := colIndex_spec hr0 hr1 hpos
    obtain ⟨b1, b2, b3⟩ := colIndex_spec hb0 hb1 hpos
    unfold setDepthColBounds
    simp only
    generalize depths.mergeSort (fun x y => decide (x ≤ y)) = s at *
    rw [if_neg (by simpa using h), hlen, at'_lt (by omega), at'_lt (by omega)]
    refine ⟨_, _, rfl, sorted_quantile hperm hsort _ a2 a3, sorted_quantile hperm hsort _ b2 b3, ?_⟩
    intro hle
    have hmono : colIndex redPart depths.length ≤ colIndex bluePart depths.length := by
      have e1 : 0 ≤ redPart * (depths.length : ℝ) := by positivity
      have e2 : 0 ≤ bluePart * (depths.length : ℝ) := by positivity
      have f1 : 0 ≤ ⌊redPart * (depths.length : ℝ)⌋ := Int.floor_nonneg.2 e1
      have f2 : 0 ≤ ⌊bluePart * (depths.length : ℝ)⌋ := Int.floor_nonneg.2 e2
      have f3 : ⌊redPart * (depths.length : ℝ)⌋ ≤ ⌊bluePart * (depths.length : ℝ)⌋ :=
        Int.floor_le_floor (by nlinarith [(Nat.cast_nonneg depths.length : (0 : ℝ) ≤ _)])
      rw [colIndex_eq e1, colIndex_eq e2]
      split <;> split <;> omega
    rcases Nat.lt_or_ge (colIndex redPart depths.length) (colIndex bluePart depths.length) with h | h
    · exact List.pairwise_iff_getElem.1 hsort _ _ (by omega) (by omega) h
    · have : colIndex redPart depths.length = colIndex bluePart depths.length := by omega
      simp only [this]; exact le_refl _

theorem colIndex_clamp (p : ℝ) (n : Nat) : colIndex p n = colIndex (max 0 (min 1 p)) n := by
  have hn : (0 : ℝ) ≤ n := Nat.cast_nonneg n
  rcases lt_or_ge p 0 with h | h
  · rw [max_eq_left (le_trans (min_le_right _ _) h.le), colIndex_eq (p := 0) (by simp)]
    have hz : truncInt (p * (n : ℝ)) ≤ 0 := by
      unfold truncInt
      split
      · rw [← Int.cast_le (R := ℝ)]
        exact le_trans (Int.floor_le _) (by simpa using mul_nonpos_of_nonpos_of_nonneg h.le hn)
      · exact Int.ceil_le.2 (by simpa using mul_nonpos_of_nonpos_of_nonneg h.le hn)
    have h0 : (if truncInt (p * (n : ℝ)) < 0 then 0 else truncInt (p * (n : ℝ))) = 0 := by
      split <;> omega
    unfold colIndex
    simp only [h0]
    simp
  · rcases le_or_gt p 1 with h1 | h1
    · rw [min_eq_right h1, max_eq_right h]
    · rw [min_eq_left h1.le, max_eq_right zero_le_one, colIndex_eq (by positivity),
        colIndex_eq (p := 1) (by simp)]
      have hf : (n : Int) ≤ ⌊p * (n : ℝ)⌋ := by
        rw [Int.le_floor]; push_cast; nlinarith
      rw [if_pos (by omega), if_pos (by simp)]

/-- C53: fractions outside [0,1] act as the nearer end of that interval, whatever the depths. With
`C53_bounds` this settles every pair of fractions. -/
theorem C53_bounds_clamped (redPart bluePart : ℝ) (depths : List ℝ) (b : ColBounds) :
    setDepthColBounds redPart bluePart depths b
      = setDepthColBounds (max 0 (min 1 redPart)) (max 0 (min 1 bluePart)) depths b := by
  unfold setDepthColBounds
  simp only [← colIndex_clamp]

-- A negative fraction and one above 1: the least and the greatest depth.
example : ∃ lo hi, setDepthColBounds (-1) 2 [3, 1, 2] ⟨0, 1⟩ = .ok ⟨lo, hi⟩ ∧
    IsQuantile 0 [3, 1, 2] lo ∧ IsQuantile 1 [3, 1, 2] hi := by
  rw [C53_bounds_clamped]
  norm_num
  obtain ⟨lo, hi, h1, h2, h3, -⟩ := (C53_bounds (redPart := 0) (bluePart := 1) (by norm_num) (by norm_num)
    (by norm_num) (by norm_num) [3, 1, 2] ⟨0, 1⟩).2 (by simp)
  exact ⟨lo, hi, h1, h2, h3⟩

-- The default fractions, three depths.
example := (C53_bounds (redPart := 0) (bluePart := 0.7) (by norm_num) (by norm_num) (by norm_num) (by norm_num)
  [3, 1, 2] ⟨0, 1⟩).2 (by simp)

/-- C53, the part that holds for colours: for bounds in strict order, depths below are red, above blue, and
in between the colour runs linearly from red over green (in the middle) to blue. -/
theorem C53_colour_partial {mind maxd : ℝ} (h : mind < maxd) :
    (∀ d, d < mind → depthCol d mind maxd = some red) ∧
    (∀ d, maxd < d → depthCol d mind maxd = some blue) ∧
    (∀ t, 0 ≤ t → t ≤ 1 → depthCol (mind + t * ((maxd - mind) / 2)) mind maxd
      = some ⟨0, 255 * t, 255 * (1 - t)⟩) ∧
    (∀ t, 0 ≤ t → t ≤ 1 → depthCol ((mind + maxd) / 2 + t * ((maxd - mind) / 2)) mind maxd
      = some ⟨255 * t, 255 * (1 - t), 0⟩) := by
  have hd : maxd - (mind + maxd) / 2 ≠ 0 := by intro h'; linarith
  have hp : 0 < maxd - mind := by linarith
  have hlow : ∀ t : ℝ, 0 ≤ t → t ≤ 1 → depthCol (mind + t * ((maxd - mind) / 2)) mind maxd
      = some ⟨0, 255 * t, 255 * (1 - t)⟩ := by
    intro t h0 h1
    unfold depthCol
    rw [if_neg (by nlinarith), if_neg (by nlinarith)]
    simp only
    rw [if_neg (by nlinarith)]
    unfold fdiv
    rw [if_neg hd, if_neg hd]
    simp only [Colour.blend, red, green, Option.some.injEq, Colour.mk.injEq]
    have e : maxd - (mind + maxd) / 2 = (maxd - mind) / 2 := by ring
    rw [e]
    refine ⟨by ring, ?_, ?_⟩
    · have : mind + t * ((maxd - mind) / 2) - mind = t * ((maxd - mind) / 2) := by ring
      rw [this, mul_div_cancel_right₀ _ (by linarith)]; ring
    · have : (mind + maxd) / 2 - (mind + t * ((maxd - mind) / 2)) = (1 - t) * ((maxd - mind) / 2) := by ring
      rw [this, mul_div_cancel_right₀ _ (by linarith)]; ring
  refine ⟨fun d hd => by unfold depthCol; rw [if_pos hd], fun d hd' => ?_, hlow, ?_⟩
  · unfold depthCol; rw [if_neg (by linarith), if_pos hd']
  · intro t h0 h1
    rcases eq_or_lt_of_le h0 with h2 | h2
    · subst h2
      have := hlow 1 (by norm_num) (le_refl _)
      have e : mind + 1 * ((maxd - mind) / 2) = (mind + maxd) / 2 + 0 * ((maxd - mind) / 2) := by ring
      rw [e] at this
      rw [this]; norm_num
    · unfold depthCol
      rw [if_neg (by nlinarith), if_neg (by nlinarith)]
      simp only
      rw [if_pos (by nlinarith)]
      unfold fdiv
      rw [if_neg hd, if_neg hd]
      simp only [Colour.blend, blue, green, Option.some.injEq, Colour.mk.injEq]
      have e : maxd - (mind + maxd) / 2 = (maxd - mind) / 2 := by ring
      rw [e]
      have e1 : maxd - ((mind + maxd) / 2 + t * ((maxd - mind) / 2)) = (1 - t) * ((maxd - mind) / 2) := by ring
      have e2 : (mind + maxd) / 2 + t * ((maxd - mind) / 2) - (mind + maxd) / 2 = t * ((maxd - mind) / 2) := by
        ring
      rw [e1, e2, mul_div_cancel_right₀ _ (by linarith), mul_div_cancel_right₀ _ (by linarith)]
      refine ⟨by ring, by ring, by ring⟩

example : depthCol 5 0 10 = some green := by
  have := (C53_colour_partial (mind := 0) (maxd := 10) (by norm_num)).2.2.1 1 (by norm_num) (by norm_num)
  norm_num at this
  rw [this]; rfl

/-- C53 is violated for equal depths: the bounds coincide and the colour of those very depths is not a
number. -/
theorem C53_equal_depths_violated : ∃ (d : ℝ) (b b' : ColBounds),
    setDepthColBounds 0 0.7 [d, d] b = .ok b' ∧ depthCol d b'.minDepthCol b'.maxDepthCol = none := by
  obtain ⟨lo, hi, e, h1, h2, _⟩ := (C53_bounds (redPart := 0) (bluePart := 0.7) (by norm_num) (by norm_num)
    (by norm_num) (by norm_num) [3, 3] ⟨0, 1⟩).2 (by simp)
  have e1 : lo = 3 := by simpa using h1.1
  have e2 : hi = 3 := by simpa using h2.1
  subst e1; subst e2
  refine ⟨3, ⟨0, 1⟩, _, e, ?_⟩
  unfold depthCol fdiv
  norm_num

/-! ## C54 -/

/-- Every level appears in exactly one slot and every slot holds a level. -/
def AllPlaced (num : Nat) (d : Drawing) : Prop :=
  (d.up ++ d.down).Perm ((List.range num).map some)

theorem slots_even (k : Nat) : slots (2 * k) =
    (List.range (2 * k)).reverse.map (fun pl =>
      if pl ≥ k then (pl, Slot.up (((2 * k : Nat) : Int) - pl - 1)) else (pl, .down ((k : Int) - pl - 1))) := by
  unfold slots
  have h1 : 2 * k / 2 = k := by omega
  have h2 : 2 * k - k = k := by omega
  simp only [h1, h2]

theorem find_map_rev {α β : Type} (f : α → β) (l : List α) (p : β → Bool) :
    (l.map f).find? p = (l.find? (fun a => p (f a))).map f := by
  rw [List.find?_map]; rfl

theorem find_range {n : Nat} (p : Nat → Bool) (i : Nat) (hi : i < n) (hp : p i = true)
    (huniq : ∀ j, j < n → p j = true → j = i) : (List.range n).find? p = some i := by
  rw [List.find?_range_eq_some]
  refine ⟨hp, by simpa using hi, fun j hj => ?_⟩
  by_contra hh
  have := huniq j (by omega) (by simpa using hh)
  omega

theorem lastAt_up {k i : Nat} (hi : i < k) : lastAt (slots (2 * k)) (.up i) = some (2 * k - 1 - i) := by
  unfold lastAt
  rw [slots_even, ← List.map_reverse, List.reverse_reverse, find_map_rev, Option.map_map]
  rw [find_range _ (2 * k - 1 - i) (by omega)]
  · rw [Option.map_some]
    simp only [Function.comp]
    rw [if_pos (by omega)]
  · rw [if_pos (by omega)]
    simp only [decide_eq_true_eq, Slot.up.injEq]
    omega
  · intro j hj hp
    split at hp
    · simp only [decide_eq_true_eq, Slot.up.injEq] at hp
      omega
    · simp at hp

theorem lastAt_down {k i : Nat} (hi : i < k) : lastAt (slots (2 * k)) (.down i) = some (k - 1 - i) := by
  unfold lastAt
  rw [slots_even, ← List.map_reverse, List.reverse_reverse, find_map_rev, Option.map_map]
  rw [find_range _ (k - 1 - i) (by omega)]
  · rw [Option.map_some]
    simp only [Function.comp]
    rw [if_neg (by omega)]
  · rw [if_neg (by omega)]
    simp only [decide_eq_true_eq, Slot.down.injEq]
    omega
  · intro j hj hp
    split at hp
    · simp at hp
    · simp only [decide_eq_true_eq, Slot.down.injEq] at hp
      omega

theorem range_map_rev (n a : Nat) (h : n ≤ a + 1) :
    ((List.range n).map (fun i => a - i)).Perm ((List.range n).map (fun i => a + 1 - n + i)) := by
  have : (List.range n).map (fun i => a - i) = ((List.range n).map (fun i => a + 1 - n + i)).reverse := by
    apply List.ext_getElem
    · simp
    · intro i h1 h2
      simp at h1 h2
      simp
      omega
  rw [this]
  exact List.reverse_perm _

/-- C54, the part that holds: for every even number of levels and every canvas at least as wide as a row has
slots, every level is placed exactly once, the coarsest levels from left to right in the upper row, and both
rows are equally wide. -/
theorem C54_even_partial {k : Nat} (hk : 0 < k) {resultW : Int} (hw : (k : Int) ≤ resultW) :
    ∃ d, drawLeveled (2 * k) resultW = .ok d ∧ AllPlaced (2 * k) d ∧
      d.up = (List.range k).map (fun i => some (2 * k - 1 - i)) ∧
      d.down = (List.range k).map (fun i => some (k - 1 - i)) ∧
      d.up.length * d.upW = d.down.length * d.downW := by
  have h1 : 2 * k / 2 = k := by omega
  have h2 : 2 * k - k = k := by omega
  have hpos : 0 < Int.tdiv resultW k := by
    rw [Int.tdiv_eq_ediv_of_nonneg (by omega)]
    exact Int.lt_of_lt_of_le Int.zero_lt_one (Int.le_ediv_of_mul_le (by omega) (by omega))
  have hup : (List.range k).map (fun i : Nat => lastAt (slots (2 * k)) (.up i))
      = (List.range k).map (fun i => some (2 * k - 1 - i)) :=
    List.map_congr_left (fun i hi => lastAt_up (List.mem_range.1 hi))
  have hdown : (List.range k).map (fun i : Nat => lastAt (slots (2 * k)) (.down i))
      = (List.range k).map (fun i => some (k - 1 - i)) :=
    List.map_congr_left (fun i hi => lastAt_down (List.mem_range.1 hi))
  refine ⟨⟨(List.range k).map (fun i => some (2 * k - 1 - i)), (List.range k).map (fun i => some (k - 1 - i)),
    Int.tdiv resultW k, Int.tdiv resultW k⟩, ?_, ?_, rfl, rfl, by simp⟩
  · unfold drawLeveled
    simp only [h1, h2]
    rw [if_neg (by omega), if_neg, if_neg (by omega), hup, hdown]
    rw [Bool.not_eq_true, List.any_eq_false]
    intro w hw
    rw [slots_even] at hw
    obtain ⟨pl, hpl, rfl⟩ := List.mem_map.1 hw
    have hpl' : pl < 2 * k := by simpa using hpl
    by_cases hge : pl ≥ k
    · simp only [hge, if_true, decide_eq_true_eq]; omega
    · simp only [hge, if_false, decide_eq_true_eq]; omega
  · unfold AllPlaced
    have e1 : (List.range k).map (fun i => some (2 * k - 1 - i))
        = ((List.range k).map (fun i => 2 * k - 1 - i)).map some := by rw [List.map_map]; rfl
    have e2 : (List.range k).map (fun i => some (k - 1 - i))
        = ((List.range k).map (fun i => k - 1 - i)).map some := by rw [List.map_map]; rfl
    simp only [e1, e2]
    rw [← List.map_append]
    apply List.Perm.map
    have p1 := range_map_rev k (2 * k - 1) (by omega)
    have p2 := range_map_rev k (k - 1) (by omega)
    refine (p1.append p2).trans (List.perm_append_comm.trans ?_)
    have : (List.range k).map (fun i => k - 1 + 1 - k + i) ++
        (List.range k).map (fun i => 2 * k - 1 + 1 - k + i) = List.range (2 * k) := by
      rw [show 2 * k = k + k by omega, List.range_add]
      congr 1
      · rw [show (fun i => k - 1 + 1 - k + i) = (fun i : Nat => i) from by funext i; omega]
        simp
      · apply List.map_congr_left
        intro i _
        omega
    rw [this]

-- The default six levels.
example := C54_even_partial (k := 3) (by decide) (resultW := 1000) (by decide)

/-- C54 is violated for every odd number of levels, and for none: a slot before the first of the lower row
is written (or the slot width is divided by zero). -/
theorem C54_odd_violated (num : Nat) (h : num % 2 = 1 ∨ num = 0) (resultW : Int) :
    drawLeveled num resultW = .error .ub := by
  unfold drawLeveled
  simp only
  by_cases h0 : num - num / 2 = 0 ∨ num / 2 = 0
  · rw [if_pos h0]
  · rw [if_neg h0, if_pos]
    rw [List.any_eq_true]
    refine ⟨(num / 2, .down (-1)), ?_, by simp⟩
    unfold slots
    rw [List.mem_map]
    refine ⟨num / 2, by simp; omega, ?_⟩
    rw [if_neg (by omega)]
    simp only [Prod.mk.injEq, Slot.down.injEq, true_and]
    omega

end Mdso.Util
