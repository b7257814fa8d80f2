import Verif.Spec.NumberText
import Mathlib.Tactic.Linarith
import Mathlib.Tactic.Positivity
import Mathlib.Tactic.FieldSimp
import Mathlib.Tactic.Ring
import Mathlib.Tactic.NormNum

/-!
# Properties of the text of numbers: C135, C136, C137
-/

set_option autoImplicit false

namespace Mdso.Num

open Mdso.Num.Spec

/-! ## Rounding -/

theorem roundEven_eq {q : ℚ} {m : Int} (h : |q - m| < 1 / 2) : roundEven q = m := by
  obtain ⟨h1, h2⟩ := abs_lt.1 h
  unfold roundEven
  by_cases hm : (m : ℚ) ≤ q
  · have hf : ⌊q⌋ = m := Int.floor_eq_iff.2 ⟨hm, by linarith⟩
    rw [hf, if_pos (by linarith)]
  · have hf : ⌊q⌋ = m - 1 := Int.floor_eq_iff.2 ⟨by push_cast; linarith, by push_cast; linarith [not_le.1 hm]⟩
    rw [hf]
    rw [if_neg (by push_cast; linarith), if_pos (by push_cast; linarith)]
    omega

theorem roundEven_err (q : ℚ) : |(roundEven q : ℚ) - q| ≤ 1 / 2 := by
  have h1 := Int.floor_le q
  have h2 := Int.lt_floor_add_one q
  unfold roundEven
  rw [abs_le]
  by_cases a : q - ⌊q⌋ < 1 / 2
  · rw [if_pos a]; constructor <;> linarith
  · rw [if_neg a]
    by_cases b : 1 / 2 < q - ⌊q⌋
    · rw [if_pos b]; push_cast; constructor <;> linarith
    · rw [if_neg b]
      split
      · constructor <;> linarith
      · push_cast; constructor <;> linarith

theorem roundEven_nonneg {q : ℚ} (h : 0 ≤ q) : 0 ≤ roundEven q := by
  have h0 : (0 : Int) ≤ ⌊q⌋ := Int.floor_nonneg.2 h
  unfold roundEven
  split
  · exact h0
  · split
    · omega
    · split <;> omega

/-! ## Decimal texts -/

theorem printed_neg (n : Nat) (x : ℚ) : (printed n x).neg = decide (x < 0) := by
  unfold printed
  split
  · rename_i h; subst h; rfl
  · rfl

/-- The text is off by at most half a unit of its last digit. -/
theorem printed_mag_err (n : Nat) {x : ℚ} (hx : x ≠ 0) :
    abs ((printed n x).mag - |x|) ≤ 1 / 2 * 10 ^ (Int.log 10 |x| - (n - 1 : Int)) := by
  unfold printed Dec.mag
  rw [if_neg hx]
  obtain ⟨p, hp⟩ : ∃ p : ℚ, p = 10 ^ (Int.log 10 |x| - (n - 1 : Int)) := ⟨_, rfl⟩
  have hpos : 0 < p := by rw [hp]; exact zpow_pos (by norm_num) _
  simp only [← hp]
  have hq : 0 ≤ |x| / p := by positivity
  have hn : (((roundEven (|x| / p)).toNat : Nat) : ℚ) = (roundEven (|x| / p) : ℚ) := by
    have := Int.toNat_of_nonneg (roundEven_nonneg hq)
    exact_mod_cast this
  rw [hn]
  have h := roundEven_err (|x| / p)
  have e : (roundEven (|x| / p) : ℚ) * p - |x| = ((roundEven (|x| / p) : ℚ) - |x| / p) * p := by field_simp
  rw [e, abs_mul, abs_of_pos hpos]
  exact mul_le_mul_of_nonneg_right h hpos.le

theorem printed_mag_rel (n : Nat) (x : ℚ) : abs ((printed n x).mag - |x|) ≤ 1 / 2 * 10 ^ (1 - n : Int) * |x| := by
  by_cases hx : x = 0
  · subst hx; simp [printed, Dec.mag]
  · refine (printed_mag_err n hx).trans ?_
    have h := Int.zpow_log_le_self (b := 10) (r := |x|) (by norm_num) (abs_pos.2 hx)
    have e : (10 : ℚ) ^ (Int.log 10 |x| - (n - 1 : Int)) = 10 ^ (1 - n : Int) * 10 ^ Int.log 10 |x| := by
      rw [← zpow_add₀ (by norm_num)]; congr 1; ring
    rw [e, ← mul_assoc]
    have h' : (10 : ℚ) ^ Int.log 10 |x| ≤ |x| := by exact_mod_cast h
    exact mul_le_mul_of_nonneg_left h' (mul_nonneg (by norm_num) (zpow_nonneg (by norm_num) _))

theorem value_err (n : Nat) (x : ℚ) : |(printed n x).value - x| = abs ((printed n x).mag - |x|) := by
  unfold Dec.value
  rw [printed_neg]
  by_cases h : x < 0
  · simp only [h, decide_true, if_true]
    rw [abs_of_neg h, ← abs_neg]
    congr 1; ring
  · simp only [h, decide_false, Bool.false_eq_true, if_false]
    rw [abs_of_nonneg (not_lt.1 h)]

/-! ## Doubles -/

theorem two_zpow_pos (e : Int) : (0 : ℚ) < 2 ^ e := zpow_pos (by norm_num) e

/-- A positive `double` is a multiple of its last bit. -/
theorem double_canon {x : ℚ} (hx : 0 < x) (hd : IsDouble x) :
    ∃ m : Int, x = m * 2 ^ lastBit x ∧ 0 < m ∧ m < 2 ^ 53 ∧ lastBit x ≤ Int.log 2 x ∧ x < 2 ^ (1024 : Int) := by
  obtain ⟨m0, e, h1, h2, h3, rfl⟩ := hd
  have hm0 : 0 < m0 := by
    have : (0 : ℚ) < m0 := pos_of_mul_pos_left hx (two_zpow_pos e).le
    exact_mod_cast this
  have h1' : m0 < 2 ^ 53 := (abs_lt.1 h1).2
  have h1q : (m0 : ℚ) < 2 ^ (53 : Int) := by exact_mod_cast h1'
  have hlt : (m0 : ℚ) * 2 ^ e < 2 ^ (e + 53) := by
    rw [zpow_add₀ (by norm_num), mul_comm]
    exact mul_lt_mul_of_pos_left h1q (two_zpow_pos e)
  have hge : (2 : ℚ) ^ e ≤ m0 * 2 ^ e := by
    have : (1 : ℚ) ≤ m0 := by exact_mod_cast hm0
    nlinarith [two_zpow_pos e]
  obtain ⟨x, hxe⟩ : ∃ x : ℚ, x = m0 * 2 ^ e := ⟨_, rfl⟩
  rw [← hxe] at hx hlt hge ⊢
  have hlo : (2 : ℚ) ^ Int.log 2 x ≤ x := by exact_mod_cast Int.zpow_log_le_self (b := 2) (r := x) (by norm_num) hx
  have hhi : x < (2 : ℚ) ^ (Int.log 2 x + 1) := by exact_mod_cast Int.lt_zpow_succ_log_self (b := 2) (by norm_num) x
  have hL : Int.log 2 x < e + 53 := (zpow_lt_zpow_iff_right₀ (by norm_num : (1 : ℚ) < 2)).1 (lt_of_le_of_lt hlo hlt)
  have hL' : e < Int.log 2 x + 1 := (zpow_lt_zpow_iff_right₀ (by norm_num : (1 : ℚ) < 2)).1 (lt_of_le_of_lt hge hhi)
  have hq : lastBit x ≤ e := max_le (by omega) h2
  have hq2 : Int.log 2 x - 52 ≤ lastBit x := le_max_left _ _
  obtain ⟨k, hk⟩ : ∃ k : Nat, e = lastBit x + k := ⟨(e - lastBit x).toNat, by omega⟩
  have hxm : x = ((m0 * 2 ^ k : Int) : ℚ) * 2 ^ lastBit x := by
    conv_lhs => rw [hxe, hk]
    rw [zpow_add₀ (by norm_num), zpow_natCast]
    push_cast
    ring
  refine ⟨m0 * 2 ^ k, hxm, by positivity, ?_, by omega, ?_⟩
  · have : ((m0 * 2 ^ k : Int) : ℚ) * 2 ^ lastBit x < 2 ^ (53 : Int) * 2 ^ lastBit x := by
      rw [← hxm, ← zpow_add₀ (by norm_num)]
      exact lt_of_lt_of_le hhi ((zpow_le_zpow_iff_right₀ (by norm_num : (1 : ℚ) < 2)).2 (by omega))
    have := lt_of_mul_lt_mul_right this (two_zpow_pos _).le
    exact_mod_cast this
  · exact lt_of_lt_of_le hlt ((zpow_le_zpow_iff_right₀ (by norm_num : (1 : ℚ) < 2)).2 (by omega))

/-- A number close to a positive `double` is read as this `double`. -/
theorem nearest_eq {x v : ℚ} (hx : 0 < x) (hd : IsDouble x) (hv : |v - x| < 1 / 2 ^ 54 * x) : nearest v = some x := by
  obtain ⟨m, hxm, hm0, hm1, hq, hbig⟩ := double_canon hx hd
  obtain ⟨q, hqe⟩ : ∃ q : Int, q = lastBit x := ⟨_, rfl⟩
  obtain ⟨L, hLe⟩ : ∃ L : Int, L = Int.log 2 x := ⟨_, rfl⟩
  rw [← hqe] at hxm hq
  rw [← hLe] at hq
  have hqdef : q = max (L - 52) (-1074) := by rw [hqe, hLe]; rfl
  obtain ⟨hv1, hv2⟩ := abs_lt.1 hv
  have hvpos : 0 < v := by nlinarith
  have hlo : (2 : ℚ) ^ L ≤ x := by rw [hLe]; exact_mod_cast Int.zpow_log_le_self (b := 2) (r := x) (by norm_num) hx
  have hhi : x < (2 : ℚ) ^ (L + 1) := by rw [hLe]; exact_mod_cast Int.lt_zpow_succ_log_self (b := 2) (by norm_num) x
  have vlo : (2 : ℚ) ^ Int.log 2 v ≤ v := by exact_mod_cast Int.zpow_log_le_self (b := 2) (r := v) (by norm_num) hvpos
  have vhi : v < (2 : ℚ) ^ (Int.log 2 v + 1) := by exact_mod_cast Int.lt_zpow_succ_log_self (b := 2) (by norm_num) v
  have pq := two_zpow_pos q
  have hm1q : (m : ℚ) < 2 ^ 53 := by exact_mod_cast hm1
  -- `v` is below the next power of two
  have hup : v < 2 ^ (L + 1) := by
    have hgap : x + 2 ^ q ≤ 2 ^ (L + 1) := by
      obtain ⟨k, hk⟩ : ∃ k : Nat, L + 1 = q + k := ⟨(L + 1 - q).toNat, by omega⟩
      rw [hk, zpow_add₀ (by norm_num), zpow_natCast] at hhi ⊢
      rw [hxm, mul_comm] at hhi
      have : (m : ℚ) < 2 ^ k := lt_of_mul_lt_mul_left hhi pq.le
      have : m < 2 ^ k := by exact_mod_cast this
      have : (m : ℚ) + 1 ≤ 2 ^ k := by exact_mod_cast this
      rw [hxm]
      nlinarith
    have : 1 / 2 ^ 54 * x < 2 ^ q := by
      rw [hxm]
      nlinarith
    linarith
  have hL1 : Int.log 2 v ≤ L := by
    have := (zpow_lt_zpow_iff_right₀ (by norm_num : (1 : ℚ) < 2)).1 (lt_of_le_of_lt vlo hup)
    omega
  have hL2 : L - 1 ≤ Int.log 2 v := by
    have h2 : (2 : ℚ) ^ (L - 1) ≤ v := by
      have e : (2 : ℚ) ^ (L - 1) = 2 ^ L / 2 := by rw [zpow_sub_one₀ (by norm_num)]; ring
      rw [e]
      nlinarith
    have := (zpow_lt_zpow_iff_right₀ (by norm_num : (1 : ℚ) < 2)).1 (lt_of_le_of_lt h2 vhi)
    omega
  have hvq : lastBit v = q ∨ (lastBit v = q - 1 ∧ q = L - 52 ∧ Int.log 2 v = L - 1) := by
    unfold lastBit
    rcases (by omega : Int.log 2 v = L ∨ Int.log 2 v = L - 1) with h | h
    · left; rw [h, hqdef]
    · rcases le_total (L - 52) (-1074) with h3 | h3
      · left; rw [h, hqdef, max_eq_right h3, max_eq_right (by omega)]
      · rcases eq_or_lt_of_le h3 with h4 | h4
        · left; rw [h, hqdef, max_eq_left h3, max_eq_right (by omega)]; omega
        · right
          have : q = L - 52 := by rw [hqdef, max_eq_left h3]
          refine ⟨?_, this, h⟩
          rw [h, max_eq_left (by omega), this]; ring
  have key : (roundEven (v / 2 ^ lastBit v) : ℚ) * 2 ^ lastBit v = x := by
    rcases hvq with h | ⟨h, h5, h6⟩
    · have hr : roundEven (v / 2 ^ q) = m := by
        apply roundEven_eq
        have e : v / 2 ^ q - m = (v - x) / 2 ^ q := by rw [hxm]; field_simp
        rw [e, abs_div, abs_of_pos pq, div_lt_iff₀ pq]
        refine lt_trans hv ?_
        rw [hxm]
        nlinarith
      rw [h, hr, hxm]
    · have e1 : (2 : ℚ) ^ q = 2 * 2 ^ (q - 1) := by rw [zpow_sub_one₀ (by norm_num)]; ring
      have pq1 := two_zpow_pos (q - 1)
      have hm2 : m ≤ 2 ^ 52 := by
        have hvl : v < 2 ^ L := by
          have := vhi
          rw [h6] at this
          simpa using this
        have e2 : (2 : ℚ) ^ L = 2 ^ 52 * 2 ^ q := by
          rw [h5, ← zpow_natCast, ← zpow_add₀ (by norm_num)]; congr 1; push_cast; ring
        rw [e2] at hvl
        have h7 : (m : ℚ) * 2 ^ q < (2 ^ 52 + 1) * 2 ^ q := by
          rw [hxm] at hv1
          nlinarith
        have h8 := lt_of_mul_lt_mul_right h7 pq.le
        have h9 : m < 2 ^ 52 + 1 := by exact_mod_cast h8
        omega
      have hm2q : (m : ℚ) ≤ 2 ^ 52 := by exact_mod_cast hm2
      have hr : roundEven (v / 2 ^ (q - 1)) = 2 * m := by
        apply roundEven_eq
        have e : v / 2 ^ (q - 1) - ((2 * m : Int) : ℚ) = (v - x) / 2 ^ (q - 1) := by
          rw [hxm, e1]; push_cast; field_simp
        rw [e, abs_div, abs_of_pos pq1, div_lt_iff₀ pq1]
        refine lt_of_lt_of_le hv ?_
        rw [hxm, e1]
        nlinarith
      rw [h, hr, hxm, e1]; push_cast; ring
  unfold nearest
  rw [if_neg hvpos.ne', key, if_neg (not_le.2 hbig)]

theorem isDouble_abs {x : ℚ} (h : IsDouble x) : IsDouble |x| := by
  obtain ⟨m, e, h1, h2, h3, rfl⟩ := h
  refine ⟨|m|, e, by simpa using h1, h2, h3, ?_⟩
  rw [abs_mul, abs_of_pos (two_zpow_pos e)]
  push_cast
  rfl

/-- What is read from a text close to a `double`. -/
theorem readDec_printed {n : Nat} {x : ℚ} (hd : IsDouble x) (h : x ≠ 0 → abs ((printed n x).mag - |x|) < 1 / 2 ^ 54 * |x|) :
    readDec (printed n x) = .ok (.fin x) := by
  unfold readDec
  by_cases hx : x = 0
  · subst hx
    simp [printed, nearest, Dec.mag]
  · rw [nearest_eq (abs_pos.2 hx) (isDouble_abs hd) (h hx), printed_neg]
    simp only
    by_cases hlt : x < 0
    · simp [hlt, abs_of_neg hlt]
    · simp [hlt, abs_of_nonneg (not_lt.1 hlt)]

/-! ## C135 -/

/-- C135: a number written with at least 17 significant digits is read back exactly. -/
theorem C135_exact {n : Nat} (hn : 17 ≤ n) {x : ℚ} (hd : IsDouble x) : readDec (printed n x) = .ok (.fin x) := by
  apply readDec_printed hd
  intro hx
  refine lt_of_le_of_lt (printed_mag_rel n x) ?_
  have h1 : (10 : ℚ) ^ (1 - n : Int) ≤ 10 ^ (-16 : Int) := (zpow_le_zpow_iff_right₀ (by norm_num : (1 : ℚ) < 10)).2 (by omega)
  have h2 : (10 : ℚ) ^ (-16 : Int) = 1 / 10 ^ 16 := by norm_num
  have h3 := abs_pos.2 hx
  rw [h2] at h1
  have h4 : 1 / 2 * (10 : ℚ) ^ (1 - n : Int) < 1 / 2 ^ 54 := lt_of_le_of_lt (mul_le_mul_of_nonneg_left h1 (by norm_num)) (by norm_num)
  exact mul_lt_mul_of_pos_right h4 h3

/-- C135: the numbers stored in a snapshot file, infinities and NaN among them, are read back exactly, whatever follows them in the file. -/
theorem C135_snapshot (xs : List Dbl) (h : ∀ x ∈ xs, IsDbl x) (rest : List Text) : load xs.length (store xs ++ rest) = some (xs, rest) := by
  induction xs with
  | nil => rfl
  | cons x xs ih =>
    have hx : getBoost (put snapshotPrecision x) = .ok x := by
      cases x with
      | fin x => exact C135_exact (by decide) (h (.fin x) (by simp))
      | inf neg => rfl
      | nan => rfl
    simp only [store, List.map_cons, List.cons_append, List.length_cons, load, hx]
    rw [← store, ih fun y hy => h y (by simp [hy])]
    rfl

/-- The smallest `double`, one with 53 bits, and the infinity. -/
example : load 3 (store [.fin (2 ^ (-1074 : Int)), .fin (2 ^ 53 - 1), .inf true] ++ []) =
    some ([.fin (2 ^ (-1074 : Int)), .fin (2 ^ 53 - 1), .inf true], []) := by
  refine C135_snapshot [.fin (2 ^ (-1074 : Int)), .fin (2 ^ 53 - 1), .inf true] ?_ []
  intro x hx
  simp only [List.mem_cons, List.not_mem_nil, or_false] at hx
  rcases hx with rfl | rfl | rfl
  · exact ⟨1, -1074, by norm_num, le_refl _, by norm_num, by norm_num⟩
  · exact ⟨2 ^ 53 - 1, 0, by norm_num, by norm_num, by norm_num, by norm_num⟩
  · trivial

/-! ## C136 -/

/-- A number with few digits is written exactly. -/
theorem printed_digits {n : Nat} {x : ℚ} (h : HasDigits n x) : (printed n x).mag = |x| := by
  by_cases hx : x = 0
  · subst hx; simp [printed, Dec.mag]
  obtain ⟨k, e, hk, hxe⟩ := h
  have hxa : |x| = (|k| : Int) * 10 ^ e := by
    rw [hxe, abs_mul, abs_of_pos (zpow_pos (by norm_num : (0 : ℚ) < 10) e)]; push_cast; rfl
  have hlo : (10 : ℚ) ^ Int.log 10 |x| ≤ |x| := by
    exact_mod_cast Int.zpow_log_le_self (b := 10) (r := |x|) (by norm_num) (abs_pos.2 hx)
  have hlt : |x| < (10 : ℚ) ^ (e + n) := by
    rw [hxa, zpow_add₀ (by norm_num), mul_comm, zpow_natCast]
    refine mul_lt_mul_of_pos_left ?_ (zpow_pos (by norm_num) e)
    exact_mod_cast hk
  have hL := (zpow_lt_zpow_iff_right₀ (by norm_num : (1 : ℚ) < 10)).1 (lt_of_le_of_lt hlo hlt)
  obtain ⟨q, hq⟩ : ∃ q : Int, q = Int.log 10 |x| - (n - 1 : Int) := ⟨_, rfl⟩
  obtain ⟨j, hj⟩ : ∃ j : Nat, e = q + j := ⟨(e - q).toNat, by omega⟩
  have hpos : (0 : ℚ) < 10 ^ q := zpow_pos (by norm_num) q
  have hdiv : |x| / 10 ^ q = ((|k| * 10 ^ j : Int) : ℚ) := by
    rw [hxa, hj, zpow_add₀ (by norm_num), zpow_natCast]; push_cast; field_simp
  have hr : roundEven (|x| / 10 ^ q) = |k| * 10 ^ j := roundEven_eq (by rw [hdiv, sub_self, abs_zero]; norm_num)
  unfold printed Dec.mag
  rw [if_neg hx]
  simp only [← hq]
  rw [hr]
  have hn : (((|k| * 10 ^ j : Int).toNat : Nat) : ℚ) = ((|k| * 10 ^ j : Int) : ℚ) := by
    have := Int.toNat_of_nonneg (show (0 : Int) ≤ |k| * 10 ^ j by positivity)
    exact_mod_cast this
  rw [hn, ← hdiv]
  field_simp

/-- C136: bounds with at most six significant digits are restored. -/
theorem C136_restored_partial {x y : ℚ} (hx : IsDouble x) (hy : IsDouble y) (h6x : HasDigits 6 x) (h6y : HasDigits 6 y) (old : Dbl × Dbl) :
    loadDepthColBounds old (saveDepthColBounds (.fin x, .fin y)) = (.fin x, .fin y) := by
  have key : ∀ {z : ℚ}, IsDouble z → HasDigits 6 z → getStd (put defaultPrecision (.fin z)) = .ok (.fin z) := by
    intro z hz h6
    refine readDec_printed hz fun h0 => ?_
    rw [show defaultPrecision = 6 from rfl, printed_digits h6, sub_self, abs_zero]
    have := abs_pos.2 h0
    positivity
  simp only [loadDepthColBounds, saveDepthColBounds, key hx h6x, key hy h6y, Except.toOption, Option.getD]

/-- The bounds before anything was drawn. -/
example (old : Dbl × Dbl) : loadDepthColBounds old (saveDepthColBounds (.fin 0, .fin 1)) = (.fin 0, .fin 1) :=
  C136_restored_partial ⟨0, 0, by norm_num, by norm_num, by norm_num, by norm_num⟩ ⟨1, 0, by norm_num, by norm_num, by norm_num, by norm_num⟩
    ⟨0, 0, by norm_num, by norm_num⟩ ⟨1, 0, by norm_num, by norm_num⟩ old

/-- C136: what is written of a bound is within five millionths of it. -/
theorem C136_within (x : ℚ) : Within (5 / 10 ^ 6) (printed defaultPrecision x).value x := by
  unfold Within
  rw [value_err]
  refine (printed_mag_rel _ x).trans (le_of_eq ?_)
  rw [show ((1 - (defaultPrecision : Nat) : Int)) = -5 from rfl]
  norm_num

theorem printed_witness : printed 6 1048577 = ⟨false, 104858, 1⟩ := by decide +kernel

/-- C136 violated: a bound with seven digits comes back as another one. -/
theorem C136_digits_violated (old : Dbl × Dbl) : IsDouble 1048577 ∧
    loadDepthColBounds old (saveDepthColBounds (.fin 0, .fin 1048577)) = (.fin 0, .fin 1048580) := by
  refine ⟨⟨1048577, 0, by norm_num, by norm_num, by norm_num, by norm_num⟩, ?_⟩
  have h1 : getStd (put defaultPrecision (.fin 0)) = .ok (.fin 0) := by decide +kernel
  have h2 : getStd (put defaultPrecision (.fin 1048577)) = .ok (.fin 1048580) := by decide +kernel
  simp only [loadDepthColBounds, saveDepthColBounds, h1, h2, Except.toOption, Option.getD]

/-- C136 violated: an infinite or undefined lower bound is read as 0, and the upper one is not read at all. -/
theorem C136_infinite_violated (old : Dbl × Dbl) (x y : Dbl) (h : ∀ v, x ≠ .fin v) :
    loadDepthColBounds old (saveDepthColBounds (x, y)) = (.fin 0, old.2) := by
  cases x with
  | fin v => exact absurd rfl (h v)
  | inf neg => rfl
  | nan => rfl

/-! ## C137 -/

/-- C137: each number of a pose, in a trajectory file or as a coordinate in a cloud, is written up to five millionths of it. -/
theorem C137_within_partial (xs : List ℚ) :
    List.Forall₂ (fun (x : ℚ) (t : Text) => ∃ d, t = .dec d ∧ Within (5 / 10 ^ 6) d.value x) xs (poseLine xs) := by
  rw [poseLine, List.forall₂_map_right_iff, List.forall₂_same]
  exact fun x _ => ⟨_, rfl, C136_within x⟩

/-- C137 violated: two poses, half a millimeter apart in a kilometer, have the same line. -/
theorem C137_same_line_violated : ∃ xs ys : List ℚ, xs = [1, 0, 0, 1000, 0, 1, 0, 0, 0, 0, 1, 0] ∧
    ys = [1, 0, 0, 1000 + 1 / 2 ^ 11, 0, 1, 0, 0, 0, 0, 1, 0] ∧ (∀ x ∈ xs ++ ys, IsDouble x) ∧ poseLine xs = poseLine ys := by
  refine ⟨_, _, rfl, rfl, ?_, by decide +kernel⟩
  intro x hx
  simp only [List.cons_append, List.nil_append, List.mem_cons, List.not_mem_nil, or_false] at hx
  have h1 : IsDouble 1 := ⟨1, 0, by norm_num, by norm_num, by norm_num, by norm_num⟩
  have h0 : IsDouble 0 := ⟨0, 0, by norm_num, by norm_num, by norm_num, by norm_num⟩
  have hk : IsDouble 1000 := ⟨1000, 0, by norm_num, by norm_num, by norm_num, by norm_num⟩
  have hk' : IsDouble (1000 + 1 / 2 ^ 11) := ⟨2048001, -11, by norm_num, by norm_num, by norm_num, by norm_num⟩
  rcases hx with rfl | rfl | rfl | rfl | rfl | rfl | rfl | rfl | rfl | rfl | rfl | rfl | rfl | rfl | rfl | rfl | rfl | rfl | rfl | rfl | rfl | rfl |
    rfl | rfl <;> assumption

end Mdso.Num
