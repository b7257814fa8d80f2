import Verif.Model.Pyramid
import Mathlib.Algebra.BigOperators.Ring.Finset
import Mathlib.Algebra.Order.BigOperators.Group.Finset
import Mathlib.Algebra.BigOperators.Intervals
import Mathlib.Tactic.Linarith
import Mathlib.Tactic.Ring

/-! Lemmas about the model of the pyramids. -/

set_option autoImplicit false

namespace Mdso.Pyr

theorem read_ok {α : Type} {img : Img α} {y x : Nat} (hy : y < img.rows) (hx : x < img.cols) :
    img.read y x = .ok (img.px y x) := by
  unfold Img.read; rw [if_pos ⟨hy, hx⟩]

theorem build_ok {α : Type} [Inhabited α] {rows cols : Nat} {f : Nat → Nat → Except Fault α}
    {v : Nat → Nat → α} (h : ∀ y x, y < rows → x < cols → f y x = .ok (v y x)) :
    ∃ im, build rows cols f = .ok im ∧ im.rows = rows ∧ im.cols = cols ∧
      ∀ y x, y < rows → x < cols → im.px y x = v y x := by
  unfold build
  have hall : (List.range rows).all (fun y => (List.range cols).all fun x => (f y x).toOption.isSome)
      = true := by
    rw [List.all_eq_true]
    intro y hy
    rw [List.all_eq_true]
    intro x hx
    rw [h y x (List.mem_range.1 hy) (List.mem_range.1 hx)]; rfl
  rw [if_pos hall]
  refine ⟨_, rfl, rfl, rfl, ?_⟩
  intro y x hy hx
  simp only
  rw [h y x hy hx]; rfl

/-- What one level of the image pyramid holds. -/
theorem down_ok (img : Img Nat) :
    ∃ im, boxFilterPyrDown img = .ok im ∧ im.rows = img.rows / 2 ∧ im.cols = img.cols / 2 ∧
      ∀ r c, r < img.rows / 2 → c < img.cols / 2 → im.px r c =
        (img.px (2 * r) (2 * c) + img.px (2 * r) (2 * c + 1) + img.px (2 * r + 1) (2 * c)
          + img.px (2 * r + 1) (2 * c + 1)) / 4 := by
  unfold boxFilterPyrDown
  refine build_ok fun r c hr hc => ?_
  unfold accum
  rw [read_ok (by omega) (by omega), read_ok (by omega) (by omega), read_ok (by omega) (by omega),
    read_ok (by omega) (by omega)]
  simp only [Nat.zero_add]

theorem levels_ok (n : Nat) (img : Img Nat) : ∃ ls, levelsFrom n img = .ok ls ∧ ls.length = n := by
  induction n generalizing img with
  | zero => exact ⟨[], rfl, rfl⟩
  | succ n ih =>
    obtain ⟨next, h, -⟩ := down_ok img
    obtain ⟨rest, hr, hl⟩ := ih next
    refine ⟨next :: rest, ?_, by simp [hl]⟩
    unfold levelsFrom; rw [h]; simp only [hr]

/-- Sum of a square block of side `m` at `(y, x)`. -/
def blockSum {M : Type} [AddCommMonoid M] (f : Nat → Nat → M) (y x m : Nat) : M :=
  ∑ i ∈ Finset.range m, ∑ j ∈ Finset.range m, f (y + i) (x + j)

theorem blockSum_double {M : Type} [AddCommMonoid M] (f : Nat → Nat → M) (y x m : Nat) :
    blockSum f y x (m + m) = blockSum f y x m + blockSum f y (x + m) m + blockSum f (y + m) x m
      + blockSum f (y + m) (x + m) m := by
  unfold blockSum
  have h1 : ∀ i, ∑ j ∈ Finset.range (m + m), f (y + i) (x + j)
      = ∑ j ∈ Finset.range m, f (y + i) (x + j) + ∑ j ∈ Finset.range m, f (y + i) (x + m + j) := by
    intro i
    rw [Finset.sum_range_add]
    simp only [Nat.add_assoc]
  simp only [h1]
  rw [Finset.sum_range_add, Finset.sum_add_distrib, Finset.sum_add_distrib]
  simp only [Nat.add_assoc]
  rw [← add_assoc]

/-- The four-corner formula gives the sum over the block. -/
theorem corner_sum (f : Nat → Nat → ℝ) (y x m : Nat) :
    (∑ i ∈ Finset.range (y + m), ∑ j ∈ Finset.range (x + m), f i j)
      - (∑ i ∈ Finset.range y, ∑ j ∈ Finset.range (x + m), f i j)
      - (∑ i ∈ Finset.range (y + m), ∑ j ∈ Finset.range x, f i j)
      + (∑ i ∈ Finset.range y, ∑ j ∈ Finset.range x, f i j) = blockSum f y x m := by
  unfold blockSum
  rw [Finset.sum_range_add, Finset.sum_range_add]
  have : ∀ i, ∑ j ∈ Finset.range (x + m), f i j
      = ∑ j ∈ Finset.range x, f i j + ∑ j ∈ Finset.range m, f i (x + j) := by
    intro i; rw [Finset.sum_range_add]
  simp only [this, Finset.sum_add_distrib]
  ring

theorem block_lt {n l y : Nat} (h : y < n / 2 ^ l) : y * 2 ^ l + 2 ^ l ≤ n := by
  have h1 : (y + 1) * 2 ^ l ≤ n := (Nat.le_div_iff_mul_le (by positivity)).1 h
  have : y * 2 ^ l + 2 ^ l = (y + 1) * 2 ^ l := by ring
  omega

theorem corners_ok {rows cols l y x : Nat} (f : Nat → Nat → ℝ) (hy : y < rows / 2 ^ l)
    (hx : x < cols / 2 ^ l) :
    corners (integral rows cols f) (y * 2 ^ l) (x * 2 ^ l) (2 ^ l)
      = .ok (blockSum f (y * 2 ^ l) (x * 2 ^ l) (2 ^ l)) := by
  have h1 := block_lt hy
  have h2 := block_lt hx
  have h3 : 0 < 2 ^ l := by positivity
  unfold corners
  rw [read_ok (by simp only [integral]; omega) (by simp only [integral]; omega),
    read_ok (by simp only [integral]; omega) (by simp only [integral]; omega),
    read_ok (by simp only [integral]; omega) (by simp only [integral]; omega),
    read_ok (by simp only [integral]; omega) (by simp only [integral]; omega)]
  simp only [integral]
  rw [corner_sum]

open Classical in
/-- One level of the depth pyramid. -/
theorem pyrN_ok (rows cols l : Nat) (f w : Nat → Nat → ℝ) :
    ∃ im, pyrNUpDepth (integral rows cols f) (integral rows cols w) l = .ok im ∧
      im.rows = rows / 2 ^ l ∧ im.cols = cols / 2 ^ l ∧
      ∀ y x, y < rows / 2 ^ l → x < cols / 2 ^ l → im.px y x =
        if |blockSum w (y * 2 ^ l) (x * 2 ^ l) (2 ^ l)| > 1 / 100000000 then
          blockSum f (y * 2 ^ l) (x * 2 ^ l) (2 ^ l) / blockSum w (y * 2 ^ l) (x * 2 ^ l) (2 ^ l)
        else -1 := by
  unfold pyrNUpDepth
  have e1 : (integral rows cols f).rows - 1 = rows := by simp [integral]
  have e2 : (integral rows cols f).cols - 1 = cols := by simp [integral]
  rw [e1, e2]
  refine build_ok fun y x hy hx => ?_
  simp only [corners_ok f hy hx, corners_ok w hy hx]
  by_cases h : |blockSum w (y * 2 ^ l) (x * 2 ^ l) (2 ^ l)| > 1 / 100000000
  · rw [if_pos h, if_pos h]
  · rw [if_neg h, if_neg h]

theorem depthLevels_ok (rows cols : Nat) (f w : Nat → Nat → ℝ) (n il : Nat) :
    ∃ ls, depthLevels (integral rows cols f) (integral rows cols w) n il = .ok ls ∧ ls.length = n ∧
      ∀ (k : Nat) im, ls[k]? = some im →
        pyrNUpDepth (integral rows cols f) (integral rows cols w) (il + k) = .ok im := by
  induction n generalizing il with
  | zero => exact ⟨[], rfl, rfl, fun k im h => by simp at h⟩
  | succ n ih =>
    obtain ⟨im, h, -⟩ := pyrN_ok rows cols il f w
    obtain ⟨ls, h2, hl, h3⟩ := ih (il + 1)
    refine ⟨im :: ls, ?_, by simp [hl], ?_⟩
    · unfold depthLevels; rw [h]; simp only [h2]
    · intro k im' hk
      cases k with
      | zero => simp at hk; subst hk; exact h
      | succ k =>
        have := h3 k im' (by simpa using hk)
        rw [← this]; congr 1; omega

/-- What the loop over the points leaves in a pixel. -/
theorem writeAll_ok {rows cols : Nat} (ps : List Pt) (g : Grid)
    (hin : ∀ p ∈ ps, ∃ q, pixel rows cols p = some q) :
    ∃ g', writeAll rows cols ps g = .ok g' ∧ ∀ y x,
      ((∀ p ∈ ps, pixel rows cols p ≠ some (y, x)) ∧ g' y x = g y x) ∨
      (∃ p ∈ ps, pixel rows cols p = some (y, x) ∧ g' y x = (p.d, p.w)) := by
  induction ps generalizing g with
  | nil => exact ⟨g, rfl, fun y x => Or.inl ⟨fun p hp => (by simp at hp), rfl⟩⟩
  | cons p ps ih =>
    obtain ⟨q, hq⟩ := hin p (List.mem_cons_self ..)
    obtain ⟨g', h1, h2⟩ := ih (write g q (p.d, p.w)) fun p hp => hin p (List.mem_cons_of_mem _ hp)
    refine ⟨g', ?_, ?_⟩
    · unfold writeAll; rw [hq]; exact h1
    · intro y x
      rcases h2 y x with ⟨h3, h4⟩ | ⟨p', hp', h3, h4⟩
      · by_cases hqx : q = (y, x)
        · right
          refine ⟨p, List.mem_cons_self .., hq.trans (congrArg some hqx), ?_⟩
          rw [h4]; unfold write; rw [if_pos hqx.symm]
        · left
          constructor
          · intro p' hp'
            rcases List.mem_cons.1 hp' with rfl | hm
            · rw [hq]; intro h; exact hqx (Option.some.inj h)
            · exact h3 p' hm
          · rw [h4]; unfold write; rw [if_neg fun h => hqx h.symm]
      · right; exact ⟨p', List.mem_cons_of_mem _ hp', h3, h4⟩

/-- The pixel of a point inside the picture. -/
theorem pixel_inside {rows cols : Nat} {p : Pt} (hx0 : 0 ≤ p.x) (hx1 : p.x < cols) (hy0 : 0 ≤ p.y)
    (hy1 : p.y < rows) :
    ∃ y x : Nat, pixel rows cols p = some (y, x) ∧ (x : ℝ) ≤ p.x ∧ p.x < x + 1 ∧ (y : ℝ) ≤ p.y ∧
      p.y < y + 1 := by
  unfold pixel Util.truncInt
  have a1 : (0 : Int) ≤ ⌊p.x⌋ := Int.floor_nonneg.2 hx0
  have a2 : (0 : Int) ≤ ⌊p.y⌋ := Int.floor_nonneg.2 hy0
  have b1 : ⌊p.x⌋ < (cols : Int) := Int.floor_lt.2 (by exact_mod_cast hx1)
  have b2 : ⌊p.y⌋ < (rows : Int) := Int.floor_lt.2 (by exact_mod_cast hy1)
  simp only [if_pos hx0, if_pos hy0, if_pos (And.intro a1 (And.intro b1 (And.intro a2 b2)))]
  refine ⟨_, _, rfl, ?_, ?_, ?_, ?_⟩
  · have : ((⌊p.x⌋.toNat : ℕ) : ℝ) = ((⌊p.x⌋ : ℤ) : ℝ) := by
      exact_mod_cast congrArg (fun z : ℤ => (z : ℝ)) (Int.toNat_of_nonneg a1)
    rw [this]; exact Int.floor_le _
  · have : ((⌊p.x⌋.toNat : ℕ) : ℝ) = ((⌊p.x⌋ : ℤ) : ℝ) := by
      exact_mod_cast congrArg (fun z : ℤ => (z : ℝ)) (Int.toNat_of_nonneg a1)
    rw [this]; exact Int.lt_floor_add_one _
  · have : ((⌊p.y⌋.toNat : ℕ) : ℝ) = ((⌊p.y⌋ : ℤ) : ℝ) := by
      exact_mod_cast congrArg (fun z : ℤ => (z : ℝ)) (Int.toNat_of_nonneg a2)
    rw [this]; exact Int.floor_le _
  · have : ((⌊p.y⌋.toNat : ℕ) : ℝ) = ((⌊p.y⌋ : ℤ) : ℝ) := by
      exact_mod_cast congrArg (fun z : ℤ => (z : ℝ)) (Int.toNat_of_nonneg a2)
    rw [this]; exact Int.lt_floor_add_one _

end Mdso.Pyr
