import Verif.Lemmas.Pyramid

/-!
# C42, C43: image and depth pyramids

Theorems about the model `Verif/Model/Pyramid.lean`.
-/

set_option autoImplicit false

namespace Mdso.Pyr

/-! ### C42 -/

/-- C42, one level: the result has half the size, rounded down, and every pixel is the mean of its four
pixels, rounded down; the pixels outside any 2×2 block do not matter. -/
theorem C42_level (img : Img Nat) :
    ∃ im, boxFilterPyrDown img = .ok im ∧ im.rows = img.rows / 2 ∧ im.cols = img.cols / 2 ∧
      ∀ r c, r < im.rows → c < im.cols →
        let s := img.px (2 * r) (2 * c) + img.px (2 * r) (2 * c + 1) + img.px (2 * r + 1) (2 * c)
          + img.px (2 * r + 1) (2 * c + 1)
        4 * im.px r c ≤ s ∧ s < 4 * im.px r c + 4 := by
  obtain ⟨im, h, h1, h2, h3⟩ := down_ok img
  refine ⟨im, h, h1, h2, ?_⟩
  intro r c hr hc
  rw [h1] at hr; rw [h2] at hc
  simp only
  rw [h3 r c hr hc]
  omega

/-- Specification: `im` is level `l` of a pyramid over `base`: `l` times half the size; every pixel is the
mean of its block, rounded down, up to 3/4 of a grey level per level; and it lies between any bounds of the
pixels of its block. -/
def IsLevel (base im : Img Nat) (l : Nat) : Prop :=
  im.rows = base.rows / 2 ^ l ∧ im.cols = base.cols / 2 ^ l ∧
  ∀ r c, r < im.rows → c < im.cols →
    (4 ^ l * im.px r c ≤ blockSum base.px (r * 2 ^ l) (c * 2 ^ l) (2 ^ l) ∧
      4 * blockSum base.px (r * 2 ^ l) (c * 2 ^ l) (2 ^ l) ≤ 4 ^ l * (4 * im.px r c + 3 * l)) ∧
    ∀ lo hi, (∀ i j, i < 2 ^ l → j < 2 ^ l →
        lo ≤ base.px (r * 2 ^ l + i) (c * 2 ^ l + j) ∧ base.px (r * 2 ^ l + i) (c * 2 ^ l + j) ≤ hi) →
      lo ≤ im.px r c ∧ im.px r c ≤ hi

theorem level_zero (base : Img Nat) : IsLevel base base 0 := by
  refine ⟨by simp, by simp, ?_⟩
  intro r c _ _
  refine ⟨by simp [blockSum], ?_⟩
  intro lo hi h
  have := h 0 0 (by simp) (by simp)
  simpa using this

theorem level_succ {base im im' : Img Nat} {l : Nat} (h : IsLevel base im l)
    (hd : boxFilterPyrDown im = .ok im') : IsLevel base im' (l + 1) := by
  obtain ⟨h1, h2, h3⟩ := h
  obtain ⟨im'', hd', r1, r2, r3⟩ := down_ok im
  rw [hd] at hd'; cases hd'
  refine ⟨?_, ?_, ?_⟩
  · rw [r1, h1, Nat.div_div_eq_div_mul, pow_succ]
  · rw [r2, h2, Nat.div_div_eq_div_mul, pow_succ]
  intro r c hr hc
  rw [r1] at hr; rw [r2] at hc
  have hp : ∀ r c, r < im.rows → c < im.cols → _ := h3
  have a := hp (2 * r) (2 * c) (by omega) (by omega)
  have b := hp (2 * r) (2 * c + 1) (by omega) (by omega)
  have cc := hp (2 * r + 1) (2 * c) (by omega) (by omega)
  have d := hp (2 * r + 1) (2 * c + 1) (by omega) (by omega)
  have hv := r3 r c hr hc
  have e1 : r * 2 ^ (l + 1) = 2 * r * 2 ^ l := by ring
  have e2 : c * 2 ^ (l + 1) = 2 * c * 2 ^ l := by ring
  have e3 : (2 * r + 1) * 2 ^ l = 2 * r * 2 ^ l + 2 ^ l := by ring
  have e4 : (2 * c + 1) * 2 ^ l = 2 * c * 2 ^ l + 2 ^ l := by ring
  have e5 : 2 ^ (l + 1) = 2 ^ l + 2 ^ l := by ring
  constructor
  · rw [e1, e2, e5, blockSum_double]
    rw [e3] at cc d
    rw [e4] at b d
    have hq : (4 : Nat) ^ (l + 1) = 4 * 4 ^ l := by ring
    rw [hq]
    generalize blockSum base.px (2 * r * 2 ^ l) (2 * c * 2 ^ l) (2 ^ l) = A at *
    generalize blockSum base.px (2 * r * 2 ^ l) (2 * c * 2 ^ l + 2 ^ l) (2 ^ l) = B at *
    generalize blockSum base.px (2 * r * 2 ^ l + 2 ^ l) (2 * c * 2 ^ l) (2 ^ l) = C at *
    generalize blockSum base.px (2 * r * 2 ^ l + 2 ^ l) (2 * c * 2 ^ l + 2 ^ l) (2 ^ l) = D at *
    have hlo : 4 * im'.px r c ≤ im.px (2 * r) (2 * c) + im.px (2 * r) (2 * c + 1)
        + im.px (2 * r + 1) (2 * c) + im.px (2 * r + 1) (2 * c + 1) := by omega
    have hhi : im.px (2 * r) (2 * c) + im.px (2 * r) (2 * c + 1)
        + im.px (2 * r + 1) (2 * c) + im.px (2 * r + 1) (2 * c + 1) ≤ 4 * im'.px r c + 3 := by omega
    have q := a.1; have q2 := b.1; have q3 := cc.1; have q4 := d.1
    generalize (4 : Nat) ^ l = P at *
    push_cast
    constructor
    · nlinarith [Nat.mul_le_mul_left P hlo]
    · nlinarith [Nat.mul_le_mul_left P hhi]
  · intro lo hi hb
    have key : ∀ yy xx, yy < 2 → xx < 2 → lo ≤ im.px (2 * r + yy) (2 * c + xx) ∧
        im.px (2 * r + yy) (2 * c + xx) ≤ hi := by
      intro yy xx hyy hxx
      apply (hp (2 * r + yy) (2 * c + xx) (by omega) (by omega)).2
      intro i j hi' hj'
      have hi2 : yy * 2 ^ l + i < 2 ^ (l + 1) := by
        rw [e5]
        have : yy * 2 ^ l ≤ 1 * 2 ^ l := Nat.mul_le_mul_right _ (by omega)
        omega
      have hj2 : xx * 2 ^ l + j < 2 ^ (l + 1) := by
        rw [e5]
        have : xx * 2 ^ l ≤ 1 * 2 ^ l := Nat.mul_le_mul_right _ (by omega)
        omega
      have := hb _ _ hi2 hj2
      have f1 : (2 * r + yy) * 2 ^ l + i = r * 2 ^ (l + 1) + (yy * 2 ^ l + i) := by rw [e1]; ring
      have f2 : (2 * c + xx) * 2 ^ l + j = c * 2 ^ (l + 1) + (xx * 2 ^ l + j) := by rw [e2]; ring
      rw [f1, f2]; exact this
    have k00 := key 0 0 (by omega) (by omega)
    have k01 := key 0 1 (by omega) (by omega)
    have k10 := key 1 0 (by omega) (by omega)
    have k11 := key 1 1 (by omega) (by omega)
    simp only [Nat.add_zero] at k00 k01 k10
    omega

/-- C42, the whole pyramid: for every picture and every positive number of levels construction succeeds, and
level `l` has the stated size and contents. In particular every pixel lies between the minimum and the
maximum of its block of the base picture, so constant pictures stay constant. -/
theorem C42_pyramid (base : Img Nat) (n : Nat) :
    ∃ ls, imagePyramid base (n + 1) = .ok ls ∧ ls.length = n + 1 ∧
      ∀ (l : Nat) im, ls[l]? = some im → IsLevel base im l := by
  obtain ⟨rest, hr, hl⟩ := levels_ok n base
  refine ⟨base :: rest, ?_, by simp [hl], ?_⟩
  · simp only [imagePyramid, hr]
  · have gen : ∀ n (img : Img Nat) k rest, IsLevel base img k → levelsFrom n img = .ok rest →
        ∀ (l : Nat) im, rest[l]? = some im → IsLevel base im (k + 1 + l) := by
      intro n
      induction n with
      | zero => intro img k rest _ h l im hl; cases h; simp at hl
      | succ n ih =>
        intro img k rest hk h l im hl
        unfold levelsFrom at h
        split at h
        · cases h
        · rename_i next hnext
          split at h
          · cases h
          · rename_i rest' hrest
            cases h
            have hs := level_succ hk hnext
            cases l with
            | zero => simp at hl; subst hl; exact hs
            | succ l =>
              have := ih next (k + 1) rest' hs hrest l im (by simpa using hl)
              have e : k + 1 + (l + 1) = k + 1 + 1 + l := by omega
              rw [e]; exact this
    intro l im him
    cases l with
    | zero => simp at him; subst him; exact level_zero base
    | succ l =>
      have := gen n base 0 rest (level_zero base) hr l im (by simpa using him)
      have e : 0 + 1 + l = l + 1 := by omega
      rw [e] at this; exact this

/-- C42: a pyramid without levels is undefined behaviour. -/
theorem C42_no_levels (base : Img Nat) : imagePyramid base 0 = .error .ub := rfl

/-- C42: constant pictures stay constant on every level. -/
theorem C42_constant (base : Img Nat) (n v : Nat) (hc : ∀ y x, base.px y x = v) (ls : List (Img Nat))
    (h : imagePyramid base (n + 1) = .ok ls) (l : Nat) (im : Img Nat) (him : ls[l]? = some im) (r c : Nat)
    (hr : r < im.rows) (hcc : c < im.cols) : im.px r c = v := by
  obtain ⟨ls', h1, -, h2⟩ := C42_pyramid base n
  rw [h] at h1; cases h1
  have := ((h2 l im him).2.2 r c hr hcc).2 v v (fun i j _ _ => by simp [hc])
  omega

/-- Non-vacuity of C42: a 5×4 picture with three levels. -/
example : ∃ ls, imagePyramid ⟨5, 4, fun y x => y * 10 + x⟩ 3 = .ok ls ∧
    (ls[1]?.map fun im => (im.rows, im.cols, im.px 1 1)) = some (2, 2, 27) ∧
    (ls[2]?.map fun im => (im.rows, im.cols, im.px 0 0)) = some (1, 1, 16) := by
  refine ⟨_, rfl, by decide, by decide⟩

/-! ### C43 -/

/-- Specification: the point lies in the cell `(r, c)` of level `l`, a square of side `2 ^ l`. -/
def InCell (l r c : Nat) (p : Pt) : Prop :=
  (c : ℝ) * 2 ^ l ≤ p.x ∧ p.x < (c + 1) * 2 ^ l ∧ (r : ℝ) * 2 ^ l ≤ p.y ∧ p.y < (r + 1) * 2 ^ l

/-- Specification: the point lies in the picture. -/
def Inside (rows cols : Nat) (p : Pt) : Prop := 0 ≤ p.x ∧ p.x < cols ∧ 0 ≤ p.y ∧ p.y < rows

/-- The pixel of a point lies in a block exactly if the point lies in the cell. -/
theorem inCell_iff {rows cols l r c y x : Nat} {p : Pt} (hin : Inside rows cols p)
    (h : pixel rows cols p = some (y, x)) :
    InCell l r c p ↔ (∃ i j, i < 2 ^ l ∧ j < 2 ^ l ∧ y = r * 2 ^ l + i ∧ x = c * 2 ^ l + j) := by
  obtain ⟨y', x', h', a1, a2, a3, a4⟩ := pixel_inside hin.1 hin.2.1 hin.2.2.1 hin.2.2.2
  rw [h] at h'; cases h'
  have fl : ∀ (z : ℝ) (n m : Nat), (n : ℝ) ≤ z → z < n + 1 → ((m : ℝ) ≤ z ↔ m ≤ n) := by
    intro z n m hz1 hz2
    constructor
    · intro hm
      have : (m : ℝ) < (n + 1 : Nat) := by push_cast; linarith
      have := Nat.cast_lt.1 this
      omega
    · intro hm
      have : (m : ℝ) ≤ n := by exact_mod_cast hm
      linarith
  have fx1 := fl p.x x (c * 2 ^ l) a1 a2
  have fx2 := fl p.x x ((c + 1) * 2 ^ l) a1 a2
  have fy1 := fl p.y y (r * 2 ^ l) a3 a4
  have fy2 := fl p.y y ((r + 1) * 2 ^ l) a3 a4
  push_cast at fx1 fx2 fy1 fy2
  unfold InCell
  rw [fx1, ← not_le, fx2, fy1, ← not_le, fy2]
  have ec : (c + 1) * 2 ^ l = c * 2 ^ l + 2 ^ l := by ring
  have er : (r + 1) * 2 ^ l = r * 2 ^ l + 2 ^ l := by ring
  rw [ec, er]
  generalize c * 2 ^ l = C
  generalize r * 2 ^ l = R
  generalize 2 ^ l = P
  constructor
  · rintro ⟨b1, b2, b3, b4⟩
    exact ⟨y - R, x - C, by omega, by omega, by omega, by omega⟩
  · rintro ⟨i, j, b1, b2, b3, b4⟩
    omega

/-- C43, the part that is true: for points inside the picture with weights above 1e-8, and one cell of one
level. If no point lies in the cell, it holds -1; otherwise its value lies between any bounds of the depths
of the points in the cell, so it is positive if these are. The level sizes are halved and rounded down, so a
point in the last row or column of an odd size has no cell on the next level. Missing: weights of 1e-8 or
less (`C43_small_weight_violated`). -/
theorem C43_cells_partial (rows cols n : Nat) (pts : List Pt) (hin : ∀ p ∈ pts, Inside rows cols p)
    (hw : ∀ p ∈ pts, 1 / 100000000 < p.w) :
    ∃ ls, depthPyramid rows cols (n + 1) pts = .ok ls ∧ ls.length = n + 1 ∧
      ∀ (l : Nat) im, ls[l]? = some im → im.rows = rows / 2 ^ l ∧ im.cols = cols / 2 ^ l ∧
        ∀ r c, r < im.rows → c < im.cols →
          ((∀ p ∈ pts, ¬ InCell l r c p) → im.px r c = -1) ∧
          ((∃ p ∈ pts, InCell l r c p) → ∀ lo hi : ℝ,
            (∀ p ∈ pts, InCell l r c p → lo ≤ p.d ∧ p.d ≤ hi) → lo ≤ im.px r c ∧ im.px r c ≤ hi) := by
  have hpix : ∀ p ∈ pts, ∃ q, pixel rows cols p = some q := by
    intro p hp
    have h := hin p hp
    obtain ⟨y, x, h', -⟩ := pixel_inside h.1 h.2.1 h.2.2.1 h.2.2.2
    exact ⟨_, h'⟩
  obtain ⟨g, hg, hgs⟩ := writeAll_ok (rows := rows) (cols := cols) pts grid0 hpix
  obtain ⟨rest, hr1, hr2, hr3⟩ := depthLevels_ok rows cols (fun y x => (g y x).1 * (g y x).2)
    (fun y x => (g y x).2) n 1
  refine ⟨{ rows := rows, cols := cols, px := fun y x => (g y x).1 } :: rest, ?_, by simp [hr2], ?_⟩
  · unfold depthPyramid
    simp [hg, hr1]
  intro l im him
  cases l with
  | zero =>
    simp only [List.getElem?_cons_zero] at him
    cases him
    refine ⟨by simp, by simp, ?_⟩
    intro r c hr hc
    simp only at hr hc ⊢
    constructor
    · intro hno
      rcases hgs r c with ⟨h1, h2⟩ | ⟨p, hp, h1, h2⟩
      · rw [h2]; rfl
      · exact absurd ((inCell_iff (l := 0) (r := r) (c := c) (hin p hp) h1).2 ⟨0, 0, by simp, by simp, by simp, by simp⟩)
          (hno p hp)
    · rintro ⟨p, hp, hcell⟩ lo hi hb
      rcases hgs r c with ⟨h1, h2⟩ | ⟨p', hp', h1, h2⟩
      · exfalso
        obtain ⟨⟨y, x⟩, hq⟩ := hpix p hp
        obtain ⟨i, j, b1, b2, b3, b4⟩ := (inCell_iff (hin p hp) hq).1 hcell
        simp at b1 b2 b3 b4
        subst b1 b2
        simp at b3 b4
        subst b3 b4
        exact h1 p hp hq
      · rw [h2]
        exact hb p' hp' ((inCell_iff (l := 0) (r := r) (c := c) (hin p' hp') h1).2 ⟨0, 0, by simp, by simp, by simp, by simp⟩)
  | succ l =>
    have hl := hr3 l im (by simpa using him)
    have e : 1 + l = l + 1 := by omega
    rw [e] at hl
    obtain ⟨im', h1, h2, h3, h4⟩ := pyrN_ok rows cols (l + 1) (fun y x => (g y x).1 * (g y x).2)
      (fun y x => (g y x).2)
    rw [hl] at h1; cases h1
    refine ⟨h2, h3, ?_⟩
    intro r c hr hc
    rw [h2] at hr; rw [h3] at hc
    rw [h4 r c hr hc]
    -- per pixel facts
    have hpx : ∀ i j, i < 2 ^ (l + 1) → j < 2 ^ (l + 1) →
        (g (r * 2 ^ (l + 1) + i) (c * 2 ^ (l + 1) + j) = (-1, 0)) ∨
        (∃ p ∈ pts, InCell (l + 1) r c p ∧
          g (r * 2 ^ (l + 1) + i) (c * 2 ^ (l + 1) + j) = (p.d, p.w)) := by
      intro i j hi hj
      rcases hgs (r * 2 ^ (l + 1) + i) (c * 2 ^ (l + 1) + j) with ⟨q1, q2⟩ | ⟨p, hp, q1, q2⟩
      · left; rw [q2]; rfl
      · right; exact ⟨p, hp, (inCell_iff (hin p hp) q1).2 ⟨i, j, hi, hj, rfl, rfl⟩, q2⟩
    constructor
    · intro hno
      have hz : blockSum (fun y x => (g y x).2) (r * 2 ^ (l + 1)) (c * 2 ^ (l + 1)) (2 ^ (l + 1)) = 0 := by
        unfold blockSum
        apply Finset.sum_eq_zero; intro i hi
        apply Finset.sum_eq_zero; intro j hj
        rcases hpx i j (Finset.mem_range.1 hi) (Finset.mem_range.1 hj) with q | ⟨p, hp, q, -⟩
        · simp only [q]
        · exact absurd q (hno p hp)
      rw [hz, if_neg]
      norm_num
    · rintro ⟨p, hp, hcell⟩ lo hi hb
      have hnn : ∀ i j, i < 2 ^ (l + 1) → j < 2 ^ (l + 1) →
          0 ≤ (g (r * 2 ^ (l + 1) + i) (c * 2 ^ (l + 1) + j)).2 := by
        intro i j hi hj
        rcases hpx i j hi hj with q | ⟨p, hp, -, q⟩
        · rw [q]
        · rw [q]; have := hw p hp; simp only; linarith
      obtain ⟨⟨y, x⟩, hq⟩ := hpix p hp
      obtain ⟨i0, j0, b1, b2, b3, b4⟩ := (inCell_iff (hin p hp) hq).1 hcell
      have hbig : 1 / 100000000 <
          blockSum (fun y x => (g y x).2) (r * 2 ^ (l + 1)) (c * 2 ^ (l + 1)) (2 ^ (l + 1)) := by
        have hone : 1 / 100000000 < (g (r * 2 ^ (l + 1) + i0) (c * 2 ^ (l + 1) + j0)).2 := by
          rcases hgs y x with ⟨q1, -⟩ | ⟨p', hp', -, q2⟩
          · exact absurd hq (q1 p hp)
          · rw [← b3, ← b4, q2]; exact hw p' hp'
        refine lt_of_lt_of_le hone ?_
        unfold blockSum
        refine le_trans ?_ (Finset.single_le_sum (f := fun i => ∑ j ∈ Finset.range (2 ^ (l + 1)),
          (g (r * 2 ^ (l + 1) + i) (c * 2 ^ (l + 1) + j)).2) ?_ (Finset.mem_range.2 b1))
        · exact Finset.single_le_sum (f := fun j =>
            (g (r * 2 ^ (l + 1) + i0) (c * 2 ^ (l + 1) + j)).2)
            (fun j hj => hnn i0 j b1 (Finset.mem_range.1 hj)) (Finset.mem_range.2 b2)
        · intro i hi
          exact Finset.sum_nonneg fun j hj => hnn i j (Finset.mem_range.1 hi) (Finset.mem_range.1 hj)
      have hpos : 0 < blockSum (fun y x => (g y x).2) (r * 2 ^ (l + 1)) (c * 2 ^ (l + 1)) (2 ^ (l + 1)) := by
        have : (0 : ℝ) < 1 / 100000000 := by norm_num
        linarith
      rw [if_pos (by rw [abs_of_pos hpos]; exact hbig)]
      have hlo : lo * blockSum (fun y x => (g y x).2) (r * 2 ^ (l + 1)) (c * 2 ^ (l + 1)) (2 ^ (l + 1))
          ≤ blockSum (fun y x => (g y x).1 * (g y x).2) (r * 2 ^ (l + 1)) (c * 2 ^ (l + 1)) (2 ^ (l + 1)) := by
        unfold blockSum
        rw [Finset.mul_sum]
        refine Finset.sum_le_sum fun i hi => ?_
        rw [Finset.mul_sum]
        refine Finset.sum_le_sum fun j hj => ?_
        rcases hpx i j (Finset.mem_range.1 hi) (Finset.mem_range.1 hj) with q | ⟨p', hp', q1, q⟩
        · simp [q]
        · simp only [q]
          have h0 := hw p' hp'
          exact mul_le_mul_of_nonneg_right (hb p' hp' q1).1 (by linarith)
      have hhi : blockSum (fun y x => (g y x).1 * (g y x).2) (r * 2 ^ (l + 1)) (c * 2 ^ (l + 1)) (2 ^ (l + 1))
          ≤ hi * blockSum (fun y x => (g y x).2) (r * 2 ^ (l + 1)) (c * 2 ^ (l + 1)) (2 ^ (l + 1)) := by
        unfold blockSum
        rw [Finset.mul_sum]
        refine Finset.sum_le_sum fun i hi => ?_
        rw [Finset.mul_sum]
        refine Finset.sum_le_sum fun j hj => ?_
        rcases hpx i j (Finset.mem_range.1 hi) (Finset.mem_range.1 hj) with q | ⟨p', hp', q1, q⟩
        · simp [q]
        · simp only [q]
          have h0 := hw p' hp'
          exact mul_le_mul_of_nonneg_right (hb p' hp' q1).2 (by linarith)
      exact ⟨(le_div_iff₀ hpos).2 hlo, (div_le_iff₀ hpos).2 hhi⟩

open Classical in
theorem blockSum_write (F : ℝ × ℝ → ℝ) (g : Grid) (y x : Nat) (v : ℝ × ℝ) (hz : F (g y x) = 0)
    (y0 x0 d : Nat) :
    blockSum (fun a b => F (write g (y, x) v a b)) y0 x0 d = blockSum (fun a b => F (g a b)) y0 x0 d +
      (if ∃ i j, i < d ∧ j < d ∧ y = y0 + i ∧ x = x0 + j then F v else 0) := by
  have key : ∀ a b, F (write g (y, x) v a b) = F (g a b) + if a = y ∧ b = x then F v else 0 := by
    intro a b
    unfold write
    by_cases h : (a, b) = (y, x)
    · have h' : a = y ∧ b = x := by simpa using h
      rw [if_pos h, if_pos h', h'.1, h'.2, hz, zero_add]
    · have h' : ¬ (a = y ∧ b = x) := by simpa using h
      rw [if_neg h, if_neg h', add_zero]
  unfold blockSum
  simp only [key, Finset.sum_add_distrib]
  congr 1
  by_cases h : ∃ i j, i < d ∧ j < d ∧ y = y0 + i ∧ x = x0 + j
  · rw [if_pos h]
    obtain ⟨i, j, hi, hj, rfl, rfl⟩ := h
    rw [Finset.sum_eq_single_of_mem i (Finset.mem_range.2 hi), Finset.sum_eq_single_of_mem j (Finset.mem_range.2 hj)]
    · simp
    · intro b _ hb; rw [if_neg]; omega
    · intro b _ hb
      refine Finset.sum_eq_zero fun c _ => ?_
      rw [if_neg]; omega
  · rw [if_neg h]
    refine Finset.sum_eq_zero fun a ha => Finset.sum_eq_zero fun b hb => ?_
    rw [if_neg]
    rintro ⟨rfl, rfl⟩
    exact h ⟨a, b, Finset.mem_range.1 ha, Finset.mem_range.1 hb, rfl, rfl⟩

open Classical in
theorem writeAll_sum (F : ℝ × ℝ → ℝ) (h0 : F (-1, 0) = 0) {rows cols : Nat} (l r c : Nat) (ps : List Pt)
    (g g' : Grid) (hin : ∀ p ∈ ps, Inside rows cols p)
    (hne : ps.Pairwise fun p q => ¬ ∃ r c, InCell 0 r c p ∧ InCell 0 r c q)
    (hg : ∀ p ∈ ps, ∀ y x, pixel rows cols p = some (y, x) → g y x = (-1, 0))
    (hw : writeAll rows cols ps g = .ok g') :
    blockSum (fun y x => F (g' y x)) (r * 2 ^ l) (c * 2 ^ l) (2 ^ l)
      = blockSum (fun y x => F (g y x)) (r * 2 ^ l) (c * 2 ^ l) (2 ^ l)
        + ((ps.filter fun p => InCell l r c p).map fun p => F (p.d, p.w)).sum := by
  induction ps generalizing g with
  | nil => simp only [writeAll] at hw; cases hw; simp
  | cons p ps ih =>
    obtain ⟨hi0, hi1⟩ := List.forall_mem_cons.1 hin
    obtain ⟨hn0, hn1⟩ := List.pairwise_cons.1 hne
    obtain ⟨y, x, hq, -⟩ := pixel_inside hi0.1 hi0.2.1 hi0.2.2.1 hi0.2.2.2
    simp only [writeAll, hq] at hw
    have hgp := hg p (List.mem_cons_self ..) y x hq
    have ih' := ih (write g (y, x) (p.d, p.w)) hi1 hn1 (by
      intro p' hp' y' x' hq'
      unfold write
      rw [if_neg]
      · exact hg p' (List.mem_cons_of_mem _ hp') y' x' hq'
      · intro he
        obtain ⟨rfl, rfl⟩ := Prod.mk.inj he
        refine hn0 p' hp' ⟨y', x', ?_, ?_⟩
        · exact (inCell_iff (l := 0) (r := y') (c := x') hi0 hq).2 ⟨0, 0, by simp, by simp, by simp, by simp⟩
        · exact (inCell_iff (l := 0) (r := y') (c := x') (hi1 p' hp') hq').2
            ⟨0, 0, by simp, by simp, by simp, by simp⟩) hw
    rw [ih', blockSum_write F g y x _ (by rw [hgp, h0])]
    by_cases hc : InCell l r c p
    · rw [if_pos ((inCell_iff hi0 hq).1 hc), List.filter_cons_of_pos (by simpa using hc)]
      simp only [List.map_cons, List.sum_cons]
      ring
    · rw [if_neg (fun h => hc ((inCell_iff hi0 hq).2 h)), List.filter_cons_of_neg (by simpa using hc)]
      ring

open Classical in
/-- C43: if no two points share a pixel, a cell that contains points holds the mean of their depths weighted by
their weights. -/
theorem C43_weighted_mean_partial (rows cols n : Nat) (pts : List Pt) (hin : ∀ p ∈ pts, Inside rows cols p)
    (hw : ∀ p ∈ pts, 1 / 100000000 < p.w)
    (hne : pts.Pairwise fun p q => ¬ ∃ r c, InCell 0 r c p ∧ InCell 0 r c q) (ls : List (Img ℝ))
    (hls : depthPyramid rows cols (n + 1) pts = .ok ls) (l : Nat) (im : Img ℝ) (him : ls[l]? = some im)
    (r c : Nat) (hr : r < im.rows) (hc : c < im.cols) (hex : ∃ p ∈ pts, InCell l r c p) :
    im.px r c * ((pts.filter fun p => InCell l r c p).map fun p => p.w).sum
      = ((pts.filter fun p => InCell l r c p).map fun p => p.d * p.w).sum := by
  have hpix : ∀ p ∈ pts, ∃ q, pixel rows cols p = some q := by
    intro p hp
    have h := hin p hp
    obtain ⟨y, x, h', -⟩ := pixel_inside h.1 h.2.1 h.2.2.1 h.2.2.2
    exact ⟨_, h'⟩
  obtain ⟨g, hg, hgs⟩ := writeAll_ok (rows := rows) (cols := cols) pts grid0 hpix
  have hsw := fun l r c => writeAll_sum (fun v => v.2) rfl l r c pts grid0 g hin hne (fun _ _ _ _ _ => rfl) hg
  have hsd := fun l r c => writeAll_sum (fun v => v.1 * v.2) (by norm_num) l r c pts grid0 g hin hne
    (fun _ _ _ _ _ => rfl) hg
  have hz1 : ∀ y x d, blockSum (fun a b => (grid0 a b).2) y x d = 0 := by
    intro y x d; simp [blockSum, grid0]
  have hz2 : ∀ y x d, blockSum (fun a b => (grid0 a b).1 * (grid0 a b).2) y x d = 0 := by
    intro y x d; simp [blockSum, grid0]
  simp only [hz1, hz2, zero_add] at hsw hsd
  obtain ⟨rest, hr1, hr2, hr3⟩ := depthLevels_ok rows cols (fun y x => (g y x).1 * (g y x).2)
    (fun y x => (g y x).2) n 1
  have hls' : depthPyramid rows cols (n + 1) pts
      = .ok ({ rows := rows, cols := cols, px := fun y x => (g y x).1 } :: rest) := by
    unfold depthPyramid
    simp [hg, hr1]
  rw [hls'] at hls
  cases hls
  rw [← hsw l r c, ← hsd l r c]
  cases l with
  | zero =>
    simp only [List.getElem?_cons_zero] at him
    cases him
    simp [blockSum]
  | succ l =>
    have hl := hr3 l im (by simpa using him)
    rw [Nat.add_comm 1 l] at hl
    obtain ⟨im', h1, h2, h3, h4⟩ := pyrN_ok rows cols (l + 1) (fun y x => (g y x).1 * (g y x).2)
      (fun y x => (g y x).2)
    rw [hl] at h1; cases h1
    rw [h2] at hr; rw [h3] at hc
    rw [h4 r c hr hc]
    have hbig : 1 / 100000000 <
        blockSum (fun y x => (g y x).2) (r * 2 ^ (l + 1)) (c * 2 ^ (l + 1)) (2 ^ (l + 1)) := by
      rw [hsw]
      obtain ⟨p, hp, hcell⟩ := hex
      refine lt_of_lt_of_le (hw p hp) (List.single_le_sum ?_ _ ?_)
      · intro z hz
        obtain ⟨q, hq, rfl⟩ := List.mem_map.1 hz
        have := hw q (List.mem_of_mem_filter hq)
        linarith
      · exact List.mem_map.2 ⟨p, List.mem_filter.2 ⟨hp, by simpa using hcell⟩, rfl⟩
    have hpos : 0 < blockSum (fun y x => (g y x).2) (r * 2 ^ (l + 1)) (c * 2 ^ (l + 1)) (2 ^ (l + 1)) := by
      linarith
    rw [if_pos (by rw [abs_of_pos hpos]; exact hbig), div_mul_cancel₀ _ hpos.ne']

/-- C43: a point outside the picture is undefined behaviour (a write outside the matrix). -/
theorem C43_outside_ub (rows cols n : Nat) (p : Pt) (ps : List Pt)
    (h : (cols : ℝ) ≤ p.x ∨ (rows : ℝ) ≤ p.y) : depthPyramid rows cols (n + 1) (p :: ps) = .error .ub := by
  have hp : pixel rows cols p = none := by
    unfold pixel
    simp only
    rw [if_neg]
    rintro ⟨h1, h2, h3, h4⟩
    have key : ∀ (z : ℝ) (m : Nat), (m : ℝ) ≤ z → ¬ Util.truncInt z < (m : Int) := by
      intro z m hz
      unfold Util.truncInt
      have h0 : (0 : ℝ) ≤ z := le_trans (Nat.cast_nonneg m) hz
      rw [if_pos h0, not_lt, Int.le_floor]
      exact_mod_cast hz
    rcases h with h | h
    · exact key _ _ h h2
    · exact key _ _ h h4
  simp [depthPyramid, writeAll, hp]

/-- C43: vectors of different lengths abort. -/
theorem C43_lengths (base : Img Nat) (n : Nat) (points : List (ℝ × ℝ)) (ds ws : List ℝ)
    (h : ¬ (points.length = ds.length ∧ ds.length = ws.length)) :
    depthedImagePyramid base (n + 1) points ds ws = .error .abort := by
  obtain ⟨ls, h1, -⟩ := C42_pyramid base n
  unfold depthedImagePyramid
  rw [h1]
  simp only [if_neg h]

/-- C43 is violated for tiny weights: a single point of depth 5 with weight 1e-8 disappears on level 1 of a
2×2 picture. -/
theorem C43_small_weight_violated :
    ¬ ∀ (rows cols n : Nat) (pts : List Pt), (∀ p ∈ pts, Inside rows cols p) →
      (∀ p ∈ pts, 0 < p.w ∧ 0 < p.d) → ∀ ls, depthPyramid rows cols (n + 1) pts = .ok ls →
      ∀ (l : Nat) im, ls[l]? = some im → ∀ r c, r < im.rows → c < im.cols →
        (∃ p ∈ pts, InCell l r c p) → 0 < im.px r c := by
  intro hall
  obtain ⟨pt, hpt⟩ : ∃ pt : Pt, pt = ⟨0, 0, 5, 1 / 100000000⟩ := ⟨_, rfl⟩
  have hin : Inside 2 2 pt := by subst hpt; norm_num [Inside]
  obtain ⟨y, x, hq, a1, a2, a3, a4⟩ := pixel_inside hin.1 hin.2.1 hin.2.2.1 hin.2.2.2
  have hx : x = 0 := by
    subst hpt; simp at a1
    exact a1
  have hy : y = 0 := by
    subst hpt; simp at a3
    exact a3
  subst hx hy
  have hwr : writeAll 2 2 [pt] grid0 = .ok (write grid0 (0, 0) (pt.d, pt.w)) := by
    simp [writeAll, hq]
  obtain ⟨rest, hr1, hr2, hr3⟩ := depthLevels_ok 2 2
    (fun y x => (write grid0 (0, 0) (pt.d, pt.w) y x).1 * (write grid0 (0, 0) (pt.d, pt.w) y x).2)
    (fun y x => (write grid0 (0, 0) (pt.d, pt.w) y x).2) 1 1
  obtain ⟨im, h1, h2, h3, h4⟩ := pyrN_ok 2 2 1
    (fun y x => (write grid0 (0, 0) (pt.d, pt.w) y x).1 * (write grid0 (0, 0) (pt.d, pt.w) y x).2)
    (fun y x => (write grid0 (0, 0) (pt.d, pt.w) y x).2)
  have hrest : rest[0]? = some im := by
    cases hh : rest[0]? with
    | none => rw [List.getElem?_eq_none_iff] at hh; omega
    | some im' =>
      have := hr3 0 im' hh
      simp only [Nat.add_zero] at this
      rw [h1] at this; cases this; rfl
  have hp : depthPyramid 2 2 2 [pt] = .ok
      ({ rows := 2, cols := 2, px := fun y x => (write grid0 (0, 0) (pt.d, pt.w) y x).1 } :: rest) := by
    simp [depthPyramid, hwr, hr1]
  have := hall 2 2 1 [pt] (by simpa using hin) (by subst hpt; norm_num) _ hp 1 im (by simpa using hrest)
    0 0 (by rw [h2]; norm_num) (by rw [h3]; norm_num)
    ⟨pt, by simp, by subst hpt; norm_num [InCell]⟩
  rw [h4 0 0 (by norm_num) (by norm_num)] at this
  have hb : blockSum (fun y x => (write grid0 (0, 0) (pt.d, pt.w) y x).2) (0 * 2 ^ 1) (0 * 2 ^ 1) (2 ^ 1)
      = 1 / 100000000 := by
    subst hpt
    simp [blockSum, Finset.sum_range_succ, write, grid0]
  rw [hb, if_neg] at this
  · norm_num at this
  · rw [abs_of_pos (by norm_num)]; exact lt_irrefl _

/-- The same two points meet the hypotheses of `C43_weighted_mean_partial`. -/
example : [(⟨2.5, 0, 3, 1⟩ : Pt), ⟨3, 1.5, 7, 2⟩].Pairwise
    (fun p q => ¬ ∃ r c, InCell 0 r c p ∧ InCell 0 r c q) ∧
    (∀ p ∈ [(⟨2.5, 0, 3, 1⟩ : Pt), ⟨3, 1.5, 7, 2⟩], Inside 4 5 p ∧ 1 / 100000000 < p.w) := by
  constructor
  · simp only [List.pairwise_cons, List.mem_singleton, forall_eq, List.not_mem_nil, false_implies, implies_true,
      List.Pairwise.nil, and_true]
    rintro ⟨r, c, h1, h2⟩
    norm_num [InCell] at h1 h2
    have a : (c : ℝ) ≤ 2.5 := by norm_num; exact h1.1
    have b : (3 : ℝ) < (c : ℝ) + 1 := h2.2.1
    have a' : (c : ℝ) < (3 : Nat) := by push_cast; linarith
    have b' : ((2 : Nat) : ℝ) < c := by push_cast; linarith
    have := Nat.cast_lt.1 a'
    have := Nat.cast_lt.1 b'
    omega
  · intro p hp; simp at hp; rcases hp with rfl | rfl <;> norm_num [Inside]

/-- Non-vacuity of `C43_cells_partial`: two points in a 4×5 picture, both in cell (0,1) of level 1, so its
value there lies between their depths. -/
example : ∃ (ls : List (Img ℝ)) (im : Img ℝ), depthPyramid 4 5 3 [⟨2.5, 0, 3, 1⟩, ⟨3, 1.5, 7, 2⟩] = .ok ls ∧ ls[1]? = some im ∧
    3 ≤ im.px 0 1 ∧ im.px 0 1 ≤ 7 ∧ im.px 1 0 = -1 := by
  obtain ⟨ls, h1, h2, h3⟩ := C43_cells_partial 4 5 2 [⟨2.5, 0, 3, 1⟩, ⟨3, 1.5, 7, 2⟩]
    (by intro p hp; simp at hp; rcases hp with rfl | rfl <;> norm_num [Inside])
    (by intro p hp; simp at hp; rcases hp with rfl | rfl <;> norm_num)
  have hlt : 1 < ls.length := by omega
  obtain ⟨e1, e2, e3⟩ := h3 1 ls[1] (List.getElem?_eq_getElem hlt)
  have b := (e3 0 1 (by rw [e1]; norm_num) (by rw [e2]; norm_num)).2
    ⟨_, List.mem_cons_self .., by norm_num [InCell]⟩ 3 7
    (by intro p hp _; simp at hp; rcases hp with rfl | rfl <;> norm_num)
  have c := (e3 1 0 (by rw [e1]; norm_num) (by rw [e2]; norm_num)).1
    (by intro p hp; simp at hp; rcases hp with rfl | rfl <;> norm_num [InCell])
  exact ⟨ls, ls[1], h1, List.getElem?_eq_getElem hlt, b.1, b.2, c⟩

end Mdso.Pyr
