import Verif.Lemmas.DistanceMap
import Mathlib.Tactic.NormNum
import Mathlib.Tactic.Positivity

/-!
# C21–C23: the distance map
-/

set_option autoImplicit false

namespace Mdso.DistMap

open Mdso.DistMapSpec

theorem used_iff {gw gh : Nat} {p : ℝ × ℝ} : Used gw gh p ↔ OnImage gw gh p := Iff.rfl

theorem onMap_iff {w h : Nat} {c : Cell} : OnMap w h c ↔ InMap w h c := Iff.rfl

/-- For points without negative coordinates truncation is rounding down. -/
theorem cellOf_nonneg {n : Nat} {p : ℝ × ℝ} (h1 : 0 ≤ p.1) (h2 : 0 ≤ p.2) : cellOf n p = cell n p := by
  unfold cellOf cell Util.truncInt
  rw [if_pos h1, if_pos h2, Int.floor_div_natCast, Int.floor_div_natCast,
    Int.tdiv_eq_ediv_of_nonneg (Int.floor_nonneg.2 h1), Int.tdiv_eq_ediv_of_nonneg (Int.floor_nonneg.2 h2)]

theorem bfs_mono {w h : Nat} (fuel : Nat) (s s' : State) (hs : bfs w h fuel s = .ok (some s')) (k : Nat)
    (hk : fuel ≤ k) : bfs w h k s = .ok (some s') := by
  induction fuel generalizing s k with
  | zero =>
    obtain ⟨d, q⟩ := s
    cases q with
    | nil => cases k <;> exact hs
    | cons a q => simp [bfs] at hs
  | succ n ih =>
    obtain ⟨d, q⟩ := s
    cases q with
    | nil => cases k <;> exact hs
    | cons a q =>
      cases k with
      | zero => omega
      | succ k =>
        simp only [bfs] at hs ⊢
        cases hr : round w h a ⟨d, q⟩ with
        | error e => rw [hr] at hs; cases hs
        | ok s1 =>
          rw [hr] at hs
          exact ih s1 hs k (by omega)

open Classical in
/-- C21: if every given point on the picture has its cell on the map (see `C23_inside_partial` for when this is
so), the constructor returns — after finitely many rounds, whatever larger number is allowed — a map of the
picture's size divided by the factor, in which every cell holds the city-block distance to the nearest cell
of a given point on the picture, or the largest `int` if there is none. -/
theorem C21_distance (gw gh : Nat) (st : Settings) (points : List (ℝ × ℝ)) (hp : pyrDown gw gh st ≠ 0)
    (hfit : ∀ p ∈ points, OnImage gw gh p →
      InMap (gw / pyrDown gw gh st) (gh / pyrDown gw gh st) (cell (pyrDown gw gh st) p)) :
    ∃ m N, (∀ fuel ≥ N, build gw gh st points fuel = .ok (some m)) ∧ m.pyr = pyrDown gw gh st ∧
      m.w = gw / m.pyr ∧ m.h = gh / m.pyr ∧
      ∀ c, InMap m.w m.h c → IsNearest intMax
        ((points.filter fun p => OnImage gw gh p).map (cell m.pyr)) c (m.dist c) := by
  generalize hpyr : pyrDown gw gh st = pyr at *
  have hcell : (points.filter fun p => OnImage gw gh p).map (cell pyr)
      = (points.filter fun p => Used gw gh p).map (cellOf pyr) := by
    apply List.map_congr_left
    intro p hp'
    have : OnImage gw gh p := by simpa using (List.mem_filter.1 hp').2
    exact (cellOf_nonneg this.1 this.2.2.1).symm
  obtain ⟨seeds, hseeds⟩ : ∃ l, l = (points.filter fun p => Used gw gh p).map (cellOf pyr) := ⟨_, rfl⟩
  have hin : ∀ p ∈ points, Used gw gh p → OnMap (gw / pyr) (gh / pyr) (cellOf pyr p) := by
    intro p hp' hu
    rw [cellOf_nonneg hu.1 hu.2.2.1]
    exact hfit p hp' hu
  have hon : ∀ a ∈ seeds, OnMap (gw / pyr) (gh / pyr) a := by
    intro a ha
    rw [hseeds] at ha
    obtain ⟨p, hp', rfl⟩ := List.mem_map.1 ha
    exact hin p (List.mem_of_mem_filter hp') (by simpa using (List.mem_filter.1 hp').2)
  have hseed := seed_ok points [] hin
  simp only [List.nil_append, List.not_mem_nil, if_false] at hseed
  rw [← hseeds] at hseed
  have hinv := seed_inv seeds hon
  obtain ⟨s', h1, h2, h3⟩ := bfs_ok _ _ hinv (le_refl _)
  refine ⟨⟨pyr, gw / pyr, gh / pyr, s'.dist⟩, potential (gw / pyr) (gh / pyr)
    ⟨fun c => if c ∈ seeds then 0 else intMax, seeds⟩, ?_, rfl, rfl, rfl, ?_⟩
  · intro fuel hf
    have h4 := bfs_mono _ _ _ h1 fuel hf
    unfold build buildWith
    rw [hpyr, if_neg hp]
    simp only [hseed]
    rw [h4]
  · intro c hc
    simp only at hc ⊢
    rw [hcell, ← hseeds]
    refine ⟨h2.top c, fun a ha => final_dist h2 h3 hon a ha _ c hc rfl, ?_⟩
    rcases h2.reach c with h4 | ⟨a, ha, h4⟩
    · exact Or.inl h4
    · exact Or.inr ⟨a, ha, le_antisymm h4 (final_dist h2 h3 hon a ha _ c hc rfl)⟩

/-! ## C23 -/

theorem divisor_spec {g : Nat} {limit : ℝ} (hg : 1 ≤ g) (hl : 0 < limit) (n : Nat) :
    divisor g limit ≤ n ↔ (g : ℝ) - 1 < n * limit := by
  unfold divisor Util.truncInt
  have hg' : (1 : ℝ) ≤ g := by exact_mod_cast hg
  have h0 : 0 ≤ ((g : ℝ) - 1) / limit := div_nonneg (by linarith) hl.le
  rw [if_pos (by linarith), Int.toNat_le, add_comm, Int.floor_add_one]
  rw [Int.add_one_le_iff, Int.floor_lt, div_lt_iff₀ hl]
  simp

theorem divisor_pos {g : Nat} {limit : ℝ} (hg : 1 ≤ g) (hl : 0 < limit) : 1 ≤ divisor g limit := by
  by_contra h
  have := (divisor_spec hg hl 0).1 (by omega)
  have hg' : (1 : ℝ) ≤ g := by exact_mod_cast hg
  simp at this
  linarith

/-- C23: the factor is the smallest power of two with which one of the dimensions gets within its limit
(`g - 1 < n * limit`, that is `g ≤ n * limit` for a whole limit). -/
theorem C23_factor (gw gh : Nat) (st : Settings) (hw : 1 ≤ gw) (hh : 1 ≤ gh) (hw2 : gw ≤ 2147483647)
    (hh2 : gh ≤ 2147483647) (hlw : 1 ≤ st.maxWidth) (hlh : 1 ≤ st.maxHeight) :
    (∃ k, pyrDown gw gh st = 2 ^ k) ∧
    ((gw : ℝ) - 1 < pyrDown gw gh st * st.maxWidth ∨ (gh : ℝ) - 1 < pyrDown gw gh st * st.maxHeight) ∧
    ∀ k : Nat, ((gw : ℝ) - 1 < (2 ^ k : Nat) * st.maxWidth ∨ (gh : ℝ) - 1 < (2 ^ k : Nat) * st.maxHeight) →
      pyrDown gw gh st ≤ 2 ^ k := by
  have bound : ∀ (g : Nat) (l : ℝ), 1 ≤ g → g ≤ 2147483647 → 1 ≤ l → divisor g l ≤ 2147483648 := by
    intro g l h1 h2 h3
    rw [divisor_spec h1 (by linarith)]
    have : (g : ℝ) ≤ 2147483647 := by exact_mod_cast h2
    push_cast
    nlinarith
  have lw : 0 < st.maxWidth := by linarith
  have lh : 0 < st.maxHeight := by linarith
  obtain ⟨⟨k1, a1⟩, a2, a3⟩ := clp2_least (divisor_pos hw lw) (bound gw _ hw hw2 hlw)
  obtain ⟨⟨k2, b1⟩, b2, b3⟩ := clp2_least (divisor_pos hh lh) (bound gh _ hh hh2 hlh)
  unfold pyrDown
  rw [divisor_spec hw lw] at a2
  rw [divisor_spec hh lh] at b2
  refine ⟨?_, ?_, ?_⟩
  · rcases min_choice (clp2 (divisor gw st.maxWidth)) (clp2 (divisor gh st.maxHeight)) with h | h
    · exact ⟨k1, by rw [h, a1]⟩
    · exact ⟨k2, by rw [h, b1]⟩
  · rcases min_choice (clp2 (divisor gw st.maxWidth)) (clp2 (divisor gh st.maxHeight)) with h | h
    · left; rw [h]; exact a2
    · right; rw [h]; exact b2
  · rintro k (h | h)
    · exact le_trans (min_le_left _ _) (a3 k ((divisor_spec hw lw _).2 h))
    · exact le_trans (min_le_right _ _) (b3 k ((divisor_spec hh lh _).2 h))

/-- C23: for whole-numbered limits (the defaults are 480 and 302) one dimension of the map is within its
limit. -/
theorem C23_fits (gw gh lw lh : Nat) (hw : 1 ≤ gw) (hh : 1 ≤ gh) (hw2 : gw ≤ 2147483647)
    (hh2 : gh ≤ 2147483647) (hlw : 1 ≤ lw) (hlh : 1 ≤ lh) :
    gw / pyrDown gw gh ⟨lw, lh⟩ ≤ lw ∨ gh / pyrDown gw gh ⟨lw, lh⟩ ≤ lh := by
  obtain ⟨⟨k, hk⟩, h, -⟩ := C23_factor gw gh ⟨lw, lh⟩ hw hh hw2 hh2 (Nat.one_le_cast.2 hlw)
    (Nat.one_le_cast.2 hlh)
  have key : ∀ g l n : Nat, 0 < n → (g : ℝ) - 1 < n * l → g / n ≤ l := by
    intro g l n hn h
    have : (g : ℝ) < (n * l + 1 : Nat) := by push_cast; linarith
    have := Nat.cast_lt.1 this
    exact Nat.div_le_of_le_mul (by omega)
  have hpos : 0 < pyrDown gw gh ⟨lw, lh⟩ := by rw [hk]; positivity
  exact h.imp (key _ _ _ hpos) (key _ _ _ hpos)

/-- C23, the part that holds for the cells: if the factor divides both dimensions, every point on the picture
has its cell on the map. Missing: other dimensions (`C23_inside_violated`). -/
theorem C23_inside_partial (gw gh n : Nat) (hn : 0 < n) (hw : n ∣ gw) (hh : n ∣ gh) (p : ℝ × ℝ)
    (hp : OnImage gw gh p) : InMap (gw / n) (gh / n) (cell n p) := by
  obtain ⟨a, rfl⟩ := hw
  obtain ⟨b, rfl⟩ := hh
  obtain ⟨h1, h2, h3, h4⟩ := hp
  have hn' : (0 : ℝ) < n := by exact_mod_cast hn
  rw [Nat.mul_div_cancel_left _ hn, Nat.mul_div_cancel_left _ hn]
  push_cast at h2 h4
  refine ⟨Int.floor_nonneg.2 (by positivity), ?_, Int.floor_nonneg.2 (by positivity), ?_⟩
  · rw [cell, Int.floor_lt, div_lt_iff₀ hn']; push_cast; linarith
  · rw [cell, Int.floor_lt, div_lt_iff₀ hn']; push_cast; linarith

/-- A picture for which the factor is 2. -/
theorem pyr_481 : pyrDown 481 303 ⟨480, 302⟩ = 2 := by
  have h1 : divisor 481 480 = 2 := by
    unfold divisor Util.truncInt; norm_num; try rfl
  have h2 : divisor 303 302 = 2 := by
    unfold divisor Util.truncInt; norm_num; try rfl
  unfold pyrDown
  simp only [h1, h2]
  decide

/-- C23 is violated in general: with the default limits, a point in the last column of a 481×303 picture makes
the constructor write outside its map. -/
theorem C23_inside_violated : ∃ (gw gh : Nat) (p : ℝ × ℝ), OnImage gw gh p ∧
    ∀ fuel, build gw gh ⟨480, 302⟩ [p] fuel = .error .ub := by
  refine ⟨481, 303, (480, 0), by norm_num [OnImage], ?_⟩
  intro fuel
  have hu : Used 481 303 (480, 0) := by norm_num [Used]
  have hc : ¬ OnMap (481 / 2) (303 / 2) (cellOf 2 (480, 0)) := by
    unfold OnMap cellOf Util.truncInt
    norm_num
    decide
  unfold build buildWith
  rw [pyr_481]
  simp only [seed, if_pos hu, if_neg hc]
  simp

/-- A picture without pixels makes the factor zero: a division by zero. -/
theorem C23_empty_ub (gh : Nat) (points : List (ℝ × ℝ)) (fuel : Nat) :
    build 0 gh ⟨480, 302⟩ points fuel = .error .ub := by
  have h1 : divisor 0 480 = 0 := by
    unfold divisor Util.truncInt; norm_num; try rfl
  have : pyrDown 0 gh ⟨480, 302⟩ = 0 := by
    unfold pyrDown
    simp only [h1]
    have : clp2 0 = 0 := by decide
    rw [this]; simp
  unfold build buildWith
  rw [this]; rfl

/-- Non-vacuity of C21: a 960×604 picture has factor 2, and all its points have cells on the map. -/
example (points : List (ℝ × ℝ)) : pyrDown 960 604 ⟨480, 302⟩ = 2 ∧
    ∀ p ∈ points, OnImage 960 604 p → InMap (960 / 2) (604 / 2) (cell 2 p) := by
  constructor
  · have h1 : divisor 960 480 = 2 := by
      refine le_antisymm ((divisor_spec (by norm_num) (by norm_num) 2).2 (by norm_num)) ?_
      by_contra h
      have := (divisor_spec (by norm_num) (by norm_num) 1).1 (show divisor 960 480 ≤ 1 by omega)
      norm_num at this
    have h2 : divisor 604 302 = 2 := by
      refine le_antisymm ((divisor_spec (by norm_num) (by norm_num) 2).2 (by norm_num)) ?_
      by_contra h
      have := (divisor_spec (by norm_num) (by norm_num) 1).1 (show divisor 604 302 ≤ 1 by omega)
      norm_num at this
    unfold pyrDown
    simp only [h1, h2]
    decide
  · exact fun p _ h => C23_inside_partial 960 604 2 (by norm_num) (by norm_num) (by norm_num) p h

/-! ## C22 -/

theorem otherDist_ok (m : Map) (ps : List (ℝ × ℝ)) (i : Nat)
    (h : ∀ p ∈ ps, inBox m (cellOf m.pyr p) → OnMap m.w m.h (cellOf m.pyr p)) :
    ∃ od, otherDist m ps i = .ok od ∧ od.length = ps.length ∧ od.map Prod.fst = List.range' i ps.length ∧
      ∀ a ∈ od, i ≤ a.1 ∧ ∃ p, ps[a.1 - i]? = some p ∧
        ((OnMap m.w m.h (cellOf m.pyr p) ∧ a.2 = m.dist (cellOf m.pyr p)) ∨
         (¬ OnMap m.w m.h (cellOf m.pyr p) ∧ a.2 = -1)) := by
  induction ps generalizing i with
  | nil => exact ⟨[], rfl, rfl, rfl, fun a ha => by cases ha⟩
  | cons p ps ih =>
    obtain ⟨od, h1, h2, h3, h4⟩ := ih (i + 1) (fun q hq => h q (List.mem_cons_of_mem _ hq))
    have hd : ∃ d, distOf m p = .ok d ∧ ((OnMap m.w m.h (cellOf m.pyr p) ∧ d = m.dist (cellOf m.pyr p)) ∨
         (¬ OnMap m.w m.h (cellOf m.pyr p) ∧ d = -1)) := by
      unfold distOf
      by_cases hb : inBox m (cellOf m.pyr p)
      · have ho := h p (List.mem_cons_self ..) hb
        simp only [if_pos hb, if_pos ho]
        exact ⟨_, rfl, Or.inl ⟨ho, rfl⟩⟩
      · have ho : ¬ OnMap m.w m.h (cellOf m.pyr p) := by
          rintro ⟨a, b, c, d⟩
          exact hb ⟨a, b.le, c, d.le⟩
        simp only [if_neg hb]
        exact ⟨_, rfl, Or.inr ⟨ho, rfl⟩⟩
    obtain ⟨d, hd1, hd2⟩ := hd
    refine ⟨(i, d) :: od, ?_, by simp [h2], ?_, ?_⟩
    · simp only [otherDist, hd1, h1]
    · simp only [List.map_cons, h3, List.length_cons, List.range'_succ]
    · intro a ha
      rcases List.mem_cons.1 ha with rfl | ha
      · exact ⟨le_refl _, p, by simp, hd2⟩
      · obtain ⟨h5, q, h6, h7⟩ := h4 a ha
        refine ⟨by omega, q, ?_, h7⟩
        have : a.1 - i = (a.1 - (i + 1)) + 1 := by omega
        rw [this, List.getElem?_cons_succ]; exact h6

/-- Specification: the cell is in the column just right of, or in the row just below, a map of the given
size. -/
def OnEdge (w h : Nat) (c : Int × Int) : Prop :=
  0 ≤ c.1 ∧ c.1 ≤ w ∧ 0 ≤ c.2 ∧ c.2 ≤ h ∧ (c.1 = w ∨ c.2 = h)

/-- C22, the part that is true: for a non-negative count and points none of whose cells lies in the column or
row just behind the map, `choose` returns, for every allowed behaviour of `nth_element`, distinct indices of
points whose cells lie on the map, at most as many as asked for. No point left out is farther from the seeds
than a chosen one, and as long as a point on the map is left out, exactly the requested number is chosen.
Missing: points whose cell is just behind the map (`C22_edge_violated`). Cells are computed by truncation, so
points up to one cell left of or above the picture count as on the map (`C22_outside_violated`). -/
theorem C22_choose_partial (nth : List (Nat × Int) → Nat → List (Nat × Int)) (hn : IsNthElement nth) (m : Map)
    (ps : List (ℝ × ℝ)) (needed : Int) (h0 : 0 ≤ needed)
    (hedge : ∀ p ∈ ps, ¬ OnEdge m.w m.h (cellOf m.pyr p)) :
    ∃ chosen, choose nth m ps needed = .ok chosen ∧ chosen.Nodup ∧ (chosen.length : Int) ≤ needed ∧
      (∀ i ∈ chosen, ∃ p, ps[i]? = some p ∧ InMap m.w m.h (cellOf m.pyr p)) ∧
      (∀ (j : Nat) (p : ℝ × ℝ), ps[j]? = some p → InMap m.w m.h (cellOf m.pyr p) → j ∉ chosen →
        (chosen.length : Int) = needed ∧
        ∀ i ∈ chosen, ∀ q, ps[i]? = some q → m.dist (cellOf m.pyr p) ≤ m.dist (cellOf m.pyr q)) := by
  obtain ⟨od, h1, h2, h3, h4⟩ := otherDist_ok m ps 0 (by
    intro p hp hb
    have hne := hedge p hp
    obtain ⟨c, d, e, f⟩ := hb
    unfold OnEdge at hne
    exact ⟨c, by omega, e, by omega⟩)
  obtain ⟨total, ht⟩ : ∃ t, t = min needed.toNat ps.length := ⟨_, rfl⟩
  obtain ⟨hperm, hord⟩ := hn od total (by omega)
  obtain ⟨L, hL⟩ : ∃ L, L = nth od total := ⟨_, rfl⟩
  rw [← hL] at hperm hord
  have hLlen : L.length = ps.length := by rw [hperm.length_eq, h2]
  refine ⟨((L.take total).filter (fun a => a.2 ≠ -1)).map Prod.fst, ?_, ?_, ?_, ?_, ?_⟩
  · unfold choose
    rw [h1]
    simp only
    rw [if_neg (by omega), ← ht, ← hL]
  · have hnd : (L.map Prod.fst).Nodup := by
      rw [(hperm.map _).nodup_iff, h3]
      exact List.nodup_range'
    exact hnd.sublist ((List.filter_sublist.trans (List.take_sublist _ _)).map _)
  · have : (((L.take total).filter (fun a => a.2 ≠ -1)).map Prod.fst).length ≤ total := by
      rw [List.length_map]
      refine le_trans (List.length_filter_le _ _) ?_
      rw [List.length_take]; omega
    omega
  · intro i hi
    obtain ⟨a, ha, rfl⟩ := List.mem_map.1 hi
    obtain ⟨ha1, ha2⟩ := List.mem_filter.1 ha
    have ha2' : a.2 ≠ -1 := by simpa using ha2
    obtain ⟨-, p, h5, h6⟩ := h4 a (hperm.mem_iff.1 (List.mem_of_mem_take ha1))
    rw [Nat.sub_zero] at h5
    rcases h6 with h6 | h6
    · exact ⟨p, h5, h6.1⟩
    · exact absurd h6.2 ha2'
  · intro j p hj hp hnot
    -- the entry of `j`
    obtain ⟨b, hb, hbj⟩ : ∃ b ∈ od, b.1 = j := by
      have : j ∈ od.map Prod.fst := by
        rw [h3, List.mem_range'_1]
        have := (List.getElem?_eq_some_iff.1 hj).1
        omega
      obtain ⟨b, hb, rfl⟩ := List.mem_map.1 this
      exact ⟨b, hb, rfl⟩
    obtain ⟨-, p', h5, h6⟩ := h4 b hb
    rw [Nat.sub_zero, hbj, hj] at h5
    cases h5
    have hb2 : b.2 = m.dist (cellOf m.pyr p) := by
      rcases h6 with h6 | h6
      · exact h6.2
      · exact absurd hp h6.1
    obtain ⟨k, hk⟩ := List.mem_iff_getElem?.1 (hperm.mem_iff.2 hb)
    have hkt : total ≤ k := by
      by_contra hlt
      apply hnot
      refine List.mem_map.2 ⟨b, List.mem_filter.2 ⟨?_, ?_⟩, hbj⟩
      · rw [List.mem_take_iff_getElem]
        obtain ⟨hk1, hk2⟩ := List.getElem?_eq_some_iff.1 hk
        exact ⟨k, by omega, hk2⟩
      · simp only [ne_eq, decide_not, Bool.not_eq_eq_eq_not, Bool.not_true, decide_eq_false_iff_not]
        omega
    have hall : ∀ a ∈ L.take total, b.2 ≤ a.2 := by
      intro a ha
      obtain ⟨i, hi, hi2⟩ := List.mem_take_iff_getElem.1 ha
      exact hord i k a b (by rw [List.getElem?_eq_some_iff]; exact ⟨by omega, hi2⟩) hk (by omega) hkt
    constructor
    · have hf : (L.take total).filter (fun a => a.2 ≠ -1) = L.take total := by
        rw [List.filter_eq_self]
        intro a ha
        have := hall a ha
        simp only [ne_eq, decide_not, Bool.not_eq_eq_eq_not, Bool.not_true, decide_eq_false_iff_not]
        omega
      rw [hf, List.length_map, List.length_take]
      have := (List.getElem?_eq_some_iff.1 hk).1
      omega
    · intro i hi q hq
      obtain ⟨a, ha, rfl⟩ := List.mem_map.1 hi
      obtain ⟨ha1, ha2⟩ := List.mem_filter.1 ha
      have ha2' : a.2 ≠ -1 := by simpa using ha2
      obtain ⟨-, q', h7, h8⟩ := h4 a (hperm.mem_iff.1 (List.mem_of_mem_take ha1))
      rw [Nat.sub_zero, hq] at h7
      cases h7
      have := hall a ha1
      rcases h8 with h8 | h8
      · omega
      · exact absurd h8.2 ha2'

/-- Sorting in descending order is one allowed behaviour of `nth_element`. -/
theorem sort_isNth : IsNthElement (fun l _ => l.mergeSort (fun a b => decide (b.2 ≤ a.2))) := by
  intro l n hn
  refine ⟨List.mergeSort_perm _ _, ?_⟩
  intro i j a b ha hb hi hj
  have hs := List.pairwise_mergeSort (le := fun a b : Nat × Int => decide (b.2 ≤ a.2))
    (by intro a b c h1 h2; simp only [decide_eq_true_eq] at *; omega)
    (by intro a b; simp only [Bool.or_eq_true, decide_eq_true_eq]; omega) l
  obtain ⟨ha1, rfl⟩ := List.getElem?_eq_some_iff.1 ha
  obtain ⟨hb1, rfl⟩ := List.getElem?_eq_some_iff.1 hb
  have := List.pairwise_iff_getElem.1 hs i j ha1 hb1 (by omega)
  simpa using this

/-- Non-vacuity of `C22_choose_partial`: one of two points of a 4×4 map with factor 1. -/
example (d : Cell → Nat) : ∃ chosen,
    choose (fun l _ => l.mergeSort (fun a b => decide (b.2 ≤ a.2))) ⟨1, 4, 4, d⟩ [(1, 2), (3.5, 0)] 1
      = .ok chosen ∧ chosen.Nodup := by
  obtain ⟨c, h1, h2, -⟩ := C22_choose_partial _ sort_isNth ⟨1, 4, 4, d⟩ [(1, 2), (3.5, 0)] 1 (by norm_num) (by
    intro p hp
    simp only [List.mem_cons, List.not_mem_nil, or_false] at hp
    rcases hp with rfl | rfl
    · unfold OnEdge cellOf Util.truncInt; norm_num
    · rw [cellOf_nonneg (by norm_num) (by norm_num), cell]
      have : ⌊(3.5 : ℝ)⌋ = 3 := by norm_num [Int.floor_eq_iff]
      norm_num [this, OnEdge])
  exact ⟨c, h1, h2⟩

/-- C22 is violated as soon as one cell lies just behind the map: its distance is read from outside the map. -/
theorem C22_edge_ub (nth : List (Nat × Int) → Nat → List (Nat × Int)) (m : Map) (ps : List (ℝ × ℝ)) (p : ℝ × ℝ)
    (hp : p ∈ ps) (he : OnEdge m.w m.h (cellOf m.pyr p)) (needed : Int) :
    choose nth m ps needed = .error .ub := by
  have hd : distOf m p = .error .ub := by
    unfold OnEdge at he
    have hb : inBox m (cellOf m.pyr p) := by unfold inBox; omega
    have ho : ¬ OnMap m.w m.h (cellOf m.pyr p) := by unfold OnMap; omega
    unfold distOf
    simp only [if_pos hb, if_neg ho]
  have key : ∀ (ps : List (ℝ × ℝ)) (i : Nat), p ∈ ps → otherDist m ps i = .error .ub := by
    intro ps
    induction ps with
    | nil => intro i h; cases h
    | cons q ps ih =>
      intro i h
      rcases List.mem_cons.1 h with rfl | h
      · simp only [otherDist, hd]
      · unfold otherDist
        cases hq : distOf m q with
        | error e =>
          unfold distOf at hq
          simp only at hq
          split at hq
          · split at hq <;> cases hq; rfl
          · cases hq
        | ok d => simp only [ih (i + 1) h]
  unfold choose
  rw [key ps 0 hp]

/-- Such points exist on every picture whose width is a multiple of the factor: the point with x = width. -/
theorem C22_edge_violated (nth : List (Nat × Int) → Nat → List (Nat × Int)) (m : Map) (hpyr : 0 < m.pyr)
    (needed : Int) : choose nth m [((m.w * m.pyr : Nat), 0)] needed = .error .ub := by
  have hp : (0 : ℝ) < m.pyr := by exact_mod_cast hpyr
  refine C22_edge_ub nth m _ _ (List.mem_singleton_self _) ?_ needed
  rw [cellOf_nonneg (by positivity) (le_refl _)]
  unfold cell
  simp only [Nat.cast_mul, mul_div_assoc, div_self hp.ne', mul_one, zero_div, Int.floor_natCast, Int.floor_zero]
  simp [OnEdge]

/-- C22 is violated by points left of the picture: a point at x = -1/2 is chosen. -/
theorem C22_outside_violated (nth : List (Nat × Int) → Nat → List (Nat × Int)) (hn : IsNthElement nth) (m : Map)
    (hw : 0 < m.w) (hh : 0 < m.h) : choose nth m [(-1 / 2, 0)] 1 = .ok [0] := by
  have hc : cellOf m.pyr ((-1 / 2 : ℝ), (0 : ℝ)) = (0, 0) := by
    unfold cellOf Util.truncInt
    have : ⌈(-1 / 2 : ℝ)⌉ = 0 := by norm_num [Int.ceil_eq_iff]
    rw [if_neg (by norm_num), this]
    simp
  have hw' : ((0 : Int) : Int) ≠ m.w := by omega
  have hh' : ((0 : Int) : Int) ≠ m.h := by omega
  obtain ⟨c, h1, h2, h3, h4, h5⟩ := C22_choose_partial nth hn m [(-1 / 2, 0)] 1 (by norm_num) (by
    intro p hp
    rw [List.mem_singleton] at hp
    subst hp
    rw [hc]; unfold OnEdge; omega)
  rw [h1]
  have hmem : 0 ∈ c := by
    by_contra hnot
    have := (h5 0 _ rfl (by rw [hc]; exact ⟨le_refl _, Int.natCast_pos.2 hw, le_refl _, Int.natCast_pos.2 hh⟩) hnot).1
    have hne : c ≠ [] := by rintro rfl; simp at this
    obtain ⟨x, hx⟩ := List.exists_mem_of_ne_nil c hne
    obtain ⟨p, hp, -⟩ := h4 x hx
    have := (List.getElem?_eq_some_iff.1 hp).1
    simp at this
    subst this
    exact hnot hx
  have hl : c.length ≤ 1 := by exact_mod_cast h3
  match c, hmem, hl with
  | [x], hm, _ => simp at hm; subst hm; rfl

/-- A negative count is undefined behaviour. -/
theorem C22_negative_ub (nth : List (Nat × Int) → Nat → List (Nat × Int)) (m : Map) (ps : List (ℝ × ℝ))
    (needed : Int) (h : needed < 0) : choose nth m ps needed = .error .ub := by
  unfold choose
  cases hod : otherDist m ps 0 with
  | ok od => simp only [if_pos h]
  | error e =>
    simp only
    have : ∀ (ps : List (ℝ × ℝ)) (i : Nat) (e : Fault), otherDist m ps i = .error e → e = .ub := by
      intro ps
      induction ps with
      | nil => intro i e h; cases h
      | cons p ps ih =>
        intro i e h
        unfold otherDist at h
        cases hd : distOf m p with
        | error e' =>
          rw [hd] at h; cases h
          unfold distOf at hd
          simp only at hd
          split at hd
          · split at hd <;> cases hd; rfl
          · cases hd
        | ok d =>
          rw [hd] at h
          simp only at h
          cases ho : otherDist m ps (i + 1) with
          | error e' => rw [ho] at h; cases h; exact ih _ _ ho
          | ok l => rw [ho] at h; cases h
    rw [this _ _ _ hod]

end Mdso.DistMap
