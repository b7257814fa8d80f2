import Verif.Model.DistanceMap
import Verif.Spec.DistanceMap
import Mathlib.Tactic.Linarith
import Mathlib.Algebra.BigOperators.Fin
import Mathlib.Algebra.Order.BigOperators.Group.Finset
import Mathlib.Order.Interval.Finset.Basic
import Mathlib.Order.Interval.Finset.SuccPred
import Mathlib.Data.Int.Interval
import Mathlib.Data.Nat.Size

/-!
# Lemmas about the distance map: the search and the power of two
-/

set_option autoImplicit false

namespace Mdso.DistMap

open Mdso.DistMapSpec

/-! ## The search -/

/-- Neighbours. -/
def Adj (a b : Cell) : Prop := manhattan a b = 1

/-- The loop invariant, except that the cell `ex` need not be settled. -/
structure InvX (w h : Nat) (seeds : List Cell) (ex : Option Cell) (s : State) : Prop where
  queue : ∀ c ∈ s.q, OnMap w h c ∧ s.dist c < intMax
  top : ∀ c, s.dist c ≤ intMax
  zero : ∀ c ∈ seeds, s.dist c = 0
  reach : ∀ c, s.dist c = intMax ∨ ∃ a ∈ seeds, manhattan a c ≤ s.dist c
  settled : ∀ c, OnMap w h c → s.dist c < intMax → c ∈ s.q ∨ some c = ex ∨
    ∀ n, OnMap w h n → Adj c n → s.dist n ≤ s.dist c + 1

/-- Decreases in every round. -/
def potential (w h : Nat) (s : State) : Nat :=
  2 * (∑ c ∈ (Finset.Ico (0 : Int) w ×ˢ Finset.Ico (0 : Int) h), s.dist c) + s.q.length

theorem mem_cells {w h : Nat} {c : Cell} :
    c ∈ (Finset.Ico (0 : Int) w ×ˢ Finset.Ico (0 : Int) h) ↔ OnMap w h c := by
  rw [Finset.mem_product, Finset.mem_Ico, Finset.mem_Ico]
  unfold OnMap
  tauto

theorem sum_set {w h : Nat} {d : Cell → Nat} {n : Cell} {v : Nat} (hn : OnMap w h n) (hv : v < d n) :
    (∑ c ∈ (Finset.Ico (0 : Int) w ×ˢ Finset.Ico (0 : Int) h), set d n v c) + 1
      ≤ ∑ c ∈ (Finset.Ico (0 : Int) w ×ˢ Finset.Ico (0 : Int) h), d c := by
  rw [Nat.add_one_le_iff]
  refine Finset.sum_lt_sum ?_ ⟨n, mem_cells.2 hn, ?_⟩
  · intro i _; unfold set; split
    · rename_i h; subst h; omega
    · exact le_refl _
  · unfold set; rw [if_pos rfl]; exact hv

/-- What one neighbour update does. -/
theorem relax_ok {w h : Nat} {seeds : List Cell} {cur n : Cell} {curd : Nat} {s : State} {b : Bool}
    (hi : InvX w h seeds (some cur) s) (hc : s.dist cur = curd) (hcm : curd < intMax) (hadj : Adj cur n)
    (hb : b = true → OnMap w h n) :
    InvX w h seeds (some cur) (relax curd s b n) ∧ (relax curd s b n).dist cur = curd ∧
    (∀ c, (relax curd s b n).dist c ≤ s.dist c) ∧ (b = true → (relax curd s b n).dist n ≤ curd + 1) ∧
    potential w h (relax curd s b n) ≤ potential w h s := by
  unfold relax
  by_cases hr : b = true ∧ s.dist n > curd + 1
  · rw [if_pos hr]
    have hn := hb hr.1
    have hne : cur ≠ n := by
      intro e; subst e; unfold Adj manhattan at hadj; simp at hadj
    have hmono : ∀ c, set s.dist n (curd + 1) c ≤ s.dist c := by
      intro c; unfold set; split
      · rename_i h; subst h; omega
      · exact le_refl _
    have htop := hi.top n
    refine ⟨⟨?_, ?_, ?_, ?_, ?_⟩, ?_, hmono, ?_, ?_⟩
    · intro c hc'
      rcases List.mem_append.1 hc' with h1 | h1
      · exact ⟨(hi.queue c h1).1, lt_of_le_of_lt (hmono c) (hi.queue c h1).2⟩
      · rw [List.mem_singleton] at h1; subst h1
        refine ⟨hn, ?_⟩
        simp only [set, if_true]
        omega
    · intro c; exact le_trans (hmono c) (hi.top c)
    · intro c h1
      have := hi.zero c h1
      have := hmono c
      simp only; omega
    · intro c
      by_cases hcn : c = n
      · subst hcn
        right
        rcases hi.reach cur with h1 | ⟨a, ha, h1⟩
        · omega
        · refine ⟨a, ha, ?_⟩
          simp only [set, if_true]
          unfold Adj manhattan at hadj
          unfold manhattan at h1 ⊢
          omega
      · simp only [set, if_neg hcn]
        exact hi.reach c
    · intro c h1 h2
      by_cases hcn : c = n
      · left; subst hcn; simp
      · have h2' : s.dist c < intMax := by simpa only [set, if_neg hcn] using h2
        rcases hi.settled c h1 h2' with h3 | h3 | h3
        · left; simp [h3]
        · right; left; exact h3
        · right; right
          intro m hm1 hm2
          refine le_trans (hmono m) ?_
          simp only [set, if_neg hcn]
          exact h3 m hm1 hm2
    · simp only [set, if_neg hne]; exact hc
    · intro _; simp [set]
    · unfold potential
      have := sum_set (d := s.dist) hn hr.2
      simp only [List.length_append, List.length_singleton]
      omega
  · rw [if_neg hr]
    refine ⟨hi, hc, fun _ => le_refl _, ?_, le_refl _⟩
    intro h1
    rw [not_and, not_lt] at hr
    exact hr h1

theorem adj_cases {cur n : Cell} (h : Adj cur n) :
    n = (cur.1 - 1, cur.2) ∨ n = (cur.1 + 1, cur.2) ∨ n = (cur.1, cur.2 - 1) ∨ n = (cur.1, cur.2 + 1) := by
  obtain ⟨a, b⟩ := cur
  obtain ⟨c, d⟩ := n
  unfold Adj manhattan at h
  simp only [Prod.mk.injEq] at h ⊢
  omega

theorem round_ok {w h : Nat} {seeds : List Cell} {cur : Cell} {d : Cell → Nat} {q : List Cell}
    (hi : InvX w h seeds none ⟨d, cur :: q⟩) :
    ∃ s', round w h cur ⟨d, q⟩ = .ok s' ∧ InvX w h seeds none s' ∧
      potential w h s' < potential w h ⟨d, cur :: q⟩ := by
  obtain ⟨hcm, hcd⟩ := hi.queue cur (List.mem_cons_self ..)
  simp only at hcd
  have h0 : InvX w h seeds (some cur) ⟨d, q⟩ := by
    refine ⟨fun c hc => hi.queue c (List.mem_cons_of_mem _ hc), hi.top, hi.zero, hi.reach, ?_⟩
    intro c h1 h2
    rcases hi.settled c h1 h2 with h3 | h3 | h3
    · rcases List.mem_cons.1 h3 with h4 | h4
      · right; left; rw [h4]
      · left; exact h4
    · cases h3
    · right; right; exact h3
  unfold round
  rw [if_neg (by simp only [not_or, not_not]; exact ⟨hcm, by omega⟩)]
  simp only
  obtain ⟨cx, cy⟩ := cur
  obtain ⟨hm1, hm2, hm3, hm4⟩ := hcm
  simp only at hm1 hm2 hm3 hm4 ⊢
  obtain ⟨a1, a2, a3, a4, a5⟩ := relax_ok (n := (cx - 1, cy)) (b := decide (0 ≤ cx - 1 ∧ cx - 1 < (w : Int)))
    h0 rfl hcd (by unfold Adj manhattan; simp)
    (by intro hb; have := of_decide_eq_true hb; exact ⟨this.1, this.2, hm3, hm4⟩)
  obtain ⟨s1, hs1⟩ : ∃ s1, s1 = relax (d (cx, cy)) ⟨d, q⟩ (decide (0 ≤ cx - 1 ∧ cx - 1 < (w : Int))) (cx - 1, cy) :=
    ⟨_, rfl⟩
  simp only at a1 a2 a3 a4 a5
  rw [← hs1] at a1 a2 a3 a4 a5 ⊢
  obtain ⟨b1, b2, b3, b4, b5⟩ := relax_ok (n := (cx + 1, cy)) (b := decide (0 ≤ cx + 1 ∧ cx + 1 < (w : Int)))
    a1 a2 hcd (by unfold Adj manhattan; simp)
    (by intro hb; have := of_decide_eq_true hb; exact ⟨this.1, this.2, hm3, hm4⟩)
  obtain ⟨s2, hs2⟩ : ∃ s2, s2 = relax (d (cx, cy)) s1 (decide (0 ≤ cx + 1 ∧ cx + 1 < (w : Int))) (cx + 1, cy) :=
    ⟨_, rfl⟩
  rw [← hs2] at b1 b2 b3 b4 b5 ⊢
  obtain ⟨c1, c2, c3, c4, c5⟩ := relax_ok (n := (cx, cy - 1)) (b := decide (0 ≤ cy - 1 ∧ cy - 1 < (h : Int)))
    b1 b2 hcd (by unfold Adj manhattan; simp)
    (by intro hb; have := of_decide_eq_true hb; exact ⟨hm1, hm2, this.1, this.2⟩)
  obtain ⟨s3, hs3⟩ : ∃ s3, s3 = relax (d (cx, cy)) s2 (decide (0 ≤ cy - 1 ∧ cy - 1 < (h : Int))) (cx, cy - 1) :=
    ⟨_, rfl⟩
  rw [← hs3] at c1 c2 c3 c4 c5 ⊢
  obtain ⟨d1, d2, d3, d4, d5⟩ := relax_ok (n := (cx, cy + 1)) (b := decide (0 ≤ cy + 1 ∧ cy + 1 < (h : Int)))
    c1 c2 hcd (by unfold Adj manhattan; simp)
    (by intro hb; have := of_decide_eq_true hb; exact ⟨hm1, hm2, this.1, this.2⟩)
  obtain ⟨s4, hs4⟩ : ∃ s4, s4 = relax (d (cx, cy)) s3 (decide (0 ≤ cy + 1 ∧ cy + 1 < (h : Int))) (cx, cy + 1) :=
    ⟨_, rfl⟩
  rw [← hs4] at d1 d2 d3 d4 d5 ⊢
  refine ⟨s4, rfl, ⟨d1.queue, d1.top, d1.zero, d1.reach, ?_⟩, ?_⟩
  · intro c h1 h2
    rcases d1.settled c h1 h2 with h3 | h3 | h3
    · exact Or.inl h3
    · right; right
      cases h3
      intro n hn1 hn2
      rw [d2]
      obtain ⟨g1, g2, g3, g4⟩ := hn1
      rcases adj_cases hn2 with rfl | rfl | rfl | rfl
      · have := a4 (decide_eq_true ⟨g1, g2⟩)
        have := b3 (cx - 1, cy); have := c3 (cx - 1, cy); have := d3 (cx - 1, cy)
        simp only; omega
      · have := b4 (decide_eq_true ⟨g1, g2⟩)
        have := c3 (cx + 1, cy); have := d3 (cx + 1, cy)
        simp only; omega
      · have := c4 (decide_eq_true ⟨g3, g4⟩)
        have := d3 (cx, cy - 1)
        simp only; omega
      · exact d4 (decide_eq_true ⟨g3, g4⟩)
    · exact Or.inr (Or.inr h3)
  · have : potential w h ⟨d, q⟩ < potential w h ⟨d, (cx, cy) :: q⟩ := by
      unfold potential; simp
    omega

theorem bfs_ok {w h : Nat} {seeds : List Cell} (fuel : Nat) (s : State) (hi : InvX w h seeds none s)
    (hf : potential w h s ≤ fuel) :
    ∃ s', bfs w h fuel s = .ok (some s') ∧ InvX w h seeds none s' ∧ s'.q = [] := by
  induction fuel generalizing s with
  | zero =>
    obtain ⟨d, q⟩ := s
    cases q with
    | nil => exact ⟨⟨d, []⟩, rfl, hi, rfl⟩
    | cons a q => unfold potential at hf; simp at hf
  | succ n ih =>
    obtain ⟨d, q⟩ := s
    cases q with
    | nil => exact ⟨⟨d, []⟩, rfl, hi, rfl⟩
    | cons a q =>
      obtain ⟨s', h1, h2, h3⟩ := round_ok hi
      simp only [bfs, h1]
      exact ih s' h2 (by omega)

/-- When the queue is empty the distances are the nearest ones. -/
theorem final_dist {w h : Nat} {seeds : List Cell} {s : State} (hi : InvX w h seeds none s) (hq : s.q = [])
    (hs : ∀ a ∈ seeds, OnMap w h a) (a : Cell) (ha : a ∈ seeds) (k : Nat) (c : Cell) (hc : OnMap w h c)
    (hk : manhattan a c = k) : s.dist c ≤ k := by
  induction k generalizing c with
  | zero =>
    have : c = a := by
      obtain ⟨c1, c2⟩ := c; obtain ⟨a1, a2⟩ := a
      unfold manhattan at hk
      simp only [Prod.mk.injEq] at hk ⊢
      omega
    subst this
    rw [hi.zero c ha]
  | succ k ih =>
    have hao := hs a ha
    obtain ⟨n, hn1, hn2, hn3⟩ : ∃ n, OnMap w h n ∧ manhattan a n = k ∧ Adj n c := by
      obtain ⟨c1, c2⟩ := c; obtain ⟨a1, a2⟩ := a
      unfold OnMap at hc hao
      unfold manhattan at hk
      simp only at hk hc hao
      rcases lt_trichotomy a1 c1 with h | h | h
      · refine ⟨(c1 - 1, c2), ?_, ?_, ?_⟩ <;> simp only [OnMap, Adj, manhattan] <;> omega
      · rcases lt_trichotomy a2 c2 with h' | h' | h'
        · refine ⟨(c1, c2 - 1), ?_, ?_, ?_⟩ <;> simp only [OnMap, Adj, manhattan] <;> omega
        · exfalso; omega
        · refine ⟨(c1, c2 + 1), ?_, ?_, ?_⟩ <;> simp only [OnMap, Adj, manhattan] <;> omega
      · refine ⟨(c1 + 1, c2), ?_, ?_, ?_⟩ <;> simp only [OnMap, Adj, manhattan] <;> omega
    have h1 := ih n hn1 hn2
    rcases lt_or_ge (s.dist n) intMax with h2 | h2
    · rcases hi.settled n hn1 h2 with h3 | h3 | h3
      · rw [hq] at h3; cases h3
      · cases h3
      · have := h3 c hc hn3; omega
    · have := hi.top c; omega

/-! ## Seeding -/

open Classical in
theorem seed_ok {gw gh pyr w h : Nat} (ps : List (ℝ × ℝ)) (q0 : List Cell)
    (hin : ∀ p ∈ ps, Used gw gh p → OnMap w h (cellOf pyr p)) :
    seed gw gh pyr w h ps ⟨fun c => if c ∈ q0 then 0 else intMax, q0⟩
      = .ok ⟨fun c => if c ∈ q0 ++ (ps.filter (fun p => Used gw gh p)).map (cellOf pyr) then 0 else intMax,
          q0 ++ (ps.filter (fun p => Used gw gh p)).map (cellOf pyr)⟩ := by
  induction ps generalizing q0 with
  | nil => simp [seed]
  | cons p ps ih =>
    unfold seed
    by_cases hu : Used gw gh p
    · have hm := hin p (List.mem_cons_self ..) hu
      simp only [if_pos hu, if_pos hm]
      have e : set (fun c => if c ∈ q0 then 0 else intMax) (cellOf pyr p) 0
          = fun c => if c ∈ q0 ++ [cellOf pyr p] then 0 else intMax := by
        funext c
        unfold set
        by_cases h1 : c = cellOf pyr p
        · simp [h1]
        · simp [h1]
      rw [e, ih _ (fun p' hp' => hin p' (List.mem_cons_of_mem _ hp')),
        List.filter_cons_of_pos (by simpa using hu)]
      simp
    · rw [if_neg hu, ih _ (fun p' hp' => hin p' (List.mem_cons_of_mem _ hp')),
        List.filter_cons_of_neg (by simpa using hu)]

theorem seed_inv {w h : Nat} (seeds : List Cell) (hs : ∀ a ∈ seeds, OnMap w h a) :
    InvX w h seeds none ⟨fun c => if c ∈ seeds then 0 else intMax, seeds⟩ := by
  refine ⟨?_, ?_, ?_, ?_, ?_⟩
  · intro c hc; simp only [] at hc ⊢; rw [if_pos hc]; exact ⟨hs c hc, by decide⟩
  · intro c; simp only; split <;> simp
  · intro c hc; simp only; rw [if_pos hc]
  · intro c; simp only
    by_cases hc : c ∈ seeds
    · right; exact ⟨c, hc, by simp [manhattan]⟩
    · left; rw [if_neg hc]
  · intro c _ h2
    left
    by_contra hc
    simp only [if_neg hc] at h2
    omega

/-! ## The power of two -/

theorem smear_bits {x0 x k : Nat} (h : ∀ i, x.testBit i = true ↔ ∃ j < k, x0.testBit (i + j) = true) :
    ∀ i, (smear x k).testBit i = true ↔ ∃ j < 2 * k, x0.testBit (i + j) = true := by
  intro i
  unfold smear
  rw [Nat.testBit_lor, Bool.or_eq_true, Nat.testBit_shiftRight, h, h]
  constructor
  · rintro (⟨j, h1, h2⟩ | ⟨j, h1, h2⟩)
    · exact ⟨j, by omega, h2⟩
    · exact ⟨k + j, by omega, by rwa [← Nat.add_assoc, Nat.add_comm i k]⟩
  · rintro ⟨j, h1, h2⟩
    rcases Nat.lt_or_ge j k with h3 | h3
    · exact Or.inl ⟨j, h3, h2⟩
    · refine Or.inr ⟨j - k, by omega, ?_⟩
      have : k + i + (j - k) = i + j := by omega
      rw [this]; exact h2

theorem clp2_eq {x : Nat} (h1 : 1 ≤ x) (h2 : x ≤ 2147483648) : clp2 x = 2 ^ (x - 1).size := by
  unfold clp2
  have e : (x + 4294967295) % 4294967296 = x - 1 := by omega
  simp only [e]
  generalize hx : x - 1 = x0
  have hb : ∀ i, x0.testBit i = true ↔ ∃ j < 1, x0.testBit (i + j) = true := by
    intro i
    constructor
    · intro h; exact ⟨0, by omega, h⟩
    · rintro ⟨j, h, h'⟩
      have : j = 0 := by omega
      subst this; exact h'
  have h5 := smear_bits (smear_bits (smear_bits (smear_bits (smear_bits hb))))
  norm_num at h5
  have hsize : x0.size ≤ 31 := Nat.size_le.2 (by omega)
  have hfin : smear (smear (smear (smear (smear x0 1) 2) 4) 8) 16 = 2 ^ x0.size - 1 := by
    apply Nat.eq_of_testBit_eq
    intro i
    rw [Nat.testBit_two_pow_sub_one, Bool.eq_iff_iff, h5, decide_eq_true_iff]
    constructor
    · rintro ⟨j, _, hj⟩
      by_contra hge
      have : x0 < 2 ^ (i + j) := lt_of_lt_of_le (Nat.lt_size_self x0) (Nat.pow_le_pow_right (by norm_num) (by omega))
      rw [Nat.testBit_lt_two_pow this] at hj
      cases hj
    · intro hi
      refine ⟨x0.size - 1 - i, by omega, ?_⟩
      have e2 : i + (x0.size - 1 - i) = x0.size - 1 := by omega
      rw [e2]
      have hlt : x0.size - 1 < x0.size := by omega
      have hge : 2 ^ (x0.size - 1) ≤ x0 := Nat.lt_size.1 hlt
      have hlt2 : x0 < 2 ^ (x0.size - 1 + 1) := by
        rw [show x0.size - 1 + 1 = x0.size by omega]; exact Nat.lt_size_self x0
      have hd : x0 / 2 ^ (x0.size - 1) = 1 := by
        apply Nat.div_eq_of_lt_le
        · simpa using hge
        · rw [pow_succ] at hlt2; omega
      rw [Nat.testBit_eq_decide_div_mod_eq, hd]; rfl
  rw [hfin]
  have hp : 0 < 2 ^ x0.size := by positivity
  have hle : 2 ^ x0.size ≤ 2 ^ 31 := Nat.pow_le_pow_right (by norm_num) hsize
  rw [Nat.sub_add_cancel hp, Nat.mod_eq_of_lt (by omega)]

theorem clp2_least {x : Nat} (h1 : 1 ≤ x) (h2 : x ≤ 2147483648) : IsLeastPow (clp2 x) x := by
  rw [clp2_eq h1 h2]
  refine ⟨⟨_, rfl⟩, ?_, ?_⟩
  · have := Nat.lt_size_self (x - 1); omega
  · intro k hk
    apply Nat.pow_le_pow_right (by norm_num)
    rw [Nat.size_le]; omega

end Mdso.DistMap
