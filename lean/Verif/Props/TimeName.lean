import Verif.Spec.TimeName
import Mathlib.Tactic.Ring
import Mathlib.Tactic.IntervalCases

/-!
# Output directories named after the time (C182)
-/

set_option autoImplicit false

namespace Mdso.TimeName

open Mdso.TimeNameSpec

/-! ## Digits -/

theorem digit_toNat (n : Nat) : (digit n).toNat = 48 + n % 10 := by
  have h : n % 10 < 10 := Nat.mod_lt _ (by norm_num)
  unfold digit
  generalize n % 10 = k at h ⊢
  interval_cases k <;> rfl

theorem digit_inj {m n : Nat} (h : digit m = digit n) : m % 10 = n % 10 := by
  have := congrArg Char.toNat h
  rw [digit_toNat, digit_toNat] at this
  omega

theorem two_length (n : Nat) : (two n).length = 2 := rfl

theorem two_inj {m n : Nat} (hm : m < 100) (hn : n < 100) (h : two m = two n) : m = n := by
  unfold two at h
  have h1 := digit_inj (List.cons.inj h).1
  have h2 := digit_inj (List.cons.inj (List.cons.inj h).2).1
  omega

theorem dec_length : ∀ (k n : Nat), 1 ≤ k → n < 10 ^ k → (dec n).length ≤ k
  | 0, _, h, _ => by omega
  | k + 1, n, _, h => by
    unfold dec
    by_cases h10 : n < 10
    · rw [if_pos h10]; simp
    · rw [if_neg h10, List.length_append, List.length_singleton]
      have hk : 1 ≤ k := by
        rcases k with _ | k
        · simp at h; omega
        · omega
      have := dec_length k (n / 10) hk (by
        rw [pow_succ] at h
        exact Nat.div_lt_of_lt_mul (by rwa [mul_comm]))
      omega

theorem dec_ne_nil (n : Nat) : dec n ≠ [] := by
  unfold dec
  split <;> simp

theorem dec_inj : ∀ m n : Nat, dec m = dec n → m = n := by
  intro m
  induction m using Nat.strong_induction_on with
  | _ m ih =>
    intro n h
    rw [dec, dec.eq_def n] at h
    by_cases hm : m < 10 <;> by_cases hn : n < 10
    · rw [if_pos hm, if_pos hn] at h
      have := digit_inj (List.cons.inj h).1
      omega
    · rw [if_pos hm, if_neg hn] at h
      have := congrArg List.length h
      have h0 := List.length_pos_of_ne_nil (dec_ne_nil (n / 10))
      rw [List.length_append, List.length_singleton, List.length_singleton] at this
      omega
    · rw [if_neg hm, if_pos hn] at h
      have := congrArg List.length h
      have h0 := List.length_pos_of_ne_nil (dec_ne_nil (m / 10))
      rw [List.length_append, List.length_singleton, List.length_singleton] at this
      omega
    · rw [if_neg hm, if_neg hn] at h
      obtain ⟨h1, h2⟩ := List.append_inj' h rfl
      have e := ih (m / 10) (by omega) _ h1
      have := digit_inj (List.cons.inj h2).1
      omega

theorem dec_head (n : Nat) : ∃ k s, dec n = digit k :: s := by
  induction n using Nat.strong_induction_on with
  | _ n ih =>
    rw [dec]
    by_cases h : n < 10
    · exact ⟨n, [], by rw [if_pos h]⟩
    · obtain ⟨k, s, e⟩ := ih (n / 10) (by omega)
      exact ⟨k, s ++ [digit n], by rw [if_neg h, e]; rfl⟩

theorem digit_ne {c : Char} (hc : c.toNat < 48) (n : Nat) : digit n ≠ c := by
  intro h
  have := congrArg Char.toNat h
  rw [digit_toNat] at this
  omega

theorem yearText_inj {y z : Int} (h : yearText y = yearText z) : y = z := by
  unfold yearText at h
  by_cases hy : y < 0 <;> by_cases hz : z < 0
  · rw [if_pos hy, if_pos hz] at h
    have := dec_inj _ _ (List.cons.inj h).2
    omega
  · rw [if_pos hy, if_neg hz] at h
    obtain ⟨k, s, e⟩ := dec_head z.natAbs
    rw [e] at h
    exact absurd (List.cons.inj h).1.symm (digit_ne (by decide) k)
  · rw [if_neg hy, if_pos hz] at h
    obtain ⟨k, s, e⟩ := dec_head y.natAbs
    rw [e] at h
    exact absurd (List.cons.inj h).1 (digit_ne (by decide) k)
  · rw [if_neg hy, if_neg hz] at h
    have := dec_inj _ _ h
    omega

theorem dec_four {n : Nat} (h1 : 1000 ≤ n) (h2 : n ≤ 9999) :
    dec n = [digit (n / 1000), digit (n / 100), digit (n / 10), digit n] := by
  rw [dec, if_neg (by omega), dec, if_neg (by omega), dec, if_neg (by omega), dec,
    if_pos (by omega)]
  simp only [Nat.div_div_eq_div_mul, List.cons_append, List.nil_append]

/-! ## The name -/

theorem expand_length (t : Tm) : (expand t).length = (yearText t.year).length + 11 := by
  unfold expand
  simp only [List.length_append, two_length, List.length_cons]

theorem yearText_length {t : Tm} (h : Valid t) : (yearText t.year).length ≤ 11 := by
  unfold yearText
  have h1 := h.yearLo
  have h2 := h.yearHi
  have := dec_length 10 t.year.natAbs (by norm_num) (by norm_num; omega)
  split
  · rw [List.length_cons]; omega
  · omega

theorem curTimeBrief_ok {t : Tm} (h : Valid t) : curTimeBrief (some t) = .ok (expand t) := by
  have := yearText_length h
  have e := expand_length t
  unfold curTimeBrief
  exact if_pos (by unfold maxSize; omega)

/-- **C182**, the buffer: for every time that exists the name fits, and the program has a name. -/
theorem C182_fits {t : Tm} (h : Valid t) :
    ∃ s, curTimeBrief (some t) = .ok s ∧ 1 ≤ s.length ∧ s.length ≤ 22 := by
  refine ⟨_, curTimeBrief_ok h, ?_, ?_⟩
  · rw [expand_length]; omega
  · have := yearText_length h
    rw [expand_length]; omega

/-- 16 November 2026, 21:42:05. -/
def exTm : Tm := ⟨2026, 10, 16, 21, 42, 5⟩

theorem exTm_valid : Valid exTm :=
  ⟨by decide, by decide, by decide, by decide, by decide, by decide, by decide⟩

/-- The earliest year that an `int` can hold: the name needs every character of the buffer. -/
def exFirst : Tm := ⟨-2147481748, 0, 1, 0, 0, 0⟩

theorem exFirst_valid : Valid exFirst :=
  ⟨by decide, by decide, by decide, by decide, by decide, by decide, by decide⟩

example : ∃ s, curTimeBrief (some exFirst) = .ok s ∧ 1 ≤ s.length ∧ s.length ≤ 22 :=
  C182_fits exFirst_valid

/-- **C182**, the format: as long as years have four digits the name is the one the help text
promises. -/
theorem C182_format {t : Tm} (h : Valid t) (h4 : FourDigits t) :
    ∃ s, curTimeBrief (some t) = .ok s ∧ Promised t s := by
  obtain ⟨ha, hb⟩ := h4
  obtain ⟨_, _, hmon, hday, hh, hmi, hs⟩ := h
  refine ⟨_, curTimeBrief_ok ⟨by assumption, by assumption, hmon, hday, hh, hmi, hs⟩, ?_⟩
  refine ⟨t.year.natAbs / 1000 % 10, t.year.natAbs / 100 % 10, t.year.natAbs / 10 % 10,
    t.year.natAbs % 10, (t.mon + 1) / 10 % 10, (t.mon + 1) % 10, t.mday / 10 % 10, t.mday % 10,
    t.hour / 10 % 10, t.hour % 10, t.min / 10 % 10, t.min % 10, t.sec / 10 % 10, t.sec % 10,
    ?_, ?_, ?_, ?_, ?_, ?_, ?_, ?_⟩
  · intro k hk
    simp only [List.mem_cons, List.not_mem_nil, or_false] at hk
    omega
  · unfold expand yearText
    rw [if_neg (by omega), dec_four (by omega) (by omega)]
    rfl
  all_goals omega

example : ∃ s, curTimeBrief (some exTm) = .ok s ∧ Promised exTm s :=
  C182_format exTm_valid ⟨by decide, by decide⟩

example : curTimeBrief (some exTm) = .ok "20261116_214205".toList := by decide +kernel

/-! ## Different times -/

theorem expand_inj {s t : Tm} (hs : Valid s) (ht : Valid t) (h : expand s = expand t) : s = t := by
  obtain ⟨-, -, s1, s2, s3, s4, s5⟩ := hs
  obtain ⟨-, -, t1, t2, t3, t4, t5⟩ := ht
  unfold expand at h
  obtain ⟨e0, h⟩ := List.append_inj' h rfl
  obtain ⟨e1, h⟩ := List.append_inj h rfl
  obtain ⟨e2, h⟩ := List.append_inj h rfl
  obtain ⟨e3, h⟩ := List.append_inj (List.cons.inj h).2 rfl
  obtain ⟨e4, e5⟩ := List.append_inj h rfl
  have a0 := yearText_inj e0
  have a1 := two_inj (by omega) (by omega) e1
  have a2 := two_inj (by omega) (by omega) e2
  have a3 := two_inj (by omega) (by omega) e3
  have a4 := two_inj (by omega) (by omega) e4
  have a5 := two_inj (by omega) (by omega) e5
  cases s; cases t
  simp only at a0 a1 a2 a3 a4 a5
  subst a0 a2 a3 a4 a5
  congr 1
  omega

/-- **C182**, different times: two local times have the same name only if they are the same, in any
year. -/
theorem C182_distinct {s t : Tm} (hs : Valid s) (ht : Valid t) :
    curTimeBrief (some s) = curTimeBrief (some t) ↔ s = t := by
  constructor
  · intro h
    rw [curTimeBrief_ok hs, curTimeBrief_ok ht] at h
    exact expand_inj hs ht (Except.ok.inj h)
  · rintro rfl; rfl

example : curTimeBrief (some exTm) ≠ curTimeBrief (some exFirst) := by
  rw [Ne, C182_distinct exTm_valid exFirst_valid]
  decide

theorem lex_two {m n : Nat} (h : m < n) (hn : n < 100) (a b : List Char) :
    SortedBefore (two m ++ a) (two n ++ b) := by
  unfold two
  by_cases e : m / 10 = n / 10
  · rw [e]
    refine List.Lex.cons (List.Lex.rel ?_)
    rw [digit_toNat, digit_toNat]
    omega
  · refine List.Lex.rel ?_
    rw [digit_toNat, digit_toNat]
    omega

theorem lex_same (p : List Char) {a b : List Char} (h : SortedBefore a b) :
    SortedBefore (p ++ a) (p ++ b) := by
  induction p with
  | nil => exact h
  | cons c p ih => exact List.Lex.cons ih

theorem lex_year {y z : Int} (hy : 1000 ≤ y) (h : y < z) (hz : z ≤ 9999) (a b : List Char) :
    SortedBefore (yearText y ++ a) (yearText z ++ b) := by
  unfold yearText
  rw [if_neg (by omega), if_neg (by omega), dec_four (by omega) (by omega),
    dec_four (by omega) (by omega)]
  have hlt : y.natAbs < z.natAbs := by omega
  have h9 : z.natAbs ≤ 9999 := by omega
  generalize y.natAbs = m at hlt ⊢
  generalize z.natAbs = n at hlt h9 ⊢
  by_cases e3 : m / 1000 = n / 1000
  · rw [e3]
    refine List.Lex.cons ?_
    by_cases e2 : m / 100 = n / 100
    · rw [e2]
      refine List.Lex.cons ?_
      by_cases e1 : m / 10 = n / 10
      · rw [e1]
        refine List.Lex.cons (List.Lex.rel ?_)
        rw [digit_toNat, digit_toNat]; omega
      · refine List.Lex.rel ?_
        rw [digit_toNat, digit_toNat]; omega
    · refine List.Lex.rel ?_
      rw [digit_toNat, digit_toNat]; omega
  · refine List.Lex.rel ?_
    rw [digit_toNat, digit_toNat]; omega

/-- **C182**, order: listing the names in alphabetical order lists them in the order of the local
times, as long as years have four digits. -/
theorem C182_order {s t : Tm} (hs : Valid s) (ht : Valid t) (hs4 : FourDigits s)
    (ht4 : FourDigits t) (h : Earlier s t) :
    ∃ a b, curTimeBrief (some s) = .ok a ∧ curTimeBrief (some t) = .ok b ∧ SortedBefore a b := by
  refine ⟨_, _, curTimeBrief_ok hs, curTimeBrief_ok ht, ?_⟩
  obtain ⟨-, -, t1, t2, t3, t4, t5⟩ := ht
  unfold expand
  rcases h with h | ⟨e, h⟩
  · exact lex_year hs4.1 h ht4.2 _ _
  rw [e]
  refine lex_same _ ?_
  rcases h with h | ⟨e, h⟩
  · exact lex_two (by omega) (by omega) _ _
  rw [e]
  refine lex_same _ ?_
  rcases h with h | ⟨e, h⟩
  · exact lex_two (by omega) (by omega) _ _
  rw [e]
  refine lex_same _ (List.Lex.cons ?_)
  rcases h with h | ⟨e, h⟩
  · exact lex_two (by omega) (by omega) _ _
  rw [e]
  refine lex_same _ ?_
  rcases h with h | ⟨e, h⟩
  · exact lex_two (by omega) (by omega) _ _
  rw [e]
  refine lex_same _ ?_
  have := lex_two h (by omega) [] []
  rwa [List.append_nil, List.append_nil] at this

/-- A year later, although month, day and time of day are smaller. -/
example : ∃ a b, curTimeBrief (some exTm) = .ok a ∧
    curTimeBrief (some ⟨2027, 0, 1, 0, 0, 0⟩) = .ok b ∧ SortedBefore a b :=
  C182_order exTm_valid
    ⟨by decide, by decide, by decide, by decide, by decide, by decide, by decide⟩
    ⟨by decide, by decide⟩ ⟨by decide, by decide⟩ (Or.inl (by decide))

/-! ## The output directory -/

theorem expand_head (t : Tm) : (expand t).head? ≠ some '/' := by
  unfold expand yearText
  intro h
  split at h
  · simp at h
  · obtain ⟨k, s, e⟩ := dec_head t.year.natAbs
    rw [e] at h
    exact digit_ne (c := '/') (by decide) k (Option.some.inj h)

theorem join_name (p : List Char) (t : Tm) :
    ∃ q, (∀ s : Tm, join p (expand s) = q ++ expand s) ∧ join p (expand t) = q ++ expand t := by
  by_cases h : p = [] ∨ p.getLast? = some '/'
  · have e : ∀ s : Tm, join p (expand s) = p ++ expand s := by
      intro s
      unfold join
      rw [if_neg (expand_head s), if_pos h]
    exact ⟨p, e, e t⟩
  · have e : ∀ s : Tm, join p (expand s) = (p ++ ['/']) ++ expand s := by
      intro s
      unfold join
      rw [if_neg (expand_head s), if_neg h, List.append_assoc]
      rfl
    exact ⟨_, e, e t⟩

/-- **C182**, output directories: runs with the same flags have the same output directory iff their
local times are the same; the flag `output_directory` has no influence. The name of the time is the
last part of the directory, whatever the prefix. -/
theorem C182_directory {s t : Tm} (hs : Valid s) (ht : Valid t) (pre dir dir' : List Char) :
    (outDir true pre dir (some s) = outDir true pre dir' (some t) ↔ s = t) ∧
      ∃ q name, outDir true pre dir (some s) = .ok (q ++ name) ∧
        curTimeBrief (some s) = .ok name ∧ (q = [] ∨ q.getLast? = some '/') := by
  have eo : ∀ {t : Tm} (_ : Valid t) (dir : List Char), outDir true pre dir (some t) =
      .ok (join (join "output".toList pre) (expand t)) := by
    intro t ht dir
    unfold outDir
    rw [if_pos rfl, curTimeBrief_ok ht]
    rfl
  refine ⟨⟨?_, ?_⟩, ?_⟩
  · intro h
    rw [eo hs, eo ht] at h
    obtain ⟨q, e, -⟩ := join_name (join "output".toList pre) s
    rw [e, e] at h
    exact expand_inj hs ht (List.append_cancel_left (Except.ok.inj h))
  · rintro rfl
    rw [eo hs, eo hs]
  · rw [eo hs]
    by_cases h : join "output".toList pre = [] ∨ (join "output".toList pre).getLast? = some '/'
    · refine ⟨_, _, ?_, curTimeBrief_ok hs, h⟩
      rw [join, if_neg (expand_head s), if_pos h]
    · refine ⟨join "output".toList pre ++ ['/'], _, ?_, curTimeBrief_ok hs, Or.inr (by simp)⟩
      rw [join, if_neg (expand_head s), if_neg h, List.append_assoc]
      rfl

/-- Without a prefix, with one, and with an absolute one. -/
example : outDir true [] "x".toList (some exTm) = .ok "output/20261116_214205".toList ∧
    outDir true "a/b".toList [] (some exTm) = .ok "output/a/b/20261116_214205".toList ∧
    outDir true "/a/".toList [] (some exTm) = .ok "/a/20261116_214205".toList ∧
    outDir false "a".toList "x".toList (some exTm) = .ok "x".toList := by
  decide +kernel

end Mdso.TimeName
