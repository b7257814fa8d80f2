import Verif.Spec.TextOut
import Verif.Props.EpipolarStat
import Verif.Props.TraceReport

/-!
# C195: what is printed can be read
-/

set_option autoImplicit false

namespace Mdso.Out

open Mdso.Stat Mdso.Light Mdso.OutSpec

theorem wordsFrom_word {w t : List Char} (h : ∀ c ∈ t, blank c = false) (rest : List Char) : wordsFrom w (t ++ rest) = wordsFrom (w ++ t) rest := by
  induction t generalizing w with
  | nil => simp
  | cons c t ih =>
    rw [List.cons_append, wordsFrom, if_neg (by simp [h c (by simp)]), ih fun c' hc => h c' (by simp [hc])]
    simp

theorem words_blank {c : Char} (hc : blank c = true) (rest : List Char) : words (c :: rest) = words rest := by
  unfold words
  rw [wordsFrom, if_pos hc, if_pos rfl]

theorem words_word {t : List Char} (h : IsWord t) {c : Char} (hc : blank c = true) (rest : List Char) : words (t ++ c :: rest) = t :: words rest := by
  unfold words
  rw [wordsFrom_word h.2, List.nil_append, wordsFrom, if_pos hc, if_neg h.1]

theorem words_nil : words [] = [] := rfl

theorem blank_space : blank ' ' = true := rfl

theorem blank_newline : blank '\n' = true := rfl

theorem words_elements {α : Type} {put : α → List Char} {fields : α → List (List Char)}
    (h : ∀ a rest, words (put a ++ ' ' :: rest) = fields a ++ words rest) (array : List α) (rest : List Char) :
    words ((array.flatMap fun a => put a ++ [' ']) ++ rest) = array.flatMap fields ++ words rest := by
  induction array with
  | nil => rfl
  | cons a as ih =>
    rw [List.flatMap_cons, List.append_assoc, List.append_assoc, List.cons_append, List.nil_append, h, ih, List.flatMap_cons, List.append_assoc]

theorem flatMap_one {α β : Type} (f : α → β) (l : List α) : l.flatMap (fun a => [f a]) = l.map f := by
  induction l with
  | nil => rfl
  | cons a l ih => rw [List.flatMap_cons, ih]; rfl

/-- **C195, arrays.** The words of a file with an array are the texts of the elements, in order, if each is a word. -/
theorem C195_array {α : Type} {put : α → List Char} (hp : ∀ a, IsWord (put a)) (before : File) (array : List α) :
    ∃ t, outputArray put true before array = .ok (some t) ∧ words t = array.map put := by
  unfold outputArray outputArrayPtr elements
  rw [if_pos (le_refl _)]
  refine ⟨_, rfl, ?_⟩
  rw [List.take_length, words_elements (fields := fun a => [put a]) (fun a rest => words_word (hp a) blank_space rest), words_blank blank_newline, words_nil,
    List.append_nil]
  exact flatMap_one put array

/-- **C195, log.** After tracing, the two lines with counts have as their words the counts of the report, all of them and in order; nothing is undefined. -/
theorem C195_log {fmtInt : Nat → List Char} (hf : ∀ n, IsWord (fmtInt n)) {L : Int} {fuel : Nat} {cs : List (Trace.Env × Trace.Point)} {qs : List Trace.Point}
    {r : Report.Report} (h : Report.traceWindow L fuel cs = .ok (some (qs, r))) :
    ∃ log n l, traceLog fmtInt L r = .ok log ∧ log[3]? = some "Traced by number: ".toList ∧ log[4]? = some n ∧ words n = r.byNumber.map fmtInt ∧
      log[5]? = some "Last traced on pyramid levels: ".toList ∧ log[6]? = some l ∧ words l = r.onLevel.map fmtInt := by
  obtain ⟨os, -, -, -, -, h5, h6⟩ := Report.C194_report_partial h
  have hn : r.byNumber.length = Report.maxTraced := by rw [h5]; simp [Report.maxTraced]
  have hl : r.onLevel.length = L.toNat := by rw [h6]; simp
  have key : ∀ v : List Nat, ∃ t, outputArrayUndivided fmtInt v v.length = .ok t ∧ words t = v.map fmtInt := by
    intro v
    unfold outputArrayUndivided elements
    rw [if_pos (le_refl _)]
    refine ⟨_, rfl, ?_⟩
    have := words_elements (fields := fun a => [fmtInt a]) (fun a rest => words_word (hf a) blank_space rest) v []
    rw [List.append_nil] at this
    rw [List.take_length, this, words_nil, List.append_nil]
    exact flatMap_one fmtInt v
  obtain ⟨n, n1, n2⟩ := key r.byNumber
  obtain ⟨l, l1, l2⟩ := key r.onLevel
  rw [hn] at n1
  rw [hl] at l1
  unfold traceLog
  rw [n1, l1]
  exact ⟨_, n, l, rfl, rfl, rfl, n2, rfl, rfl, l2⟩

theorem words_epiErr {fmt : ℝ → List Char} (hf : ∀ x, IsWord (fmt x)) (e : EpiErr) (rest : List Char) :
    words (putEpiErr fmt e ++ ' ' :: rest) = (columns e).map fmt ++ words rest := by
  simp only [putEpiErr, List.append_assoc, List.cons_append, List.nil_append, words_word (hf _) blank_space, columns, List.map_cons, List.map_nil]

theorem flatMap_get {α β : Type} {f : α → List β} {n : Nat} (hf : ∀ a, (f a).length = n) {l : List α} {i j : Nat} (hj : j < n) {a : α} (h : l[i]? = some a) :
    (l.flatMap f)[n * i + j]? = (f a)[j]? := by
  induction l generalizing i with
  | nil => simp at h
  | cons b l ih =>
    rw [List.flatMap_cons]
    cases i with
    | zero =>
      simp only [List.getElem?_cons_zero, Option.some.injEq] at h
      subst h
      rw [Nat.mul_zero, Nat.zero_add, List.getElem?_append_left (by rw [hf]; exact hj)]
    | succ i =>
      rw [List.getElem?_cons_succ] at h
      rw [List.getElem?_append_right (by rw [hf]; have : n * (i + 1) = n * i + n := Nat.mul_succ n i; omega), hf, ← ih h]
      congr 1
      have : n * (i + 1) = n * i + n := Nat.mul_succ n i
      omega

/-- **C195, statistics.** If the file can be opened, the statistics of all frames are in it: nine numbers for every record, in the order of the columns, and
the records in the order of the frames, so that the number in column `j` of record `i` is the word `9 i + j`. -/
theorem C195_stat_partial {S : Type} {fmt : ℝ → List Char} (hf : ∀ x, IsWord (fmt x)) (before : File) (n : Nat) (s : Sys S) :
    ∃ t, writeStat fmt true before n s = .ok (some t, true) ∧ (words t).length = 9 * (allErr n s).length ∧
      ∀ (i : Nat) (e : EpiErr), (allErr n s)[i]? = some e → ∀ (j : Nat) (x : ℝ), (columns e)[j]? = some x → (words t)[9 * i + j]? = some (fmt x) := by
  have hw : ∃ t, outputArray (putEpiErr fmt) true before (allErr n s) = .ok (some t) ∧ words t = (allErr n s).flatMap fun e => (columns e).map fmt := by
    unfold outputArray outputArrayPtr elements
    rw [if_pos (le_refl _)]
    refine ⟨_, rfl, ?_⟩
    rw [List.take_length, words_elements (words_epiErr hf), words_blank blank_newline, words_nil, List.append_nil]
  obtain ⟨t, h1, h2⟩ := hw
  refine ⟨t, by unfold writeStat; rw [h1], ?_, ?_⟩
  · rw [h2]
    simp [List.length_flatMap, columns, Nat.mul_comm]
  · intro i e he j x hx
    have hj : j < 9 := by
      obtain ⟨hlt, -⟩ := List.getElem?_eq_some_iff.1 hx
      exact hlt
    rw [h2, flatMap_get (n := 9) (by simp [columns]) hj he, List.getElem?_map, hx]
    rfl

/-- **C195, schedule.** The file is the same for every schedule of the workers. -/
theorem C195_schedule {S P : Type} {e : Env S P} {ranges : List (Nat × Nat)} (hs : Stat.Spec.Splits (testCount e).toNat ranges) {schedule schedule' : List Nat}
    {s s' : Sys S} (h : collectEpipolarStat e ranges schedule = .ok s) (hd : s.done) (h' : collectEpipolarStat e ranges schedule' = .ok s') (hd' : s'.done)
    (fmt : ℝ → List Char) (canOpen : Bool) (before : File) :
    writeStat fmt canOpen before (testCount e).toNat s = writeStat fmt canOpen before (testCount e).toNat s' := by
  unfold writeStat
  rw [C109_schedule hs (List.Perm.refl _) h hd h' hd']

/-- **C195, violated.** If the file cannot be opened, nothing is written, what was there before stays, and still "All done." is printed. -/
theorem C195_unopened_violated {S : Type} (fmt : ℝ → List Char) (before : File) (n : Nat) (s : Sys S) : writeStat fmt false before n s = .ok (before, true) := by
  unfold writeStat outputArray outputArrayPtr elements
  rw [if_pos (le_refl _)]
  rfl

/-- **C195, light.** The printed form of a light transform has the two numbers it consists of, and two numbers `a` and `b` such that it maps an intensity `x`
to `a x + b`. -/
theorem C195_light {fmt : ℝ → List Char} (hf : ∀ x, IsWord (fmt x)) (l : AffLight) :
    ∃ a b : ℝ, words (putLight fmt l) = ["raw".toList, "=".toList, fmt l.a, fmt l.b, "as".toList, "ax+b".toList, "=".toList, fmt a, fmt b] ∧
      ∀ x, l.apply x = a * x + b := by
  refine ⟨Real.exp l.a, Real.exp l.a * l.b, ?_, fun x => by unfold AffLight.apply; ring⟩
  have w1 : IsWord ['r', 'a', 'w'] := ⟨by simp, by decide⟩
  have w2 : IsWord ['='] := ⟨by simp, by decide⟩
  have w3 : IsWord ['a', 's'] := ⟨by simp, by decide⟩
  have w4 : IsWord ['a', 'x', '+', 'b'] := ⟨by simp, by decide⟩
  have e1 : "raw     = ".toList = ['r', 'a', 'w'] ++ ' ' :: ' ' :: ' ' :: ' ' :: ' ' :: (['='] ++ [' ']) := rfl
  have e2 : "\nas ax+b = ".toList = '\n' :: (['a', 's'] ++ ' ' :: (['a', 'x', '+', 'b'] ++ ' ' :: (['='] ++ [' ']))) := rfl
  unfold putLight
  rw [e1, e2]
  simp only [List.append_assoc, List.cons_append (as := ' ' :: _), List.cons_append (a := ' '), List.cons_append (a := '\n'), List.nil_append,
    words_word w1 blank_space, words_blank blank_space, words_word w2 blank_space, words_word (hf _) blank_space, words_word (hf _) blank_newline,
    words_word w3 blank_space, words_word w4 blank_space, words_nil]
  rfl

/-- Not vacuous: a file with the statistics of two points. -/
example : ∃ (fmt : ℝ → List Char) (s : Sys Unit) (t : List Char), (∀ x, IsWord (fmt x)) ∧ (allErr 2 s).length = 2 ∧
    writeStat fmt true none 2 s = .ok (some t, true) ∧ (words t).length = 18 := by
  have hf : ∀ x : ℝ, IsWord ((fun _ => ['1']) x) := fun _ => ⟨by simp, by simp [blank]⟩
  obtain ⟨t, h1, h2, -⟩ := C195_stat_partial hf none 2 (⟨[], fun _ => [⟨1, 2, 3, 4, 5, 6, 7, 8, 9⟩]⟩ : Sys Unit)
  exact ⟨_, _, t, hf, rfl, h1, h2⟩

/-- Not vacuous: decimal digits are words. -/
example : ∃ t, outputArray (fun n : Nat => Nat.toDigits 10 n) true none [12, 0, 7] = .ok (some t) ∧ t = "12 0 7 \n".toList ∧
    words t = ["12".toList, "0".toList, "7".toList] := by
  refine ⟨_, rfl, ?_, ?_⟩ <;> decide +kernel

end Mdso.Out
