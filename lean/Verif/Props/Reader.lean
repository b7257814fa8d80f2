import Verif.Model.Reader

/-!
# C56: ground truth poses of the multi-FoV reader
-/

set_option autoImplicit false

namespace Mdso.Reader

variable {N G : Type}

/-- The tokens of a file of well-formed lines, eight numbers each. -/
def fileOf (lines : List (List N)) : List (Option N) := lines.flatten.map some

theorem extracts_prefix (k : Nat) : ∀ (xs : List N) (rest : List (Option N)) (tr : Bool), xs.length = k →
    0 < k ∨ rest ≠ [] ∨ tr = true →
    Stream.extracts k ⟨xs.map some ++ rest, tr, false, false⟩ =
      (⟨rest, tr, (rest.isEmpty && !tr) && decide (0 < k), false⟩, xs.map some) := by
  induction k with
  | zero =>
    intro xs rest tr h _
    have : xs = [] := List.length_eq_zero_iff.1 h
    subst this
    simp [Stream.extracts]
  | succ k ih =>
    intro xs rest tr h _
    cases xs with
    | nil => simp at h
    | cons x xs =>
      unfold Stream.extracts
      simp only [List.map_cons, List.cons_append, Stream.extract]
      rw [if_neg (by simp)]
      simp only
      have hk : xs.length = k := by simpa using h
      by_cases h0 : k = 0
      · subst h0
        have : xs = [] := List.length_eq_zero_iff.1 hk
        subst this
        simp [Stream.extracts]
      · have hne : xs.map some ++ rest ≠ ([] : List (Option N)) := by
          intro hh
          rw [List.append_eq_nil_iff, List.map_eq_nil_iff] at hh
          rw [hh.1] at hk; exact h0 (by simpa using hk.symm)
        have : (xs.map some ++ rest).isEmpty = false := by simpa using hne
        rw [this, Bool.false_and, ih xs rest tr hk (Or.inl (by omega))]
        simp [h0, Nat.pos_of_ne_zero h0]

theorem poseOf_line (mk : List N → G) {l : List N} (h : l.length = 8) :
    poseOf mk (l.map some) = some (mk l.tail) := by
  cases l with
  | nil => simp at h
  | cons x xs =>
    simp only [List.map_cons, poseOf, List.tail_cons]
    rw [if_pos (by simp)]
    simp

/-- Reading all lines of a well-formed file when something follows each of them. -/
theorem readLoop_lines (mk : List N → G) (tr : Bool) : ∀ (lines : List (List N)) (fuel : Nat)
    (acc : List (Option G)), (∀ l ∈ lines, l.length = 8) → lines ≠ [] →
    readLoop mk (lines.length + fuel) ⟨fileOf lines, tr, false, false⟩ acc =
      readLoop mk fuel ⟨[], tr, !tr, false⟩ (acc ++ lines.map (fun l => some (mk l.tail))) := by
  intro lines
  induction lines with
  | nil => intro _ _ _ h; exact absurd rfl h
  | cons l ls ih =>
    intro fuel acc h _
    have hl := h l (by simp)
    have hfile : fileOf (l :: ls) = l.map some ++ fileOf ls := by simp [fileOf]
    have hstep : readLoop mk ((l :: ls).length + fuel) ⟨fileOf (l :: ls), tr, false, false⟩ acc =
        readLoop mk (ls.length + fuel) ⟨fileOf ls, tr, (fileOf ls).isEmpty && !tr, false⟩
          (acc ++ [some (mk l.tail)]) := by
      rw [show (l :: ls).length + fuel = (ls.length + fuel) + 1 by simp; omega]
      conv => lhs; unfold readLoop
      rw [if_neg (by simp)]
      simp only
      rw [hfile, extracts_prefix 8 l (fileOf ls) tr hl (Or.inl (by decide))]
      simp only [show decide (0 < 8) = true from rfl, Bool.and_true]
      rw [poseOf_line mk hl]
    rw [hstep]
    by_cases hls : ls = []
    · subst hls
      simp [fileOf]
    · have hne : (fileOf ls).isEmpty = false := by
        cases ls with
        | nil => exact absurd rfl hls
        | cons l2 ls2 =>
          have := h l2 (by simp)
          cases l2 with
          | nil => simp at this
          | cons x xs => simp [fileOf]
      rw [hne, Bool.false_and, ih fuel _ (fun l hl => h l (by simp [hl])) hls]
      simp

/-- C56, the part that holds: for every well-formed, non-empty file that ends right after its last number,
the table has one entry more than the file has lines, and entry `i` (from 1) is the pose of line `i`. -/
theorem C56_no_newline_partial (one : G) (mk : List N → G) {lines : List (List N)} (hne : lines ≠ [])
    (h : ∀ l ∈ lines, l.length = 8) (fuel : Nat) :
    ∃ table, worldToFrameGT one mk (fileOf lines) false (lines.length + fuel) = some table ∧
      getFrameCount table = lines.length + 1 ∧
      ∀ (i : Nat) l, lines[i]? = some l → table[i + 1]? = some (some (mk l.tail)) := by
  refine ⟨[some one] ++ lines.map (fun l => some (mk l.tail)), ?_, by simp [getFrameCount], ?_⟩
  · unfold worldToFrameGT Stream.open
    rw [readLoop_lines mk false lines fuel _ h hne]
    unfold readLoop
    simp
  · intro i l hi
    simp [hi]

example := C56_no_newline_partial (0 : Nat) List.sum (lines := [[1, 2, 3, 4, 5, 6, 7, 8], [2, 2, 3, 4, 5, 6, 7, 8]])
  (by simp) (by simp) 0

/-- C56 is violated for every well-formed file that ends with a newline: the table gets an extra entry made
of values that were never read. The same happens for an empty file. -/
theorem C56_newline_violated (one : G) (mk : List N → G) {lines : List (List N)} {trailing : Bool}
    (ht : trailing = true ∨ lines = []) (h : ∀ l ∈ lines, l.length = 8) (fuel : Nat) :
    ∃ table, worldToFrameGT one mk (fileOf lines) trailing (lines.length + (fuel + 1)) = some table ∧
      getFrameCount table = lines.length + 2 ∧ table[lines.length + 1]? = some none ∧
      ∀ (i : Nat) l, lines[i]? = some l → table[i + 1]? = some (some (mk l.tail)) := by
  have hlast : ∀ (acc : List (Option G)) (tr : Bool),
      readLoop mk (fuel + 1) ⟨[], tr, false, false⟩ acc = some (acc ++ [none]) := by
    intro acc tr
    unfold readLoop
    rw [if_neg (by simp)]
    simp only
    unfold readLoop
    simp [Stream.extracts, Stream.extract, poseOf]
  refine ⟨[some one] ++ lines.map (fun l => some (mk l.tail)) ++ [none], ?_,
    by simp [getFrameCount], by simp, ?_⟩
  · unfold worldToFrameGT Stream.open
    by_cases hne : lines = []
    · subst hne
      simp only [fileOf, List.flatten_nil, List.map_nil, List.length_nil, Nat.zero_add]
      rw [hlast]; simp
    · have ht' : trailing = true := ht.resolve_right hne
      subst ht'
      rw [readLoop_lines mk true lines (fuel + 1) _ h hne, Bool.not_true, hlast]
  · intro i l hi
    have : i < lines.length := (List.getElem?_eq_some_iff.1 hi).1
    rw [List.getElem?_append_left (by simp; omega)]
    simp [hi]

example := C56_newline_violated (0 : Nat) List.sum (lines := [[1, 2, 3, 4, 5, 6, 7, 8]]) (trailing := true)
  (Or.inl rfl) (by simp) 0

theorem stuck (mk : List N → G) : ∀ (fuel : Nat) (s : Stream N) (acc : List (Option G)),
    s.fail = true → s.eof = false → readLoop mk fuel s acc = none := by
  have hex : ∀ (k : Nat) (s : Stream N), s.fail = true → s.eof = false →
      (Stream.extracts k s).1 = s := by
    intro k
    induction k with
    | zero => intro s _ _; rfl
    | succ k ih =>
      intro s hf he
      unfold Stream.extracts
      have : s.extract.1 = s := by
        unfold Stream.extract
        rw [if_pos (by simp [hf])]
        cases s; simp_all
      simp only [this]
      exact ih s hf he
  intro fuel
  induction fuel with
  | zero => intro s acc hf he; unfold readLoop; simp [he]
  | succ fuel ih =>
    intro s acc hf he
    unfold readLoop
    rw [if_neg (by simp [he])]
    simp only
    rw [hex 8 s hf he]
    exact ih s _ hf he

/-- C56 is violated by any file with something that is not a number at the start of a line (for instance a
comment): the constructor never returns. -/
theorem C56_malformed_violated (one : G) (mk : List N → G) {lines : List (List N)}
    (h : ∀ l ∈ lines, l.length = 8) (rest : List (Option N)) (trailing : Bool) (fuel : Nat) :
    worldToFrameGT one mk (fileOf lines ++ none :: rest) trailing fuel = none := by
  have key : ∀ (lines : List (List N)) (fuel : Nat) (acc : List (Option G)), (∀ l ∈ lines, l.length = 8) →
      readLoop mk fuel ⟨fileOf lines ++ none :: rest, trailing, false, false⟩ acc = none := by
    intro lines
    induction lines with
    | nil =>
      intro fuel acc _
      cases fuel with
      | zero => unfold readLoop; simp
      | succ fuel =>
        unfold readLoop
        rw [if_neg (by simp)]
        simp only
        apply stuck <;> simp [fileOf, Stream.extracts, Stream.extract]
    | cons l ls ih =>
      intro fuel acc h
      cases fuel with
      | zero => unfold readLoop; simp
      | succ fuel =>
        unfold readLoop
        rw [if_neg (by simp)]
        simp only
        have hfile : fileOf (l :: ls) ++ none :: rest = l.map some ++ (fileOf ls ++ none :: rest) := by
          simp [fileOf]
        rw [hfile, extracts_prefix 8 l _ trailing (h l (by simp)) (Or.inl (by decide))]
        have hne : (fileOf ls ++ none :: rest).isEmpty = false := by simp
        simp only [hne, Bool.false_and]
        exact ih fuel _ (fun l hl => h l (by simp [hl]))
  exact key lines fuel _ h

example (fuel : Nat) := C56_malformed_violated (0 : Nat) List.sum (lines := [[1, 2, 3, 4, 5, 6, 7, 8]]) (by simp)
  [some 2] true fuel

end Mdso.Reader
