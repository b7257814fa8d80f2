import Verif.Lemmas.PlyHolder

/-!
# C01, C02, C03: streamed point clouds
-/

set_option autoImplicit false

namespace Mdso.Ply
open Mdso.PlySpec

/-- What a history of calls asks to be written: the i-th point of a call paired with its i-th colour,
for as many pairs as both vectors have. -/
def requested {α : Type} : List (Op α) → List (Pt α × Vec3b)
  | [] => []
  | .put ps cs :: ops => ps.zip cs ++ requested ops
  | .update :: ops => requested ops

/-- The text of a vertex: three coordinates, then red, green, blue (OpenCV stores blue first), separated
by single spaces. -/
def vertexText {α : Type} (fmt : α → List Char) (v : Pt α × Vec3b) : List Char :=
  List.intercalate [' '] [fmt v.1.x, fmt v.1.y, fmt v.1.z,
    Nat.toDigits 10 v.2.c2.val, Nat.toDigits 10 v.2.c1.val, Nat.toDigits 10 v.2.c0.val]

/-- Is the call an `updatePointCount`? -/
def Op.isUpdate {α : Type} : Op α → Bool
  | .update => true
  | .put _ _ => false

/-- The calls up to and including the last `updatePointCount` (none if there is none). -/
def uptoLastUpdate {α : Type} (ops : List (Op α)) : List (Op α) :=
  (ops.reverse.dropWhile (fun o => !o.isUpdate)).reverse

theorem requested_eq {α : Type} (ops : List (Op α)) : requested ops = recordedOf ops := by
  induction ops with
  | nil => rfl
  | cons o ops ih => cases o <;> simp [requested, recordedOf, ih]

theorem vertexText_eq {α : Type} (fmt : α → List Char) : vertexText fmt = lineText fmt := by
  funext v
  simp [vertexText, lineText, List.intercalate, toStringC]

theorem declared_eq {α : Type} (ops : List (Op α)) :
    declared [] 0 ops = (requested (uptoLastUpdate ops)).length := by
  rw [← List.reverse_reverse ops]
  generalize ops.reverse = rops
  induction rops with
  | nil => simp [uptoLastUpdate, requested, declared]
  | cons o rops ih =>
    rw [List.reverse_cons]
    cases o with
    | put ps cs =>
      rw [declared_snoc_put, ih]
      simp [uptoLastUpdate, Op.isUpdate]
    | update =>
      rw [declared_snoc_update]
      simp [uptoLastUpdate, Op.isUpdate, requested_eq, recordedOf_append, recordedOf]

/-- A short history used for the non-vacuity examples: five points given with six colours, then a
count update, then one point with two colours. -/
def demoOps : List (Op Nat) :=
  [.put (List.replicate 5 ⟨7, 8, 9⟩) (List.replicate 6 ⟨1, 2, 3⟩), .update,
   .put [⟨4, 5, 6⟩] (List.replicate 2 ⟨250, 0, 17⟩)]

/-- **C01.** Every history of calls whose points fit the `int` counter, followed by
`updatePointCount`, succeeds; the resulting file declares exactly the number of vertex lines it has,
and its vertex lines are the requested vertices, in order. -/
theorem C01_header_count_matches {α : Type} (fmt : α → List Char) (hfmt : ∀ a, '\n' ∉ fmt a)
    (ops : List (Op α)) (hsmall : (requested ops).length ≤ 2147483647) (h0 : Holder)
    (hc : create true = .ok h0) :
    ∃ h, run fmt h0 (ops ++ [.update]) = .ok h ∧
      declaredCount h.file = some (vertexLines h.file).length ∧
      vertexLines h.file = (requested ops).map (vertexText fmt) := by
  cases hc
  have hle : (([] : List (Pt α × Vec3b)) ++ recordedOf (ops ++ [Op.update])).length ≤ intMax := by
    rw [recordedOf_append]; simpa [requested_eq, recordedOf, intMax] using hsmall
  obtain ⟨h, e⟩ := run_ok (fmt := fmt) _ (shape_init fmt) hle
  refine ⟨h, e, ?_⟩
  have hs := shape_run _ (shape_init fmt) e
  rw [declared_snoc_update] at hs
  rw [declared_shape hfmt hs, vertexLines_shape hfmt hs, vertexText_eq, requested_eq]
  simp [recordedOf_append, recordedOf]

example : (∀ a, '\n' ∉ Nat.toDigits 10 a) ∧ (requested demoOps).length = 6 ∧
    (requested demoOps).getLast? = some (⟨4, 5, 6⟩, ⟨250, 0, 17⟩) ∧
    vertexText (Nat.toDigits 10) (⟨4, 5, 6⟩, ⟨250, 0, 17⟩) = "4 5 6 17 0 250".toList :=
  ⟨nl_not_digits, by decide, by decide, by decide⟩

/-- **C01**, the excluded case: a history whose points do not fit the `int` counter runs into
undefined behaviour (signed overflow or narrowing); it never silently declares a wrong count. -/
theorem C01_overflow_is_ub {α : Type} (fmt : α → List Char) (ops : List (Op α))
    (hbig : 2147483647 < (requested ops).length) (h0 : Holder) (hc : create true = .ok h0) :
    run fmt h0 ops = .error .ub := by
  cases hc
  refine run_ub _ (shape_init fmt) ?_
  simpa [requested_eq, intMax] using hbig

example (n : Nat) (hn : 2147483647 < n) :
    2147483647 < (requested [Op.put (List.replicate n (⟨1, 2, 3⟩ : Pt Nat))
      (List.replicate n ⟨1, 2, 3⟩)]).length := by
  simpa [requested] using hn

/-- **C02.** In every reachable state, a call only appends to the file or overwrites bytes 36 to 54 in
place. The file length is unchanged by `updatePointCount`, and the vertex lines already present
stay, in place, whatever is called. Bytes 36 to 54 directly follow `element vertex ` in the header. -/
theorem C02_append_only {α : Type} (fmt : α → List Char) (hfmt : ∀ a, '\n' ∉ fmt a)
    (ops : List (Op α)) (op : Op α) (h0 h h' : Holder)
    (hc : create true = .ok h0) (hr : run fmt h0 ops = .ok h) (hstep : step fmt h op = .ok h') :
    (match op with
      | .put _ _ => h.file <+: h'.file
      | .update => h'.file.length = h.file.length ∧
          ∀ i, i < 36 ∨ 36 + 19 ≤ i → h'.file[i]? = h.file[i]?) ∧
    vertexLines h.file <+: vertexLines h'.file ∧
    h.file.take 36 = "ply\nformat ascii 1.0\nelement vertex ".toList := by
  cases hc
  have hs := shape_run _ (shape_init fmt) hr
  rw [List.nil_append] at hs
  refine ⟨?_, ?_, ?_⟩
  · cases op with
    | put ps cs =>
      have hs' := shape_put hs hstep
      simp only
      have e1 : h'.file = h.file ++ pointsText fmt ps cs := by
        simp only [step, putPoints] at hstep
        split at hstep
        · cases hstep
        · split at hstep
          · cases hstep
          · cases hstep; rfl
      rw [e1]; exact List.prefix_append _ _
    | update =>
      have hs' := shape_update hs hstep
      have hk : declared [] 0 ops ≤ intMax := Nat.le_trans hs.kle hs.small
      have l1 := field_length hk
      have l2 := field_length hs.small
      have lp : pre.length = 36 := by decide
      refine ⟨?_, ?_⟩
      · rw [hs.file, hs'.file]; simp [l1, l2]
      · intro i hi
        rw [hs.file, hs'.file]
        simp only [List.append_assoc]
        rcases hi with hi | hi
        · rw [List.getElem?_append_left (by omega), List.getElem?_append_left (by omega)]
        · have c : countSpace = 19 := rfl
          rw [List.getElem?_append_right (l₁ := pre) (by omega),
            List.getElem?_append_right (l₁ := pre) (by omega),
            List.getElem?_append_right (l₁ := field _) (by omega),
            List.getElem?_append_right (l₁ := field (declared _ _ _)) (by omega), l1, l2]
  · cases op with
    | put ps cs =>
      rw [vertexLines_shape hfmt hs, vertexLines_shape hfmt (shape_put hs hstep)]
      simp
    | update =>
      rw [vertexLines_shape hfmt hs, vertexLines_shape hfmt (shape_update hs hstep)]
      simp
  · rw [hs.file, List.append_assoc]
    have : pre.length = 36 := by decide
    rw [← this, List.take_left]
    rfl

example : ∃ h h', run (Nat.toDigits 10) ⟨initialText, 0⟩ demoOps = .ok h ∧
    step (Nat.toDigits 10) h (.update) = .ok h' ∧ h ≠ h' := by
  refine ⟨_, _, rfl, rfl, ?_⟩
  decide +kernel

/-- **C03.** After any history of calls (a process stopped between two calls) the file declares exactly
the number of vertices requested up to the last `updatePointCount` (zero if there was none), which
is at most the number of vertex lines in the file. -/
theorem C03_declares_at_most_present {α : Type} (fmt : α → List Char) (hfmt : ∀ a, '\n' ∉ fmt a)
    (ops : List (Op α)) (h0 h : Holder) (hc : create true = .ok h0)
    (hr : run fmt h0 ops = .ok h) :
    declaredCount h.file = some (requested (uptoLastUpdate ops)).length ∧
    vertexLines h.file = (requested ops).map (vertexText fmt) ∧
    (requested (uptoLastUpdate ops)).length ≤ (vertexLines h.file).length := by
  cases hc
  have hs := shape_run _ (shape_init fmt) hr
  have hd := declared_shape hfmt hs
  have hv := vertexLines_shape hfmt hs
  rw [declared_eq] at hd
  refine ⟨hd, ?_, ?_⟩
  · rw [hv, vertexText_eq, requested_eq]; simp
  · have := hs.kle
    rw [declared_eq] at this
    rw [hv]; simpa using this

example : (requested (uptoLastUpdate demoOps)).length = 5 ∧
    (requested demoOps).length = 6 ∧
    (run (Nat.toDigits 10) ⟨initialText, 0⟩ demoOps).isOk = true := by
  refine ⟨by decide, by decide, by decide +kernel⟩

/-- **C03**, a process killed while `putPoints` is writing (any prefix of the appended text has
reached the file): the declared count is still at most the number of complete vertex lines. -/
theorem C03_torn_append {α : Type} (fmt : α → List Char) (hfmt : ∀ a, '\n' ∉ fmt a)
    (ops : List (Op α)) (h0 h : Holder) (hc : create true = .ok h0)
    (hr : run fmt h0 ops = .ok h) (ps : List (Pt α)) (cs : List Vec3b) (j : Nat) :
    ∃ k, declaredCount (putPointsTorn fmt h ps cs j) = some k ∧
      (requested ops).length ≤ (vertexLines (putPointsTorn fmt h ps cs j)).length ∧
      k ≤ (vertexLines (putPointsTorn fmt h ps cs j)).length := by
  cases hc
  have hs := shape_run _ (shape_init fmt) hr
  refine ⟨_, declared_shape_append hfmt hs _, ?_, ?_⟩
  · unfold putPointsTorn
    rw [vertexLines_shape_append hfmt hs, requested_eq]
    simp
  · have := hs.kle
    unfold putPointsTorn
    rw [vertexLines_shape_append hfmt hs]
    simp at this ⊢; omega

example : (run (Nat.toDigits 10) ⟨initialText, 0⟩ demoOps).isOk = true := by decide +kernel

/-- **C03**, what is *not* guaranteed: if the process is killed while the 19-byte count field is being
overwritten and only its first byte has reached the file, the file can declare more vertices than it
has (29 declared, 20 present). The call-boundary hypothesis of C03 is needed. -/
theorem C03_torn_update_overdeclares :
    ∃ (ops : List (Op Nat)) (h : Holder) (j k : Nat),
      run (Nat.toDigits 10) ⟨initialText, 0⟩ ops = .ok h ∧
      declaredCount (updatePointCountTorn h j) = some k ∧
      (vertexLines (updatePointCountTorn h j)).length < k := by
  refine ⟨[.put (List.replicate 19 ⟨1, 2, 3⟩) (List.replicate 19 ⟨1, 2, 3⟩), .update,
    .put [⟨1, 2, 3⟩] [⟨1, 2, 3⟩]], _, 1, 29, rfl, ?_, ?_⟩
  · decide +kernel
  · decide +kernel

end Mdso.Ply
