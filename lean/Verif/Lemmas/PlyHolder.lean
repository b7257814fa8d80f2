import Verif.Model.PlyHolder
import Verif.Spec.PlyFile

set_option autoImplicit false

namespace Mdso.PlySpec

theorem lines_append (l rest : List Char) (h : '\n' ∉ l) :
    lines (l ++ '\n' :: rest) = l :: lines rest := by
  induction l with
  | nil => simp [lines]
  | cons c cs ih =>
    simp only [List.mem_cons, not_or] at h
    have := ih h.2
    simp [lines, this, Ne.symm h.1]

theorem number_pad (n k : Nat) :
    number (Nat.toDigits 10 n ++ List.replicate k ' ') = some n := by
  have hd : ∀ c ∈ Nat.toDigits 10 n, Char.isDigit c = true := fun c hc =>
    Nat.isDigit_of_mem_toDigits (by decide) (by decide) hc
  have h1 : (Nat.toDigits 10 n ++ List.replicate k ' ').takeWhile Char.isDigit
      = Nat.toDigits 10 n := by
    rw [List.takeWhile_append_of_pos hd]
    have : (List.replicate k ' ').takeWhile Char.isDigit = [] := by
      cases k <;> simp [List.replicate_succ, Char.isDigit]
    simp [this]
  have h2 : (Nat.toDigits 10 n ++ List.replicate k ' ').dropWhile Char.isDigit
      = List.replicate k ' ' := by
    rw [List.dropWhile_append_of_pos hd]
    cases k <;> simp [List.replicate_succ, Char.isDigit]
  unfold number
  simp only [h1, h2]
  simp [Nat.toDigits_ne_nil, Nat.ofDigitChars_ten_toDigits]

end Mdso.PlySpec

namespace Mdso.Ply
open Mdso.PlySpec

/-- The pairs written by a history, in order. -/
def recordedOf {α : Type} : List (Op α) → List (Pt α × Vec3b)
  | [] => []
  | .put ps cs :: ops => ps.zip cs ++ recordedOf ops
  | .update :: ops => recordedOf ops

theorem recordedOf_append {α : Type} (a b : List (Op α)) :
    recordedOf (a ++ b) = recordedOf a ++ recordedOf b := by
  induction a with
  | nil => simp [recordedOf]
  | cons o a ih => cases o <;> simp [recordedOf, ih]

theorem pointsText_eq {α : Type} (fmt : α → List Char) (ps : List (Pt α)) (cs : List Vec3b) :
    pointsText fmt ps cs = (ps.zip cs).flatMap (fun pc => vertexLine fmt pc.1 pc.2) := by
  induction ps generalizing cs with
  | nil => simp [pointsText]
  | cons p ps ih => cases cs <;> simp [pointsText, ih]

def pre : List Char := "ply\nformat ascii 1.0\nelement vertex ".toList
def post : List Char := ("\nproperty float x\nproperty float y\nproperty float z\n" ++
        "property uchar red\nproperty uchar green\nproperty uchar blue\nend_header\n").toList

def field (n : Nat) : List Char :=
  toStringC n ++ List.replicate (countSpace - (toStringC n).length) ' '

def body {α : Type} (fmt : α → List Char) (r : List (Pt α × Vec3b)) : List Char :=
  r.flatMap (fun pc => vertexLine fmt pc.1 pc.2)

theorem initialText_eq : initialText = pre ++ field 0 ++ post := by decide +kernel

theorem toStringC_length_le {n : Nat} (h : n ≤ intMax) : (toStringC n).length ≤ countSpace := by
  have := (Nat.length_toDigits_le_iff (b := 10) (n := n) (k := 19) (by decide) (by decide)).2
    (Nat.lt_of_le_of_lt h (by decide))
  exact this

theorem field_length {n : Nat} (h : n ≤ intMax) : (field n).length = countSpace := by
  have := toStringC_length_le h
  simp [field]; omega

theorem pre_length : pre.length = countPos := by decide +kernel

theorem overwrite_eq {n m : Nat} (hn : n ≤ intMax) (hm : m ≤ intMax) (t : List Char) :
    overwriteAt (pre ++ field n ++ t) countPos (field m) = pre ++ field m ++ t := by
  unfold overwriteAt
  have e : (pre ++ field n ++ t) = pre ++ (field n ++ t) := by simp
  rw [e, ← pre_length, List.take_left, List.drop_append, List.drop_eq_nil_of_le (by omega)]
  rw [field_length hm, ← field_length hn]
  simp

/-- Shape of every reachable holder: `k` is the declared count. -/
structure Shape {α : Type} (fmt : α → List Char) (r : List (Pt α × Vec3b)) (k : Nat) (h : Holder) :
    Prop where
  file : h.file = pre ++ field k ++ (post ++ body fmt r)
  count : h.pointCount = r.length
  small : r.length ≤ intMax
  kle : k ≤ r.length

theorem shape_init {α : Type} (fmt : α → List Char) :
    Shape fmt ([] : List (Pt α × Vec3b)) 0 { file := initialText, pointCount := 0 } :=
  ⟨by simp [initialText_eq, body], rfl, by simp, by simp⟩

theorem shape_put {α : Type} {fmt : α → List Char} {r : List (Pt α × Vec3b)} {k : Nat} {h h' : Holder}
    {ps : List (Pt α)} {cs : List Vec3b} (hs : Shape fmt r k h)
    (e : putPoints fmt h ps cs = .ok h') : Shape fmt (r ++ ps.zip cs) k h' := by
  unfold putPoints at e
  simp only at e
  split at e
  · cases e
  · split at e
    · cases e
    · cases e
      refine ⟨?_, ?_, ?_, ?_⟩
      · simp [hs.file, pointsText_eq, body]
      · simp [hs.count]
      · have := hs.count; simp; omega
      · have := hs.kle; simp; omega

theorem shape_update {α : Type} {fmt : α → List Char} {r : List (Pt α × Vec3b)} {k : Nat}
    {h h' : Holder} (hs : Shape fmt r k h)
    (e : updatePointCount h = .ok h') : Shape fmt r r.length h' := by
  unfold updatePointCount at e
  simp only at e
  split at e
  · cases e
  · cases e
    refine ⟨?_, hs.count, hs.small, Nat.le_refl _⟩
    have hk : k ≤ intMax := Nat.le_trans hs.kle hs.small
    show overwriteAt h.file countPos (field h.pointCount) = _
    rw [hs.file, hs.count, overwrite_eq hk hs.small]

theorem put_ok {α : Type} {fmt : α → List Char} {r : List (Pt α × Vec3b)} {k : Nat} {h : Holder}
    {ps : List (Pt α)} {cs : List Vec3b} (hs : Shape fmt r k h)
    (hle : (r ++ ps.zip cs).length ≤ intMax) : ∃ h', putPoints fmt h ps cs = .ok h' := by
  unfold putPoints
  have := hs.count
  simp only [List.length_append, List.length_zip] at hle
  simp only
  rw [if_neg (by omega), if_neg (by omega)]
  exact ⟨_, rfl⟩

theorem put_ub {α : Type} {fmt : α → List Char} {r : List (Pt α × Vec3b)} {k : Nat} {h : Holder}
    {ps : List (Pt α)} {cs : List Vec3b} (hs : Shape fmt r k h)
    (hle : ¬ (r ++ ps.zip cs).length ≤ intMax) : putPoints fmt h ps cs = .error .ub := by
  unfold putPoints
  have := hs.count
  simp only [List.length_append, List.length_zip] at hle
  simp only
  split
  · rfl
  · rw [if_pos (by omega)]

theorem update_ok {α : Type} {fmt : α → List Char} {r : List (Pt α × Vec3b)} {k : Nat} {h : Holder}
    (hs : Shape fmt r k h) : ∃ h', updatePointCount h = .ok h' := by
  unfold updatePointCount
  have : (toStringC h.pointCount).length ≤ countSpace :=
    toStringC_length_le (by rw [hs.count]; exact hs.small)
  simp only
  rw [if_neg (by omega)]
  exact ⟨_, rfl⟩

/-- Declared count after a history, starting from `r` recorded pairs and declared `k`. -/
def declared {α : Type} (r : List (Pt α × Vec3b)) (k : Nat) : List (Op α) → Nat
  | [] => k
  | .put ps cs :: ops => declared (r ++ ps.zip cs) k ops
  | .update :: ops => declared r r.length ops

theorem declared_snoc_put {α : Type} (ops : List (Op α)) (ps : List (Pt α)) (cs : List Vec3b)
    (r : List (Pt α × Vec3b)) (k : Nat) :
    declared r k (ops ++ [.put ps cs]) = declared r k ops := by
  induction ops generalizing r k with
  | nil => simp [declared]
  | cons o ops ih => cases o <;> simp [declared, ih]

theorem declared_snoc_update {α : Type} (ops : List (Op α)) (r : List (Pt α × Vec3b)) (k : Nat) :
    declared r k (ops ++ [.update]) = (r ++ recordedOf ops).length := by
  induction ops generalizing r k with
  | nil => simp [declared, recordedOf]
  | cons o ops ih => cases o <;> simp [declared, ih, recordedOf]

theorem shape_run {α : Type} {fmt : α → List Char} (ops : List (Op α)) {r : List (Pt α × Vec3b)}
    {k : Nat} {h h' : Holder} (hs : Shape fmt r k h) (e : run fmt h ops = .ok h') :
    Shape fmt (r ++ recordedOf ops) (declared r k ops) h' := by
  induction ops generalizing r k h with
  | nil => simp [run] at e; subst e; simpa [recordedOf, declared] using hs
  | cons op ops ih =>
    unfold run at e
    split at e
    · rename_i h1 e1
      cases op with
      | put ps cs =>
        have := ih (shape_put hs e1) e
        simpa [recordedOf, declared] using this
      | update =>
        have := ih (shape_update hs e1) e
        simpa [recordedOf, declared] using this
    · cases e

theorem run_ok {α : Type} {fmt : α → List Char} (ops : List (Op α)) {r : List (Pt α × Vec3b)}
    {k : Nat} {h : Holder} (hs : Shape fmt r k h)
    (hle : (r ++ recordedOf ops).length ≤ intMax) : ∃ h', run fmt h ops = .ok h' := by
  induction ops generalizing r k h with
  | nil => exact ⟨h, rfl⟩
  | cons op ops ih =>
    cases op with
    | put ps cs =>
      have hle2 : (r ++ ps.zip cs).length ≤ intMax := by
        simp only [recordedOf, List.length_append] at hle ⊢; omega
      obtain ⟨h1, e1⟩ := put_ok hs hle2
      obtain ⟨h2, e2⟩ := ih (shape_put hs e1) (by simpa [recordedOf] using hle)
      exact ⟨h2, by simp [run, step, e1, e2]⟩
    | update =>
      obtain ⟨h1, e1⟩ := update_ok hs
      obtain ⟨h2, e2⟩ := ih (shape_update hs e1) (by simpa [recordedOf] using hle)
      exact ⟨h2, by simp [run, step, e1, e2]⟩

theorem run_ub {α : Type} {fmt : α → List Char} (ops : List (Op α)) {r : List (Pt α × Vec3b)}
    {k : Nat} {h : Holder} (hs : Shape fmt r k h)
    (hle : ¬ (r ++ recordedOf ops).length ≤ intMax) : run fmt h ops = .error .ub := by
  induction ops generalizing r k h with
  | nil => exact absurd hs.small (by simpa [recordedOf] using hle)
  | cons op ops ih =>
    cases op with
    | put ps cs =>
      by_cases hle2 : (r ++ ps.zip cs).length ≤ intMax
      · obtain ⟨h1, e1⟩ := put_ok hs hle2
        simp [run, step, e1, ih (shape_put hs e1) (by simpa [recordedOf] using hle)]
      · simp [run, step, put_ub hs hle2]
    | update =>
      obtain ⟨h1, e1⟩ := update_ok hs
      simp [run, step, e1, ih (shape_update hs e1) (by simpa [recordedOf] using hle)]

theorem nl_not_digits (n : Nat) : '\n' ∉ toStringC n := fun h => by
  have := Nat.isDigit_of_mem_toDigits (by decide) (by decide) h
  revert this; decide

/-- The text of one vertex line without its terminator. -/
def lineText {α : Type} (fmt : α → List Char) (pc : Pt α × Vec3b) : List Char :=
  fmt pc.1.x ++ [' '] ++ fmt pc.1.y ++ [' '] ++ fmt pc.1.z ++ [' ']
    ++ toStringC pc.2.c2.val ++ [' '] ++ toStringC pc.2.c1.val ++ [' '] ++ toStringC pc.2.c0.val

theorem lines_body {α : Type} (fmt : α → List Char) (hf : ∀ a, '\n' ∉ fmt a)
    (r : List (Pt α × Vec3b)) (x : List Char) :
    lines (body fmt r ++ x) = r.map (lineText fmt) ++ lines x := by
  induction r with
  | nil => simp [body]
  | cons pc r ih =>
    have : body fmt (pc :: r) ++ x = lineText fmt pc ++ '\n' :: (body fmt r ++ x) := by
      simp [body, vertexLine, lineText]
    rw [this, lines_append]
    · simp [ih]
    · simp [lineText, hf, nl_not_digits]

theorem nl_not_field (n : Nat) : '\n' ∉ field n := by
  simp [field, nl_not_digits]

theorem pre_lines : pre = "ply".toList ++ '\n' :: ("format ascii 1.0".toList ++ '\n' :: elementVertex) := by
  decide +kernel

theorem post_lines : post = '\n' :: ("property float x".toList ++ '\n' ::
      ("property float y".toList ++ '\n' :: ("property float z".toList ++ '\n' ::
      ("property uchar red".toList ++ '\n' :: ("property uchar green".toList ++ '\n' ::
      ("property uchar blue".toList ++ '\n' :: ("end_header".toList ++ ['\n']))))))) := by
  decide +kernel

theorem lines_shape_append {α : Type} {fmt : α → List Char} (hf : ∀ a, '\n' ∉ fmt a)
    {r : List (Pt α × Vec3b)} {k : Nat} {h : Holder} (hs : Shape fmt r k h) (x : List Char) :
    lines (h.file ++ x) = ["ply".toList, "format ascii 1.0".toList, elementVertex ++ field k,
      "property float x".toList, "property float y".toList, "property float z".toList,
      "property uchar red".toList, "property uchar green".toList, "property uchar blue".toList,
      "end_header".toList] ++ (r.map (lineText fmt) ++ lines x) := by
  have e : h.file ++ x = "ply".toList ++ '\n' :: ("format ascii 1.0".toList ++ '\n' ::
      ((elementVertex ++ field k) ++ '\n' :: ("property float x".toList ++ '\n' ::
      ("property float y".toList ++ '\n' :: ("property float z".toList ++ '\n' ::
      ("property uchar red".toList ++ '\n' :: ("property uchar green".toList ++ '\n' ::
      ("property uchar blue".toList ++ '\n' :: ("end_header".toList ++ '\n' :: (body fmt r ++ x))))))))))
      := by
    rw [hs.file, pre_lines, post_lines]
    simp only [List.append_assoc, List.cons_append, List.nil_append]
  rw [e, lines_append, lines_append, lines_append, lines_append, lines_append, lines_append,
    lines_append, lines_append, lines_append, lines_append, lines_body fmt hf]
  · rfl
  · decide
  · decide
  · decide
  · decide
  · decide
  · decide
  · decide
  · simp only [List.mem_append, not_or]; exact ⟨by decide, nl_not_field k⟩
  · decide
  · decide

theorem declared_shape_append {α : Type} {fmt : α → List Char} (hf : ∀ a, '\n' ∉ fmt a)
    {r : List (Pt α × Vec3b)} {k : Nat} {h : Holder} (hs : Shape fmt r k h) (x : List Char) :
    declaredCount (h.file ++ x) = some k := by
  unfold declaredCount
  rw [lines_shape_append hf hs]
  have h1 : elementVertex.isPrefixOf "ply".toList = false := by decide
  have h2 : elementVertex.isPrefixOf "format ascii 1.0".toList = false := by decide
  have h3 : elementVertex.isPrefixOf (elementVertex ++ field k) = true := by simp
  simp only [List.cons_append, List.find?_cons, h1, h2, h3]
  simp only [List.drop_left]
  exact number_pad k _

theorem declared_shape {α : Type} {fmt : α → List Char} (hf : ∀ a, '\n' ∉ fmt a)
    {r : List (Pt α × Vec3b)} {k : Nat} {h : Holder} (hs : Shape fmt r k h) :
    declaredCount h.file = some k := by
  have := declared_shape_append hf hs []
  rwa [List.append_nil] at this

theorem vertexLines_shape_append {α : Type} {fmt : α → List Char} (hf : ∀ a, '\n' ∉ fmt a)
    {r : List (Pt α × Vec3b)} {k : Nat} {h : Holder} (hs : Shape fmt r k h) (x : List Char) :
    vertexLines (h.file ++ x) = r.map (lineText fmt) ++ lines x := by
  unfold vertexLines
  rw [lines_shape_append hf hs]
  have h3 : (elementVertex ++ field k ≠ "end_header".toList) := by
    intro e
    have := congrArg List.length e
    have e1 : elementVertex.length = 15 := by decide
    have e2 : "end_header".toList.length = 10 := by decide
    rw [List.length_append] at this
    omega
  have n0 : "ply".toList ≠ "end_header".toList := by decide
  have n1 : "format ascii 1.0".toList ≠ "end_header".toList := by decide
  have n4 : "property float x".toList ≠ "end_header".toList := by decide
  have n5 : "property float y".toList ≠ "end_header".toList := by decide
  have n6 : "property float z".toList ≠ "end_header".toList := by decide
  have n7 : "property uchar red".toList ≠ "end_header".toList := by decide
  have n8 : "property uchar green".toList ≠ "end_header".toList := by decide
  have n9 : "property uchar blue".toList ≠ "end_header".toList := by decide
  simp only [List.cons_append, List.dropWhile_cons, h3, n0, n1, n4, n5, n6, n7, n8, n9, ne_eq,
    not_false_eq_true, decide_true, if_true, not_true_eq_false, decide_false]
  simp

theorem vertexLines_shape {α : Type} {fmt : α → List Char} (hf : ∀ a, '\n' ∉ fmt a)
    {r : List (Pt α × Vec3b)} {k : Nat} {h : Holder} (hs : Shape fmt r k h) :
    vertexLines h.file = r.map (lineText fmt) := by
  have := vertexLines_shape_append hf hs []
  rw [List.append_nil] at this
  rw [this]; simp [lines]

end Mdso.Ply
