import Verif.Model.PrintInPly
import Verif.Props.PlyHolder

/-!
# C04: one-shot point clouds
-/

set_option autoImplicit false

namespace Mdso.Ply
open Mdso.PlySpec

/-- A point all of whose coordinates are finite. -/
def AllFinite {α : Type} (finite : α → Bool) (p : Pt α) : Bool :=
  finite p.x && finite p.y && finite p.z

theorem filterFinite_ok {α : Type} (finite : α → Bool) (ps : List (Pt α)) (cs : List Vec3b)
    (h : ps.length ≤ cs.length) :
    filterFinite finite ps cs = .ok ((ps.zip cs).filter (fun v => AllFinite finite v.1)) := by
  induction ps generalizing cs with
  | nil => simp [filterFinite]
  | cons p ps ih =>
    cases cs with
    | nil => simp at h
    | cons c cs =>
      simp only [filterFinite, ih cs (by simpa using h), AllFinite, List.zip_cons_cons,
        List.filter_cons]
      split <;> rfl

theorem filterFinite_ub {α : Type} (finite : α → Bool) (ps : List (Pt α)) (cs : List Vec3b)
    (h : cs.length < ps.length) : filterFinite finite ps cs = .error .ub := by
  induction ps generalizing cs with
  | nil => simp at h
  | cons p ps ih =>
    cases cs with
    | nil => simp [filterFinite]
    | cons c cs => simp [filterFinite, ih cs (by simpa using h)]

theorem printedText_lines {α : Type} (fmt : α → List Char) (hf : ∀ a, '\n' ∉ fmt a)
    (r : List (Pt α × Vec3b)) :
    lines (printedText fmt r) = ["ply".toList, "format ascii 1.0".toList,
      elementVertex ++ toStringC r.length,
      "property float x".toList, "property float y".toList, "property float z".toList,
      "property uchar red".toList, "property uchar green".toList, "property uchar blue".toList,
      "end_header".toList] ++ r.map (lineText fmt) := by
  have e : printedText fmt r = "ply".toList ++ '\n' :: ("format ascii 1.0".toList ++ '\n' ::
      ((elementVertex ++ toStringC r.length) ++ '\n' :: ("property float x".toList ++ '\n' ::
      ("property float y".toList ++ '\n' :: ("property float z".toList ++ '\n' ::
      ("property uchar red".toList ++ '\n' :: ("property uchar green".toList ++ '\n' ::
      ("property uchar blue".toList ++ '\n' :: ("end_header".toList ++ '\n' :: (body fmt r ++ [])))))))))) := by
    show pre ++ toStringC r.length ++ post ++ body fmt r = _
    rw [pre_lines, post_lines]
    simp only [List.append_assoc, List.cons_append, List.nil_append, List.append_nil]
  rw [e, lines_append, lines_append, lines_append, lines_append, lines_append, lines_append,
    lines_append, lines_append, lines_append, lines_append, lines_body fmt hf]
  · simp [lines]
  · decide
  · decide
  · decide
  · decide
  · decide
  · decide
  · decide
  · simp only [List.mem_append, not_or]; exact ⟨by decide, nl_not_digits _⟩
  · decide
  · decide

/-- **C04.** With at least as many colours as points, `printInPly` writes a file that declares exactly the
number of points all of whose coordinates are finite, and whose vertex lines are exactly these points,
in input order, each with the colour of the same index. -/
theorem C04_prints_finite_points {α : Type} (finite : α → Bool) (fmt : α → List Char)
    (hfmt : ∀ a, '\n' ∉ fmt a) (points : List (Pt α)) (colors : List Vec3b)
    (h : points.length ≤ colors.length) :
    ∃ out, printInPly finite fmt points colors = .ok out ∧
      declaredCount out = some (points.filter (AllFinite finite)).length ∧
      vertexLines out =
        ((points.zip colors).filter (fun v => AllFinite finite v.1)).map (vertexText fmt) := by
  refine ⟨_, by unfold printInPly; rw [filterFinite_ok finite points colors h], ?_, ?_⟩
  · unfold declaredCount
    rw [printedText_lines fmt hfmt]
    have h1 : elementVertex.isPrefixOf "ply".toList = false := by decide
    have h2 : elementVertex.isPrefixOf "format ascii 1.0".toList = false := by decide
    have h3 : ∀ t : List Char, elementVertex.isPrefixOf (elementVertex ++ t) = true := by simp
    simp only [List.cons_append, List.find?_cons, h1, h2, h3, List.drop_left]
    have e : (points.filter (AllFinite finite)).length
        = ((points.zip colors).filter (fun v => AllFinite finite v.1)).length := by
      have : points = (points.zip colors).map Prod.fst := by
        rw [List.map_fst_zip h]
      conv => lhs; rw [this]
      rw [List.filter_map, List.length_map]
      rfl
    rw [e]
    simpa [toStringC] using number_pad
      ((points.zip colors).filter (fun v => AllFinite finite v.1)).length 0
  · unfold vertexLines
    rw [printedText_lines fmt hfmt, vertexText_eq]
    have h3 : ∀ t : List Char, (elementVertex ++ t ≠ "end_header".toList) := by
      intro t e
      have := congrArg List.length e
      have e1 : elementVertex.length = 15 := by decide
      have e2 : "end_header".toList.length = 10 := by decide
      rw [List.length_append] at this
      omega
    have n0 : "ply".toList ≠ "end_header".toList := by decide
    have n1 : "format ascii 1.0".toList ≠ "end_header".toList := by decide
    have n4 : "property float x".toList ≠ "end_header".toList := by decide
    have n5 : "property float y".toList ≠ "end_header".toList := by decide
    have n6 : "property float z".toList ≠ "end_header".toList := by decide
    have n7 : "property uchar red".toList ≠ "end_header".toList := by decide
    have n8 : "property uchar green".toList ≠ "end_header".toList := by decide
    have n9 : "property uchar blue".toList ≠ "end_header".toList := by decide
    simp only [List.cons_append, List.dropWhile_cons, h3, n0, n1, n4, n5, n6, n7, n8, n9, ne_eq,
      not_false_eq_true, decide_true, if_true, not_true_eq_false, decide_false]
    simp

/-- **C04**, the error branch: fewer colours than points is an out-of-bounds read. -/
theorem C04_missing_colors_ub {α : Type} (finite : α → Bool) (fmt : α → List Char)
    (points : List (Pt α)) (colors : List Vec3b) (h : colors.length < points.length) :
    printInPly finite fmt points colors = .error .ub := by
  unfold printInPly; rw [filterFinite_ub finite points colors h]

-- Coordinates `none` stand for non-finite values: the middle one of three points is dropped.
example : ((([⟨some 1, some 2, some 3⟩, ⟨some 1, none, some 3⟩, ⟨some 4, some 5, some 6⟩] :
      List (Pt (Option Nat))).zip
      [⟨1, 2, 3⟩, ⟨4, 5, 6⟩, ⟨7, 8, 9⟩]).filter (fun v => AllFinite Option.isSome v.1)).map
      (vertexText (fun o => (o.map (Nat.toDigits 10)).getD "nan".toList))
    = ["1 2 3 3 2 1".toList, "4 5 6 9 8 7".toList] := by decide

end Mdso.Ply
