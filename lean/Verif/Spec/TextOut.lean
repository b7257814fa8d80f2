import Verif.Model.TextOut

/-!
# Vocabulary for statements about texts: how a reader splits them into words
-/

set_option autoImplicit false

namespace Mdso.OutSpec

open Mdso.Stat

/-- Characters that separate words. -/
def blank (c : Char) : Bool := c == ' ' || c == '\n'

/-- The words of a text that begins inside the word `w`. -/
def wordsFrom : List Char → List Char → List (List Char)
  | w, [] => if w = [] then [] else [w]
  | w, c :: cs => if blank c then (if w = [] then wordsFrom [] cs else w :: wordsFrom [] cs) else wordsFrom (w ++ [c]) cs

/-- The words of a text, as `operator>>` and most programs read them. -/
def words (t : List Char) : List (List Char) := wordsFrom [] t

/-- A text that is one word. -/
def IsWord (t : List Char) : Prop := t ≠ [] ∧ ∀ c ∈ t, blank c = false

/-- The numbers of a record in the order of the file: disparity, expected error, error before and after refinement, true depth, depth found, depth before
refinement, energies before and after refinement. -/
def columns (e : EpiErr) : List ℝ :=
  [e.disparity, e.expectedErr, e.realErrBef, e.realErr, e.depthGT, e.depth, e.depthBeforeSubpixel, e.eBeforeSubpixel, e.eAfterSubpixel]

end Mdso.OutSpec
