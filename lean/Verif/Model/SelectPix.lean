import Verif.Model.PixelSelector
import Mathlib.Data.List.Sort
import Mathlib.Data.List.Lex

/-!
# Model of the sample program `selectpix`

Models samples/selectpix/main.cpp: the selector of pixels run on all images of a directory. Names and paths are lists of bytes. Not
modelled: the check of the number of arguments, the circles drawn on the pictures, the window and the wait for a key.
-/

set_option autoImplicit false

namespace Mdso.SelectPix

open Mdso.PixSel

/-- A file name or a path: its bytes. -/
abbrev Name := List Nat

/-- `'/'`. -/
def slash : Nat := 47

/-- `ext` (samples/selectpix/main.cpp:10): `.jpg` and `.png`. -/
def ext : List Name := [[46, 106, 112, 103], [46, 112, 110, 103]]

/-- `isImage` (samples/selectpix/main.cpp:12-19). -/
def isImage (fname : Name) : Bool :=
  ext.any fun e => decide (fname.length ≥ e.length) && ((fname.drop (fname.length - e.length)).take e.length == e)

/-- `dirname` (samples/selectpix/main.cpp:34-36). -/
def dirnameOf (arg : Name) : Name := if arg ≠ [] ∧ arg.getLast? ≠ some slash then arg ++ [slash] else arg

/-- What the program is run on. `listing` is what `readdir` returns one by one, `none` if `opendir` failed; `imread` is `cv::imread`, `none`
where it returns an empty matrix; `gradNorm` the gradient norms of the grey picture (`cvtBgrToGray` and `grad`, see
`Verif/Model/Frame.lean`); `shuffle k` the shuffles for the `k`-th picture. -/
structure World (K : Type) where
  arg : Name
  listing : Option (List Name)
  imread : Name → Option (Grad K)
  shuffle : Nat → Nat → List Pt → List Pt

/-- A picture shown: its file, the points marked in it and its height in the window (samples/selectpix/main.cpp:54-61). -/
structure Shown where
  fname : Name
  points : List Pt
  prefH : Int
  deriving DecidableEq

/-- How a run ends; `hangs` is a run whose loops in the selector used up the fuel. -/
inductive Ending where
  | finished
  | faulty (f : Fault)
  | hangs
  deriving DecidableEq

/-- `fnames` after the sort (samples/selectpix/main.cpp:39-44); `std::string` compares bytes lexicographically. -/
def sortedNames (entries : List Name) : List Name := entries.mergeSort fun a b => decide (a ≤ b)

/-- `prefH` (samples/selectpix/main.cpp:57-58). -/
noncomputable def prefH (rows cols : Nat) : Int := Util.truncInt ((rows : ℝ) / cols * 1200)

section
variable {K : Type} [Field K] [LinearOrder K]

/-- The loop over the files (samples/selectpix/main.cpp:46-63); `k` pictures have been shown so far. `cv::cvtColor` throws on an empty
matrix, `cv::resize` on an empty size. `default_pointsNum` is `needed`. -/
noncomputable def showAll (w : World K) (fuel : Nat) (s : Settings K) (needed : Nat) : Nat → State → List Name → List Shown × Ending
  | _, _, [] => ([], .finished)
  | k, st, nm :: nms =>
    let fname := dirnameOf w.arg ++ nm
    if isImage fname then
      match w.imread fname with
      | none => ([], .faulty .exception)
      | some g =>
        match select fuel (w.shuffle k) s st g needed with
        | .error f => ([], .faulty f)
        | .ok none => ([], .hangs)
        | .ok (some (pts, st')) =>
          if prefH g.rows g.cols ≤ 0 then ([], .faulty .exception)
          else
            let rest := showAll w fuel s needed (k + 1) st' nms
            (⟨fname, pts, prefH g.rows g.cols⟩ :: rest.1, rest.2)
    else showAll w fuel s needed k st nms

/-- `main` (samples/selectpix/main.cpp:32-65). `readdir` of a null pointer is undefined. -/
noncomputable def run (w : World K) (fuel : Nat) (s : Settings K) (needed : Nat) : List Shown × Ending :=
  match w.listing with
  | none => ([], .faulty .ub)
  | some entries => showAll w fuel s needed 0 (init s) (sortedNames entries)

end

end Mdso.SelectPix
