/-!
# Reading an ASCII PLY file

An independent reader for the part of the PLY format that viewers rely on. It knows nothing of the
model of `PlyHolder`.
-/

set_option autoImplicit false

namespace Mdso.PlySpec

/-- The complete (line-feed terminated) lines of a text. -/
def lines : List Char → List (List Char)
  | [] => []
  | c :: cs =>
    if c = '\n' then [] :: lines cs
    else
      match lines cs with
      | [] => []                     -- (only an unterminated tail follows)
      | l :: ls => (c :: l) :: ls

/-- The value of a field consisting of decimal digits followed by spaces. -/
def number (field : List Char) : Option Nat :=
  let ds := field.takeWhile Char.isDigit
  if ds = [] then none
  else if (field.dropWhile Char.isDigit).all (· = ' ') then some (Nat.ofDigitChars 10 ds 0)
  else none

/-- The text that introduces the vertex count. -/
def elementVertex : List Char := "element vertex ".toList

/-- The vertex count the header declares: the number on the first line that starts with
`element vertex `. -/
def declaredCount (file : List Char) : Option Nat :=
  match (lines file).find? (fun l => elementVertex.isPrefixOf l) with
  | none => none
  | some l => number (l.drop elementVertex.length)

/-- The vertex lines: everything after the first `end_header` line. -/
def vertexLines (file : List Char) : List (List Char) :=
  ((lines file).dropWhile (fun l => l ≠ "end_header".toList)).drop 1

end Mdso.PlySpec
