import Verif.Model.PlyHolder

/-!
# Model of `printInPly`

Models `printInPly` of `source/util/util.cpp:33-73`. `finite` is `std::isfinite`, `fmt` the text
`operator<<` produces for a coordinate with 15 significant digits.
-/

set_option autoImplicit false

namespace Mdso.Ply

/-- The filtering loop of source/util/util.cpp:38-50. Reading `colors[i]` (line 40) past the end
of the vector is undefined behaviour, whether or not the point is finite. -/
def filterFinite {α : Type} (finite : α → Bool) :
    List (Pt α) → List Vec3b → Except Err (List (Pt α × Vec3b))
  | [], _ => .ok []
  | _ :: _, [] => .error .ub
  | p :: ps, c :: cs =>
    match filterFinite finite ps cs with
    | .error e => .error e
    | .ok r =>
      if finite p.x && finite p.y && finite p.z then .ok ((p, c) :: r) else .ok r

/-- The text of source/util/util.cpp:53-72. -/
def printedText {α : Type} (fmt : α → List Char) (r : List (Pt α × Vec3b)) : List Char :=
  "ply\nformat ascii 1.0\nelement vertex ".toList ++ toStringC r.length
    ++ ("\nproperty float x\nproperty float y\nproperty float z\n" ++
        "property uchar red\nproperty uchar green\nproperty uchar blue\nend_header\n").toList
    ++ r.flatMap (fun pc => vertexLine fmt pc.1 pc.2)

/-- `printInPly` (source/util/util.cpp:33-73): the text written to `out`. -/
def printInPly {α : Type} (finite : α → Bool) (fmt : α → List Char)
    (points : List (Pt α)) (colors : List Vec3b) : Except Err (List Char) :=
  match filterFinite finite points colors with
  | .error e => .error e
  | .ok r => .ok (printedText fmt r)

end Mdso.Ply
