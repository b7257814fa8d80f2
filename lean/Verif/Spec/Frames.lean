/-!
# Specification of frame and keyframe bookkeeping

A history is the list of frame numbers fed to the system, oldest first. The specification says which of
them become keyframes and to which keyframe every other frame belongs. It does not mention windows,
poses, observers or the model of the system.
-/

set_option autoImplicit false

namespace Mdso.FrameSpec

/-- What a user can configure. -/
structure Policy where
  /-- how many frames are skipped between the two frames used for initialization -/
  skip : Nat
  /-- distance between keyframes -/
  shift : Int
  /-- go on choosing keyframes after initialization -/
  choose : Bool
  /-- frames belong to the newest keyframe (otherwise: to the one before it) -/
  fromLast : Bool

/-- All keyframes ever created, oldest first, each with the frames that belong to it. -/
abbrev Book := List (Int × List Int)

/-- Numbers of all keyframes. -/
def Book.keyFrames (b : Book) : List Int := b.map Prod.fst

/-- Numbers of all keyframes and of the frames that belong to them. -/
def Book.frames (b : Book) : List Int := b.flatMap (fun e => e.1 :: e.2)

/-- Give a frame to the newest keyframe, or to the one before it. -/
def attach (fromLast : Bool) (b : Book) (n : Int) : Book :=
  b.modify (b.length - (if fromLast then 1 else 2)) (fun e => (e.1, e.2 ++ [n]))

/-- A frame after initialization: at a multiple of `shift` from the newest keyframe it becomes a
keyframe (or is dropped if no more keyframes are chosen), otherwise it belongs to a keyframe. -/
def track (p : Policy) (b : Book) (n : Int) : Book :=
  match b.getLast? with
  | none => b
  | some (newest, _) =>
    if p.shift ∣ n - newest then (if p.choose then b ++ [(n, [])] else b)
    else attach p.fromLast b n

/-- The book after a history: the first frame and the one after `skip` more frames are the initial
keyframes; all later frames are tracked. -/
def book (p : Policy) : List Int → Book
  | [] => []
  | first :: rest =>
    match rest.drop p.skip with
    | [] => []
    | second :: later => later.foldl (track p) [(first, []), (second, [])]

/-- A frame number may be added to a history iff it is positive and larger than all before. -/
def Acceptable (history : List Int) (n : Int) : Prop := 0 < n ∧ ∀ m ∈ history, m < n

end Mdso.FrameSpec
