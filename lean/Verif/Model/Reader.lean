/-!
# Model of the ground truth part of `MultiFovReader`

Models `samples/mfov/reader/MultiFovReader.cpp:48-63, 92-100`. The pose file is a sequence of
whitespace-separated tokens; the model keeps each token's meaning as a number (`none`: not a number) and
whether white space follows the last one. A token is consumed as a whole: a decimal fraction in the frame
number column, which `>>` would split, is not modelled.
-/

set_option autoImplicit false

namespace Mdso.Reader

/-- An input stream: remaining tokens, whether white space follows the last token, and the state bits. -/
structure Stream (N : Type) where
  tokens : List (Option N)
  trailingSpace : Bool
  eof : Bool
  fail : Bool

/-- A freshly opened file. -/
def Stream.open {N : Type} (tokens : List (Option N)) (trailingSpace : Bool) : Stream N :=
  { tokens := tokens, trailingSpace := trailingSpace, eof := false, fail := false }

/-- One formatted extraction `is >> x`. A stream with a state bit set extracts nothing. At the end of the
file both bits are set and the variable keeps its value. A malformed token sets the fail bit. Extracting the
last token meets the end of the file unless white space follows. The value is `none` if the variable is not
assigned a number from the file. -/
def Stream.extract {N : Type} (s : Stream N) : Stream N × Option N :=
  if s.eof || s.fail then ({ s with fail := true }, none)
  else
    match s.tokens with
    | [] => ({ s with eof := true, fail := true }, none)
    | none :: _ => ({ s with fail := true }, none)
    | some n :: rest => ({ s with tokens := rest, eof := rest.isEmpty && !s.trailingSpace }, some n)

/-- `k` extractions in a row. -/
def Stream.extracts {N : Type} : Nat → Stream N → Stream N × List (Option N)
  | 0, s => (s, [])
  | k + 1, s =>
    let r := s.extract
    let r' := Stream.extracts k r.1
    (r'.1, r.2 :: r'.2)

/-- The pose pushed for one round of the loop: `none` if one of the seven numbers was not read (then the
pose is made of indeterminate values), else the pose made of the seven numbers after the frame number. -/
def poseOf {N G : Type} (mk : List N → G) (vals : List (Option N)) : Option G :=
  match vals with
  | [] => none
  | _ :: nums => if nums.all (·.isSome) then some (mk (nums.filterMap id)) else none

/-- The loop `while (!posesIfs.eof())` (samples/mfov/reader/MultiFovReader.cpp:55-62), for at most `fuel`
rounds; `none` if it has not stopped by then. -/
def readLoop {N G : Type} (mk : List N → G) : Nat → Stream N → List (Option G) → Option (List (Option G))
  | fuel, s, acc =>
    if s.eof then some acc
    else
      match fuel with
      | 0 => none
      | fuel + 1 =>
        let r := Stream.extracts 8 s
        readLoop mk fuel r.1 (acc ++ [poseOf mk r.2])

/-- `worldToFrameGT` after construction (samples/mfov/reader/MultiFovReader.cpp:54-62): the identity, then
the poses read. `mk` makes a pose of the seven numbers of a line (`SE3(quat, trans).inverse()`). -/
def worldToFrameGT {N G : Type} (one : G) (mk : List N → G) (tokens : List (Option N)) (trailingSpace : Bool)
    (fuel : Nat) : Option (List (Option G)) :=
  readLoop mk fuel (Stream.open tokens trailingSpace) [some one]

/-- `getFrameCount` (samples/mfov/reader/MultiFovReader.cpp:100). -/
def getFrameCount {G : Type} (table : List (Option G)) : Nat := table.length

end Mdso.Reader
