import Mathlib.Data.Int.Log
import Mathlib.Data.Rat.Floor
import Mathlib.Algebra.Order.Field.Basic
import Verif.Model.Fault

/-!
# Model of the text of numbers

Models how numbers get into text files and back: `DataSerializer` (source/system/serialization.cpp:14-23, include/system/serialization.h:30-83), the
bounds of the depth colours in a snapshot (source/system/serialization.cpp:242-246, 267-271), and the streams of `TrajectoryWriter`, `PlyHolder` and
`printInPly`.

* A finite `double` is its value, a rational number; the sign of zero is left out.
* A text of a number is its sign, its digits as a number, and the power of ten of the last one. The two notations of `operator<<` (fixed or with an
  exponent, without trailing zeros) of the same text are identified.
* `operator<<` prints the decimal number with the given number of significant digits that is nearest to the value, with ties to the even last digit;
  `operator>>` gives the `double` nearest to the text, with ties to the even significand. Both is what glibc does.
-/

set_option autoImplicit false

namespace Mdso.Num

/-- The nearest integer, the even one of two. -/
def roundEven (q : ℚ) : Int :=
  if q - ⌊q⌋ < 1 / 2 then ⌊q⌋ else if 1 / 2 < q - ⌊q⌋ then ⌊q⌋ + 1 else if ⌊q⌋ % 2 = 0 then ⌊q⌋ else ⌊q⌋ + 1

/-- A decimal number. -/
structure Dec where
  neg : Bool
  digits : Nat
  exp : Int
  deriving DecidableEq

/-- Its absolute value. -/
def Dec.mag (d : Dec) : ℚ := d.digits * 10 ^ d.exp

/-- Its value. -/
def Dec.value (d : Dec) : ℚ := if d.neg then -d.mag else d.mag

/-- `stream << x` for a stream with `precision(prec)`, finite `x`. -/
def printed (prec : Nat) (x : ℚ) : Dec :=
  if x = 0 then ⟨false, 0, 0⟩
  else ⟨decide (x < 0), (roundEven (|x| / 10 ^ (Int.log 10 |x| - (prec - 1 : Int)))).toNat, Int.log 10 |x| - (prec - 1 : Int)⟩

/-- The power of two of the last bit of the `double`s next to `v`. -/
def lastBit (v : ℚ) : Int := max (Int.log 2 v - 52) (-1074)

/-- The `double` next to `v`, not negative; `none` if it is too large. -/
def nearest (v : ℚ) : Option ℚ :=
  if v = 0 then some 0
  else if 2 ^ (1024 : Int) ≤ roundEven (v / 2 ^ lastBit v) * (2 : ℚ) ^ lastBit v then none
  else some (roundEven (v / 2 ^ lastBit v) * 2 ^ lastBit v)

/-- A `double`. -/
inductive Dbl where
  | fin (x : ℚ)
  | inf (neg : Bool)
  | nan
  deriving DecidableEq

/-- A text of a `double`: a decimal number, `inf`, `-inf` or `nan`. -/
inductive Text where
  | dec (d : Dec)
  | inf (neg : Bool)
  | nan
  deriving DecidableEq

/-- `stream << x`. Boost's `nonfinite_num_put` (source/system/serialization.cpp:9-10) writes infinities and NaN as the standard facet does. -/
def put (prec : Nat) : Dbl → Text
  | .fin x => .dec (printed prec x)
  | .inf neg => .inf neg
  | .nan => .nan

/-- The value of a decimal text. If it is too large the largest finite number is stored and the stream fails. -/
def readDec (d : Dec) : Except Unit Dbl :=
  match nearest d.mag with
  | none => .error ()
  | some r => .ok (.fin (if d.neg then -r else r))

/-- `stream >> x` with Boost's `nonfinite_num_get` (source/system/serialization.cpp:11). -/
def getBoost : Text → Except Unit Dbl
  | .dec d => readDec d
  | .inf neg => .ok (.inf neg)
  | .nan => .ok .nan

/-- `stream >> x` with the standard facet: `inf` and `nan` are not read. -/
def getStd : Text → Except Unit Dbl
  | .dec d => readDec d
  | _ => .error ()

/-- The precision set by `DataSerializer<STORE>` (source/system/serialization.cpp:16): `max_digits10` of a `double` is 17. -/
def snapshotPrecision : Nat := 17 + 1

/-- The precision of a stream nobody has told otherwise, such as those of `TrajectoryWriter` (source/output/TrajectoryWriter.cpp:30-31), of `PlyHolder`
and of the bounds of the colours (source/system/serialization.cpp:269). -/
def defaultPrecision : Nat := 6

/-- The numbers written by `DataSerializer<STORE>` (include/system/serialization.h:34-55), one after the other. -/
def store (xs : List Dbl) : List Text := xs.map (put snapshotPrecision)

/-- `n` numbers read by `DataSerializer<LOAD>` (include/system/serialization.h:61-88) from what is left of the file; `none` if a read fails. -/
def load : Nat → List Text → Option (List Dbl × List Text)
  | 0, ts => some ([], ts)
  | _ + 1, [] => none
  | n + 1, t :: ts =>
    match getBoost t with
    | .error _ => none
    | .ok x => (load n ts).map fun r => (x :: r.1, r.2)

/-- `SnapshotSaver::saveDepthColBounds` (source/system/serialization.cpp:267-271). -/
def saveDepthColBounds (b : Dbl × Dbl) : List Text := [put defaultPrecision b.1, put defaultPrecision b.2]

/-- `SnapshotLoader::loadDepthColBounds` (source/system/serialization.cpp:242-246). `old`: the global bounds before. A text that is not a number sets the
number to 0; a stream that has failed does not touch any other. A missing file is an empty one. (A number that is too large becomes the largest finite one;
it is not distinguished here, since no such text is written.) -/
def loadDepthColBounds (old : Dbl × Dbl) : List Text → Dbl × Dbl
  | t1 :: t2 :: _ =>
    match getStd t1 with
    | .error _ => (.fin 0, old.2)
    | .ok x => (x, (getStd t2).toOption.getD (.fin 0))
  | _ => old

/-- The twelve numbers of a line of the matrix file (`putInMatrixForm`, source/util/util.cpp:128-132), or the seven of a line of the other one
(`putMotion`, source/util/util.cpp:123-126). -/
def poseLine (xs : List ℚ) : List Text := xs.map fun x => put defaultPrecision (.fin x)

end Mdso.Num
