import Mathlib.Data.List.Basic
import Verif.Model.Fault

/-!
# Model of the output directory named after the time

Models `curTimeBrief` (`source/util/util.cpp`) and the output directory of `genply`
(`samples/mfov/genply/main.cpp`). Paths are the strings kept by `std::filesystem::path` (POSIX).
The clock and the time zone are the argument: what `std::localtime` returned.
-/

set_option autoImplicit false

namespace Mdso.TimeName

/-- `std::tm` as far as the format uses it. `year` is `tm_year + 1900`, `mon` is `tm_mon` (January is
0); the other members are as in C. -/
structure Tm where
  year : Int
  mon : Nat
  mday : Nat
  hour : Nat
  min : Nat
  sec : Nat
  deriving DecidableEq

/-- A decimal digit. -/
def digit (n : Nat) : Char := Char.ofNat (48 + n % 10)

/-- Two digits with a leading zero: `%m`, `%d`, `%H`, `%M`, `%S` of `std::strftime`. -/
def two (n : Nat) : List Char := [digit (n / 10), digit n]

/-- A number without leading zeros. -/
def dec (n : Nat) : List Char :=
  if n < 10 then [digit n] else dec (n / 10) ++ [digit n]
termination_by n
decreasing_by omega

/-- `%Y` of `std::strftime`: the year as a decimal number (glibc neither pads nor cuts it). -/
def yearText (y : Int) : List Char := if y < 0 then '-' :: dec y.natAbs else dec y.natAbs

/-- The expansion of `"%Y%m%d_%H%M%S"` (source/util/util.cpp:286). `%m` is `tm_mon + 1`. -/
def expand (t : Tm) : List Char :=
  yearText t.year ++ (two (t.mon + 1) ++ (two t.mday ++ ('_' :: (two t.hour ++ (two t.min ++ two t.sec)))))

/-- `maxTimedOutputStringSize` (source/util/util.cpp:283). -/
def maxSize : Nat := 22

/-- `curTimeBrief` (source/util/util.cpp:282-289); `tm` is what `std::localtime` returned, `none` for a
null pointer. `std::strftime` writes the text only if it fits, with its final zero, into
`maxTimedOutputStringSize + 1` characters; otherwise the array stays uninitialized and reading it is
undefined behaviour. -/
def curTimeBrief (tm : Option Tm) : Except Fault (List Char) :=
  match tm with
  | none => .error .ub
  | some t => if (expand t).length + 1 ≤ maxSize + 1 then .ok (expand t) else .error .ub

/-- `operator/` of `std::filesystem::path` on POSIX: an absolute right side replaces the left one,
otherwise a separator is added after a left side with a file name. -/
def join (p q : List Char) : List Char :=
  if q.head? = some '/' then q
  else if p = [] ∨ p.getLast? = some '/' then p ++ q
  else p ++ '/' :: q

/-- `outDir` (samples/mfov/genply/main.cpp:110-112). -/
def outDir (useTime : Bool) (dirPrefix outputDirectory : List Char) (tm : Option Tm) :
    Except Fault (List Char) :=
  if useTime then do
    let name ← curTimeBrief tm
    .ok (join (join "output".toList dirPrefix) name)
  else .ok outputDirectory

end Mdso.TimeName
