import Verif.Model.TimeName

/-!
# What a user expects of output directories named after the time
-/

set_option autoImplicit false

namespace Mdso.TimeNameSpec

open Mdso.TimeName

/-- What `std::localtime` returns: the members are in the ranges of the C standard (a leap second is
allowed), and `tm_year` is an `int`. -/
structure Valid (t : Tm) : Prop where
  yearLo : -2147483648 ≤ t.year - 1900
  yearHi : t.year - 1900 ≤ 2147483647
  mon : t.mon ≤ 11
  mday : 1 ≤ t.mday ∧ t.mday ≤ 31
  hour : t.hour ≤ 23
  min : t.min ≤ 59
  sec : t.sec ≤ 60

/-- The year has four digits. -/
def FourDigits (t : Tm) : Prop := 1000 ≤ t.year ∧ t.year ≤ 9999

/-- One local time is earlier than another: the first member in which they differ is smaller. -/
def Earlier (s t : Tm) : Prop :=
  s.year < t.year ∨ s.year = t.year ∧ (s.mon < t.mon ∨ s.mon = t.mon ∧ (s.mday < t.mday ∨
    s.mday = t.mday ∧ (s.hour < t.hour ∨ s.hour = t.hour ∧ (s.min < t.min ∨
      s.min = t.min ∧ s.sec < t.sec))))

/-- The order in which names are listed: by their characters. -/
def SortedBefore (a b : List Char) : Prop := List.Lex (fun x y : Char => x.toNat < y.toNat) a b

/-- The character of a figure from 0 to 9. -/
def figure (k : Nat) : Char := Char.ofNat (48 + k)

/-- `YYYYMMDD_HHMMSS`, the format the help text of the program promises
(samples/mfov/genply/main.cpp:58-62): fifteen characters, digits except for the underscore after the
eighth, which spell year, month (January is 1), day, hour, minute and second. -/
def Promised (t : Tm) (s : List Char) : Prop :=
  ∃ y1 y2 y3 y4 m1 m2 d1 d2 h1 h2 n1 n2 s1 s2 : Nat,
    (∀ k ∈ [y1, y2, y3, y4, m1, m2, d1, d2, h1, h2, n1, n2, s1, s2], k ≤ 9) ∧
    s = [y1, y2, y3, y4, m1, m2, d1, d2].map figure ++ '_' :: [h1, h2, n1, n2, s1, s2].map figure ∧
    t.year = 1000 * y1 + 100 * y2 + 10 * y3 + y4 ∧ t.mon + 1 = 10 * m1 + m2 ∧
    t.mday = 10 * d1 + d2 ∧ t.hour = 10 * h1 + h2 ∧ t.min = 10 * n1 + n2 ∧ t.sec = 10 * s1 + s2

end Mdso.TimeNameSpec
