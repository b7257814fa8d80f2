import Verif.Model.NumberText

/-!
# Specification of the text of numbers
-/

set_option autoImplicit false

namespace Mdso.Num.Spec

/-- `x` is the value of a finite `double` (IEEE 754, binary64): 53 bits and an exponent. -/
def IsDouble (x : ℚ) : Prop := ∃ m e : Int, |m| < 2 ^ 53 ∧ -1074 ≤ e ∧ e ≤ 971 ∧ x = m * 2 ^ e

/-- Every `double` there is. -/
def IsDbl : Dbl → Prop
  | .fin x => IsDouble x
  | _ => True

/-- `x` has at most `n` significant decimal digits. -/
def HasDigits (n : Nat) (x : ℚ) : Prop := ∃ k e : Int, |k| < 10 ^ n ∧ x = k * 10 ^ e

/-- `v` is within the part `rel` of `x`. -/
def Within (rel : ℚ) (v x : ℚ) : Prop := |v - x| ≤ rel * |x|

end Mdso.Num.Spec
