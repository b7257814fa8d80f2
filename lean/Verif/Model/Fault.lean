/-!
# Abnormal outcomes of C++ code
-/

set_option autoImplicit false

namespace Mdso

/-- How a call can end other than by returning: undefined behaviour, a failed glog `CHECK`, a C++
exception. -/
inductive Fault where
  | ub
  | abort
  | exception
  deriving DecidableEq, Repr

/-- Subscript of a vector with a non-negative index; out of range it is undefined behaviour. -/
def at' {α : Type} (l : List α) (i : Nat) : Except Fault α :=
  match l[i]? with
  | some a => .ok a
  | none => .error .ub

theorem at'_lt {α : Type} {l : List α} {i : Nat} (h : i < l.length) : at' l i = .ok l[i] := by
  unfold at'; rw [List.getElem?_eq_getElem h]

theorem at'_ok {α : Type} {l : List α} {i : Nat} {a : α} (h : at' l i = .ok a) : l[i]? = some a := by
  unfold at' at h; split at h
  · cases h; assumption
  · cases h

end Mdso
