import Mathlib.Algebra.Order.Field.Basic
import Mathlib.Algebra.BigOperators.Fin

/-!
# Specification of the pixel selector

The picture is divided, from the upper left corner, into square blocks of a given side. Only blocks that end
before the last row and column are considered.
-/

set_option autoImplicit false

namespace Mdso.PixSelSpec

variable {K : Type} [Field K] [LinearOrder K]

/-- Mean of the values in the block in block row `a` and block column `b`. -/
def mean (px : Nat → Nat → K) (bs a b : Nat) : K :=
  (∑ y ∈ Finset.range bs, ∑ x ∈ Finset.range bs, px (a * bs + y) (b * bs + x)) / ((bs * bs : Nat) : K)

/-- The block holds a value that exceeds its mean by more than the threshold. -/
def Strong (px : Nat → Nat → K) (bs : Nat) (thr : K) (a b : Nat) : Prop :=
  ∃ y x, y < bs ∧ x < bs ∧ mean px bs a b + thr < px (a * bs + y) (b * bs + x)

/-- The pixel `(x, y)` is the maximum of its block and exceeds the block's mean by more than the threshold. -/
def IsPick (rows cols : Nat) (px : Nat → Nat → K) (bs : Nat) (thr : K) (p : Nat × Nat) : Prop :=
  ∃ a b, (a + 1) * bs < rows ∧ (b + 1) * bs < cols ∧
    a * bs ≤ p.2 ∧ p.2 < (a + 1) * bs ∧ b * bs ≤ p.1 ∧ p.1 < (b + 1) * bs ∧
    (∀ y x, y < bs → x < bs → px (a * bs + y) (b * bs + x) ≤ px p.2 p.1) ∧
    mean px bs a b + thr < px p.2 p.1

open Classical in
/-- Number of strong blocks. -/
noncomputable def strongCount (rows cols : Nat) (px : Nat → Nat → K) (bs : Nat) (thr : K) : Nat :=
  (((Finset.range rows) ×ˢ (Finset.range cols)).filter fun q =>
    (q.1 + 1) * bs < rows ∧ (q.2 + 1) * bs < cols ∧ Strong px bs thr q.1 q.2).card

/-- Numbers of strong blocks for thresholds `i`, `i + 1`, ..., each time with twice the block side. -/
noncomputable def counts (rows cols : Nat) (px : Nat → Nat → K) (bs : Nat) : Nat → List K → List Nat
  | _, [] => []
  | i, t :: ts => strongCount rows cols px (2 ^ i * bs) t :: counts rows cols px bs (i + 1) ts

end Mdso.PixSelSpec
