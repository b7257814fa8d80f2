import Verif.Model.Triangulation
import Mathlib.Data.Fintype.Card
import Mathlib.Data.Fintype.Pi
import Mathlib.Data.Fintype.Prod

/-!
# Shares of sequences of coins
-/

set_option autoImplicit false

namespace Mdso.Tri.Spec

open Classical in
/-- The share of the elements of a finite type that have a property: its probability if all are equally likely. -/
noncomputable def share {α : Type} [Fintype α] (P : α → Prop) : ℝ := (Finset.univ.filter P).card / Fintype.card α

/-- A finite sequence of coins for one walk. -/
def coinsOf {n : Nat} (c : Fin n → Bool) : Nat → Bool := fun i => if h : i < n then c ⟨i, h⟩ else false

/-- One finite sequence of coins for each of the vertices `first`, `first + 1`, ... -/
def tableOf (first : Nat) {k n : Nat} (c : Fin k → Fin n → Bool) : Nat → Nat → Bool :=
  fun v => if h : first ≤ v ∧ v - first < k then coinsOf (c ⟨v - first, h.2⟩) else fun _ => false

end Mdso.Tri.Spec
