import Verif.Model.ColourFlags

/-!
# What is expected of the flags for depth colours
-/

set_option autoImplicit false

namespace Mdso.ColourSpec

open Mdso.Util

/-- The number of entries of a list with a property. -/
noncomputable def Count {α : Type} (P : α → Prop) (l : List α) : ℝ :=
  open Classical in ((l.filter fun x => decide (P x)).length : ℝ)

end Mdso.ColourSpec
