import Verif.Spec.TraceReport
import Verif.Spec.Brightness
import Verif.Spec.TraceTurn

/-!
# Other descriptions of the same sequence of frames
-/

set_option autoImplicit false

namespace Mdso.ReportSpec

open Mdso.Trace Mdso.Report Mdso.TraceSpec

/-- The same sequence of frames, where each situation is described otherwise. -/
def Redescribed (R : Env → Env → Prop) (fs fs' : List (List Env)) : Prop := List.Forall₂ (List.Forall₂ R) fs fs'

/-- Both pictures of a trace are taken in another light, with the contrast of the second one multiplied by `γ`; see C179. The rest may differ from trace to trace. -/
def InLight (γ : ℝ) (e e' : Env) : Prop := ∃ f light' δ, Relit.Follows f light' γ δ e ∧ e' = Relit.relight f light' γ δ e

end Mdso.ReportSpec
