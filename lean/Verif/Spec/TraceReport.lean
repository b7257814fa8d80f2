import Verif.Model.TraceReport
import Verif.Spec.ImmaturePoint

/-!
# Vocabulary for statements about the report on tracing
-/

set_option autoImplicit false

namespace Mdso.ReportSpec

open Mdso.Trace Mdso.TraceSpec

/-- `os` are the outcomes of tracing each of the candidates `cs`, in this order: the status and the candidate afterwards. -/
def Outcomes (fuel : Nat) (cs : List (Env × Point)) (os : List (Status × Point)) : Prop :=
  List.Forall₂ (fun c o => traceOn c.1 fuel c.2 = .ok (some o)) cs os

open Classical in
/-- How many elements have a property. -/
noncomputable def number {α : Type} (P : α → Prop) (l : List α) : Nat := (l.filter fun a => decide (P a)).length

/-- The candidates of a running system with `L` pyramid levels: whatever happened to them so far. -/
def Candidates (L : Int) (cs : List (Env × Point)) : Prop :=
  ∀ c ∈ cs, c.1.s.levelNum = L ∧ ∃ t g, History (fun e => e.s.levelNum = L) t g c.2

end Mdso.ReportSpec
