import Verif.Spec.WindowTrace

/-!
# Vocabulary for statements about candidates traced independently
-/

set_option autoImplicit false

namespace Mdso.ReportSpec

open Mdso.Report

/-- The counts of two groups of candidates together. -/
def together (r r' : Report) : Report :=
  ⟨r.traced + r'.traced, r.good + r'.good, List.zipWith (· + ·) r.byNumber r'.byNumber, List.zipWith (· + ·) r.onLevel r'.onLevel⟩

end Mdso.ReportSpec
