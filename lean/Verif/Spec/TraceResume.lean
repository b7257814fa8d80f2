import Verif.Spec.ImmaturePoint

/-!
# Vocabulary for statements about tracing after a snapshot was loaded
-/

set_option autoImplicit false

namespace Mdso.TraceSpec

open Mdso.Trace

/-- All that is known of the depth of a candidate, and its state: interval, depth, quality, energy and deviation. The other members are marked "output only"
(include/system/ImmaturePoint.h:65-72). -/
def estimate (p : Point) : ℝ × WithTop ℝ × Option ℝ × WithTop ℝ × WithTop ℝ × WithTop ℝ × State :=
  (p.minDepth, p.maxDepth, p.depth, p.bestQuality, p.lastEnergy, p.stddev, p.state)

/-- A candidate is traced on one frame after the other: all outcomes, and the candidate at the end. `none`: the fuel did not suffice. -/
noncomputable def traceAll (fuel : Nat) : List Env → Point → Except Fault (Option (List Status × Point))
  | [], p => .ok (some ([], p))
  | e :: es, p =>
    match traceOn e fuel p with
    | .error f => .error f
    | .ok none => .ok none
    | .ok (some o) =>
      match traceAll fuel es o.2 with
      | .error f => .error f
      | .ok none => .ok none
      | .ok (some z) => .ok (some (o.1 :: z.1, z.2))

/-- The end of tracing, where of the candidate only what is known of its depth, and its state, is looked at. -/
def seen {α : Type} (r : Except Fault (Option (α × Point))) := r.map fun z => z.map fun o => (o.1, estimate o.2)

end Mdso.TraceSpec
