import Verif.Spec.ImmaturePoint

/-!
# Vocabulary for statements about the deviation of a point
-/

set_option autoImplicit false

namespace Mdso.TraceSpec

open Mdso.Trace Mdso.Cam Mdso.Geom

/-- Any number of traces of the point `p`, each in a situation satisfying `E`, leaving `r`. -/
inductive TracesIn (E : Env → Prop) (p : Point) : Point → Prop
  | none : TracesIn E p p
  | more {q r : Point} (e : Env) (fuel : Nat) (st : Status) : E e → TracesIn E p q → traceOn e fuel q = .ok (some (st, r)) → TracesIn E p r

/-- The deviation to be expected of a search along the direction `dir`: the square root of `n v / Σ (g · dir)²`, where `g` are the `n` gradients of the patch and `v` is the
assumed variance of a position; infinite if the picture does not change along the direction. -/
noncomputable def expected (e : Env) (dir : V2) : WithTop ℝ :=
  open Classical in
  if (e.baseGradNorm.map fun g => (g.x * dir.x + g.y * dir.y) ^ 2).sum = 0 then ⊤
  else ((Real.sqrt (e.baseDirections.length * e.s.positionVariance / (e.baseGradNorm.map fun g => (g.x * dir.x + g.y * dir.y) ^ 2).sum) : ℝ) : WithTop ℝ)

/-- The direction, in the picture, of the search for the point `p` in the situation `e`: that from the most distant place it may be at to the nearest. -/
noncomputable def direction (e : Env) (p : Point) (base : V3) : V2 :=
  normalized2 (e.cam.jacobian (searchEnds e p base).2 ((searchEnds e p base).1 - (searchEnds e p base).2))

end Mdso.TraceSpec
