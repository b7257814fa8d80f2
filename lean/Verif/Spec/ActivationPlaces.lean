import Verif.Model.Activation
import Verif.Spec.DistanceMap

/-!
# Vocabulary for where points are activated
-/

set_option autoImplicit false

namespace Mdso.Act

/-- Where a point of the keyframe at position `k` is seen in the base keyframe. -/
def seenAt (e : Env) (k : Nat) (p : ℝ × ℝ) (depth : ℝ) : ℝ × ℝ := if k = e.base then p else e.reproject k p depth

/-- Where the good optimized points of a window are seen in the base keyframe. -/
noncomputable def goodPlaces (e : Env) (kfs : List KeyFrame) : List (ℝ × ℝ) :=
  kfs.zipIdx.flatMap fun q => (q.1.optimized.filter fun op => op.state = .active).map fun op => seenAt e q.2 op.p (Real.exp (-op.logInvDepth))

open Classical in
/-- `d` is the distance, in cells of `n`×`n` pixels of the base keyframe, from a place to the nearest good optimized point on the picture. -/
noncomputable def IsFree (e : Env) (n : Nat) (kfs : List KeyFrame) (q : ℝ × ℝ) (d : Nat) : Prop :=
  DistMapSpec.IsNearest DistMap.intMax (((goodPlaces e kfs).filter fun p => DistMapSpec.OnImage e.width e.height p).map (DistMapSpec.cell n)) (DistMap.cellOf n q) d

/-- The place is in the column or the row of cells just behind the picture. -/
def Behind (e : Env) (n : Nat) (q : ℝ × ℝ) : Prop :=
  let c := DistMap.cellOf n q
  0 ≤ c.1 ∧ c.1 ≤ (e.width / n : Nat) ∧ 0 ≤ c.2 ∧ c.2 ≤ (e.height / n : Nat) ∧ (c.1 = (e.width / n : Nat) ∨ c.2 = (e.height / n : Nat))

end Mdso.Act
