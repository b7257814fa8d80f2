import Verif.Spec.Frame

/-!
# What is expected of a keyframe whose picture is taken in another light
-/

set_option autoImplicit false

namespace Mdso.RelitSpec

open Mdso.Frame

/-- Two runs end alike: both with the same fault, or both with results that are related. -/
def EndAlike {α : Type} (R : α → α → Prop) : Except Fault α → Except Fault α → Prop
  | .error e, .error e' => e' = e
  | .ok a, .ok a' => R a a'
  | _, _ => False

/-- The second sample is the first one after all brightnesses `v` of its picture were replaced by `k v + b`: it looks in the same direction, its brightness
changes with the picture, its gradient is `k` times as steep, and the direction of the gradient is kept, or turned around in a negative. -/
def RelitSample (k b : ℝ) (s s' : Sample) : Prop :=
  s'.direction = s.direction ∧ s'.intensity = k * s.intensity + b ∧ s'.grad = k • s.grad ∧
  s'.gradNorm = (if 0 < k then (1 : ℝ) else -1) • s.gradNorm

/-- The two candidates are the same pixel in the same state, and their patches differ only by the light. -/
def SameCandidate (k b : ℝ) (p p' : ImPoint) : Prop :=
  p'.p = p.p ∧ p'.state = p.state ∧ List.Forall₂ (RelitSample k b) p.patch p'.patch

/-- Two results of making a keyframe: neither selection ends, or the selectors are left in the same state and the keyframes have the same candidates in the
same order, and no other points. -/
def SameCandidates (k b : ℝ) : Option (KeyFrame × PixSel.State) → Option (KeyFrame × PixSel.State) → Prop
  | none, none => True
  | some r, some r' => r'.2 = r.2 ∧ List.Forall₂ (SameCandidate k b) r.1.immature r'.1.immature ∧ r.1.optimized = [] ∧ r'.1.optimized = []
  | _, _ => False

/-- Settings of the selector with thresholds `m` times as high. -/
def thresholdsTimes (m : ℝ) (s : PixSel.Settings ℝ) : PixSel.Settings ℝ := { s with gradThresholds := s.gradThresholds.map fun t => m * t }

end Mdso.RelitSpec
