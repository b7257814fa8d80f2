import Verif.Model.PointLife
import Verif.Spec.DsoSystem
import Verif.Spec.DistanceMap

/-!
# Vocabulary for statements about the points of a running system
-/

set_option autoImplicit false

namespace Mdso.Life

/-- The places in its picture where a keyframe has points, optimized ones first; a place with two points occurs twice. -/
def places (kf : Act.KeyFrame) : List (ℝ × ℝ) := kf.optimized.map (·.p) ++ kf.immature.map (·.p)

/-- How many optimized points the keyframes of a window have. -/
def optimizedCount (w : List Entry) : Nat := (w.map fun e => e.2.optimized.length).sum

/-- How many points the keyframes of a window have. -/
def pointCount (w : List Entry) : Nat := (w.map fun e => e.2.optimized.length + e.2.immature.length).sum

/-- All keyframes ever made, oldest first, with the points they have now, or had when they were handed over. -/
def everMade {G : Type} (s : State G) : List Entry := s.handed ++ s.window

/-- What happens to an optimized point as time goes by: its place and its deviation stay, and once it is not good it stays so. -/
def Later (a b : Act.Optimized) : Prop := b.p = a.p ∧ b.stddev = a.stddev ∧ (b.state = .active → a.state = .active)

/-- What happens to the optimized points of a keyframe: the ones there were stay, in their order, and others may follow. -/
def Grown (a b : List Act.Optimized) : Prop := ∃ l₁ l₂, b = l₁ ++ l₂ ∧ List.Forall₂ Later a l₁

/-- Pictures and positions with which the distance map can work (see C22, C23): the picture is divided into cells of `n`×`n` pixels without a rest, the points of all keyframes
lie on the picture, and no point is projected into the column or the row of cells just behind the picture. -/
structure Fits {G : Type} (p : Params) (x : FrameIn G) (n : Nat) : Prop where
  factor : DistMap.pyrDown x.env.width x.env.height ⟨480, 302⟩ = n
  pos : 0 < n
  width : n ∣ x.env.width
  height : n ∣ x.env.height
  made : ∀ num, ∀ ip ∈ p.made num, DistMapSpec.OnImage x.env.width x.env.height ip.p
  projected : ∀ k q d, let c := DistMap.cellOf n (x.env.reproject k q d)
    ¬ (0 ≤ c.1 ∧ c.1 ≤ (x.env.width / n : Nat) ∧ 0 ≤ c.2 ∧ c.2 ≤ (x.env.height / n : Nat) ∧ (c.1 = (x.env.width / n : Nat) ∨ c.2 = (x.env.height / n : Nat)))

/-- The same call, with `fuel` rounds for the construction of the distance map. -/
def FrameIn.withFuel {G : Type} (x : FrameIn G) (fuel : Nat) : FrameIn G := { x with fuel := fuel }

end Mdso.Life
