import Verif.Model.Initializer
import Verif.Spec.Terrain
import Verif.Spec.Triangulation

/-!
# What the initializer promises about the points of the first keyframes
-/

set_option autoImplicit false

namespace Mdso.Init.Spec

open Mdso.Geom Mdso.Tri Mdso.Init

/-- The point is active and has the depth a terrain with the sectors `init` reports for it, after some other lookups. -/
def HasSphericalDepth (S : Setup) (init : List Sector) (ip : IPoint) : Prop :=
  ip.pt.state = .active ∧ ∃ (d : ℝ) (earlier : List V3), ip.pt.depth = some d ∧
    (sphericalDepth S.L (lookedUp S.L init earlier) (S.unmap ip.p)).1 = some d

/-- The point is active and has the depth the terrain reports for it. -/
def HasPlainDepth (S : Setup) (T : Terrain) (ip : IPoint) : Prop :=
  ip.pt.state = .active ∧ ∃ (d : ℝ) (coin : Nat → Bool), ip.pt.depth = some d ∧
    T.depthAt S.L S.env ip.p coin S.fuel = .ok (some (some d))

/-- The three-dimensional points the matched key points of a frame stand for. -/
noncomputable def spatial (S : Setup) (m : Matched) : List V3 :=
  (m.keyPoints.zip m.depths).map fun pd => pd.2 • (S.unmap pd.1).normalized

/-- The two initializers are given the same camera, settings and selected pixels. They may differ in the order in which key
points enter the triangulations, in the tolerances, in the order in which sectors are stored, and in the coins of the walks. -/
def SameTask (S S' : Setup) : Prop :=
  S'.unmap = S.unmap ∧ S'.onPatch = S.onPatch ∧ S'.pointsNum = S.pointsNum ∧ S'.pointsNeeded = S.pointsNeeded ∧
    S'.select = S.select ∧ S'.L = S.L

/-- The point keeps the tolerance for segments away from every segment between two key points or corners of the bounding
triangle. -/
def OffSegments (s : Tri.Settings) (points : List V2) (p : V2) : Prop :=
  ∀ a ∈ Tri.Spec.sites points, ∀ b ∈ Tri.Spec.sites points, ¬ doesABcontain a b p (s.epsPointIsOnSegment * maxDim points)

/-- The direction is in no plane through the origin and two of the rays. -/
def OffPlanes (rays : List V3) (dir : V3) : Prop :=
  ∀ (i j : Nat) (a b : V3), i ≠ j → rays[i]? = some a → rays[j]? = some b → det3 a b dir ≠ 0

end Mdso.Init.Spec
