import Verif.Model.FrameTracker
import Verif.Spec.BaseProjection

/-!
# What tracking a frame is meant to do
-/

set_option autoImplicit false

namespace Mdso.Track.Spec

open Mdso.Geom Mdso.Light Mdso.Track

/-- The point in space a pixel `(y, x)` of the base frame shows, if it is at distance `d`. -/
noncomputable def pointOf (c : Cam.Cam) (y x : Nat) (d : ℝ) : V3 := d • (Cam.unmap c ⟨x, y⟩).normalized

/-- The pixel `(y, x)` has a known depth, and the point it shows is on the tracked picture after the motion. -/
def Matched (c : Cam.Cam) (img : Pyr.Img Nat) (depths : Pyr.Img ℝ) (m : Motion3) (q : Nat × Nat) : Prop :=
  q.1 < img.rows ∧ q.2 < img.cols ∧ 0 < depths.px q.1 q.2 ∧
    Cam.isOnImage c (Cam.map c (m.act (pointOf c q.1 q.2 (depths.px q.1 q.2)))) 0

/-- Where the point of a pixel is seen after a motion. -/
noncomputable def seenAt (c : Cam.Cam) (depths : Pyr.Img ℝ) (m : Motion3) (q : Nat × Nat) : V2 :=
  Cam.map c (m.act (pointOf c q.1 q.2 (depths.px q.1 q.2)))

/-- Difference between the brightness found there, corrected by the light transform, and the brightness of the pixel. -/
noncomputable def mismatch (c : Cam.Cam) (img : Pyr.Img Nat) (depths : Pyr.Img ℝ) (tracked : Interp) (m : Motion3)
    (l : AffLight) (q : Nat × Nat) : ℝ :=
  l.apply (tracked (seenAt c depths m q).y (seenAt c depths m q).x) - img.px q.1 q.2

/-- Pixels in reading order. -/
def Before (p q : Nat × Nat) : Prop := p.1 < q.1 ∨ (p.1 = q.1 ∧ p.2 < q.2)

/-- The light transform is within the bounds of the problem. -/
def LightInBounds (P : Problem) (l : AffLight) : Prop := P.minA ≤ l.a ∧ l.a ≤ P.maxA ∧ P.minB ≤ l.b ∧ l.b ≤ P.maxB

open Classical in
/-- Huber's loss of a squared residual. -/
noncomputable def huber (δ s : ℝ) : ℝ := if s ≤ δ ^ 2 then s else 2 * δ * Real.sqrt s - δ ^ 2

/-- What Ceres minimizes: half the sum of the weighted losses. -/
noncomputable def cost (P : Problem) (m : Motion3) (l : AffLight) : ℝ :=
  1 / 2 * (P.blocks.map fun b => b.weight * huber P.huber (b.eval P.cam P.trackedFrame m l ^ 2)).sum

/-- What is assumed of `ceres::Solve`: a constant block is not changed; the rotation block stays a rotation; a light transform that
starts within its bounds ends within them; from such a start the cost does not grow (steps are monotonic by default). -/
structure IsSolver (solve : Solver) : Prop where
  light_constant : ∀ P, P.lightConstant = true → (solve P).2 = P.affLight
  rotation : ∀ P, Base.Spec.Orthogonal P.motion.rot → Base.Spec.Orthogonal (solve P).1.rot
  bounds : ∀ P, LightInBounds P P.affLight → LightInBounds P (solve P).2
  descent : ∀ P, LightInBounds P P.affLight → cost P (solve P).1 (solve P).2 ≤ cost P P.motion P.affLight

/-- The light transform is within the bounds of the settings. -/
def LightAllowed (s : Settings) (l : AffLight) : Prop :=
  s.minAffineLightA ≤ l.a ∧ l.a ≤ s.maxAffineLightA ∧ s.minAffineLightB ≤ l.b ∧ l.b ≤ s.maxAffineLightB

/-- The pictures and the depths of a level have the same size. -/
def SameSizes (base : BaseFrame) : Prop :=
  base.images.length = base.depths.length ∧
    ∀ (i : Nat) img depths, base.images[i]? = some img → base.depths[i]? = some depths →
      img.rows = depths.rows ∧ img.cols = depths.cols

/-- The pixel has its four neighbours in the picture. -/
def HasNeighbours (img : Pyr.Img Nat) (q : Nat × Nat) : Prop := 0 < q.1 ∧ q.1 + 1 < img.rows ∧ 0 < q.2 ∧ q.2 + 1 < img.cols

/-- The weight of a pixel: 1, or less the steeper the brightness around the pixel is. -/
noncomputable def weightOf (s : Settings) (img : Pyr.Img Nat) (q : Nat × Nat) : ℝ :=
  if s.useGradWeighting then
    s.gradWeightingC / Real.sqrt (s.gradWeightingC ^ 2 +
      Real.sqrt ((((img.px q.1 (q.2 + 1) : ℝ) - img.px q.1 (q.2 - 1)) / 2) ^ 2 +
        (((img.px (q.1 + 1) q.2 : ℝ) - img.px (q.1 - 1) q.2) / 2) ^ 2) ^ 2)
  else 1

/-- The photometric error of a motion and a light transform over some pixels. -/
noncomputable def photometricError (s : Settings) (c : Cam.Cam) (img : Pyr.Img Nat) (depths : Pyr.Img ℝ) (tracked : Interp)
    (pix : List (Nat × Nat)) (e : Motion3 × AffLight) : ℝ :=
  1 / 2 * (pix.map fun q => weightOf s img q * huber s.outlierDiff (mismatch c img depths tracked e.1 e.2 q ^ 2)).sum

/-- The camera, the picture and depths of the base frame, and the interpolated tracked frame of a level. -/
def LevelAt (t : Tracker) (frame : Frame) (i : Nat) (c : Cam.Cam) (img : Pyr.Img Nat) (depths : Pyr.Img ℝ)
    (tracked : Interp) : Prop :=
  t.camPyr[i]? = some c ∧ t.base.images[i]? = some img ∧ t.base.depths[i]? = some depths ∧ frame[i]? = some tracked

/-- What is known after a level. -/
def estimate (r : Report) : Motion3 × AffLight := (r.baseToLast, r.affLight)

/-- What is known before level number `k` of a run: what the previous level has found, before the first one the coarse values. -/
def startOf (coarse : Motion3 × AffLight) (rs : List Report) : Nat → Motion3 × AffLight
  | 0 => coarse
  | k + 1 => (rs[k]?.map estimate).getD coarse

/-- Each of the observers `0, …, n - 1`, and nobody else, is told the start and then one report after the other. -/
def EventsAre (n : Nat) (log : List (Nat × Event)) (rs : List Report) : Prop :=
  (∀ o e, (o, e) ∈ log → o < n) ∧
    ∀ o, o < n → (log.filter fun q => q.1 == o).map Prod.snd = .startTracking :: rs.map .levelTracked

/-- The report of a level lists exactly the matched pixels of that level, in reading order: where each is seen in the tracked frame
and by how much the brightness differs there. -/
def Reports (t : Tracker) (frame : Frame) (start : Motion3 × AffLight) (r : Report) (c : Cam.Cam) (img : Pyr.Img Nat)
    (depths : Pyr.Img ℝ) (tracked : Interp) (pix : List (Nat × Nat)) : Prop :=
  LevelAt t frame r.pyrLevel c img depths tracked ∧ pix.Pairwise Before ∧
    (∀ q, q ∈ pix ↔ Matched c img depths start.1 q) ∧
    r.pointResiduals = pix.map fun q =>
      (seenAt c depths r.baseToLast q, mismatch c img depths tracked r.baseToLast r.affLight q)

end Mdso.Track.Spec
