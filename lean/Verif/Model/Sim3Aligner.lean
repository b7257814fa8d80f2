import Verif.Model.Motion
import Mathlib.Analysis.Normed.Module.Basic

/-!
# Model of `Sim3Aligner`

Models `source/util/Sim3Aligner.cpp` over `Rigid R V` with a normed space `V`.
-/

set_option autoImplicit false

namespace Mdso.Align
open Mdso.Motion

variable {R V : Type} [Group R] [NormedAddCommGroup V] [NormedSpace ℝ V] [DistribMulAction R V]

/-- Members (include/util/Sim3Aligner.h:19-21). `scaleGTToDso` has no initialiser: `none` stands for its
indeterminate value. -/
structure Aligner (R V : Type) where
  scaleGTToDso : Option ℝ
  gtToDso : Rigid R V

/-- `motion.translation() *= s`. -/
def scaleTrans (s : ℝ) (g : Rigid R V) : Rigid R V := ⟨g.rot, s • g.trans⟩

open Classical in
/-- Constructor (source/util/Sim3Aligner.cpp:6-21). -/
noncomputable def create (worldToFirst worldToSecond worldToFirstGT worldToSecondGT : Rigid R V) :
    Aligner R V :=
  let fToL := worldToSecond * worldToFirst⁻¹
  let fToLGT := worldToSecondGT * worldToFirstGT⁻¹
  if ‖fToLGT.trans‖ < 1e-3 ∨ ‖fToL.trans‖ < 1e-3 then { scaleGTToDso := none, gtToDso := 1 }
  else
    let scale := ‖fToL.trans‖ / ‖fToLGT.trans‖
    let worldToFirstGTScaled := scaleTrans scale worldToFirstGT
    { scaleGTToDso := some scale, gtToDso := worldToFirstGTScaled⁻¹ * worldToFirst }

/-- `alignWorldToFrameGT` (source/util/Sim3Aligner.cpp:23-28); reading an indeterminate `double` is
undefined behaviour. -/
def Aligner.alignWorldToFrameGT (a : Aligner R V) (worldToFrameGT : Rigid R V) :
    Except Dso.Err (Rigid R V) :=
  match a.scaleGTToDso with
  | none => .error .ub
  | some s => .ok (scaleTrans s worldToFrameGT * a.gtToDso)

/-- `alignScale` (source/util/Sim3Aligner.cpp:30-32). -/
def Aligner.alignScale (a : Aligner R V) (pointInFrameGT : V) : Except Dso.Err V :=
  match a.scaleGTToDso with
  | none => .error .ub
  | some s => .ok (s • pointInFrameGT)

end Mdso.Align
