import Mathlib.Algebra.Module.Defs
import Mathlib.Algebra.GroupWithZero.Action.Defs
import Mathlib.Algebra.Group.MinimalAxioms
import Mathlib.Data.Real.Basic
import Verif.Model.DsoSystem

/-!
# Model of rigid motions and of the motion prediction

Models the prediction functions of `source/system/DsoSystem.cpp:214-266`. `Sophus::SE3` is modelled by
`Rigid R V`: a rotation from a group `R` acting linearly on the vectors `V`, and a translation. The
exponential and logarithm are parameters.
-/

set_option autoImplicit false

namespace Mdso.Motion

/-- `Sophus::SE3`: `x ↦ rot x + trans`. -/
@[ext] structure Rigid (R V : Type) where
  rot : R
  trans : V

namespace Rigid

variable {R V : Type} [Group R] [AddCommGroup V] [DistribMulAction R V]

/-- Applying a motion to a point. -/
def act (g : Rigid R V) (x : V) : V := g.rot • x + g.trans

instance : Mul (Rigid R V) := ⟨fun a b => ⟨a.rot * b.rot, a.rot • b.trans + a.trans⟩⟩
instance : One (Rigid R V) := ⟨⟨1, 0⟩⟩
instance : Inv (Rigid R V) := ⟨fun a => ⟨a.rot⁻¹, - (a.rot⁻¹ • a.trans)⟩⟩

@[simp] theorem mul_rot (a b : Rigid R V) : (a * b).rot = a.rot * b.rot := rfl
@[simp] theorem mul_trans (a b : Rigid R V) : (a * b).trans = a.rot • b.trans + a.trans := rfl
@[simp] theorem one_rot : (1 : Rigid R V).rot = 1 := rfl
@[simp] theorem one_trans : (1 : Rigid R V).trans = 0 := rfl
@[simp] theorem inv_rot (a : Rigid R V) : (a⁻¹).rot = a.rot⁻¹ := rfl
@[simp] theorem inv_trans (a : Rigid R V) : (a⁻¹).trans = - (a.rot⁻¹ • a.trans) := rfl

instance : Group (Rigid R V) := Group.ofLeftAxioms
  (by intro a b c; ext <;> simp [mul_assoc, mul_smul, smul_add, add_assoc])
  (by intro a; ext <;> simp)
  (by intro a; ext <;> simp)

theorem act_mul (a b : Rigid R V) (x : V) : (a * b).act x = a.act (b.act x) := by
  simp [act, mul_smul, smul_add, add_assoc]

end Rigid

/-- `exp` and `log` between a group and its tangent space `T` (`SE3::exp`, `SO3::exp`). -/
structure LogExp (G T : Type) where
  exp : T → G
  log : G → T

/-- `predictScrewInternal` (source/system/DsoSystem.cpp:214-218). -/
noncomputable def predictScrew {G T : Type} [Group G] [AddCommGroup T] [Module ℝ T]
    (L : LogExp G T) (timeLastByLbo : ℝ) (baseToLbo baseToLast : G) : G :=
  let lboToLast := baseToLast * baseToLbo⁻¹
  L.exp (timeLastByLbo • L.log lboToLast) * baseToLast

/-- `predictSimpleInternal` (source/system/DsoSystem.cpp:220-229). -/
noncomputable def predictSimple {R V T : Type} [Group R] [AddCommGroup V] [Module ℝ V]
    [DistribMulAction R V] [AddCommGroup T] [Module ℝ T]
    (L : LogExp R T) (timeLastByLbo : ℝ) (baseToLbo baseToLast : Rigid R V) : Rigid R V :=
  let lboToLast := baseToLast * baseToLbo⁻¹
  let lastToCurRot := L.exp (timeLastByLbo • L.log lboToLast.rot)
  let lastToCurTrans := timeLastByLbo • ((lastToCurRot * lboToLast.rot⁻¹) • lboToLast.trans)
  ⟨lastToCurRot, lastToCurTrans⟩ * baseToLast

/-- `getTimeLastByLbo` (source/system/DsoSystem.cpp:231-239) for the last three frame numbers. -/
noncomputable def timeLastByLbo (lbo last cur : Int) : ℝ :=
  let prevFramesSkipped : Int := lbo - last
  let lastFramesSkipped : Int := last - cur
  (lastFramesSkipped : ℝ) / (prevFramesSkipped : ℝ)

/-- `worldToFrame[i]`: an entry never assigned is the default-constructed `SE3`, the identity. -/
def readPose {G : Type} [One G] (s : Dso.State G) (n : Int) : G := (s.worldToFrame n).getD 1

/-- `predictBaseKfToCur` (source/system/DsoSystem.cpp:248-258) at the point in `addFrame` where the new
number is already recorded; `predict` is `predictInternal` (lines 241-246). -/
noncomputable def predictBaseKfToCur {G : Type} [Group G] (predict : ℝ → G → G → G)
    (set : Dso.Settings) (s : Dso.State G) : Except Dso.Err G :=
  match Dso.predictionFrames s.frameNumbers, s.frameNumbers.getLast?,
      Dso.baseKeyFrame set s.keyFrames with
  | .ok (lbo, last), some cur, .ok base =>
    .ok (predict (timeLastByLbo lbo last cur) (readPose s lbo * base.thisToWorld)
      (readPose s last * base.thisToWorld))
  | _, _, _ => .error .ub

end Mdso.Motion
