import Verif.Model.CameraModel
import Verif.Model.StereoGeometry

/-!
# Model of the projection of points onto the base keyframe

Models `DsoSystem::projectOntoBaseKf` (source/system/DsoSystem.cpp:158-205) for both kinds of points, over the reals. The
keyframes are a list in the order of the map `keyFrames`; a pointer to a keyframe is its position in that list, and a pointer to
a point the position of its keyframe and its own position there.
-/

set_option autoImplicit false

namespace Mdso.Base

open Mdso.Geom

/-- What is read of an `ImmaturePoint` or an `OptimizedPoint`: `p`, whether `state` is `ACTIVE`, and the depth
(source/system/DsoSystem.cpp:136-148), `none` if it is indeterminate. -/
structure PView where
  p : V2
  active : Bool
  depth : Option ℝ

/-- What is read of a keyframe. -/
structure KfView where
  thisToWorld : Motion3
  points : List PView

/-- The vectors written to. In the code each one may be missing, and is then not written. -/
structure Out where
  points : List V2
  depths : List ℝ
  ptrs : List (Nat × Nat)
  kfs : List Nat

/-- The four `push_back` (source/system/DsoSystem.cpp:177-184, 194-201). -/
def Out.push (o : Out) (pos : V2) (d : ℝ) (ptr : Nat × Nat) (kf : Nat) : Out :=
  ⟨o.points ++ [pos], o.depths ++ [d], o.ptrs ++ [ptr], o.kfs ++ [kf]⟩

/-- `inverse` of an `SE3`. -/
def inverse (m : Motion3) : Motion3 := ⟨m.rot.transpose, -(m.rot.transpose.mulVec m.t)⟩

/-- Product of two `SE3`. -/
def compose (m n : Motion3) : Motion3 := ⟨m.rot.mul n.rot, m.rot.mulVec n.t + m.t⟩

/-- `baseKeyFrame` (include/system/DsoSystem.h:48-56) among `n` keyframes. -/
def baseIndex (trackFromLastKf : Bool) (n : Nat) : Except Fault Nat :=
  if trackFromLastKf then (if n < 1 then .error .ub else .ok (n - 1))
  else if n < 2 then .error .ub else .ok (n - 2)

/-- The loop over the points of the base keyframe (source/system/DsoSystem.cpp:175-185), from point `i` on. -/
def pushBase (k : Nat) : Nat → List PView → Out → Except Fault Out
  | _, [], o => .ok o
  | i, p :: ps, o =>
    if p.active then
      match p.depth with
      | none => .error .ub
      | some d => pushBase k (i + 1) ps (o.push p.p d (k, i) k)
    else pushBase k (i + 1) ps o

open Classical in
/-- The loop over the points of another keyframe (source/system/DsoSystem.cpp:188-202), from point `i` on. -/
noncomputable def pushOther (c : Cam.Cam) (curToBase : Motion3) (k : Nat) : Nat → List PView → Out → Except Fault Out
  | _, [], o => .ok o
  | i, p :: ps, o =>
    match p.depth with
    | none => .error .ub
    | some d =>
      let baseDir := curToBase.act (d • (Cam.unmap c p.p).normalized)
      let basePos := Cam.map c baseDir
      if Cam.isOnImage c basePos 0 then pushOther c curToBase k (i + 1) ps (o.push basePos baseDir.norm (k, i) k)
      else pushOther c curToBase k (i + 1) ps o

/-- The body of the loop over the keyframes (source/system/DsoSystem.cpp:173-203). -/
noncomputable def pushFrame (c : Cam.Cam) (base : Nat) (baseToWorld : Motion3) (k : Nat) (kf : KfView) (o : Out) :
    Except Fault Out :=
  if k = base then pushBase k 0 kf.points o
  else pushOther c (compose (inverse baseToWorld) kf.thisToWorld) k 0 kf.points o

/-- The loop over the keyframes (source/system/DsoSystem.cpp:172-204), from keyframe `k` on. -/
noncomputable def pushAll (c : Cam.Cam) (base : Nat) (baseToWorld : Motion3) :
    Nat → List KfView → Out → Except Fault Out
  | _, [], o => .ok o
  | k, kf :: kfs, o => do
    let o' ← pushFrame c base baseToWorld k kf o
    pushAll c base baseToWorld (k + 1) kfs o'

/-- `projectOntoBaseKf` (source/system/DsoSystem.cpp:158-205). -/
noncomputable def projectOntoBaseKf (c : Cam.Cam) (trackFromLastKf : Bool) (kfs : List KfView) : Except Fault Out := do
  let base ← baseIndex trackFromLastKf kfs.length
  let kf ← at' kfs base
  pushAll c base kf.thisToWorld 0 kfs ⟨[], [], [], []⟩

end Mdso.Base
