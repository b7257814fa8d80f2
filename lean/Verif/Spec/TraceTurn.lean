import Verif.Spec.CameraTurn
import Verif.Model.ImmaturePoint

/-!
# Specification of tracing with a camera that is mounted turned about its axis
-/

set_option autoImplicit false

namespace Mdso.TraceSpec

open Mdso.Geom Mdso.CamSpec Mdso.Trace

/-- `e'` is the situation `e` as a camera sees it that was turned by `t0` about its axis, or looked into a mirror, when
it took the first picture, and by `t` when it took the second. `c` is the center of the pictures.

The camera projects turned rays to positions turned about the center. Rays and gradients of the patch are turned with
the first picture, and the motion between the frames fits both turns. Brightnesses and settings are the same. The second
picture is turned, on every level of the pyramid, and so is the area that counts as being on it. Depths triangulated
along turned rays are the same. -/
structure TurnedBy (t0 t : Turn) (c : V2) (e e' : Env) : Prop where
  settings : e'.s = e.s
  map : ∀ v, e'.cam.map (t.ray v) = t.pos c (e.cam.map v)
  unmap : ∀ p, e'.cam.unmap (t.pos c p) = t.ray (e.cam.unmap p)
  jacobian : ∀ r v, e'.cam.jacobian (t.ray r) (t.ray v) = t.vec (e.cam.jacobian r v)
  onImage : ∀ p, e'.cam.isOnImage (t.pos c p) ↔ e.cam.isOnImage p
  maxAngle : e'.cam.maxAngle = e.cam.maxAngle
  size : e'.cam.size = e.cam.size
  directions : e'.baseDirections = e.baseDirections.map t0.ray
  intencities : e'.baseIntencities = e.baseIntencities
  gradients : e'.baseGradNorm = e.baseGradNorm.map t0.vec
  rotation : ∀ v, e'.baseToRef.rot.mulVec (t0.ray v) = t.ray (e.baseToRef.rot.mulVec v)
  translation : e'.baseToRef.t = t.ray e.baseToRef.t
  light : e'.light = e.light
  picture : ∀ (l : Int) p, e'.interp l (t.pos ((1 / (2 : ℝ) ^ l) • c) p) = ((e.interp l p).1, t.vec (e.interp l p).2)
  tri : ∀ v, e'.tri (t.ray v) = e.tri v
  infiniteDepth : e'.infiniteDepth = e.infiniteDepth

/-- `e'` is the situation `e` as a camera sees it that is mounted turned by `t` about its axis: it is turned in both
pictures. -/
abbrev Turned (t : Turn) (c : V2) (e e' : Env) : Prop := TurnedBy t t c e e'

/-- The gradients are equally strong in all directions. -/
def EvenGradients (gs : List V2) : Prop :=
  ∃ s : ℝ, ∀ d : V2, (gs.map fun g => (g.x * d.x + g.y * d.y) ^ 2).sum = s * (d.x ^ 2 + d.y ^ 2)

/-- The matrix of a turn about the axis of the camera. -/
def turnMatrix (t : Turn) : M3 := ⟨⟨t.cos, -(t.side * t.sin), 0⟩, ⟨t.sin, t.side * t.cos, 0⟩, ⟨0, 0, 1⟩⟩

/-- The situation `e` with the camera turned by `t0` in the first and by `t` in the second picture. -/
noncomputable def turnedEnv (t0 t : Turn) (c : V2) (e : Env) : Env where
  s := e.s
  cam := {
    map := fun v => t.pos c (e.cam.map (t.back.ray v))
    unmap := fun p => t.ray (e.cam.unmap (t.back.pos c p))
    jacobian := fun r v => t.vec (e.cam.jacobian (t.back.ray r) (t.back.ray v))
    isOnImage := fun p => e.cam.isOnImage (t.back.pos c p)
    maxAngle := e.cam.maxAngle
    size := e.cam.size }
  baseDirections := e.baseDirections.map t0.ray
  baseIntencities := e.baseIntencities
  baseGradNorm := e.baseGradNorm.map t0.vec
  baseToRef := ⟨(turnMatrix t).mul (e.baseToRef.rot.mul (turnMatrix t0.back)), t.ray e.baseToRef.t⟩
  light := e.light
  interp := fun l p => ((e.interp l (t.back.pos ((1 / (2 : ℝ) ^ l) • c) p)).1,
    t.vec (e.interp l (t.back.pos ((1 / (2 : ℝ) ^ l) • c) p)).2)
  tri := fun v => e.tri (t.back.ray v)
  infiniteDepth := e.infiniteDepth

end Mdso.TraceSpec
