import Verif.Model.DebugImage
import Verif.Spec.BaseProjection

/-!
# Which points the debug picture is about
-/

set_option autoImplicit false

namespace Mdso.DebugImage.Spec

open Mdso.Geom Mdso.DebugImage

/-- The items are the points of the keyframes that are to be reported for the base keyframe, each exactly once, with its place, its depth and itself. -/
def ItemsOf {α : Type} (c : Cam.Cam) (base : Nat) (view : KfV → Base.KfView) (points : KfV → List α) (kfs : List KfV) (items : List (Item α)) : Prop :=
  ∃ ptrs : List (Nat × Nat), ptrs.Nodup ∧
    List.Forall₂ (fun p q => Base.Spec.Reported c (kfs.map view) base p.1 p.2 q.pos q.depth ∧
      ∃ kf, kfs[p.1]? = some kf ∧ (points kf)[p.2]? = some q.ref) ptrs items ∧
    ∀ k i pos depth, Base.Spec.Reported c (kfs.map view) base k i pos depth → (k, i) ∈ ptrs

end Mdso.DebugImage.Spec
