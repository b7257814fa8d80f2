import Verif.Spec.Snapshot

/-!
# What a user expects of saving what was loaded
-/

set_option autoImplicit false

namespace Mdso.SnapSpec

open Mdso.Snap

/-- Both directories hold the same files with the same contents: the same subdirectories and the same
files `pkf<number>.txt`. -/
def SameFiles (d d' : Dir) : Prop :=
  (∀ n f, (n, f) ∈ d'.kf ↔ (n, f) ∈ d.kf) ∧ ∀ n, d'.pkf n = d.pkf n

end Mdso.SnapSpec
