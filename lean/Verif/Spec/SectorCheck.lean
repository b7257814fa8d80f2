import Verif.Spec.Sectors
import Verif.Model.SectorCheck

/-!
# Directions in several sectors
-/

set_option autoImplicit false

namespace Mdso.SectorSpec

open Mdso.Geom Mdso.Tri

/-- At least two different sectors are around the direction; a side belongs to a sector. -/
def Doubled (sectors : List Sector) (dir : V3) : Prop :=
  ∃ s ∈ sectors, ∃ s' ∈ sectors, s ≠ s' ∧ Around s dir ∧ Around s' dir

/-- The pixel of a direction, fractions dropped towards zero. -/
def PixelOf (map : V3 → V2) (dir : V3) (p : Pixel) : Prop :=
  p.x = Util.truncInt (map dir).x ∧ p.y = Util.truncInt (map dir).y

/-- A position whose coordinates are multiples of ten, in a picture of this size. -/
def OnGrid (rows cols x y : Nat) : Prop := 10 ∣ x ∧ 10 ∣ y ∧ x < cols ∧ y < rows

end Mdso.SectorSpec
