import Verif.Model.Fault
import Verif.Model.Vec3

/-!
# Model of `SphericalPlus` and of the parameter handling of `BundleAdjuster::adjust`

Models `include/system/SphericalPlus.h:14-65`, `source/system/SphericalPlus.cpp:6-10` and the set-up of the
optimization problem in `source/system/BundleAdjuster.cpp:99-161`, over the reals.

Ceres itself is not modelled: a run of the solver is an arbitrary finite sequence of accepted steps, each
giving every parameter block an arbitrary increment. What is assumed of Ceres is what its interface
promises: a block declared constant is not touched, and a block with a parameterization moves only through
that parameterization's `Plus`. Residuals play no role and are left out. Rotations and light transforms are
values of arbitrary types `Q` and `L`; a step replaces them by arbitrary values.
-/

set_option autoImplicit false

namespace Mdso.Gauge

open Mdso.Geom Mdso.Geom.V3

/-- The fields of `SphericalPlus` (include/system/SphericalPlus.h:67-72). `v1`, `v2` are the columns of
`kDeltaOrts`. -/
structure SPlus where
  center : V3
  radius : ℝ
  k : V3
  v1 : V3
  v2 : V3

open Classical in
/-- Index of the first component of least absolute value, `std::min_element`
(include/system/SphericalPlus.h:19-23). -/
noncomputable def minI (k : V3) : Nat :=
  if |k.y| < |k.x| then (if |k.z| < |k.y| then 2 else 1) else (if |k.z| < |k.x| then 2 else 0)

open Classical in
/-- Constructor (include/system/SphericalPlus.h:14-34). For `radius = 0` the quotient in the `CHECK` is a
NaN or an infinity of the sign of the numerator: with `initialValue = center` it is `0/0`, the comparison
is false and the check fails; otherwise it is `+∞` and the check fails as well. -/
noncomputable def mk' (center : V3) (radius : ℝ) (initialValue : V3) : Except Fault SPlus :=
  let k := (initialValue - center).normalized
  if radius ≠ 0 ∧ ((initialValue - center).norm - radius) / radius < 1 / 10000 then
    let v1 : V3 :=
      if minI k = 0 then (⟨0, -k.z, k.y⟩ : V3).normalized
      else if minI k = 1 then (⟨-k.z, 0, k.x⟩ : V3).normalized
      else (⟨-k.y, k.x, 0⟩ : V3).normalized
    .ok { center := center, radius := radius, k := k, v1 := v1, v2 := (k.cross v1).normalized }
  else .error .abort

/-- `degenerateR * w` (source/system/SphericalPlus.cpp:6-10). -/
def degenerateR (w : V3) : V3 := ⟨w.x, -w.y, -w.z⟩

open Classical in
/-- `R * w` for the matrix `R` of include/system/SphericalPlus.h:48-58, `vec` being the argument of
`operator()` before the centre is subtracted, as in line 48. -/
noncomputable def rot (p : SPlus) (vec w : V3) : V3 :=
  let rotAxis := vec + p.k
  if rotAxis.sqNorm < 1 / 10000 then degenerateR w
  else -w + (2 / rotAxis.sqNorm * rotAxis.dot w) • rotAxis

/-- The vector normalized in include/system/SphericalPlus.h:60. -/
noncomputable def moved (p : SPlus) (vec : V3) (d : ℝ × ℝ) : V3 :=
  (vec - p.center) + rot p vec (d.1 • p.v1 + d.2 • p.v2)

/-- `operator()` (include/system/SphericalPlus.h:36-65). -/
noncomputable def plus (p : SPlus) (vec : V3) (d : ℝ × ℝ) : V3 :=
  p.radius • (moved p vec d).normalized + p.center

variable {Q L : Type}

/-- What bundle adjustment reads and writes of a keyframe. `id` stands for the address. -/
structure Kf (Q L : Type) where
  id : Nat
  t : V3
  q : Q
  l : L

/-- How the translation block of a keyframe may move. -/
inductive TKind where
  | constant
  | free
  | sphere (p : SPlus)

/-- Settings used by the set-up (include/util/settings.h, `bundleAdjuster` and `affineLight`). -/
structure Settings where
  fixedRotationOnSecondKF : Bool
  fixedMotionOnFirstAdjustent : Bool
  optimizeAffineLight : Bool

/-- The declarations made for one keyframe: kind of its translation block, whether its rotation and light
blocks are constant. -/
structure Decl where
  t : TKind
  qConst : Bool
  lConst : Bool

/-- The declarations of source/system/BundleAdjuster.cpp:114-161 for the keyframe `id`. A block that is
both parameterized and constant is constant, as in Ceres. -/
def decl (s : Settings) (nKfs : Nat) (first second : Nat) (p : SPlus) (id : Nat) : Decl :=
  let base : Decl := { t := .free, qConst := false, lConst := !s.optimizeAffineLight }
  let d1 : Decl := if id = first then { t := .constant, qConst := true, lConst := true } else base
  let d2 : Decl := if id = second then
      { d1 with t := .sphere p, qConst := d1.qConst || s.fixedRotationOnSecondKF } else d1
  if s.fixedMotionOnFirstAdjustent ∧ nKfs = 2 ∧ id = second then
    { t := .constant, qConst := true, lConst := true } else d2

/-- One accepted solver step: an increment for the translation of every keyframe (two numbers if it moves on
a sphere) and new rotation and light values. -/
structure Step (Q L : Type) where
  t3 : Nat → V3
  t2 : Nat → ℝ × ℝ
  q : Nat → Q
  l : Nat → L

/-- Effect of a step on one keyframe. -/
noncomputable def stepKf (d : Decl) (st : Step Q L) (kf : Kf Q L) : Kf Q L :=
  { id := kf.id
    t := match d.t with
      | .constant => kf.t
      | .free => kf.t + st.t3 kf.id
      | .sphere p => plus p kf.t (st.t2 kf.id)
    q := if d.qConst then kf.q else st.q kf.id
    l := if d.lConst then kf.l else st.l kf.id }

/-- `adjust` (source/system/BundleAdjuster.cpp:99-241), the keyframes in the order of the `std::set` of
pointers, `first` the keyframe added first. No keyframe other than the first one makes line 143 dereference
a null pointer. -/
noncomputable def adjust (s : Settings) (kfs : List (Kf Q L)) (first : Nat) (steps : List (Step Q L)) :
    Except Fault (List (Kf Q L)) :=
  match kfs.find? (fun kf => kf.id == first), kfs.find? (fun kf => kf.id != first) with
  | some f, some sec =>
    match mk' f.t (sec.t - f.t).norm sec.t with
    | .error e => .error e
    | .ok p =>
      .ok (steps.foldl
        (fun cur st => cur.map fun kf => stepKf (decl s kfs.length first sec.id p kf.id) st kf) kfs)
  | _, _ => .error .ub

end Mdso.Gauge
