import Verif.Model.Triangulation
import Verif.Model.Geometry3

/-!
# Model of `Terrain`, `SphericalTriangulation` and `SphericalTerrain`

Models `source/util/Terrain.cpp:5-45`, `source/util/SphericalTriangulation.cpp:8-70` and
`source/util/SphericalTerrain.cpp:6-27` over the reals; drawing is not modelled. The solver and the QR decomposition of
Eigen are parameters. So are `unmap` of the camera and the order in which the `std::map` of sectors, whose keys are
addresses, is traversed.
-/

set_option autoImplicit false

namespace Mdso.Tri

open Mdso.Geom

/-- What is taken from Eigen: `fullPivHouseholderQr().solve(r)` for the matrix with columns `a`, `b`, `c`, and the last
column of `householderQr().householderQ()` for the 4 by 3 matrix with these columns over a row of ones, as its first three
components and its last one. -/
structure Linear where
  solve : V3 → V3 → V3 → V3 → V3
  plane : V3 → V3 → V3 → V3 × ℝ

/-- The members of `Terrain` (include/util/Terrain.h:27-29), with the arguments of the constructor of `triang` that fix the
positions and the tolerance. -/
structure Terrain where
  settings : Settings
  points : List V2
  order : List Nat
  triang : Triangulation
  refRays : List V3

/-- The constructor of `Terrain` (source/util/Terrain.cpp:5-21); `none` if `triang` is not finished within `fuel` rounds. -/
noncomputable def newTerrain (env : Env) (unmap : V2 → V3) (s : Settings) (points : List V2) (depths : List ℝ)
    (order : List Nat) (fuel : Nat) : Except Fault (Option Terrain) :=
  match triangulate env s points order fuel with
  | .error f => .error f
  | .ok none => .ok none
  | .ok (some (t, _)) =>
    if points.length ≠ depths.length then .error .exception
    else .ok (some ⟨s, points, order, t, (points.zip depths).map fun pd => pd.2 • (unmap pd.1).normalized⟩)

/-- `pos` of the vertices of `triang`. -/
noncomputable def Terrain.pos (T : Terrain) : Nat → V2 := position T.points T.order

/-- The call of `triang.enclosingTriangle(p)` (source/util/Terrain.cpp:24, 28). -/
noncomputable def Terrain.enclosing (env : Env) (T : Terrain) (p : V2) (coin : Nat → Bool) (fuel : Nat) :
    Except Fault (Option (Option Nat)) :=
  enclosingTriangle env T.triang.mesh
    (queryAt T.pos (T.settings.epsPointIsOnSegment * maxDim T.points) p) coin fuel

/-- `hasInterpolatedDepth` (source/util/Terrain.cpp:23-25): `none` if the lookup does not end within `fuel` rounds. The
triangle is dereferenced without a test. -/
noncomputable def hasInterpolatedDepth (env : Env) (T : Terrain) (p : V2) (coin : Nat → Bool) (fuel : Nat) :
    Except Fault (Option Bool) := do
  match ← T.enclosing env p coin fuel with
  | none => .ok none
  | some o => do
    let k ← deref o
    .ok (some (!isIncidentToBoundary T.triang.mesh k))

/-- `refRays[tri->vert[i]->index].norm()` (source/util/Terrain.cpp:33-36); the index of the vertex `v` is that of its
point, and -1 for a bounding vertex. -/
noncomputable def vertexDepth (T : Terrain) (v : Nat) : Except Fault ℝ :=
  if v < 3 then .error .ub
  else do
    let i ← at' T.order (v - 3)
    let ray ← at' T.refRays i
    .ok ray.norm

/-- `operator()` of `Terrain` (source/util/Terrain.cpp:27-45): `none` if the lookup does not end within `fuel` rounds,
`some none` if false is returned, and else the value of `resDepth`. -/
noncomputable def Terrain.depthAt (L : Linear) (env : Env) (T : Terrain) (p : V2) (coin : Nat → Bool) (fuel : Nat) :
    Except Fault (Option (Option ℝ)) := do
  match ← T.enclosing env p coin fuel with
  | none => .ok none
  | some none => .ok (some none)
  | some (some k) =>
    if isIncidentToBoundary T.triang.mesh k then .ok (some none)
    else do
      let d0 ← vertexDepth T (T.triang.mesh.tv k 0)
      let d1 ← vertexDepth T (T.triang.mesh.tv k 1)
      let d2 ← vertexDepth T (T.triang.mesh.tv k 2)
      let a := T.pos (T.triang.mesh.tv k 0)
      let b := T.pos (T.triang.mesh.tv k 1)
      let c := T.pos (T.triang.mesh.tv k 2)
      let co := L.solve ⟨a.x, b.x, c.x⟩ ⟨a.y, b.y, c.y⟩ ⟨1, 1, 1⟩ ⟨d0, d1, d2⟩
      .ok (some (some (co.x * p.x + co.y * p.y + co.z)))

open Classical in
/-- `stereographicProject` (source/util/SphericalTriangulation.cpp:8-15). For the ray opposite to the axis `s` is infinite
and the result not a number: `none`. -/
noncomputable def stereographicProject (ray : V3) : Option V2 :=
  let r := ray.normalized
  if 1 + r.z = 0 then none
  else
    let s := 2 / (1 + r.z)
    some ⟨s * r.x, s * r.y⟩

/-- `projectAll` (source/util/SphericalTriangulation.cpp:25-30). -/
noncomputable def projectAll : List V3 → Option (List V2)
  | [] => some []
  | r :: rs => do
    let p ← stereographicProject r
    let ps ← projectAll rs
    some (p :: ps)

/-- A `TrihedralSector` (include/util/SphericalTriangulation.h:14-16) with the triangle that is its key. The rays pointed to
never change. -/
structure Sector where
  key : Nat
  r0 : V3
  r1 : V3
  r2 : V3

/-- `_rays[tri->vert[i]->index]` for the vertex `v` (source/util/SphericalTriangulation.cpp:38). -/
def rayOf (rays : List V3) (order : List Nat) (v : Nat) : Except Fault V3 :=
  if v < 3 then .error .ub
  else do
    let i ← at' order (v - 3)
    at' rays i

/-- The sector of a triangle (source/util/SphericalTriangulation.cpp:36-39). -/
def sectorOf (rays : List V3) (order : List Nat) (m : Mesh) (k : Nat) : Except Fault Sector := do
  let r0 ← rayOf rays order (m.tv k 0)
  let r1 ← rayOf rays order (m.tv k 1)
  let r2 ← rayOf rays order (m.tv k 2)
  .ok ⟨k, r0, r1, r2⟩

/-- The loop filling `_sectors` (source/util/SphericalTriangulation.cpp:36-39) for the keys in the order of the map. -/
def sectorsOf (rays : List V3) (order : List Nat) (m : Mesh) : List Nat → Except Fault (List Sector)
  | [] => .ok []
  | k :: ks => do
    let s ← sectorOf rays order m k
    let ss ← sectorsOf rays order m ks
    .ok (s :: ss)

/-- The constructor of `SphericalTriangulation` (source/util/SphericalTriangulation.cpp:32-40), and so of
`SphericalTerrain` (source/util/SphericalTerrain.cpp:6-9): the initial `_sectors`, in the order `arrange` of their keys;
`none` if the triangulation is not finished within `fuel` rounds. A ray without projection gives a vertex at NaN, no triangle
contains it, and `addPoint` dereferences the null pointer. -/
noncomputable def newSectors (env : Env) (arrange : List Nat → List Nat) (s : Settings) (rays : List V3)
    (order : List Nat) (fuel : Nat) : Except Fault (Option (List Sector)) :=
  match projectAll rays with
  | none => .error .ub
  | some points =>
    match triangulate env s points order fuel with
    | .error f => .error f
    | .ok none => .ok none
    | .ok (some (t, _)) =>
      match sectorsOf rays order t.mesh (arrange (triangles t)) with
      | .error f => .error f
      | .ok l => .ok (some l)

/-- `sectorBadness` (source/util/SphericalTriangulation.cpp:17-23). -/
noncomputable def sectorBadness (s : Sector) : ℝ := max (max (angle s.r0 s.r1) (angle s.r1 s.r2)) (angle s.r2 s.r0)

open Classical in
/-- `isInSector(ray, sector.rays)` (source/util/geometry.cpp:107-115). -/
noncomputable def inSector (L : Linear) (ray : V3) (s : Sector) : Bool :=
  let co := L.solve s.r0 s.r1 s.r2 ray
  decide (co.x ≥ 0 ∧ co.y ≥ 0 ∧ co.z ≥ 0)

open Classical in
/-- `std::min_element` by `sectorBadness` (source/util/SphericalTriangulation.cpp:55-58): the first of the least. -/
noncomputable def bestSector (s : Sector) (l : List Sector) : Sector :=
  l.foldl (fun best x => if sectorBadness x < sectorBadness best then x else best) s

/-- `enclosingSector` (source/util/SphericalTriangulation.cpp:42-67): the sector and the new `_sectors`. -/
noncomputable def enclosingSector (L : Linear) (sectors : List Sector) (ray : V3) : Option Sector × List Sector :=
  match sectors.filter (inSector L ray) with
  | [] => (none, sectors)
  | [s] => (some s, sectors)
  | s :: l =>
    let best := bestSector s l
    (some best, sectors.filter fun x => !inSector L ray x || x.key == best.key)

/-- `operator()` of `SphericalTerrain` (source/util/SphericalTerrain.cpp:11-27): the value of `resDepth`, none if false is
returned, and the new `_sectors`. -/
noncomputable def sphericalDepth (L : Linear) (sectors : List Sector) (dir : V3) : Option ℝ × List Sector :=
  match enclosingSector L sectors dir with
  | (none, st) => (none, st)
  | (some s, st) =>
    let plane := L.plane s.r0 s.r1 s.r2
    let alpha := -plane.2 / plane.1.dot dir
    (some (alpha * dir.norm), st)

/-- `_sectors` after lookups in the directions `dirs`. -/
noncomputable def lookedUp (L : Linear) (sectors : List Sector) (dirs : List V3) : List Sector :=
  dirs.foldl (fun st dir => (sphericalDepth L st dir).2) sectors

end Mdso.Tri
