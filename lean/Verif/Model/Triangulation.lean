import Verif.Model.Geometry
import Mathlib.Data.Finset.Basic
import Mathlib.Data.Finset.Card
import Mathlib.Data.Fin.VecNotation

/-!
# Model of `Triangulation`

Models `source/util/Triangulation.cpp` except drawing. Vertices, edges and triangles are numbered in the order of their
creation, and a pointer is such a number; the three bounding vertices are 0, 1 and 2, and the vertex of the `i`-th point
inserted is `3 + i`. The fields of a new edge or triangle are all assigned by the function that creates it, so that
only `Edge::triang` may be null. The predicates of `geometry.cpp` reach the mesh as functions of vertex numbers.
Parameters stand for the shuffled order, for the bits drawn from `mt`, and for the element of an `unordered_set` that
comes first.
-/

set_option autoImplicit false

namespace Mdso.Tri

open Mdso.Geom

/-- The contents of `_edges`, `_triangles` and of the sets in `_vertices` (include/util/Triangulation.h:23-39,
102-104). -/
structure Mesh where
  ne : Nat
  nt : Nat
  ev : Nat → Fin 2 → Nat
  et : Nat → Fin 2 → Option Nat
  tv : Nat → Fin 3 → Nat
  te : Nat → Fin 3 → Nat
  vE : Nat → Finset Nat
  vT : Nat → Finset Nat

/-- The predicates about one point: `isInsideBound`, `doesContain(edge, point)` for the ends of the edge, the call of
`isInsideTriangle` in `doesContain(tri, point)`, and `isSameSide(a, b, c, point)`. -/
structure Query where
  inBound : Bool
  onEdge : Nat → Nat → Bool
  inTri : Nat → Nat → Nat → Bool
  sameSide : Nat → Nat → Nat → Bool

/-- The predicates about vertices: `isABCDConvex`, `isABDelaunay`, `areEqual` with the tolerance of the settings, and
those about the position of a vertex. -/
structure Preds where
  convex : Nat → Nat → Nat → Nat → Bool
  delaunay : Nat → Nat → Nat → Nat → Bool
  equal : Nat → Nat → Bool
  query : Nat → Query

/-- What is not determined by the points: the first element of a set, and the bits drawn when a vertex is looked up. -/
structure Env where
  first : Finset Nat → Nat
  coin : Nat → Nat → Bool

/-- A dereferenced pointer. -/
def deref : Option Nat → Except Fault Nat
  | some t => .ok t
  | none => .error .ub

/-- The sides of a triangle in order. -/
def sides (m : Mesh) (t : Nat) : List Nat := [m.te t 0, m.te t 1, m.te t 2]

/-- The vertices of a triangle in order. -/
def corners (m : Mesh) (t : Nat) : List Nat := [m.tv t 0, m.tv t 1, m.tv t 2]

/-- `isIncident(vert, edge)` (source/util/Triangulation.cpp:236-238). -/
def isEnd (m : Mesh) (v e : Nat) : Bool := m.ev e 0 == v || m.ev e 1 == v

/-- `isIncident(vert, tri)` (source/util/Triangulation.cpp:240-243). -/
def isCorner (m : Mesh) (v t : Nat) : Bool := m.tv t 0 == v || m.tv t 1 == v || m.tv t 2 == v

/-- `findThirdVert` (source/util/Triangulation.cpp:194-212). -/
def findThirdVert (m : Mesh) (t e : Nat) : Except Fault Nat :=
  if e ∈ sides m t then
    match (corners m t).find? (fun v => v != m.ev e 0 && v != m.ev e 1) with
    | some v => .ok v
    | none => .error .abort
  else .error .exception

/-- `findOppositeEdge` (source/util/Triangulation.cpp:214-234). -/
def findOppositeEdge (m : Mesh) (t v : Nat) : Except Fault Nat :=
  if v ∈ corners m t then
    match (sides m t).find? (fun e => m.ev e 0 != v && m.ev e 1 != v) with
    | some e => .ok e
    | none => .error .abort
  else .error .exception

/-- `isFromBoundingTri` (source/util/Triangulation.cpp:266-269). -/
def isBound (v : Nat) : Bool := decide (v < 3)

/-- `isIncidentToBoundary` (source/util/Triangulation.cpp:367-370). -/
def isIncidentToBoundary (m : Mesh) (t : Nat) : Bool :=
  isBound (m.tv t 0) || isBound (m.tv t 1) || isBound (m.tv t 2)

/-- `doesContain(tri, point)` (source/util/Triangulation.cpp:245-253). -/
def doesContain (m : Mesh) (q : Query) (t : Nat) : Bool :=
  (sides m t).any (fun e => q.onEdge (m.ev e 0) (m.ev e 1)) || q.inTri (m.tv t 0) (m.tv t 1) (m.tv t 2)

/-- `isEdgeLegal` (source/util/Triangulation.cpp:271-291). -/
def isEdgeLegal (p : Preds) (m : Mesh) (e : Nat) : Except Fault Bool :=
  let a := m.ev e 0
  let b := m.ev e 1
  if isBound a && isBound b then .ok true
  else do
    let t0 ← deref (m.et e 0)
    let c ← findThirdVert m t0 e
    let t1 ← deref (m.et e 1)
    let d ← findThirdVert m t1 e
    if (isBound c || isBound d) && !isBound a && !isBound b then .ok true
    else if isBound a || isBound b then .ok (!p.convex a c b d)
    else .ok (!p.convex a c b d || p.delaunay a b c d)

/-- `x->triang[x->triang[0] == old ? 0 : 1] = new` (source/util/Triangulation.cpp:157-159, 394-397, 450-452). -/
def replaceTri (m : Mesh) (x old new : Nat) : Mesh :=
  { m with
    et := Function.update m.et x (Function.update (m.et x) (if m.et x 0 = some old then 0 else 1) (some new)) }

/-- `vert->edges.insert(edge)`. -/
def insertE (m : Mesh) (v e : Nat) : Mesh := { m with vE := Function.update m.vE v (insert e (m.vE v)) }

/-- `vert->edges.erase(edge)`. -/
def eraseE (m : Mesh) (v e : Nat) : Mesh := { m with vE := Function.update m.vE v ((m.vE v).erase e) }

/-- `vert->triangles.insert(tri)`. -/
def insertT (m : Mesh) (v t : Nat) : Mesh := { m with vT := Function.update m.vT v (insert t (m.vT v)) }

/-- `vert->triangles.erase(tri)`. -/
def eraseT (m : Mesh) (v t : Nat) : Mesh := { m with vT := Function.update m.vT v ((m.vT v).erase t) }

/-- `makeEdge()` and the assignments to its fields. -/
def newEdge (m : Mesh) (v0 v1 t0 t1 : Nat) : Mesh :=
  { m with
    ne := m.ne + 1
    ev := Function.update m.ev m.ne ![v0, v1]
    et := Function.update m.et m.ne ![some t0, some t1] }

/-- `makeTriangle()` and the assignments to its fields. -/
def newTri (m : Mesh) (v0 v1 v2 e0 e1 e2 : Nat) : Mesh :=
  { m with
    nt := m.nt + 1
    tv := Function.update m.tv m.nt ![v0, v1, v2]
    te := Function.update m.te m.nt ![e0, e1, e2] }

/-- The body of the loop over the sides of the two old triangles in `performFlip` for the side `x` of `oldTri[j]`
(source/util/Triangulation.cpp:152-160). -/
def flipSide (e old a inc0 inc1 : Nat) (j : Fin 3) (m : Mesh) (x : Nat) : Mesh :=
  if x = e then m
  else
    let inc := if isEnd m a x then inc0 else inc1
    let m1 := replaceTri m x old inc
    { m1 with te := Function.update m1.te inc (Function.update (m1.te inc) j x) }

/-- The updates of the sets in `performFlip` (source/util/Triangulation.cpp:171-191). -/
def flipSets (m : Mesh) (e a b c d t0 t1 n i0 i1 : Nat) : Mesh :=
  let m := eraseT (eraseT (eraseE m a e) a t0) a t1
  let m := eraseT (eraseT (eraseE m b e) b t0) b t1
  let m := eraseT (eraseT m c t0) d t1
  let m := insertT (eraseT (eraseT (eraseE m a e) a t0) a t1) a i0
  let m := insertT (eraseT (eraseT (eraseE m b e) b t0) b t1) b i1
  let m := insertT (insertT (insertE m c n) c i0) c i1
  insertT (insertT (insertE m d n) d i0) d i1

/-- The rest of `performFlip` once the vertices apart are found (source/util/Triangulation.cpp:141-191). The sides 0
and 1 of the two new triangles are assigned in the loop. -/
def flip (m : Mesh) (e t0 t1 c d : Nat) : Mesh :=
  let a := m.ev e 0
  let b := m.ev e 1
  let n := m.ne
  let i0 := m.nt
  let i1 := m.nt + 1
  let m1 := newTri (newTri (newEdge m c d i0 i1) c d a 0 0 n) c d b 0 0 n
  let m2 := (sides m t0).foldl (flipSide e t0 a i0 i1 0) m1
  let m3 := (sides m t1).foldl (flipSide e t1 a i0 i1 1) m2
  flipSets m3 e a b c d t0 t1 n i0 i1

/-- `performFlip` (source/util/Triangulation.cpp:134-192). -/
def performFlip (m : Mesh) (e : Nat) : Except Fault Mesh := do
  let t0 ← deref (m.et e 0)
  let c ← findThirdVert m t0 e
  let t1 ← deref (m.et e 1)
  let d ← findThirdVert m t1 e
  .ok (flip m e t0 t1 c d)

/-- The updates of the sets in `divideTriangle` (source/util/Triangulation.cpp:404-417). -/
def divideTriangleSets (m : Mesh) (t v a b c e0 e1 e2 t0 t1 t2 : Nat) : Mesh :=
  let m := eraseT (insertT (insertT (insertE m a e0) a t1) a t2) a t
  let m := eraseT (insertT (insertT (insertE m b e1) b t2) b t0) b t
  let m := eraseT (insertT (insertT (insertE m c e2) c t0) c t1) c t
  let m := insertT (insertE m v e0) v t0
  let m := insertT (insertE m v e1) v t1
  insertT (insertE m v e2) v t2

/-- `divideTriangle` after its check (source/util/Triangulation.cpp:377-417). The opposite edges are looked up first:
the assignments in between do not change the old triangle. -/
def divideTriangle (m : Mesh) (t v : Nat) : Except Fault Mesh := do
  let a := m.tv t 0
  let b := m.tv t 1
  let c := m.tv t 2
  let x0 ← findOppositeEdge m t a
  let x1 ← findOppositeEdge m t b
  let x2 ← findOppositeEdge m t c
  let e0 := m.ne
  let e1 := m.ne + 1
  let e2 := m.ne + 2
  let t0 := m.nt
  let t1 := m.nt + 1
  let t2 := m.nt + 2
  let m := newEdge (newEdge (newEdge m v a t1 t2) v b t2 t0) v c t0 t1
  let m := newTri (newTri (newTri m b c v e2 e1 x0) c a v e0 e2 x1) a b v e1 e0 x2
  let m := replaceTri (replaceTri (replaceTri m x0 t t0) x1 t t1) x2 t t2
  .ok (divideTriangleSets m t v a b c e0 e1 e2 t0 t1 t2)

/-- The loop looking for `externEdge` in `divideEdge` (source/util/Triangulation.cpp:440-448). -/
def externEdge (m : Mesh) (e t w : Nat) : Except Fault Nat :=
  deref ((sides m t).find? (fun x => x != e && isEnd m w x))

/-- The updates of the sets in `divideEdge` (source/util/Triangulation.cpp:455-493). `tjq` is the new triangle at
`apartVert[j]` and `incVert[q]`, `iq` the new edge to `incVert[q]`, `pj` the one to `apartVert[j]`. -/
def divideEdgeSets (m : Mesh) (e v a b c d t0 t1 t00 t01 t10 t11 i0 i1 p0 p1 : Nat) : Mesh :=
  let m := insertT (insertT (insertT m a t00) v t00) c t00
  let m := insertT (insertT (insertT m b t01) v t01) c t01
  let m := insertT (insertT (insertT m a t10) v t10) d t10
  let m := insertT (insertT (insertT m b t11) v t11) d t11
  let m := eraseT (eraseT (eraseT m c t0) a t0) b t0
  let m := eraseT (eraseT (eraseT m d t1) a t1) b t1
  let m := eraseE (insertE (insertE m v i0) a i0) a e
  let m := eraseE (insertE (insertE m v i1) b i1) b e
  insertE (insertE (insertE (insertE m v p0) c p0) v p1) d p1

/-- `divideEdge` (source/util/Triangulation.cpp:420-494). The outer edges are looked up first: the assignments in
between do not change the old triangles. -/
def divideEdge (m : Mesh) (e v : Nat) : Except Fault Mesh := do
  let t0 ← deref (m.et e 0)
  let c ← findThirdVert m t0 e
  let t1 ← deref (m.et e 1)
  let d ← findThirdVert m t1 e
  let a := m.ev e 0
  let b := m.ev e 1
  let x00 ← externEdge m e t0 a
  let x01 ← externEdge m e t0 b
  let x10 ← externEdge m e t1 a
  let x11 ← externEdge m e t1 b
  let t00 := m.nt
  let t01 := m.nt + 1
  let t10 := m.nt + 2
  let t11 := m.nt + 3
  let i0 := m.ne
  let i1 := m.ne + 1
  let p0 := m.ne + 2
  let p1 := m.ne + 3
  let m := newEdge (newEdge m v a t00 t10) v b t01 t11
  let m := newEdge (newEdge m v c t00 t01) v d t10 t11
  let m := newTri (newTri m a v c p0 i0 x00) b v c p0 i1 x01
  let m := newTri (newTri m a v d p1 i0 x10) b v d p1 i1 x11
  let m := replaceTri (replaceTri m x00 t0 t00) x01 t0 t01
  let m := replaceTri (replaceTri m x10 t1 t10) x11 t1 t11
  .ok (divideEdgeSets m e v a b c d t0 t1 t00 t01 t10 t11 i0 i1 p0 p1)

/-- The triangle behind the current edge in the walk (source/util/Triangulation.cpp:315-327). -/
def nextTri (m : Mesh) (q : Query) (e : Nat) : Except Fault Nat :=
  if m.et e 0 = none then deref (m.et e 1)
  else if m.et e 1 = none then deref (m.et e 0)
  else do
    let t0 ← deref (m.et e 0)
    let c ← findThirdVert m t0 e
    if q.sameSide (m.ev e 0) (m.ev e 1) c then .ok t0 else deref (m.et e 1)

/-- Whether the walk may cross the side `x` of `t` (source/util/Triangulation.cpp:342-346). -/
def isPossibleWay (m : Mesh) (q : Query) (t x : Nat) : Except Fault Bool := do
  let c ← findThirdVert m t x
  .ok (!q.sameSide (m.ev x 0) (m.ev x 1) c)

/-- The next edge of the walk (source/util/Triangulation.cpp:351-363): `way0` and `way1` tell which of the other sides
`x0` and `x1` may be crossed. -/
def nextEdge (e x0 x1 : Nat) (way0 way1 coin : Bool) : Nat :=
  if way0 && way1 then (if coin then x0 else x1)
  else if way0 then x0
  else if way1 then x1
  else e

/-- The loop of `enclosingTriangle` (source/util/Triangulation.cpp:310-364); `none` if `fuel` rounds do not suffice.
`otherEdges` holds two pointers: a third one is written behind its end, and a missing one is read uninitialised. -/
def walk (m : Mesh) (q : Query) (coin : Nat → Bool) : Nat → Nat → Except Fault (Option Nat)
  | 0, _ => .ok none
  | fuel + 1, e => do
    let t ← nextTri m q e
    match (sides m t).filter (fun x => x != e) with
    | [x0, x1] => do
      let way0 ← isPossibleWay m q t x0
      let way1 ← isPossibleWay m q t x1
      if doesContain m q t then .ok (some t)
      else walk m q coin fuel (nextEdge e x0 x1 way0 way1 (coin fuel))
    | _ => .error .ub

/-- Whether the triangle exists and contains the point (source/util/Triangulation.cpp:302-305). -/
def containsOpt (m : Mesh) (q : Query) : Option Nat → Bool
  | some t => doesContain m q t
  | none => false

/-- `enclosingTriangle` (source/util/Triangulation.cpp:293-365): `none` if the loop does not end within `fuel` rounds,
`some none` for a null pointer. -/
def enclosingTriangle (env : Env) (m : Mesh) (q : Query) (coin : Nat → Bool) (fuel : Nat) :
    Except Fault (Option (Option Nat)) :=
  if q.inBound then
    let e := env.first (m.vE 0)
    if containsOpt m q (m.et e 0) then .ok (some (m.et e 0))
    else if containsOpt m q (m.et e 1) then .ok (some (m.et e 1))
    else
      match walk m q coin fuel e with
      | .error f => .error f
      | .ok none => .ok none
      | .ok (some t) => .ok (some (some t))
  else .ok (some none)

/-- The loop over `maybeIllegal` in `addPoint` (source/util/Triangulation.cpp:525-541); `none` if `fuel` rounds do not
suffice. -/
def legalize (p : Preds) (v : Nat) : Nat → List Nat → Mesh → Except Fault (Option Mesh)
  | _, [], m => .ok (some m)
  | 0, _ :: _, _ => .ok none
  | fuel + 1, e :: queue, m => do
    let legal ← isEdgeLegal p m e
    if legal then legalize p v fuel queue m
    else do
      let t0 ← deref (m.et e 0)
      let op ← if isCorner m v t0 then deref (m.et e 1) else .ok t0
      let m' ← performFlip m e
      legalize p v fuel (queue ++ (sides m op).filter (fun x => x != e)) m'

/-- The sides of the triangles at the enclosing side (source/util/Triangulation.cpp:511-516). -/
def sidesAround (m : Mesh) (e : Nat) : Except Fault (List Nat) := do
  let t0 ← deref (m.et e 0)
  let t1 ← deref (m.et e 1)
  .ok ((sides m t0).filter (fun x => x != e) ++ (sides m t1).filter (fun x => x != e))

/-- `addPoint` once the enclosing triangle is found (source/util/Triangulation.cpp:502-543): the vertex returned and the
mesh. -/
def insertInto (p : Preds) (m : Mesh) (v t fuel : Nat) : Except Fault (Option (Nat × Mesh)) :=
  match (corners m t).find? (fun w => p.equal w v) with
  | some w => .ok (some (w, m))
  | none =>
    match (sides m t).reverse.find? (fun e => (p.query v).onEdge (m.ev e 0) (m.ev e 1)) with
    | some e => do
      let queue ← sidesAround m e
      let m1 ← divideEdge m e v
      let r ← legalize p v fuel queue m1
      .ok (r.map fun m2 => (v, m2))
    | none =>
      if doesContain m (p.query v) t then do
        let m1 ← divideTriangle m t v
        let r ← legalize p v fuel (sides m t) m1
        .ok (r.map fun m2 => (v, m2))
      else .error .exception

/-- `addPoint` (source/util/Triangulation.cpp:496-544). -/
def addPoint (env : Env) (p : Preds) (m : Mesh) (v fuel : Nat) : Except Fault (Option (Nat × Mesh)) :=
  match enclosingTriangle env m (p.query v) (env.coin v) fuel with
  | .error f => .error f
  | .ok none => .ok none
  | .ok (some none) => .error .ub
  | .ok (some (some t)) => insertInto p m v t fuel

/-- The bounding triangle (source/util/Triangulation.cpp:42-63). -/
def initial : Mesh where
  ne := 3
  nt := 1
  ev := fun e => if e = 0 then ![0, 1] else if e = 1 then ![1, 2] else ![2, 0]
  et := fun _ => ![some 0, none]
  tv := fun _ => ![0, 1, 2]
  te := fun _ => ![0, 1, 2]
  vE := fun v => if v = 0 then {0, 2} else if v = 1 then {0, 1} else if v = 2 then {1, 2} else ∅
  vT := fun v => if v < 3 then {0} else ∅

/-- The members during construction: the vertices still in `_vertices` after the bounding ones, the mesh, and
`indicesInv`. -/
structure State where
  verts : List Nat
  mesh : Mesh
  inv : List Nat

/-- The loop inserting the points (source/util/Triangulation.cpp:70-80). `order` is the list of shuffled indices not yet
inserted, `all` the whole list, and `i` the number of those inserted. The index of the vertex `3 + k` is `all[k]`, that
of a bounding vertex is -1. -/
def insertAll (env : Env) (p : Preds) (fuel : Nat) (all : List Nat) :
    List Nat → Nat → State → Except Fault (Option State)
  | [], _, s => .ok (some s)
  | k :: order, i, s =>
    match addPoint env p s.mesh (3 + i) fuel with
    | .error f => .error f
    | .ok none => .ok none
    | .ok (some (w, m)) =>
      if w = 3 + i then insertAll env p fuel all order (i + 1) ⟨s.verts ++ [3 + i], m, s.inv.set k (i + 3)⟩
      else if w < 3 then .error .ub
      else do
        let j ← at' all (w - 3)
        let old ← at' s.inv j
        insertAll env p fuel all order (i + 1) ⟨s.verts, m, s.inv.set k old⟩

/-- A constructed triangulation: `_vertices` after the bounding ones, the mesh, `indicesInv`, and the numbers of the
edges and triangles kept by `tidy` in `_edges` and `_triangles`. -/
structure Triangulation where
  verts : List Nat
  mesh : Mesh
  inv : List Nat
  allEdges : List Nat
  allTriangles : List Nat

/-- `tidy` (source/util/Triangulation.cpp:546-577). -/
def tidy (s : State) : Triangulation where
  verts := s.verts
  mesh := s.mesh
  inv := s.inv
  allEdges := (List.range s.mesh.ne).filter fun e => ([0, 1, 2] ++ s.verts).any fun v => e ∈ s.mesh.vE v
  allTriangles := (List.range s.mesh.nt).filter fun t => ([0, 1, 2] ++ s.verts).any fun v => t ∈ s.mesh.vT v

/-- `operator[]` (source/util/Triangulation.cpp:92-96) for an index of at least 0. -/
def get (t : Triangulation) (i : Nat) : Except Fault Nat :=
  if i ≥ t.verts.length then .error .exception
  else do
    let j ← at' t.inv i
    at' ([0, 1, 2] ++ t.verts) j

/-- The calls of `operator[]` in `fillPtrVectors` (source/util/Triangulation.cpp:579-582): what the iterators run
over. -/
def vertexPtrs (t : Triangulation) : Nat → Except Fault (List Nat)
  | 0 => .ok []
  | n + 1 => do
    let l ← vertexPtrs t n
    let v ← get t n
    .ok (l ++ [v])

/-- `edges()` (source/util/Triangulation.cpp:98-100, 583-586). -/
def edges (t : Triangulation) : List Nat :=
  t.allEdges.filter fun e => !isBound (t.mesh.ev e 0) && !isBound (t.mesh.ev e 1)

/-- `triangles()` (source/util/Triangulation.cpp:102-105, 587-590). -/
def triangles (t : Triangulation) : List Nat :=
  t.allTriangles.filter fun k => !isIncidentToBoundary t.mesh k

/-- The constructor (source/util/Triangulation.cpp:14-82) for a shuffled list of indices; `none` if one of the loops
does not end within `fuel` rounds. -/
def construct (env : Env) (p : Preds) (order : List Nat) (fuel : Nat) :
    Except Fault (Option (Triangulation × List Nat)) :=
  match insertAll env p fuel order order 0 ⟨[], initial, List.replicate order.length 0⟩ with
  | .error f => .error f
  | .ok none => .ok none
  | .ok (some s) =>
    match vertexPtrs (tidy s) s.verts.length with
    | .error f => .error f
    | .ok l => .ok (some (tidy s, l))

/-- `Settings::Triangulation` (include/util/settings.h:86-95) except the padding used for drawing. -/
structure Settings where
  epsPointIsOnSegment : ℝ
  epsSamePoints : ℝ

open Classical in
/-- `minx`, `miny` (source/util/Triangulation.cpp:21-34). Without points they are infinite and not used: that case is
modelled by 0. -/
noncomputable def lowest (f : V2 → ℝ) : List V2 → ℝ
  | [] => 0
  | p :: ps => ps.foldl (fun lo q => if f q < lo then f q else lo) (f p)

open Classical in
/-- `maxx`, `maxy` (source/util/Triangulation.cpp:21-34), see `lowest`. -/
noncomputable def highest (f : V2 → ℝ) : List V2 → ℝ
  | [] => 0
  | p :: ps => ps.foldl (fun hi q => if f q > hi then f q else hi) (f p)

/-- `maxDim` (source/util/Triangulation.cpp:36). -/
noncomputable def maxDim (points : List V2) : ℝ :=
  max (highest V2.x points - lowest V2.x points) (highest V2.y points - lowest V2.y points)

/-- The positions of the bounding vertices (source/util/Triangulation.cpp:40-42). -/
noncomputable def boundingPos (points : List V2) (i : Nat) : V2 :=
  let minx := lowest V2.x points
  let miny := lowest V2.y points
  let dim := maxDim points
  if i = 0 then ⟨minx - dim, miny - dim⟩
  else if i = 1 then ⟨minx + 4 * dim, miny - dim⟩
  else ⟨minx - dim, miny + 4 * dim⟩

/-- `pos` of the vertices (source/util/Triangulation.cpp:40-42, 71). `order` holds valid indices; another one is read as
the first bounding vertex. -/
noncomputable def position (points : List V2) (order : List Nat) (v : Nat) : V2 :=
  if v < 3 then boundingPos points v
  else match order[v - 3]? with
    | some k => points.getD k (boundingPos points 0)
    | none => boundingPos points 0

open Classical in
/-- The predicates about the point `q` with the tolerance of the settings: `isInsideBound`
(source/util/Triangulation.cpp:255-258), `doesContain` (:245-253, 260-264), and `isSameSide` in `enclosingTriangle`
(:320-321, 343-346). -/
noncomputable def queryAt (pos : Nat → V2) (epsSegment : ℝ) (q : V2) : Query where
  inBound := decide (isInsideTriangle (pos 0) (pos 1) (pos 2) q)
  onEdge a b := decide (doesABcontain (pos a) (pos b) q epsSegment)
  inTri a b c := decide (isInsideTriangle (pos a) (pos b) (pos c) q)
  sameSide a b c := decide (isSameSide (pos a) (pos b) (pos c) q)

open Classical in
/-- The predicates called with the positions of vertices and the tolerances of the settings: `isABCDConvex` and
`isABDelaunay` in `isEdgeLegal` (source/util/Triangulation.cpp:287-290), and `areEqual` in `addPoint` (:503). -/
noncomputable def predsAt (pos : Nat → V2) (epsSegment epsSame : ℝ) : Preds where
  convex a b c d := decide (isABCDConvex (pos a) (pos b) (pos c) (pos d))
  delaunay a b c d := decide (isABDelaunay (pos a) (pos b) (pos c) (pos d))
  equal a b := decide (areEqual (pos a) (pos b) epsSame)
  query v := queryAt pos epsSegment (pos v)

/-- The constructor on points, for the order drawn by `std::shuffle`. -/
noncomputable def triangulate (env : Env) (s : Settings) (points : List V2) (order : List Nat) (fuel : Nat) :
    Except Fault (Option (Triangulation × List Nat)) :=
  construct env (predsAt (position points order) (s.epsPointIsOnSegment * maxDim points)
    (s.epsSamePoints * maxDim points)) order fuel

end Mdso.Tri
