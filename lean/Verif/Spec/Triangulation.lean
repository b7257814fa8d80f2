import Verif.Model.Triangulation

/-!
# What a triangulation is

Written for the members of a constructed triangulation, without reference to the operations that build it.
-/

set_option autoImplicit false

namespace Mdso.Tri.Spec

open Mdso.Geom Mdso.Tri

/-- The vertices, bounding ones included. -/
def vertices (t : Triangulation) : List Nat := [0, 1, 2] ++ t.verts

/-- The mesh is consistent. -/
structure Consistent (t : Triangulation) : Prop where
  /-- No vertex, edge or triangle is stored twice. -/
  nodup : (vertices t).Nodup ∧ t.allEdges.Nodup ∧ t.allTriangles.Nodup
  /-- The numbers of edges and triangles. -/
  count : t.allEdges.length = 3 + 3 * t.verts.length ∧ t.allTriangles.length = 1 + 2 * t.verts.length
  /-- Every edge has two distinct end vertices. -/
  ends : ∀ e ∈ t.allEdges, t.mesh.ev e 0 ≠ t.mesh.ev e 1 ∧ ∀ s, t.mesh.ev e s ∈ vertices t
  /-- The incident triangles of an edge contain it. -/
  incident : ∀ e ∈ t.allEdges, ∀ s k, t.mesh.et e s = some k → k ∈ t.allTriangles ∧ ∃ i, t.mesh.te k i = e
  /-- They are different, and one is missing only on the outline of the bounding triangle. -/
  two : ∀ e ∈ t.allEdges, t.mesh.et e 0 ≠ t.mesh.et e 1 ∧
    ∀ s, t.mesh.et e s = none → t.mesh.ev e 0 < 3 ∧ t.mesh.ev e 1 < 3
  /-- Every triangle has three distinct vertices. -/
  corners : ∀ k ∈ t.allTriangles, ∀ i j, t.mesh.tv k i = t.mesh.tv k j → i = j
  /-- Its edges are edges of the triangulation and have it as an incident triangle. -/
  sides : ∀ k ∈ t.allTriangles, ∀ i, t.mesh.te k i ∈ t.allEdges ∧ ∃ s, t.mesh.et (t.mesh.te k i) s = some k
  /-- They connect its vertices: every two of these, and nothing else. -/
  connect : ∀ k ∈ t.allTriangles, (∀ i s, ∃ j, t.mesh.ev (t.mesh.te k i) s = t.mesh.tv k j) ∧
    ∀ j j', j ≠ j' → ∃ i, (∃ s, t.mesh.ev (t.mesh.te k i) s = t.mesh.tv k j) ∧
      ∃ s, t.mesh.ev (t.mesh.te k i) s = t.mesh.tv k j'
  /-- The incidence sets of the vertices are exact. -/
  vertexEdges : ∀ v ∈ vertices t, ∀ e, e ∈ t.mesh.vE v ↔ e ∈ t.allEdges ∧ ∃ s, t.mesh.ev e s = v
  vertexTriangles : ∀ v ∈ vertices t, ∀ k, k ∈ t.mesh.vT v ↔ k ∈ t.allTriangles ∧ ∃ i, t.mesh.tv k i = v
  /-- Every vertex is a corner of some triangle. -/
  used : ∀ v ∈ vertices t, ∃ k ∈ t.allTriangles, ∃ i, t.mesh.tv k i = v

/-- The corners of the bounding triangle followed by the points. -/
noncomputable def sites (points : List V2) : List V2 :=
  [boundingPos points 0, boundingPos points 1, boundingPos points 2] ++ points

/-- Points in general position, bounding vertices included: no two are within the tolerance for equal points of each
other, and each keeps `√2` times the tolerance for segments away from the segment between two others. -/
structure GeneralPosition (s : Settings) (points : List V2) : Prop where
  eps : 0 < s.epsPointIsOnSegment
  dim : 0 < maxDim points
  equal : ∀ (i j : Nat) (p q : V2), i ≠ j → (sites points)[i]? = some p → (sites points)[j]? = some q →
    (s.epsSamePoints * maxDim points) ^ 2 ≤ sqNorm (p - q)
  segment : ∀ (i j k : Nat) (p q r : V2), i ≠ j → i ≠ k → j ≠ k → (sites points)[i]? = some p →
    (sites points)[j]? = some q → (sites points)[k]? = some r → ∀ l : ℝ, 0 ≤ l → l ≤ 1 →
    2 * (s.epsPointIsOnSegment * maxDim points) ^ 2 ≤ sqNorm (r - (p + l • (q - p)))

/-- The signed area of a triangle, doubled. -/
def area (a b c : V2) : ℝ := (b.x - a.x) * (c.y - a.y) - (b.y - a.y) * (c.x - a.x)

/-- The point `q` is in the closed triangle `abc`. -/
def Within (a b c q : V2) : Prop :=
  0 ≤ area a b c * area q b c ∧ 0 ≤ area a b c * area a q c ∧ 0 ≤ area a b c * area a b q

/-- The point `q` is in the interior of the triangle `abc`. -/
def Inside (a b c q : V2) : Prop :=
  0 < area a b c * area q b c ∧ 0 < area a b c * area a q c ∧ 0 < area a b c * area a b q

/-- The triangles, whose vertices have the positions `pos`, tile the bounding triangle: they lie in it, they cover it, and
no two of them overlap. -/
structure Tiles (pos : Nat → V2) (t : Triangulation) : Prop where
  inside : ∀ q, ∀ k ∈ t.allTriangles,
    Within (pos (t.mesh.tv k 0)) (pos (t.mesh.tv k 1)) (pos (t.mesh.tv k 2)) q → Within (pos 0) (pos 1) (pos 2) q
  cover : ∀ q, Within (pos 0) (pos 1) (pos 2) q →
    ∃ k ∈ t.allTriangles, Within (pos (t.mesh.tv k 0)) (pos (t.mesh.tv k 1)) (pos (t.mesh.tv k 2)) q
  apart : ∀ q, ∀ k ∈ t.allTriangles, ∀ k' ∈ t.allTriangles,
    Inside (pos (t.mesh.tv k 0)) (pos (t.mesh.tv k 1)) (pos (t.mesh.tv k 2)) q →
    Inside (pos (t.mesh.tv k' 0)) (pos (t.mesh.tv k' 1)) (pos (t.mesh.tv k' 2)) q → k = k'

/-- An order in which `n` points may be inserted. -/
def Shuffle (n : Nat) (order : List Nat) : Prop := order.Perm (List.range n)

/-- The iterator `begin()` of a set that is not empty refers to one of its elements. -/
def Lawful (env : Env) : Prop := ∀ S : Finset Nat, S.Nonempty → env.first S ∈ S

end Mdso.Tri.Spec
