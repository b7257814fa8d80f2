import Verif.Lemmas.TriWalk
import Verif.Lemmas.TriRat
import Mathlib.Data.Finset.Lattice.Fold

/-!
# Properties of `Triangulation`
-/

set_option autoImplicit false

namespace Mdso.Tri

open Mdso.Geom Mdso.Tri.Spec

/-- The default settings (include/util/settings.h:86-95). -/
noncomputable def defaultSettings : Settings := ⟨(1 / 1000000000 : ℚ), (1 / 1000000000 : ℚ)⟩

/-- A set whose last element comes first, and coins that all fall on the same side. -/
def demoEnv : Env := ⟨fun S => S.sup id, fun _ _ => true⟩

theorem demoEnv_lawful : Lawful demoEnv := by
  intro S hS
  show S.sup id ∈ S
  rw [← Finset.sup'_eq_sup hS]
  obtain ⟨x, hx, h⟩ := Finset.exists_mem_eq_sup' hS id
  rw [h]
  exact hx

/-- The number of the outcome, for evaluation by the kernel. -/
def outcome (r : Except Fault (Option (Triangulation × List Nat))) : Nat :=
  match r with
  | .error .ub => 1
  | .error .abort => 2
  | .error .exception => 3
  | .ok none => 4
  | .ok (some _) => 5

theorem outcome_abort {r : Except Fault (Option (Triangulation × List Nat))} (h : outcome r = 2) : r = .error .abort := by
  unfold outcome at h
  split at h <;> first | rfl | (exact absurd h (by decide))

theorem outcome_ub {r : Except Fault (Option (Triangulation × List Nat))} (h : outcome r = 1) : r = .error .ub := by
  unfold outcome at h
  split at h <;> first | rfl | (exact absurd h (by decide))

/-- Three points in general position. -/
def demoPoints : List Q2 := [⟨0, 0⟩, ⟨3, 1⟩, ⟨1, 2⟩]

theorem demo_general : GeneralPosition defaultSettings (demoPoints.map Q2.real) :=
  general_of_check (by decide +kernel)

/-- C48. -/
theorem C48_general_position_partial {env : Env} (henv : Lawful env) {s : Settings} {points : List V2} {order : List Nat}
    {fuel : Nat} (ho : Shuffle points.length order) (hG : GeneralPosition s points) {t : Triangulation} {l : List Nat}
    (h : triangulate env s points order fuel = .ok (some (t, l))) :
    Consistent t ∧ t.verts.length = points.length := by
  obtain ⟨r, hr, -, g⟩ := triangulate_general henv ho hG fuel
  rw [hr] at h
  obtain ⟨g1, -, g3, -⟩ := g t l (Except.ok.inj h)
  exact ⟨g1, g3⟩

/-- C48: any predicates whose convexity test is strict, any points, any order. -/
theorem C48_any_predicates_partial {env : Env} (henv : Lawful env) {p : Preds} {order : List Nat} {fuel : Nat}
    (ho : Shuffle order.length order) (hp : ∀ a b c, p.convex a c b c = false) {t : Triangulation} {l : List Nat}
    (h : construct env p order fuel = .ok (some (t, l))) : Consistent t := by
  rcases construct_any henv ho hp with h' | ⟨r, h', g⟩
  · rw [h] at h'; cases h'
  · rw [h] at h'
    exact g t l (Except.ok.inj h').symm

/-- C48: the convexity test called by the code is not strict. Two points already make `findThirdVert` fail its check. -/
theorem C48_violated : ∃ (env : Env) (points : List V2) (order : List Nat) (fuel : Nat), Lawful env ∧
    Shuffle points.length order ∧ triangulate env defaultSettings points order fuel = .error .abort := by
  refine ⟨demoEnv, [⟨1, 0⟩, ⟨2, 1⟩].map Q2.real, [0, 1], 100, demoEnv_lawful, List.Perm.refl _, ?_⟩
  unfold defaultSettings
  rw [triangulate_real _ _ _ _ (by decide +kernel)]
  exact outcome_abort (by decide +kernel)

/-- C49. -/
theorem C49_partial {env : Env} {s : Settings} {points : List V2} {order : List Nat} {fuel : Nat}
    (ho : Shuffle points.length order) {t : Triangulation} {l : List Nat}
    (h : triangulate env s points order fuel = .ok (some (t, l))) (hl : t.verts.length = points.length) :
    ∀ i < points.length, ∃ v, get t i = .ok v ∧ v ∈ t.verts ∧ points[i]? = some (position points order v) := by
  have hlen : order.length = points.length := by rw [ho.length_eq]; simp
  obtain ⟨h1, h2⟩ := construct_full h (by omega)
  rw [hlen] at h1 h2
  intro i hi
  obtain ⟨j, hj, hg⟩ := get_full ho h1 h2 i hi
  refine ⟨3 + j, hg, ?_, position_of hj hi⟩
  rw [h1, List.mem_range'_1]
  have := (List.getElem?_eq_some_iff.1 hj).1
  omega

/-- C49: in general position. -/
theorem C49_general_position_partial {env : Env} (henv : Lawful env) {s : Settings} {points : List V2}
    {order : List Nat} {fuel : Nat} (ho : Shuffle points.length order) (hG : GeneralPosition s points)
    {t : Triangulation} {l : List Nat} (h : triangulate env s points order fuel = .ok (some (t, l))) :
    ∀ i < points.length, ∃ v, get t i = .ok v ∧ v ∈ t.verts ∧ points[i]? = some (position points order v) :=
  C49_partial ho h (C48_general_position_partial henv ho hG h).2

/-- Points of which the first two are equal. -/
def mergedPoints : List Q2 := [⟨0, 0⟩, ⟨0, 0⟩, ⟨3, 1⟩, ⟨1, 2⟩]

/-- The vertices and the results of `operator[]`. -/
def lookups (r : Except Fault (Option (Triangulation × List Nat))) : Option (Nat × List (Except Fault Nat)) :=
  match r with
  | .ok (some (t, _)) => some (t.verts.length, (List.range 4).map (get t))
  | _ => none

/-- C49: of four points, the first two equal, `operator[]` returns the vertex of point 3 for point 2 and throws for
point 3. -/
theorem C49_violated : ∃ (env : Env) (points : List V2) (order : List Nat) (fuel : Nat) (t : Triangulation) (l : List Nat),
    Lawful env ∧ Shuffle points.length order ∧ triangulate env defaultSettings points order fuel = .ok (some (t, l)) ∧
    points.length = 4 ∧ (∃ v, get t 2 = .ok v ∧ points[3]? = some (position points order v) ∧
      points[2]? ≠ some (position points order v)) ∧ get t 3 = .error .exception := by
  have hr := triangulate_real demoEnv (1 / 1000000000) (1 / 1000000000) mergedPoints (by decide +kernel) [0, 1, 2, 3] 100
  have hl : lookups (construct demoEnv (predsQ (positionQ mergedPoints [0, 1, 2, 3]) (1 / 1000000000 * maxDimQ mergedPoints)
      (1 / 1000000000 * maxDimQ mergedPoints)) [0, 1, 2, 3] 100) = some (3, [.ok 3, .ok 3, .ok 6, .error .exception]) := by
    decide +kernel
  rw [← hr] at hl
  unfold lookups at hl
  split at hl
  · rename_i t l heq
    refine ⟨demoEnv, mergedPoints.map Q2.real, [0, 1, 2, 3], 100, t, l, demoEnv_lawful, List.Perm.refl _, heq, rfl, ?_⟩
    have h2 := (Prod.mk.inj (Option.some.inj hl)).2
    have hmap : (List.range 4).map (get t) = [get t 0, get t 1, get t 2, get t 3] := rfl
    rw [hmap] at h2
    simp only [List.cons.injEq] at h2
    refine ⟨⟨6, h2.2.2.1, ?_, ?_⟩, h2.2.2.2.1⟩
    · exact position_of (points := mergedPoints.map Q2.real) (order := [0, 1, 2, 3]) (j := 3) (i := 3) rfl (by decide)
    · have := position_of (points := mergedPoints.map Q2.real) (order := [0, 1, 2, 3]) (j := 3) (i := 3) rfl (by decide)
      rw [← this]
      intro hh
      have h3 := congrArg (Option.map V2.x) hh
      simp [mergedPoints, Q2.real] at h3
  · cases hl

/-- C49: with three points, the first and the last equal, the constructor itself reads `indicesInv` behind the end of
`_vertices`. -/
theorem C49_constructor_violated : ∃ (env : Env) (points : List V2) (order : List Nat) (fuel : Nat), Lawful env ∧
    Shuffle points.length order ∧ triangulate env defaultSettings points order fuel = .error .ub := by
  refine ⟨demoEnv, [⟨0, 0⟩, ⟨3, 1⟩, ⟨0, 0⟩].map Q2.real, [0, 2, 1], 100, demoEnv_lawful, ?_, ?_⟩
  · show [0, 2, 1].Perm [0, 1, 2]
    decide
  · unfold defaultSettings
    rw [triangulate_real _ _ _ _ (by decide +kernel)]
    exact outcome_ub (by decide +kernel)

/-- C86: the constructor does not fail on points in general position. -/
theorem C86_no_fault {env : Env} (henv : Lawful env) {s : Settings} {points : List V2} {order : List Nat}
    (ho : Shuffle points.length order) (hG : GeneralPosition s points) (fuel : Nat) :
    ∃ r, triangulate env s points order fuel = .ok r := by
  obtain ⟨r, hr, -⟩ := triangulate_general henv ho hG fuel
  exact ⟨r, hr⟩

/-- C86: and some sequence of coins lets it return, after a number of rounds linear in the number of points. -/
theorem C86_can_return {env : Env} (henv : Lawful env) {s : Settings} {points : List V2} {order : List Nat}
    (ho : Shuffle points.length order) (hG : GeneralPosition s points) {fuel : Nat}
    (hfuel : 6 * points.length + 16 ≤ fuel) :
    ∃ coin t l, triangulate ⟨env.first, coin⟩ s points order fuel = .ok (some (t, l)) :=
  triangulate_ends hG ho env henv fuel hfuel

/-- C87: the triangles tile the bounding triangle. -/
theorem C87_tiles {env : Env} (henv : Lawful env) {s : Settings} {points : List V2} {order : List Nat}
    {fuel : Nat} (ho : Shuffle points.length order) (hG : GeneralPosition s points) {t : Triangulation} {l : List Nat}
    (h : triangulate env s points order fuel = .ok (some (t, l))) : Tiles (position points order) t := by
  obtain ⟨r, hr, -, g⟩ := triangulate_general henv ho hG fuel
  rw [hr] at h
  exact (g t l (Except.ok.inj h)).2.1

/-- C88: looking up a point does not fail, returns null exactly for points outside the bounding triangle, and a triangle
returned contains the point or has a side within the tolerance of it. -/
theorem C88_lookup {env env' : Env} (henv : Lawful env) (henv' : Lawful env') {s : Settings} {points : List V2}
    {order : List Nat} {fuel : Nat} (ho : Shuffle points.length order) (hG : GeneralPosition s points)
    {t : Triangulation} {l : List Nat} (h : triangulate env s points order fuel = .ok (some (t, l))) (q : V2) (eps : ℝ)
    (coin : Nat → Bool) (fuel' : Nat) :
    ∃ r, enclosingTriangle env' t.mesh (queryAt (position points order) eps q) coin fuel' = .ok r ∧
      ∀ o, r = some o →
        (o = none ↔ ¬ Within (position points order 0) (position points order 1) (position points order 2) q) ∧
        ∀ k, o = some k → k ∈ t.allTriangles ∧
          (Within (position points order (t.mesh.tv k 0)) (position points order (t.mesh.tv k 1))
            (position points order (t.mesh.tv k 2)) q ∨
          ∃ i, doesABcontain (position points order (t.mesh.ev (t.mesh.te k i) 0))
            (position points order (t.mesh.ev (t.mesh.te k i) 1)) q eps) := by
  have test : ∀ a b c p : V2, isInsideTriangle a b c p ↔ Within a b c p := by
    intro a b c p
    unfold isInsideTriangle isSameSide Within
    simp only [cross_area]
    rw [show area a c b = -area a b c from by unfold area; ring, show area b c a = area a b c from by unfold area; ring,
      show area a p c = -area a c p from by unfold area; ring, show area p b c = area b c p from by unfold area; ring]
    constructor
    · rintro ⟨h1, h2, h3⟩
      exact ⟨by linarith, by linarith, by linarith⟩
    · rintro ⟨h1, h2, h3⟩
      exact ⟨by linarith, by linarith, by linarith⟩
  obtain ⟨r, hr, -, g⟩ := triangulate_general henv ho hG fuel
  rw [hr] at h
  obtain ⟨-, -, -, -, -, AE, AT, k1, k2, k3, k4, k5, -⟩ := g t l (Except.ok.inj h)
  obtain ⟨r, e1, e2, e3⟩ := enclosing_spec k1 k3 env' henv' (queryAt (position points order) eps q) coin fuel'
  refine ⟨r, e1, ?_⟩
  intro o hro
  have hb : (queryAt (position points order) eps q).inBound = true ↔
      Within (position points order 0) (position points order 1) (position points order 2) q := by
    rw [← test]
    unfold queryAt
    simp
  by_cases hin : (queryAt (position points order) eps q).inBound = true
  · obtain ⟨k, hk, hok, hc⟩ := e3 hin o hro
    subst hok
    refine ⟨by simp [hb.1 hin], ?_⟩
    intro k' hk'
    cases hk'
    refine ⟨(k5 k).2 hk, ?_⟩
    unfold doesContain at hc
    rw [Bool.or_eq_true] at hc
    rcases hc with hc | hc
    · right
      rw [List.any_eq_true] at hc
      obtain ⟨x, hx, hx'⟩ := hc
      obtain ⟨i, rfl⟩ := mem_sides.1 hx
      exact ⟨i, by simpa [queryAt] using hx'⟩
    · left
      rw [← test]
      simpa [queryAt] using hc
  · have hro' := e2 (by simpa using hin)
    rw [hro] at hro'
    cases hro'
    refine ⟨by simp only [true_iff]; exact fun hh => hin (hb.2 hh), by simp⟩

/-- C88: a lookup is never trapped. From every edge some sequence of coins ends the walk to a point that is in the
interior of the bounding triangle and on no line through two vertices, after at most as many rounds as there are edges. -/
theorem C88_not_trapped {env : Env} (henv : Lawful env) {s : Settings} {points : List V2}
    {order : List Nat} {fuel : Nat} (ho : Shuffle points.length order) (hG : GeneralPosition s points)
    {t : Triangulation} {l : List Nat} (h : triangulate env s points order fuel = .ok (some (t, l))) (q : V2) (eps : ℝ)
    (hq : Inside (position points order 0) (position points order 1) (position points order 2) q)
    (hgen : ∀ a ∈ vertices t, ∀ b ∈ vertices t, a ≠ b →
      area (position points order a) (position points order b) q ≠ 0) :
    ∀ e ∈ t.allEdges, ∃ coin k, walk t.mesh (queryAt (position points order) eps q) coin t.allEdges.length e = .ok (some k) := by
  obtain ⟨r, hr, -, g⟩ := triangulate_general henv ho hG fuel
  rw [hr] at h
  obtain ⟨-, -, -, -, -, AE, AT, k1, k2, k3, k4, k5, k6⟩ := g t l (Except.ok.inj h)
  have hv : ∀ v, v ∈ vset t.verts → v ∈ vertices t := by
    intro v hv
    rw [mem_vset] at hv
    show v ∈ [0, 1, 2] ++ t.verts
    simp only [List.mem_append, List.mem_cons, List.not_mem_nil, or_false]
    rcases hv with h | h
    · left; omega
    · exact .inr h
  intro e he
  exact walk_ends k1 k2.sides (among_of hG.dim ho k2.lt hq (fun a ha b hb hab => hgen a (hv a ha) b (hv b hb) hab)) eps
    ((k4 e).1 he) k6.le

/-- Some run of the constructor on the three points returns. -/
example : ∃ coin t l, triangulate ⟨demoEnv.first, coin⟩ defaultSettings (demoPoints.map Q2.real) [2, 0, 1] 100 =
    .ok (some (t, l)) :=
  C86_can_return demoEnv_lawful (by show [2, 0, 1].Perm [0, 1, 2]; decide) demo_general (by decide)

/-- The run with the coins of `demoEnv` returns: 12 edges, 7 triangles. -/
theorem demo_run : ∃ t l, triangulate demoEnv defaultSettings (demoPoints.map Q2.real) [2, 0, 1] 100 = .ok (some (t, l)) ∧
    t.allEdges.length = 12 ∧ t.allTriangles.length = 7 ∧ l = [4, 5, 3] := by
  have hr := triangulate_real demoEnv (1 / 1000000000) (1 / 1000000000) demoPoints (by decide +kernel) [2, 0, 1] 100
  have hl : ((construct demoEnv (predsQ (positionQ demoPoints [2, 0, 1]) (1 / 1000000000 * maxDimQ demoPoints)
      (1 / 1000000000 * maxDimQ demoPoints)) [2, 0, 1] 100).toOption.join.map
        fun r => (r.1.allEdges.length, r.1.allTriangles.length, r.2)) = some (12, 7, [4, 5, 3]) := by
    decide +kernel
  rw [← hr] at hl
  unfold defaultSettings
  generalize triangulate demoEnv ⟨((1 / 1000000000 : ℚ) : ℝ), ((1 / 1000000000 : ℚ) : ℝ)⟩ (demoPoints.map Q2.real)
    [2, 0, 1] 100 = R at hl
  cases R with
  | error f => cases hl
  | ok r =>
    cases r with
    | none => cases hl
    | some r =>
      obtain ⟨t, l⟩ := r
      refine ⟨t, l, rfl, ?_⟩
      have h1 := Prod.mk.inj (Option.some.inj hl)
      have h2 := Prod.mk.inj h1.2
      exact ⟨h1.1, h2.1, h2.2⟩

/-- The hypotheses of the theorems about general position are met by that run. -/
example : ∃ t l, triangulate demoEnv defaultSettings (demoPoints.map Q2.real) [2, 0, 1] 100 = .ok (some (t, l)) ∧
    Consistent t ∧ Tiles (position (demoPoints.map Q2.real) [2, 0, 1]) t := by
  obtain ⟨t, l, h, -⟩ := demo_run
  have ho : Shuffle (demoPoints.map Q2.real).length [2, 0, 1] := by show [2, 0, 1].Perm [0, 1, 2]; decide
  exact ⟨t, l, h, (C48_general_position_partial demoEnv_lawful ho demo_general h).1,
    C87_tiles demoEnv_lawful ho demo_general h⟩

/-- A run with a strict convexity test. -/
example : ∃ t l, construct demoEnv ⟨fun a b c d => decide (a < c ∧ b ≠ d), fun _ _ _ _ => true, fun _ _ => false,
    fun _ => ⟨true, fun _ _ => false, fun _ _ _ => true, fun _ _ _ => true⟩⟩ [1, 0] 100 = .ok (some (t, l)) ∧
    Consistent t := by
  have hl : ((construct demoEnv ⟨fun a b c d => decide (a < c ∧ b ≠ d), fun _ _ _ _ => true, fun _ _ => false,
    fun _ => ⟨true, fun _ _ => false, fun _ _ _ => true, fun _ _ _ => true⟩⟩ [1, 0] 100).toOption.join.map
      fun r => r.2) = some [4, 3] := by decide +kernel
  generalize hR : construct demoEnv ⟨fun a b c d => decide (a < c ∧ b ≠ d), fun _ _ _ _ => true, fun _ _ => false,
    fun _ => ⟨true, fun _ _ => false, fun _ _ _ => true, fun _ _ _ => true⟩⟩ [1, 0] 100 = R at hl ⊢
  cases R with
  | error f => cases hl
  | ok r =>
    cases r with
    | none => cases hl
    | some r =>
      refine ⟨r.1, r.2, rfl, C48_any_predicates_partial demoEnv_lawful (order := [1, 0]) ?_ ?_ hR⟩
      · show [1, 0].Perm [0, 1]
        decide
      · intro a b c
        simp

end Mdso.Tri
