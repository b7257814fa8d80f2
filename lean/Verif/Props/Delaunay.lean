import Verif.Lemmas.DelCover
import Verif.Props.Triangulation

/-!
# The triangulation is the Delaunay triangulation
-/

set_option autoImplicit false

namespace Mdso.Tri

open Mdso.Geom Mdso.Tri.Spec

section

variable {env : Env} {s : Settings} {points : List V2} {order : List Nat} {fuel : Nat} {t : Triangulation} {l : List Nat}

/-- C148: no point is inside the circle of a triangle, whatever the order in which the points are inserted. -/
theorem C148_empty_circles (henv : Lawful env) (ho : Shuffle points.length order) (hG : GeneralPosition s points)
    (h : triangulate env s points order fuel = .ok (some (t, l))) :
    ∀ n ∈ triangles t, EmptyCircle points (position points order (t.mesh.tv n 0)) (position points order (t.mesh.tv n 1))
      (position points order (t.mesh.tv n 2)) := by
  intro n hn
  obtain ⟨h1, h2, h3, h4, h5, h6, -⟩ := run_mesh henv ho hG h
  obtain ⟨hc, k0, k1, k2⟩ := (h5 (t.mesh.tv n 0) (t.mesh.tv n 1) (t.mesh.tv n 2)).2
    ⟨fun hh => absurd (h6 n hn _ _ hh) (by decide), fun hh => absurd (h6 n hn _ _ hh) (by decide),
      fun hh => absurd (h6 n hn _ _ hh) (by decide), n, hn, fun v => by rw [ex_fin3]; simp only [eq_comm]⟩
  exact emptyCircle_of (h1.area h2 hc) (run_empty henv ho hG h hc k0 k1 k2)

/-- C149: the triangles cover the convex hull of the points and nothing else. -/
theorem C149_covers_hull (henv : Lawful env) (ho : Shuffle points.length order) (hG : GeneralPosition s points)
    (h : triangulate env s points order fuel = .ok (some (t, l))) (hn : 3 ≤ points.length) (q : V2) :
    InConvexHull points q ↔ ∃ n ∈ triangles t, Within (position points order (t.mesh.tv n 0))
      (position points order (t.mesh.tv n 1)) (position points order (t.mesh.tv n 2)) q := by
  obtain ⟨h1, h2, h3, h4, h5, h6, -⟩ := run_mesh henv ho hG h
  constructor
  · intro hq
    obtain ⟨a, b, c, hc, k0, k1, k2, hw⟩ := run_cover henv ho hG h hn hq
    obtain ⟨-, -, -, n, hn, hv⟩ := (h5 a b c).1 ⟨hc, k0, k1, k2⟩
    exact ⟨n, hn, (within_corner (position points order) (fun i j => h6 n hn i j) hv q).2 hw⟩
  · rintro ⟨n, hn, hw⟩ α β γ hp
    obtain ⟨hc, k0, k1, k2⟩ := (h5 (t.mesh.tv n 0) (t.mesh.tv n 1) (t.mesh.tv n 2)).2
      ⟨fun hh => absurd (h6 n hn _ _ hh) (by decide), fun hh => absurd (h6 n hn _ _ hh) (by decide),
        fun hh => absurd (h6 n hn _ _ hh) (by decide), n, hn, fun v => by rw [ex_fin3]; simp only [eq_comm]⟩
    have hmem : ∀ v, v ∈ vset t.verts → 3 ≤ v → position points order v ∈ points := fun v hv h3 =>
      position_mem ho h3 ((h4 v).1 hv)
    exact within_hull (h1.area h2 hc) hw (hp _ (hmem _ (h1.mem hc) k0)) (hp _ (hmem _ (h1.mem2 hc) k1))
      (hp _ (hmem _ (h1.mem3 hc) k2))

/-- The points of a triangle are three different points of the list. -/
theorem joined_points (henv : Lawful env) (ho : Shuffle points.length order) (hG : GeneralPosition s points)
    (h : triangulate env s points order fuel = .ok (some (t, l))) {i j k : Nat} (hj : Joined t i j k) :
    i ≠ j ∧ i ≠ k ∧ j ≠ k ∧ i < points.length ∧ j < points.length ∧ k < points.length := by
  obtain ⟨h1, h2, h3, h4, h5, h6, -⟩ := run_mesh henv ho hG h
  obtain ⟨a, b, c, g1, g2, g3, n, hn, hv⟩ := hj
  have i1 : t.mesh.tv n 0 ≠ t.mesh.tv n 1 := fun hh => absurd (h6 n hn _ _ hh) (by decide)
  have i2 : t.mesh.tv n 0 ≠ t.mesh.tv n 2 := fun hh => absurd (h6 n hn _ _ hh) (by decide)
  have i3 : t.mesh.tv n 1 ≠ t.mesh.tv n 2 := fun hh => absurd (h6 n hn _ _ hh) (by decide)
  have d : a ≠ b ∧ a ≠ c ∧ b ≠ c := by
    have v0 := (hv _).1 ⟨0, rfl⟩
    have v1 := (hv _).1 ⟨1, rfl⟩
    have v2 := (hv _).1 ⟨2, rfl⟩
    clear * - i1 i2 i3 v0 v1 v2
    grind
  have hl := (C48_general_position_partial henv ho hG h).2
  have hlt : ∀ i a, get t i = .ok a → i < points.length := by
    intro i a hg
    unfold get at hg
    split at hg
    · cases hg
    · omega
  refine ⟨?_, ?_, ?_, hlt _ _ g1, hlt _ _ g2, hlt _ _ g3⟩
  · rintro rfl
    rw [g1] at g2
    exact d.1 (Except.ok.inj g2)
  · rintro rfl
    rw [g1] at g3
    exact d.2.1 (Except.ok.inj g3)
  · rintro rfl
    rw [g2] at g3
    exact d.2.2 (Except.ok.inj g3)

theorem joined_of (henv : Lawful env) (ho : Shuffle points.length order) (hG : GeneralPosition s points)
    (h : triangulate env s points order fuel = .ok (some (t, l))) {env' : Env} {s' : Settings} {order' : List Nat}
    {fuel' : Nat} {t' : Triangulation} {l' : List Nat} (henv' : Lawful env') (ho' : Shuffle points.length order')
    (hG' : GeneralPosition s' points) (h' : triangulate env' s' points order' fuel' = .ok (some (t', l')))
    (hC : NoFourOnCircle points) {i j k : Nat} (hj : Joined t i j k) : Joined t' i j k := by
  obtain ⟨n1, n2, n3, b1, b2, b3⟩ := joined_points henv ho hG h hj
  obtain ⟨p, hp⟩ : ∃ p, points[i]? = some p := ⟨_, List.getElem?_eq_getElem b1⟩
  obtain ⟨q, hq⟩ : ∃ p, points[j]? = some p := ⟨_, List.getElem?_eq_getElem b2⟩
  obtain ⟨r, hr⟩ : ∃ p, points[k]? = some p := ⟨_, List.getElem?_eq_getElem b3⟩
  obtain ⟨a, b, c, -, -, -, e1, e2, e3, hc⟩ := (run_joined henv ho hG h hp hq hr).1 ⟨hj, n1, n2, n3⟩
  obtain ⟨h1, h2, -⟩ := run_mesh henv ho hG h
  obtain ⟨h1', h2', -, h4', -⟩ := run_mesh henv' ho' hG' h'
  have ha := h1.area h2 hc
  have he := run_empty henv ho hG h hc (by omega) (by omega) (by omega)
  rw [e1, e2, e3] at ha he
  have mp := List.mem_of_getElem? hp
  have mq := List.mem_of_getElem? hq
  have mr := List.mem_of_getElem? hr
  obtain ⟨w, hw⟩ := exists_inside ha
  have hull : InConvexHull points w := fun α β γ hh =>
    within_hull ha ⟨hw.1.le, hw.2.1.le, hw.2.2.le⟩ (hh p mp) (hh q mq) (hh r mr)
  obtain ⟨x, y, z, hc', x3, y3, z3, hw'⟩ := run_cover henv' ho' hG' h' (by omega) hull
  have ha' := h1'.area h2' hc'
  have he' := run_empty henv' ho' hG' h' hc' x3 y3 z3
  obtain ⟨ix, jx, rfl, ox, px⟩ := run_point ho' x3 ((h4' _).1 (h1'.mem hc'))
  obtain ⟨iy, jy, rfl, oy, py⟩ := run_point ho' y3 ((h4' _).1 (h1'.mem2 hc'))
  obtain ⟨iz, jz, rfl, oz, pz⟩ := run_point ho' z3 ((h4' _).1 (h1'.mem3 hc'))
  obtain ⟨z1, z2, z3⟩ := same_circle hw ha' hw' (he _ (List.mem_of_getElem? px)) (he _ (List.mem_of_getElem? py))
    (he _ (List.mem_of_getElem? pz)) (he' p mp) (he' q mq) (he' r mr)
  have hJ := (run_joined henv' ho' hG' h' px py pz).2 ⟨jx, jy, jz, ox, oy, oz, rfl, rfl, rfl, hc'⟩
  -- a point on the circle is a corner
  have key : ∀ m u, points[m]? = some u → pow (position points order' (3 + jx)) (position points order' (3 + jy))
      (position points order' (3 + jz)) u = 0 → m = ix ∨ m = iy ∨ m = iz := by
    intro m u hu hz
    by_contra hcon
    push Not at hcon
    obtain ⟨o, d, hd⟩ := circle_of ha'
    obtain ⟨-, -, -, -, q1, q2, q3⟩ := pow_affine ha'
    rw [hd] at hz q1 q2 q3
    exact hC ix iy iz m _ _ _ u hJ.2.1 hJ.2.2.1 (Ne.symm hcon.1) hJ.2.2.2 (Ne.symm hcon.2.1) (Ne.symm hcon.2.2) px py pz hu
      ⟨o, d, by linarith, by linarith, by linarith, by linarith⟩
  have ki := key i p hp z1
  have kj := key j q hq z2
  have kk := key k r hr z3
  obtain ⟨⟨va, vb, vc, ga, gb, gc, n, hn, hv⟩, d1, d2, d3⟩ := hJ
  have get_eq : ∀ m, m = ix ∨ m = iy ∨ m = iz → ∃ v, get t' m = .ok v ∧
      (m = ix ∧ v = va ∨ m = iy ∧ v = vb ∨ m = iz ∧ v = vc) := by
    rintro m (rfl | rfl | rfl)
    · exact ⟨va, ga, by simp⟩
    · exact ⟨vb, gb, by simp⟩
    · exact ⟨vc, gc, by simp⟩
  obtain ⟨ui, gi, ci⟩ := get_eq i ki
  obtain ⟨uj, gj, cj⟩ := get_eq j kj
  obtain ⟨uk, gk, ck⟩ := get_eq k kk
  refine ⟨ui, uj, uk, gi, gj, gk, n, hn, fun v => ?_⟩
  rw [hv]
  clear * - ci cj ck n1 n2 n3 d1 d2 d3
  grind

/-- C150: if no four points are on a circle, the triangles do not depend on the order in which the points are inserted, on
the coins or on the tolerances. -/
theorem C150_order_irrelevant (henv : Lawful env) (ho : Shuffle points.length order) (hG : GeneralPosition s points)
    (h : triangulate env s points order fuel = .ok (some (t, l))) {env' : Env} {s' : Settings} {order' : List Nat}
    {fuel' : Nat} {t' : Triangulation} {l' : List Nat} (henv' : Lawful env') (ho' : Shuffle points.length order')
    (hG' : GeneralPosition s' points) (h' : triangulate env' s' points order' fuel' = .ok (some (t', l')))
    (hC : NoFourOnCircle points) (i j k : Nat) : Joined t i j k ↔ Joined t' i j k :=
  ⟨joined_of henv ho hG h henv' ho' hG' h' hC, joined_of henv' ho' hG' h' henv ho hG h hC⟩

end

/-- Four points in general position, in convex position and not on a circle. -/
def quadPoints : List Q2 := [⟨0, 0⟩, ⟨3, 1⟩, ⟨1, 2⟩, ⟨5, 4⟩]

theorem quad_general : GeneralPosition defaultSettings (quadPoints.map Q2.real) :=
  general_of_check (by decide +kernel)

theorem quad_noFour : NoFourOnCircle (quadPoints.map Q2.real) := by
  have key : ∀ (i : Nat) (p : V2), (quadPoints.map Q2.real)[i]? = some p →
      i = 0 ∧ p = ⟨0, 0⟩ ∨ i = 1 ∧ p = ⟨3, 1⟩ ∨ i = 2 ∧ p = ⟨1, 2⟩ ∨ i = 3 ∧ p = ⟨5, 4⟩ := by
    intro i p hp
    have hi : i < 4 := (List.getElem?_eq_some_iff.1 hp).1
    interval_cases i <;> simp [quadPoints, Q2.real] at hp <;> simp [← hp]
  rintro i j k l p q r u n1 n2 n3 n4 n5 n6 hp hq hr hu ⟨o, d, e1, e2, e3, e4⟩
  have all : ∀ m v, (m = 0 ∧ v = (⟨0, 0⟩ : V2) ∨ m = 1 ∧ v = ⟨3, 1⟩ ∨ m = 2 ∧ v = ⟨1, 2⟩ ∨ m = 3 ∧ v = ⟨5, 4⟩) →
      (m = i ∨ m = j ∨ m = k ∨ m = l) → sqNorm (v - o) = d := by
    intro m v hv hm
    have k1 := key i p hp
    have k2 := key j q hq
    have k3 := key k r hr
    have k4 := key l u hu
    clear hp hq hr hu key
    grind
  have cover : ∀ m, m < 4 → m = i ∨ m = j ∨ m = k ∨ m = l := by
    intro m hm
    have k1 : i < 4 := (List.getElem?_eq_some_iff.1 hp).1
    have k2 : j < 4 := (List.getElem?_eq_some_iff.1 hq).1
    have k3 : k < 4 := (List.getElem?_eq_some_iff.1 hr).1
    have k4 : l < 4 := (List.getElem?_eq_some_iff.1 hu).1
    omega
  have a0 := all 0 ⟨0, 0⟩ (by simp) (cover 0 (by omega))
  have a1 := all 1 ⟨3, 1⟩ (by simp) (cover 1 (by omega))
  have a2 := all 2 ⟨1, 2⟩ (by simp) (cover 2 (by omega))
  have a3 := all 3 ⟨5, 4⟩ (by simp) (cover 3 (by omega))
  unfold sqNorm at a0 a1 a2 a3
  simp only [sub_x, sub_y] at a0 a1 a2 a3
  nlinarith

/-- Two runs on the four points in different orders. Both return the triangles of the diagonal from point 1 to point 2. -/
theorem quad_runs : ∃ t l t' l', triangulate demoEnv defaultSettings (quadPoints.map Q2.real) [0, 1, 2, 3] 100 =
      .ok (some (t, l)) ∧ triangulate demoEnv defaultSettings (quadPoints.map Q2.real) [3, 0, 2, 1] 100 = .ok (some (t', l')) ∧
    (triangles t).length = 2 ∧ (triangles t').length = 2 := by
  have run : ∀ order : List Nat, ((construct demoEnv (predsQ (positionQ quadPoints order)
      (1 / 1000000000 * maxDimQ quadPoints) (1 / 1000000000 * maxDimQ quadPoints)) order 100).toOption.join.map
        fun r => (triangles r.1).length) = some 2 →
      ∃ t l, triangulate demoEnv defaultSettings (quadPoints.map Q2.real) order 100 = .ok (some (t, l)) ∧
        (triangles t).length = 2 := by
    intro order hl
    have hr := triangulate_real demoEnv (1 / 1000000000) (1 / 1000000000) quadPoints (by decide +kernel) order 100
    rw [← hr] at hl
    unfold defaultSettings
    generalize triangulate demoEnv ⟨((1 / 1000000000 : ℚ) : ℝ), ((1 / 1000000000 : ℚ) : ℝ)⟩ (quadPoints.map Q2.real)
      order 100 = R at hl
    cases R with
    | error f => cases hl
    | ok r =>
      cases r with
      | none => cases hl
      | some r => exact ⟨r.1, r.2, rfl, Option.some.inj hl⟩
  obtain ⟨t, l, h, k⟩ := run [0, 1, 2, 3] (by decide +kernel)
  obtain ⟨t', l', h', k'⟩ := run [3, 0, 2, 1] (by decide +kernel)
  exact ⟨t, l, t', l', h, h', k, k'⟩

/-- The hypotheses of the theorems are met by these runs. -/
example : ∃ t l t' l', triangulate demoEnv defaultSettings (quadPoints.map Q2.real) [0, 1, 2, 3] 100 =
      .ok (some (t, l)) ∧ triangulate demoEnv defaultSettings (quadPoints.map Q2.real) [3, 0, 2, 1] 100 = .ok (some (t', l')) ∧
    (∃ n ∈ triangles t, EmptyCircle (quadPoints.map Q2.real) (position (quadPoints.map Q2.real) [0, 1, 2, 3] (t.mesh.tv n 0))
      (position (quadPoints.map Q2.real) [0, 1, 2, 3] (t.mesh.tv n 1))
      (position (quadPoints.map Q2.real) [0, 1, 2, 3] (t.mesh.tv n 2))) ∧
    (∃ n ∈ triangles t, Within (position (quadPoints.map Q2.real) [0, 1, 2, 3] (t.mesh.tv n 0))
      (position (quadPoints.map Q2.real) [0, 1, 2, 3] (t.mesh.tv n 1))
      (position (quadPoints.map Q2.real) [0, 1, 2, 3] (t.mesh.tv n 2)) ⟨2, 3 / 2⟩) ∧
    ∀ i j k, Joined t i j k ↔ Joined t' i j k := by
  obtain ⟨t, l, t', l', h, h', k, k'⟩ := quad_runs
  have ho : Shuffle (quadPoints.map Q2.real).length [0, 1, 2, 3] := by show [0, 1, 2, 3].Perm [0, 1, 2, 3]; decide
  have ho' : Shuffle (quadPoints.map Q2.real).length [3, 0, 2, 1] := by show [3, 0, 2, 1].Perm [0, 1, 2, 3]; decide
  refine ⟨t, l, t', l', h, h', ?_, ?_, C150_order_irrelevant demoEnv_lawful ho quad_general h demoEnv_lawful ho' quad_general h'
    quad_noFour⟩
  · obtain ⟨n, hn⟩ := List.exists_mem_of_length_pos (l := triangles t) (by omega)
    exact ⟨n, hn, C148_empty_circles demoEnv_lawful ho quad_general h n hn⟩
  · refine (C149_covers_hull demoEnv_lawful ho quad_general h (by decide) _).1 ?_
    intro α β γ hp
    have h1 := hp ⟨3, 1⟩ (by simp [quadPoints, Q2.real])
    have h2 := hp ⟨1, 2⟩ (by simp [quadPoints, Q2.real])
    simp only at h1 h2 ⊢
    linarith

end Mdso.Tri
