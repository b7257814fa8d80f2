import Verif.Props.Delaunay
import Verif.Props.Terrain

/-!
# Terrains do not depend on the order in which the triangulation is built
-/

set_option autoImplicit false

namespace Mdso.Tri

open Mdso.Geom Mdso.Tri.Spec

/-- The affine function with given values at the corners. -/
noncomputable def affineAt (a b c : V2) (d0 d1 d2 : ℝ) (q : V2) : ℝ :=
  (d0 * area q b c + d1 * area a q c + d2 * area a b q) / area a b c

theorem affineAt_corners {a b c : V2} (h : area a b c ≠ 0) (d0 d1 d2 : ℝ) :
    affineAt a b c d0 d1 d2 a = d0 ∧ affineAt a b c d0 d1 d2 b = d1 ∧ affineAt a b c d0 d1 d2 c = d2 := by
  unfold affineAt
  refine ⟨?_, ?_, ?_⟩
  · rw [div_eq_iff h]; unfold area; ring
  · rw [div_eq_iff h]; unfold area; ring
  · rw [div_eq_iff h]; unfold area; ring

theorem affineAt_interpolates (a b c : V2) (d0 d1 d2 : ℝ) {a' b' c' : V2} {e0 e1 e2 : ℝ} {p : V2} {e : ℝ}
    (h : Interpolates a' b' c' e0 e1 e2 p e) (h0 : affineAt a b c d0 d1 d2 a' = e0)
    (h1 : affineAt a b c d0 d1 d2 b' = e1) (h2 : affineAt a b c d0 d1 d2 c' = e2) : affineAt a b c d0 d1 d2 p = e := by
  obtain ⟨x, y, z, hs, rfl, rfl⟩ := h
  obtain rfl : z = 1 - x - y := by linarith
  rw [← h0, ← h1, ← h2]
  unfold affineAt area
  simp only [add_x, add_y, smul_x, smul_y]
  ring

section

variable {L : Linear} {env : Env} {unmap : V2 → V3} {s : Settings} {points : List V2} {depths : List ℝ}
  {order : List Nat} {fuel : Nat} {T : Terrain}

/-- C151: away from the edges a depth is reported exactly in the convex hull of the points, whatever the order in which
they were inserted. -/
theorem C151_where (hL : Exact L) (henv : Lawful env) (ho : Shuffle points.length order) (hG : GeneralPosition s points)
    (hu : ∀ p ∈ points, unmap p ≠ 0) (hn : 3 ≤ points.length)
    (h : newTerrain env unmap s points depths order fuel = .ok (some T)) {p : V2} (hp : Clear T p) {env' : Env}
    (henv' : Lawful env') {coin : Nat → Bool} {fuel' : Nat} {r : Option ℝ}
    (hr : T.depthAt L env' p coin fuel' = .ok (some r)) : r ≠ none ↔ InConvexHull points p := by
  obtain ⟨⟨l, ht⟩, -⟩ := newTerrain_spec h
  rw [C58_plain_defined hL henv henv' ho hG hu h hp hr, C149_covers_hull henv ho hG ht hn]

/-- What is known of a reported depth. -/
theorem depth_joined (hL : Exact L) (henv : Lawful env) (ho : Shuffle points.length order) (hG : GeneralPosition s points)
    (hu : ∀ p ∈ points, unmap p ≠ 0)
    (h : newTerrain env unmap s points depths order fuel = .ok (some T)) {p : V2} (hp : Clear T p) {env' : Env}
    (henv' : Lawful env') {coin : Nat → Bool} {fuel' : Nat} {d : ℝ}
    (hr : T.depthAt L env' p coin fuel' = .ok (some (some d))) :
    ∃ k ∈ triangles T.triang, Inside (position points order (T.triang.mesh.tv k 0))
      (position points order (T.triang.mesh.tv k 1)) (position points order (T.triang.mesh.tv k 2)) p ∧
      ∃ (i : Fin 3 → Nat) (a : Fin 3 → V2) (e : Fin 3 → ℝ),
        (∀ j, get T.triang (i j) = .ok (T.triang.mesh.tv k j) ∧ points[i j]? = some (a j) ∧ depths[i j]? = some (e j) ∧
          a j = position points order (T.triang.mesh.tv k j)) ∧ Interpolates (a 0) (a 1) (a 2) |e 0| |e 1| |e 2| p d := by
  obtain ⟨⟨l, ht⟩, -, hs, hpt, hor, -⟩ := newTerrain_spec h
  have hpos : T.pos = position points order := by unfold Terrain.pos; rw [hpt, hor]
  obtain ⟨x, -, -, c, c', e⟩ := depthAt_spec hL henv henv' ho hG hu h p coin fuel'
  match x, c, c', e with
  | none, c, _, _ => rw [c rfl] at hr; cases hr
  | some none, _, c', _ => rw [c' rfl] at hr; cases hr
  | some (some k), _, _, e =>
    obtain ⟨hk, hc, ⟨-, h1⟩ | ⟨hkk, i, a, e, res, h1, -, h3, h4⟩⟩ := e k rfl
    · rw [h1] at hr; cases hr
    · rw [h4] at hr
      cases hr
      refine ⟨k, hkk, ?_, i, a, e, h1, h3⟩
      rcases hc with hc | ⟨i, hc⟩
      · exact inside_of_clear henv ho hG h hp hk hc
      · have := hp _ (((C48_general_position_partial henv ho hG ht).1).sides k hk i).1
        rw [hpos, hs, hpt] at this
        exact absurd hc this

/-- C151: if no four points are on a circle, the depth reported away from the edges does not depend on the order in which
the points were inserted, on the coins or on the tolerances. -/
theorem C151_same_depth (hL : Exact L) (henv : Lawful env) (ho : Shuffle points.length order)
    (hG : GeneralPosition s points) (hu : ∀ p ∈ points, unmap p ≠ 0) (hn : 3 ≤ points.length)
    (h : newTerrain env unmap s points depths order fuel = .ok (some T)) {env' : Env} {s' : Settings}
    {order' : List Nat} {fuel' : Nat} {T' : Terrain} (henv' : Lawful env') (ho' : Shuffle points.length order')
    (hG' : GeneralPosition s' points) (h' : newTerrain env' unmap s' points depths order' fuel' = .ok (some T'))
    (hC : NoFourOnCircle points) {p : V2} (hp : Clear T p) (hp' : Clear T' p) {env1 env2 : Env} (henv1 : Lawful env1)
    (henv2 : Lawful env2) {coin1 coin2 : Nat → Bool} {fuel1 fuel2 : Nat} {r1 r2 : Option ℝ}
    (h1 : T.depthAt L env1 p coin1 fuel1 = .ok (some r1)) (h2 : T'.depthAt L env2 p coin2 fuel2 = .ok (some r2)) :
    r1 = r2 := by
  have w1 := C151_where hL henv ho hG hu hn h hp henv1 h1
  have w2 := C151_where hL henv' ho' hG' hu hn h' hp' henv2 h2
  match r1, r2, w1, w2, h1, h2 with
  | none, none, _, _, _, _ => rfl
  | none, some d, w1, w2, _, _ => exact absurd (w1.2 (w2.1 (by simp))) (by simp)
  | some d, none, w1, w2, _, _ => exact absurd (w2.2 (w1.1 (by simp))) (by simp)
  | some d, some d', _, _, h1, h2 =>
    obtain ⟨⟨l, ht⟩, -⟩ := newTerrain_spec h
    obtain ⟨⟨l', ht'⟩, -⟩ := newTerrain_spec h'
    obtain ⟨k, hk, hin, i, a, e, q1, q2⟩ := depth_joined hL henv ho hG hu h hp henv1 h1
    obtain ⟨k', hk', hin', i', a', e', q1', q2'⟩ := depth_joined hL henv' ho' hG' hu h' hp' henv2 h2
    have hJ : Joined T.triang (i 0) (i 1) (i 2) :=
      ⟨_, _, _, (q1 0).1, (q1 1).1, (q1 2).1, k, hk, fun v => by rw [ex_fin3]; simp only [eq_comm]⟩
    obtain ⟨va, vb, vc, ga, gb, gc, n, hn', hv⟩ := (C150_order_irrelevant henv ho hG ht henv' ho' hG' ht' hC _ _ _).1 hJ
    obtain ⟨-, -, -, -, -, m6, m7⟩ := run_mesh henv' ho' hG' ht'
    have hsub : ∀ k ∈ triangles T'.triang, k ∈ T'.triang.allTriangles := fun k hk => (List.mem_filter.1 hk).1
    have vpos : ∀ j v, get T'.triang (i j) = .ok v → position points order' v = a j := by
      intro j v hg
      obtain ⟨b, b1, -, b2⟩ := run_vertex ho' (q1 j).2.1
      rw [m7 _ _ b1] at hg
      cases hg
      exact b2
    have hinn : Inside (position points order' (T'.triang.mesh.tv n 0)) (position points order' (T'.triang.mesh.tv n 1))
        (position points order' (T'.triang.mesh.tv n 2)) p := by
      refine (inside_corner (position points order') (fun x y => m6 n hn' x y) hv p).2 ?_
      rw [vpos 0 va ga, vpos 1 vb gb, vpos 2 vc gc, (q1 0).2.2.2, (q1 1).2.2.2, (q1 2).2.2.2]
      exact hin
    have hnk : n = k' := (C87_tiles henv' ho' hG' ht').apart p n (hsub n hn') k' (hsub k' hk') hinn hin'
    subst hnk
    have harea : area (a 0) (a 1) (a 2) ≠ 0 := by
      rw [(q1 0).2.2.2, (q1 1).2.2.2, (q1 2).2.2.2]
      exact inside_area hin
    obtain ⟨f0, f1, f2⟩ := affineAt_corners harea |e 0| |e 1| |e 2|
    have hl' := (C48_general_position_partial henv' ho' hG' ht').2
    have val : ∀ j, affineAt (a 0) (a 1) (a 2) |e 0| |e 1| |e 2| (a' j) = |e' j| := by
      intro j
      have hidx : ∀ x v, get T'.triang (i x) = .ok v → T'.triang.mesh.tv n j = v → i' j = i x := by
        intro x v hg hvj
        refine get_inj ho' ht' hl' ?_ ?_ (((q1' j).1.trans (by rw [hvj])).trans hg.symm)
        · exact (List.getElem?_eq_some_iff.1 (q1' j).2.1).1
        · exact (List.getElem?_eq_some_iff.1 (q1 x).2.1).1
      have same : ∀ x, i' j = i x → a' j = a x ∧ e' j = e x := by
        intro x hx
        have u1 := (q1' j).2.1
        have u2 := (q1' j).2.2.1
        rw [hx] at u1 u2
        rw [(q1 x).2.1] at u1
        rw [(q1 x).2.2.1] at u2
        exact ⟨(Option.some.inj u1).symm, (Option.some.inj u2).symm⟩
      rcases (hv _).1 ⟨j, rfl⟩ with hh | hh | hh
      · obtain ⟨s1, s2⟩ := same 0 (hidx 0 va ga hh)
        rw [s1, s2, f0]
      · obtain ⟨s1, s2⟩ := same 1 (hidx 1 vb gb hh)
        rw [s1, s2, f1]
      · obtain ⟨s1, s2⟩ := same 2 (hidx 2 vc gc hh)
        rw [s1, s2, f2]
    rw [← affineAt_interpolates _ _ _ _ _ _ q2 f0 f1 f2, ← affineAt_interpolates _ _ _ _ _ _ q2' (val 0) (val 1) (val 2)]

end

/-- Checks that the point asked for is clear of all edges and that the lookup ends in an inner triangle. -/
def clearInner (r : Except Fault (Option (Triangulation × List Nat))) (q : Query) : Bool :=
  match r with
  | .ok (some (t, _)) => (t.allEdges.all fun e => !q.onEdge (t.mesh.ev e 0) (t.mesh.ev e 1)) &&
    match enclosingTriangle demoEnv t.mesh q (fun _ => true) 100 with
    | .ok (some (some k)) => decide (k ∈ triangles t)
    | _ => false
  | _ => false

theorem clearInner_spec {r : Except Fault (Option (Triangulation × List Nat))} {q : Query} (h : clearInner r q = true) :
    ∃ t l k, r = .ok (some (t, l)) ∧ (∀ e ∈ t.allEdges, q.onEdge (t.mesh.ev e 0) (t.mesh.ev e 1) = false) ∧
      enclosingTriangle demoEnv t.mesh q (fun _ => true) 100 = .ok (some (some k)) ∧ k ∈ triangles t := by
  unfold clearInner at h
  split at h
  · next t l =>
    rw [Bool.and_eq_true, List.all_eq_true] at h
    obtain ⟨h1, h2⟩ := h
    split at h2
    · next k hk =>
      refine ⟨t, l, k, rfl, fun e he => by simpa using h1 e he, hk, ?_⟩
      simpa using h2
    · cases h2
  · cases h

/-- A point of the triangle between points 1, 2 and 3 of `quadPoints`. -/
def quadCentre : Q2 := ⟨3, 7 / 3⟩

/-- Terrains over the four points. -/
theorem quad_terrain {L : Linear} (hL : Exact L) (order : List Nat) (ho : order.Perm [0, 1, 2, 3])
    (hc : clearInner (construct demoEnv (predsQ (positionQ quadPoints order) (1 / 1000000000 * maxDimQ quadPoints)
      (1 / 1000000000 * maxDimQ quadPoints)) order 100) (queryQ (positionQ quadPoints order)
      (1 / 1000000000 * maxDimQ quadPoints) quadCentre) = true) : ∃ T d,
    newTerrain demoEnv (fun _ => axis) defaultSettings (quadPoints.map Q2.real) [1, 2, 3, 4] order 100 = .ok (some T) ∧
    Clear T quadCentre.real ∧ T.depthAt L demoEnv quadCentre.real (fun _ => true) 100 = .ok (some (some d)) := by
  have hr := triangulate_real demoEnv (1 / 1000000000) (1 / 1000000000) quadPoints (by decide +kernel) order 100
  have hq := queryAt_real (positionQ quadPoints order) (1 / 1000000000 * maxDimQ quadPoints) (by decide +kernel) quadCentre
  rw [← hr, ← hq, ← position_real] at hc
  obtain ⟨t, l, k, h1, h2, h3, h4⟩ := clearInner_spec hc
  have hT : newTerrain demoEnv (fun _ => axis) defaultSettings (quadPoints.map Q2.real) [1, 2, 3, 4] order 100 =
      .ok (some ⟨defaultSettings, quadPoints.map Q2.real, order, t,
        ((quadPoints.map Q2.real).zip [(1 : ℝ), 2, 3, 4]).map fun pd => pd.2 • (axis).normalized⟩) := by
    unfold newTerrain defaultSettings
    rw [h1]
    simp [quadPoints]
  have heps : ((1 / 1000000000 * maxDimQ quadPoints : ℚ) : ℝ) = defaultSettings.epsPointIsOnSegment *
      maxDim (quadPoints.map Q2.real) := by
    rw [maxDim_real, Rat.cast_mul]
    rfl
  rw [heps] at h2 h3
  have ho' : Shuffle (quadPoints.map Q2.real).length order := ho
  have hax : axis ≠ 0 := fun hh => by simpa [axis] using congrArg V3.z hh
  obtain ⟨r, e1, -, -, -, e4⟩ := depthAt_spec hL demoEnv_lawful demoEnv_lawful ho' quad_general (fun _ _ => hax) hT
    quadCentre.real (fun _ => true) 100
  obtain rfl := Except.ok.inj (e1.symm.trans h3)
  obtain ⟨-, -, ⟨hnk, -⟩ | ⟨-, i, a, d, res, -, -, -, g4⟩⟩ := e4 k rfl
  · exact absurd h4 hnk
  · refine ⟨_, res, hT, ?_, g4⟩
    intro e he
    have := h2 e he
    unfold Terrain.pos
    simpa [queryAt] using this

/-- The hypotheses of the theorems are met: two terrains over four points, built in different orders, report the same
depth at a point that is in the hull of the points. -/
example {L : Linear} (hL : Exact L) : ∃ T T' d,
    newTerrain demoEnv (fun _ => axis) defaultSettings (quadPoints.map Q2.real) [1, 2, 3, 4] [0, 1, 2, 3] 100 = .ok (some T) ∧
    newTerrain demoEnv (fun _ => axis) defaultSettings (quadPoints.map Q2.real) [1, 2, 3, 4] [3, 0, 2, 1] 100 = .ok (some T') ∧
    T.depthAt L demoEnv quadCentre.real (fun _ => true) 100 = .ok (some (some d)) ∧
    T'.depthAt L demoEnv quadCentre.real (fun _ => true) 100 = .ok (some (some d)) ∧
    InConvexHull (quadPoints.map Q2.real) quadCentre.real := by
  obtain ⟨T, d, h, hc, hd⟩ := quad_terrain hL [0, 1, 2, 3] (by decide) (by decide +kernel)
  obtain ⟨T', d', h', hc', hd'⟩ := quad_terrain hL [3, 0, 2, 1] (by decide) (by decide +kernel)
  have ho : Shuffle (quadPoints.map Q2.real).length [0, 1, 2, 3] := by show [0, 1, 2, 3].Perm [0, 1, 2, 3]; decide
  have ho' : Shuffle (quadPoints.map Q2.real).length [3, 0, 2, 1] := by show [3, 0, 2, 1].Perm [0, 1, 2, 3]; decide
  have hax : axis ≠ 0 := fun hh => by simpa [axis] using congrArg V3.z hh
  have := C151_same_depth hL demoEnv_lawful ho quad_general (fun _ _ => hax) (by decide) h demoEnv_lawful ho' quad_general h'
    quad_noFour hc hc' demoEnv_lawful demoEnv_lawful hd hd'
  obtain rfl := Option.some.inj this
  exact ⟨T, T', d, h, h', hd, hd', (C151_where hL demoEnv_lawful ho quad_general (fun _ _ => hax) (by decide) h hc
    demoEnv_lawful hd).1 (by simp)⟩

end Mdso.Tri
