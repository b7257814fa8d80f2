import Verif.Lemmas.Terrain
import Verif.Props.Triangulation
import Mathlib.LinearAlgebra.Dimension.LinearMap
import Mathlib.LinearAlgebra.Matrix.ToLin
import Mathlib.LinearAlgebra.FiniteDimensional.Lemmas
import Mathlib.LinearAlgebra.Matrix.Notation

/-!
# Properties of `Terrain` and `SphericalTerrain`
-/

set_option autoImplicit false

namespace Mdso.Tri

open Mdso.Geom Mdso.Tri.Spec

theorem inTriangle_iff {a b c p : V2} : isInsideTriangle a b c p ↔ Within a b c p := by
  unfold isInsideTriangle isSameSide Within
  simp only [cross_area]
  rw [show area a c b = -area a b c from by unfold area; ring, show area b c a = area a b c from by unfold area; ring,
    show area a p c = -area a c p from by unfold area; ring, show area p b c = area b c p from by unfold area; ring]
  constructor
  · rintro ⟨h1, h2, h3⟩
    exact ⟨by linarith, by linarith, by linarith⟩
  · rintro ⟨h1, h2, h3⟩
    exact ⟨by linarith, by linarith, by linarith⟩

/-- The point of a vertex. -/
theorem vertex_index {env : Env} {s : Settings} {points : List V2} {order : List Nat} {fuel : Nat}
    (ho : Shuffle points.length order) {t : Triangulation} {l : List Nat}
    (h : triangulate env s points order fuel = .ok (some (t, l))) (hl : t.verts.length = points.length) {v : Nat}
    (hv : v ∈ vset t.verts) (h3 : 3 ≤ v) :
    ∃ i j, v = 3 + j ∧ order[j]? = some i ∧ i < points.length ∧ get t i = .ok v := by
  have hlen : order.length = points.length := by rw [ho.length_eq]; simp
  obtain ⟨h1, h2⟩ := construct_full h (by omega)
  rw [hlen] at h1 h2
  rw [mem_vset] at hv
  have hv' : v ∈ t.verts := by
    rcases hv with hv | hv
    · omega
    · exact hv
  rw [h1, List.mem_range'_1] at hv'
  obtain ⟨j, rfl⟩ : ∃ j, v = 3 + j := ⟨v - 3, by omega⟩
  have hj : j < order.length := by omega
  have hi : order[j] < points.length := by
    have := (ho.mem_iff (a := order[j])).1 (List.getElem_mem hj)
    rwa [List.mem_range] at this
  obtain ⟨j', hj', hg⟩ := get_full ho h1 h2 _ hi
  have : j' = j := by
    have hn : order.Nodup := ho.nodup_iff.2 List.nodup_range
    obtain ⟨hj'l, hj'e⟩ := List.getElem?_eq_some_iff.1 hj'
    exact (List.Nodup.getElem_inj_iff hn).1 hj'e
  subst this
  exact ⟨_, j', rfl, List.getElem?_eq_getElem hj, hi, hg⟩

/-- Different points have different vertices. -/
theorem get_inj {env : Env} {s : Settings} {points : List V2} {order : List Nat} {fuel : Nat}
    (ho : Shuffle points.length order) {t : Triangulation} {l : List Nat}
    (h : triangulate env s points order fuel = .ok (some (t, l))) (hl : t.verts.length = points.length) {i i' : Nat}
    (hi : i < points.length) (hi' : i' < points.length) (hg : get t i = get t i') : i = i' := by
  have hlen : order.length = points.length := by rw [ho.length_eq]; simp
  obtain ⟨h1, h2⟩ := construct_full h (by omega)
  rw [hlen] at h1 h2
  obtain ⟨j, hj, hgj⟩ := get_full ho h1 h2 i hi
  obtain ⟨j', hj', hgj'⟩ := get_full ho h1 h2 i' hi'
  rw [hgj, hgj'] at hg
  have : j = j' := by have := Except.ok.inj hg; omega
  subst this
  rw [hj] at hj'
  exact Option.some.inj hj'

/-- A lookup that yields a depth has found a triangle without bounding vertices, and interpolates there. -/
theorem depthAt_spec {L : Linear} (hL : Exact L) {env env' : Env} (henv : Lawful env) (henv' : Lawful env')
    {unmap : V2 → V3} {s : Settings} {points : List V2} {depths : List ℝ} {order : List Nat} {fuel : Nat}
    (ho : Shuffle points.length order) (hG : GeneralPosition s points) (hu : ∀ p ∈ points, unmap p ≠ 0) {T : Terrain}
    (h : newTerrain env unmap s points depths order fuel = .ok (some T)) (p : V2) (coin : Nat → Bool) (fuel' : Nat) :
    ∃ r, T.enclosing env' p coin fuel' = .ok r ∧
      (∀ o, r = some o → (o = none ↔
        ¬ Within (position points order 0) (position points order 1) (position points order 2) p)) ∧
      (r = none → T.depthAt L env' p coin fuel' = .ok none) ∧
      (r = some none → T.depthAt L env' p coin fuel' = .ok (some none)) ∧
      ∀ k, r = some (some k) → k ∈ T.triang.allTriangles ∧
        (WithinT (position points order) T.triang.mesh k p ∨
          ∃ i, doesABcontain (position points order (T.triang.mesh.ev (T.triang.mesh.te k i) 0))
            (position points order (T.triang.mesh.ev (T.triang.mesh.te k i) 1)) p (s.epsPointIsOnSegment * maxDim points)) ∧
        ((k ∉ triangles T.triang ∧ T.depthAt L env' p coin fuel' = .ok (some none)) ∨
          (k ∈ triangles T.triang ∧ ∃ (i : Fin 3 → Nat) (a : Fin 3 → V2) (d : Fin 3 → ℝ) (res : ℝ),
            (∀ j, get T.triang (i j) = .ok (T.triang.mesh.tv k j) ∧ points[i j]? = some (a j) ∧ depths[i j]? = some (d j) ∧
              a j = position points order (T.triang.mesh.tv k j)) ∧
            area (a 0) (a 1) (a 2) ≠ 0 ∧ Interpolates (a 0) (a 1) (a 2) |d 0| |d 1| |d 2| p res ∧
            T.depthAt L env' p coin fuel' = .ok (some (some res)))) := by
  obtain ⟨⟨l, ht⟩, hlen, hs, hp, hor, hr⟩ := newTerrain_spec h
  obtain ⟨r, e1, e2⟩ := C88_lookup henv henv' ho hG ht p (s.epsPointIsOnSegment * maxDim points) coin fuel'
  have hpos : T.pos = position points order := by unfold Terrain.pos; rw [hp, hor]
  have henc : T.enclosing env' p coin fuel' = .ok r := by
    unfold Terrain.enclosing
    rw [hpos, hs, hp]
    exact e1
  refine ⟨r, henc, fun o ho' => (e2 o ho').1, ?_, ?_, ?_⟩
  · rintro rfl
    unfold Terrain.depthAt
    rw [henc]
    rfl
  · rintro rfl
    unfold Terrain.depthAt
    rw [henc]
    rfl
  · rintro k rfl
    obtain ⟨hk, hc⟩ := (e2 _ rfl).2 k rfl
    refine ⟨hk, hc, ?_⟩
    by_cases hb : isIncidentToBoundary T.triang.mesh k = true
    · left
      refine ⟨?_, ?_⟩
      · unfold triangles
        simp [hb]
      · unfold Terrain.depthAt
        rw [henc]
        show (if isIncidentToBoundary T.triang.mesh k then _ else _) = _
        rw [if_pos hb]
    · right
      refine ⟨?_, ?_⟩
      · unfold triangles
        rw [List.mem_filter]
        exact ⟨hk, by simpa using hb⟩
      obtain ⟨r', hr', -, g⟩ := triangulate_general henv ho hG fuel
      have ht' := ht
      rw [hr'] at ht'
      obtain ⟨-, -, hv, -, -, AE, AT, k1, k2, k3, k4, k5, -⟩ := g _ l (Except.ok.inj ht')
      have hkT := (k5 k).1 hk
      have h3 : ∀ j, 3 ≤ T.triang.mesh.tv k j := by
        intro j
        unfold isIncidentToBoundary isBound at hb
        simp only [Bool.or_eq_true, decide_eq_true_eq, not_or, not_lt] at hb
        fin_cases j
        · exact hb.1.1
        · exact hb.1.2
        · exact hb.2
      have hidx := fun j => vertex_index ho ht hv (k1.cornerV hkT j) (h3 j)
      choose i n hn horder hilt hget using hidx
      have hd := fun j => vertexDepth_spec (T := T) hlen hr hu (by rw [hor]; exact horder j) (hilt j)
      choose d hd1 hd2 using hd
      have hN := general_noncol hG ho
      have hlt : ∀ j, T.triang.mesh.tv k j < 3 + points.length := fun j => k2.lt _ (k1.cornerV hkT j)
      have hij : ∀ a b, a ≠ b → T.triang.mesh.tv k a ≠ T.triang.mesh.tv k b := fun a b hh h' => hh (k1.inj k hkT h')
      have harea := hN _ _ _ (hlt 0) (hlt 1) (hlt 2) (hij 0 1 (by decide)) (hij 0 2 (by decide)) (hij 1 2 (by decide))
      refine ⟨i, fun j => position points order (T.triang.mesh.tv k j), d, _, ?_, harea,
        interpolates hL harea |d 0| |d 1| |d 2| p, ?_⟩
      · intro j
        refine ⟨hget j, ?_, hd1 j, rfl⟩
        show points[i j]? = some (position points order (T.triang.mesh.tv k j))
        rw [hn j]
        exact position_of (horder j) (hilt j)
      · unfold Terrain.depthAt
        rw [henc]
        show (if isIncidentToBoundary T.triang.mesh k then _ else _) = _
        have hv0 : vertexDepth T (T.triang.mesh.tv k 0) = .ok |d 0| := by rw [hn 0]; exact hd2 0
        have hv1 : vertexDepth T (T.triang.mesh.tv k 1) = .ok |d 1| := by rw [hn 1]; exact hd2 1
        have hv2 : vertexDepth T (T.triang.mesh.tv k 2) = .ok |d 2| := by rw [hn 2]; exact hd2 2
        rw [if_neg hb, hv0, hv1, hv2, hpos]
        rfl

/-- C58: a depth reported by `Terrain` is the affine interpolation of the depths of the three corners of a triangle of the
triangulation, which contains the point or has a side within the tolerance of it. -/
theorem C58_plain {L : Linear} (hL : Exact L) {env env' : Env} (henv : Lawful env) (henv' : Lawful env')
    {unmap : V2 → V3} {s : Settings} {points : List V2} {depths : List ℝ} {order : List Nat} {fuel : Nat}
    (ho : Shuffle points.length order) (hG : GeneralPosition s points) (hu : ∀ p ∈ points, unmap p ≠ 0) {T : Terrain}
    (h : newTerrain env unmap s points depths order fuel = .ok (some T)) {p : V2} {coin : Nat → Bool} {fuel' : Nat}
    {res : ℝ} (hres : T.depthAt L env' p coin fuel' = .ok (some (some res))) :
    ∃ k ∈ triangles T.triang, ∃ (i : Fin 3 → Nat) (a : Fin 3 → V2) (d : Fin 3 → ℝ),
      (∀ j, get T.triang (i j) = .ok (T.triang.mesh.tv k j) ∧ points[i j]? = some (a j) ∧ depths[i j]? = some (d j)) ∧
      Interpolates (a 0) (a 1) (a 2) |d 0| |d 1| |d 2| p res ∧
      (Within (a 0) (a 1) (a 2) p ∨ ∃ x, doesABcontain (position points order (T.triang.mesh.ev (T.triang.mesh.te k x) 0))
        (position points order (T.triang.mesh.ev (T.triang.mesh.te k x) 1)) p (s.epsPointIsOnSegment * maxDim points)) := by
  obtain ⟨r, -, -, g1, g2, g3⟩ := depthAt_spec hL henv henv' ho hG hu h p coin fuel'
  match r, g1, g2, g3 with
  | none, g1, _, _ => rw [g1 rfl] at hres; cases hres
  | some none, _, g2, _ => rw [g2 rfl] at hres; cases hres
  | some (some k), _, _, g3 =>
    obtain ⟨-, hc, ⟨-, h1⟩ | ⟨hk, i, a, d, res', h1, -, h3, h4⟩⟩ := g3 k rfl
    · rw [h1] at hres; cases hres
    · rw [h4] at hres
      cases hres
      refine ⟨k, hk, i, a, d, fun j => ⟨(h1 j).1, (h1 j).2.1, (h1 j).2.2.1⟩, h3, ?_⟩
      rw [(h1 0).2.2.2, (h1 1).2.2.2, (h1 2).2.2.2]
      exact hc

/-- C58: at one of the given points a reported depth is the given one. -/
theorem C58_plain_vertex {L : Linear} (hL : Exact L) {env env' : Env} (henv : Lawful env) (henv' : Lawful env')
    {unmap : V2 → V3} {s : Settings} {points : List V2} {depths : List ℝ} {order : List Nat} {fuel : Nat}
    (ho : Shuffle points.length order) (hG : GeneralPosition s points) (hu : ∀ p ∈ points, unmap p ≠ 0) {T : Terrain}
    (h : newTerrain env unmap s points depths order fuel = .ok (some T)) {i : Nat} {p : V2} {d : ℝ}
    (hp : points[i]? = some p) (hd : depths[i]? = some d) {coin : Nat → Bool} {fuel' : Nat}
    {res : ℝ} (hres : T.depthAt L env' p coin fuel' = .ok (some (some res))) : res = |d| := by
  obtain ⟨⟨l, ht⟩, -⟩ := newTerrain_spec h
  obtain ⟨r, -, -, g1, g2, g3⟩ := depthAt_spec hL henv henv' ho hG hu h p coin fuel'
  match r, g1, g2, g3 with
  | none, g1, _, _ => rw [g1 rfl] at hres; cases hres
  | some none, _, g2, _ => rw [g2 rfl] at hres; cases hres
  | some (some k), _, _, g3 =>
    obtain ⟨hk, hc, ⟨-, h1⟩ | ⟨-, ix, a, dx, res', h1, harea, h3, h4⟩⟩ := g3 k rfl
    · rw [h1] at hres; cases hres
    · rw [h4] at hres
      cases hres
      obtain ⟨r', hr', -, g⟩ := triangulate_general henv ho hG fuel
      have ht' := ht
      rw [hr'] at ht'
      obtain ⟨-, -, hv, hget, -, AE, AT, k1, k2, k3, k4, k5, -⟩ := g _ l (Except.ok.inj ht')
      have hi : i < points.length := (List.getElem?_eq_some_iff.1 hp).1
      obtain ⟨j, hj, hgi⟩ := hget i hi
      have hpj := position_of hj hi
      rw [hp] at hpj
      have hpe := Option.some.inj hpj
      have hlen : order.length = points.length := by rw [ho.length_eq]; simp
      have hjV : 3 + j ∈ vset T.triang.verts := by
        have hjl := (List.getElem?_eq_some_iff.1 hj).1
        rw [mem_vset, (construct_full ht (by omega)).1, List.mem_range'_1]
        omega
      obtain ⟨x, hx⟩ := corner_of_within hG ho k1 k2 hjV (by omega) ((k5 k).1 hk) (by rw [hpe] at hc; exact hc)
      have hxi : ix x = i := by
        have h5 := (h1 x).1
        rw [hx] at h5
        exact get_inj ho ht hv (List.getElem?_eq_some_iff.1 (h1 x).2.1).1 hi (h5.trans hgi.symm)
      have hdx : dx x = d := by
        have h5 := (h1 x).2.2.1
        rw [hxi, hd] at h5
        exact (Option.some.inj h5).symm
      have hax : a x = p := by
        have h5 := (h1 x).2.1
        rw [hxi, hp] at h5
        exact (Option.some.inj h5).symm
      refine Interpolates.unique harea h3 ?_
      rw [← hdx, ← hax]
      fin_cases x
      · exact ⟨1, 0, 0, by norm_num, by ext <;> simp, by simp⟩
      · exact ⟨0, 1, 0, by norm_num, by ext <;> simp, by simp⟩
      · exact ⟨0, 0, 1, by norm_num, by ext <;> simp, by simp⟩

/-- The point `p` keeps the tolerance for segments away from every edge of the terrain. -/
def Clear (T : Terrain) (p : V2) : Prop :=
  ∀ e ∈ T.triang.allEdges, ¬ doesABcontain (T.pos (T.triang.mesh.ev e 0)) (T.pos (T.triang.mesh.ev e 1)) p
    (T.settings.epsPointIsOnSegment * maxDim T.points)

/-- A triangle that contains a clear point has it in its interior. -/
theorem inside_of_clear {env : Env} (henv : Lawful env)
    {unmap : V2 → V3} {s : Settings} {points : List V2} {depths : List ℝ} {order : List Nat} {fuel : Nat}
    (ho : Shuffle points.length order) (hG : GeneralPosition s points) {T : Terrain}
    (h : newTerrain env unmap s points depths order fuel = .ok (some T)) {p : V2} (hp : Clear T p) {k : Nat}
    (hk : k ∈ T.triang.allTriangles) (hw : WithinT (position points order) T.triang.mesh k p) :
    Inside (position points order (T.triang.mesh.tv k 0)) (position points order (T.triang.mesh.tv k 1))
      (position points order (T.triang.mesh.tv k 2)) p := by
  obtain ⟨⟨l, ht⟩, -, hs, hpt, hor, -⟩ := newTerrain_spec h
  obtain ⟨r', hr', -, g⟩ := triangulate_general henv ho hG fuel
  have ht' := ht
  rw [hr'] at ht'
  obtain ⟨hcons, -, -, -, -, AE, AT, k1, k2, k3, k4, k5, -⟩ := g _ l (Except.ok.inj ht')
  have hkT := (k5 k).1 hk
  have hpos : T.pos = position points order := by unfold Terrain.pos; rw [hpt, hor]
  have hN := general_noncol hG ho
  have hlt : ∀ j, T.triang.mesh.tv k j < 3 + points.length := fun j => k2.lt _ (k1.cornerV hkT j)
  have hij : ∀ a b, a ≠ b → T.triang.mesh.tv k a ≠ T.triang.mesh.tv k b := fun a b hh h' => hh (k1.inj k hkT h')
  have harea := hN _ _ _ (hlt 0) (hlt 1) (hlt 2) (hij 0 1 (by decide)) (hij 0 2 (by decide)) (hij 1 2 (by decide))
  have heps : 0 < s.epsPointIsOnSegment * maxDim points := mul_pos hG.eps hG.dim
  have hne : ∀ a b, a ≠ b → position points order (T.triang.mesh.tv k a) ≠ position points order (T.triang.mesh.tv k b) := by
    intro a b hab he
    apply harea
    fin_cases a <;> fin_cases b <;> first | exact absurd rfl hab | (simp only [Fin.zero_eta, Fin.mk_one, Fin.reduceFinMk] at he; unfold area; rw [he]; ring)
  -- no point of a side is clear
  have hside : ∀ a b, a ≠ b → ∀ x : ℝ, 0 ≤ x → x ≤ 1 →
      p ≠ position points order (T.triang.mesh.tv k a) + x • (position points order (T.triang.mesh.tv k b) -
        position points order (T.triang.mesh.tv k a)) := by
    intro a b hab x h0 h1 hpx
    obtain ⟨i, ⟨sa, ha⟩, ⟨sb, hb⟩⟩ := (hcons.connect k hk).2 a b hab
    have hclear := hp _ (hcons.sides k hk i).1
    rw [hpos, hs, hpt] at hclear
    have hsab : sa ≠ sb := by
      rintro rfl
      exact hij a b hab (ha.symm.trans hb)
    apply hclear
    have hcase : (sa = 0 ∧ sb = 1) ∨ (sa = 1 ∧ sb = 0) := by
      have : ∀ sa sb : Fin 2, sa ≠ sb → (sa = 0 ∧ sb = 1) ∨ (sa = 1 ∧ sb = 0) := by decide
      exact this sa sb hsab
    rcases hcase with ⟨rfl, rfl⟩ | ⟨rfl, rfl⟩
    · rw [ha, hb, hpx]
      exact on_segment (hne a b hab) heps h0 h1
    · rw [ha, hb, hpx]
      have := on_segment (l := 1 - x) (hne b a hab.symm) heps (by linarith) (by linarith)
      convert this using 1
      ext
      · simp only [add_x, smul_x, sub_x]; ring
      · simp only [add_y, smul_y, sub_y]; ring
  have hw' := hw
  obtain ⟨w1, w2, w3⟩ := hw'
  have hz : ∀ {x : ℝ}, 0 ≤ area (position points order (T.triang.mesh.tv k 0)) (position points order (T.triang.mesh.tv k 1))
      (position points order (T.triang.mesh.tv k 2)) * x → x ≠ 0 → 0 < area (position points order (T.triang.mesh.tv k 0))
      (position points order (T.triang.mesh.tv k 1)) (position points order (T.triang.mesh.tv k 2)) * x :=
    fun h0 hx => lt_of_le_of_ne h0 (mul_ne_zero harea hx).symm
  refine ⟨hz w1 ?_, hz w2 ?_, hz w3 ?_⟩
  · intro h0
    obtain ⟨x, x0, x1, hx⟩ := on_side harea hw h0
    exact hside 1 2 (by decide) x x0 x1 hx
  · intro h0
    obtain ⟨x, x0, x1, hx⟩ := on_side (a := position points order (T.triang.mesh.tv k 1))
      (b := position points order (T.triang.mesh.tv k 2)) (c := position points order (T.triang.mesh.tv k 0)) (q := p)
      (by rw [area_rot]; exact harea) (within_rot.1 hw) (by rw [← h0]; unfold area; ring)
    exact hside 2 0 (by decide) x x0 x1 hx
  · intro h0
    obtain ⟨x, x0, x1, hx⟩ := on_side (a := position points order (T.triang.mesh.tv k 2))
      (b := position points order (T.triang.mesh.tv k 0)) (c := position points order (T.triang.mesh.tv k 1)) (q := p)
      (by rw [← area_rot]; exact harea) (within_rot.2 hw) (by rw [← h0]; unfold area; ring)
    exact hside 0 1 (by decide) x x0 x1 hx

/-- C58: away from the edges the answer depends on the point only, not on the coins of the walk or the edge it starts
from. -/
theorem C58_plain_deterministic {L : Linear} (hL : Exact L) {env env1 env2 : Env} (henv : Lawful env)
    (henv1 : Lawful env1) (henv2 : Lawful env2) {unmap : V2 → V3} {s : Settings} {points : List V2} {depths : List ℝ}
    {order : List Nat} {fuel : Nat} (ho : Shuffle points.length order) (hG : GeneralPosition s points)
    (hu : ∀ p ∈ points, unmap p ≠ 0) {T : Terrain}
    (h : newTerrain env unmap s points depths order fuel = .ok (some T)) {p : V2} (hp : Clear T p)
    {coin1 coin2 : Nat → Bool} {fuel1 fuel2 : Nat} {r1 r2 : Option ℝ}
    (h1 : T.depthAt L env1 p coin1 fuel1 = .ok (some r1)) (h2 : T.depthAt L env2 p coin2 fuel2 = .ok (some r2)) :
    r1 = r2 := by
  obtain ⟨⟨l, ht⟩, -, hs, hpt, hor, -⟩ := newTerrain_spec h
  have hpos : T.pos = position points order := by unfold Terrain.pos; rw [hpt, hor]
  have htile := C87_tiles henv ho hG ht
  obtain ⟨x1, a1, b1, c1, -, d1⟩ := depthAt_spec hL henv henv1 ho hG hu h p coin1 fuel1
  obtain ⟨x2, a2, b2, c2, -, d2⟩ := depthAt_spec hL henv henv2 ho hG hu h p coin2 fuel2
  have hin : ∀ (o : Option Nat) (k : Nat), o = some k → k ∈ T.triang.allTriangles →
      (WithinT (position points order) T.triang.mesh k p ∨
          ∃ i, doesABcontain (position points order (T.triang.mesh.ev (T.triang.mesh.te k i) 0))
            (position points order (T.triang.mesh.ev (T.triang.mesh.te k i) 1)) p (s.epsPointIsOnSegment * maxDim points)) →
      Inside (position points order (T.triang.mesh.tv k 0)) (position points order (T.triang.mesh.tv k 1))
        (position points order (T.triang.mesh.tv k 2)) p := by
    intro o k _ hk hc
    rcases hc with hc | ⟨i, hc⟩
    · exact inside_of_clear henv ho hG h hp hk hc
    · have := hp _ (((C48_general_position_partial henv ho hG ht).1).sides k hk i).1
      rw [hpos, hs, hpt] at this
      exact absurd hc this
  have hx : x1 = x2 := by
    match x1, x2, b1, c1, d1, b2, c2, d2 with
    | none, _, _, c1, _, _, _, _ => rw [c1 rfl] at h1; cases h1
    | _, none, _, _, _, _, c2, _ => rw [c2 rfl] at h2; cases h2
    | some none, some none, _, _, _, _, _, _ => rfl
    | some none, some (some k), b1, _, _, b2, _, _ =>
      exact absurd ((b2 _ rfl).2 ((b1 _ rfl).1 rfl)) (by simp)
    | some (some k), some none, b1, _, _, b2, _, _ =>
      exact absurd ((b1 _ rfl).2 ((b2 _ rfl).1 rfl)) (by simp)
    | some (some k), some (some k'), _, _, d1, _, _, d2 =>
      obtain ⟨u1, u2, -⟩ := d1 k rfl
      obtain ⟨v1, v2, -⟩ := d2 k' rfl
      rw [htile.apart p k u1 k' v1 (hin _ k rfl u1 u2) (hin _ k' rfl v1 v2)]
  subst hx
  unfold Terrain.depthAt at h1 h2
  rw [a1] at h1
  rw [a2] at h2
  have := h1.symm.trans h2
  exact Option.some.inj (Except.ok.inj this)

/-- C58: away from the edges a depth is reported exactly in the triangles between the given points. -/
theorem C58_plain_defined {L : Linear} (hL : Exact L) {env env' : Env} (henv : Lawful env)
    (henv' : Lawful env') {unmap : V2 → V3} {s : Settings} {points : List V2} {depths : List ℝ}
    {order : List Nat} {fuel : Nat} (ho : Shuffle points.length order) (hG : GeneralPosition s points)
    (hu : ∀ p ∈ points, unmap p ≠ 0) {T : Terrain}
    (h : newTerrain env unmap s points depths order fuel = .ok (some T)) {p : V2} (hp : Clear T p)
    {coin : Nat → Bool} {fuel' : Nat} {r : Option ℝ} (hr : T.depthAt L env' p coin fuel' = .ok (some r)) :
    r ≠ none ↔ ∃ k ∈ triangles T.triang, Within (position points order (T.triang.mesh.tv k 0))
      (position points order (T.triang.mesh.tv k 1)) (position points order (T.triang.mesh.tv k 2)) p := by
  obtain ⟨⟨l, ht⟩, -, hs, hpt, hor, -⟩ := newTerrain_spec h
  have hpos : T.pos = position points order := by unfold Terrain.pos; rw [hpt, hor]
  have htile := C87_tiles henv ho hG ht
  obtain ⟨x, a, b, c, d, e⟩ := depthAt_spec hL henv henv' ho hG hu h p coin fuel'
  have hsub : ∀ k ∈ triangles T.triang, k ∈ T.triang.allTriangles := fun k hk => (List.mem_filter.1 hk).1
  match x, a, b, c, d, e with
  | none, _, _, c, _, _ => rw [c rfl] at hr; cases hr
  | some none, _, b, _, d, _ =>
    rw [d rfl] at hr
    obtain rfl := Option.some.inj (Except.ok.inj hr)
    refine ⟨fun hh => absurd rfl hh, ?_⟩
    rintro ⟨k, hk, hw⟩
    exact absurd (htile.inside p k (hsub k hk) hw) ((b _ rfl).1 rfl)
  | some (some k), _, _, _, _, e =>
    obtain ⟨hk, hc, hcase⟩ := e k rfl
    have hw : WithinT (position points order) T.triang.mesh k p := by
      rcases hc with hc | ⟨i, hc⟩
      · exact hc
      · have := hp _ (((C48_general_position_partial henv ho hG ht).1).sides k hk i).1
        rw [hpos, hs, hpt] at this
        exact absurd hc this
    rcases hcase with ⟨hnk, hd⟩ | ⟨hkk, _, _, _, res, _, _, _, hd⟩
    · rw [hd] at hr
      obtain rfl := Option.some.inj (Except.ok.inj hr)
      refine ⟨fun hh => absurd rfl hh, ?_⟩
      rintro ⟨k', hk', hw'⟩
      have := htile.apart p k hk k' (hsub k' hk') (inside_of_clear henv ho hG h hp hk hw)
        (inside_of_clear henv ho hG h hp (hsub k' hk') hw')
      subst this
      exact absurd hk' hnk
    · rw [hd] at hr
      obtain rfl := Option.some.inj (Except.ok.inj hr)
      exact ⟨fun _ => ⟨k, hkk, hw⟩, fun _ => by simp⟩

/-- C58: a depth reported in the triangle that contains the point is between the least and the greatest depth of its
corners. -/
theorem Interpolates.bounds {a b c p : V2} {d0 d1 d2 d lo hi : ℝ} (harea : area a b c ≠ 0) (hw : Within a b c p)
    (h : Interpolates a b c d0 d1 d2 p d) (h0 : lo ≤ d0 ∧ d0 ≤ hi) (h1 : lo ≤ d1 ∧ d1 ≤ hi) (h2 : lo ≤ d2 ∧ d2 ≤ hi) :
    lo ≤ d ∧ d ≤ hi := by
  obtain ⟨x, y, z, hs, rfl, rfl⟩ := h
  obtain ⟨w1, w2, w3⟩ := hw
  have hp : 0 < area a b c * area a b c := mul_self_pos.2 harea
  obtain rfl : z = 1 - x - y := by linarith
  have e1 : area a b c * area (x • a + y • b + (1 - x - y) • c) b c = (area a b c * area a b c) * x := by
    unfold area; simp only [add_x, add_y, smul_x, smul_y]; ring
  have e2 : area a b c * area a (x • a + y • b + (1 - x - y) • c) c = (area a b c * area a b c) * y := by
    unfold area; simp only [add_x, add_y, smul_x, smul_y]; ring
  have e3 : area a b c * area a b (x • a + y • b + (1 - x - y) • c) = (area a b c * area a b c) * (1 - x - y) := by
    unfold area; simp only [add_x, add_y, smul_x, smul_y]; ring
  rw [e1] at w1
  rw [e2] at w2
  rw [e3] at w3
  have hx : 0 ≤ x := nonneg_of_mul_nonneg_right w1 hp
  have hy : 0 ≤ y := nonneg_of_mul_nonneg_right w2 hp
  have hz : 0 ≤ 1 - x - y := nonneg_of_mul_nonneg_right w3 hp
  constructor
  · nlinarith [mul_nonneg hx (sub_nonneg.2 h0.1), mul_nonneg hy (sub_nonneg.2 h1.1), mul_nonneg hz (sub_nonneg.2 h2.1)]
  · nlinarith [mul_nonneg hx (sub_nonneg.2 h0.2), mul_nonneg hy (sub_nonneg.2 h1.2), mul_nonneg hz (sub_nonneg.2 h2.2)]

/-- C58: away from the edges the reported depth is between the least and the greatest given depth. -/
theorem C58_plain_bounds {L : Linear} (hL : Exact L) {env env' : Env} (henv : Lawful env)
    (henv' : Lawful env') {unmap : V2 → V3} {s : Settings} {points : List V2} {depths : List ℝ}
    {order : List Nat} {fuel : Nat} (ho : Shuffle points.length order) (hG : GeneralPosition s points)
    (hu : ∀ p ∈ points, unmap p ≠ 0) {T : Terrain}
    (h : newTerrain env unmap s points depths order fuel = .ok (some T)) {p : V2} (hp : Clear T p)
    {coin : Nat → Bool} {fuel' : Nat} {res : ℝ} (hr : T.depthAt L env' p coin fuel' = .ok (some (some res)))
    {lo hi : ℝ} (hd : ∀ d ∈ depths, lo ≤ |d| ∧ |d| ≤ hi) : lo ≤ res ∧ res ≤ hi := by
  obtain ⟨⟨l, ht⟩, -, hs, hpt, hor, -⟩ := newTerrain_spec h
  have hpos : T.pos = position points order := by unfold Terrain.pos; rw [hpt, hor]
  obtain ⟨x, a, b, c, d, e⟩ := depthAt_spec hL henv henv' ho hG hu h p coin fuel'
  match x, a, b, c, d, e with
  | none, _, _, c, _, _ => rw [c rfl] at hr; cases hr
  | some none, _, b, _, d, _ => rw [d rfl] at hr; cases hr
  | some (some k), _, _, _, _, e =>
    obtain ⟨hk, hc, ⟨-, hd'⟩ | ⟨-, i, a, dd, res', h1, h2, h3, hd'⟩⟩ := e k rfl
    · rw [hd'] at hr; cases hr
    · rw [hd'] at hr
      obtain rfl := Option.some.inj (Option.some.inj (Except.ok.inj hr))
      have hw : WithinT (position points order) T.triang.mesh k p := by
        rcases hc with hc | ⟨i, hc⟩
        · exact hc
        · have := hp _ (((C48_general_position_partial henv ho hG ht).1).sides k hk i).1
          rw [hpos, hs, hpt] at this
          exact absurd hc this
      unfold WithinT at hw
      rw [← (h1 0).2.2.2, ← (h1 1).2.2.2, ← (h1 2).2.2.2] at hw
      exact Interpolates.bounds h2 hw h3 (hd _ (List.mem_of_getElem? (h1 0).2.2.1)) (hd _ (List.mem_of_getElem? (h1 1).2.2.1))
        (hd _ (List.mem_of_getElem? (h1 2).2.2.1))

/-! ### `hasInterpolatedDepth` -/

/-- C89: inside the bounding triangle `hasInterpolatedDepth` returns what `operator()` returns for the same walk. -/
theorem C89_partial {L : Linear} (hL : Exact L) {env env' : Env} (henv : Lawful env)
    (henv' : Lawful env') {unmap : V2 → V3} {s : Settings} {points : List V2} {depths : List ℝ}
    {order : List Nat} {fuel : Nat} (ho : Shuffle points.length order) (hG : GeneralPosition s points)
    (hu : ∀ p ∈ points, unmap p ≠ 0) {T : Terrain}
    (h : newTerrain env unmap s points depths order fuel = .ok (some T)) {p : V2}
    (hp : Within (position points order 0) (position points order 1) (position points order 2) p)
    (coin : Nat → Bool) (fuel' : Nat) :
    ∃ r, T.depthAt L env' p coin fuel' = .ok r ∧ hasInterpolatedDepth env' T p coin fuel' = .ok (r.map Option.isSome) := by
  obtain ⟨x, a, b, c, d, e⟩ := depthAt_spec hL henv henv' ho hG hu h p coin fuel'
  have hhas : ∀ y, x = y → hasInterpolatedDepth env' T p coin fuel' = (match y with
      | none => .ok none
      | some o => do
        let k ← deref o
        .ok (some (!isIncidentToBoundary T.triang.mesh k)) : Except Fault (Option Bool)) := by
    rintro y rfl
    unfold hasInterpolatedDepth
    rw [a]
    rfl
  match x, a, b, c, d, e, hhas with
  | none, _, _, c, _, _, hhas => exact ⟨none, c rfl, by rw [hhas _ rfl]; rfl⟩
  | some none, _, b, _, _, _, _ => exact absurd hp ((b _ rfl).1 rfl)
  | some (some k), _, _, _, _, e, hhas =>
    obtain ⟨hk, -, ⟨hnk, hd'⟩ | ⟨hkk, i, a, dd, res', -, -, -, hd'⟩⟩ := e k rfl
    · refine ⟨_, hd', ?_⟩
      have hb : isIncidentToBoundary T.triang.mesh k = true := by
        by_contra hb
        apply hnk
        unfold triangles
        rw [List.mem_filter]
        exact ⟨hk, by simpa using hb⟩
      rw [hhas _ rfl]
      show (.ok (some (!isIncidentToBoundary T.triang.mesh k)) : Except Fault (Option Bool)) = _
      rw [hb]
      rfl
    · refine ⟨_, hd', ?_⟩
      have hb : isIncidentToBoundary T.triang.mesh k = false := by
        have := (List.mem_filter.1 hkk).2
        simpa using this
      rw [hhas _ rfl]
      show (.ok (some (!isIncidentToBoundary T.triang.mesh k)) : Except Fault (Option Bool)) = _
      rw [hb]
      rfl

/-- C89 does not hold outside of the bounding triangle: there `operator()` returns false, and `hasInterpolatedDepth`
dereferences a null pointer. -/
theorem C89_violated {L : Linear} (hL : Exact L) {env env' : Env} (henv : Lawful env)
    (henv' : Lawful env') {unmap : V2 → V3} {s : Settings} {points : List V2} {depths : List ℝ}
    {order : List Nat} {fuel : Nat} (ho : Shuffle points.length order) (hG : GeneralPosition s points)
    (hu : ∀ p ∈ points, unmap p ≠ 0) {T : Terrain}
    (h : newTerrain env unmap s points depths order fuel = .ok (some T)) {p : V2}
    (hp : ¬ Within (position points order 0) (position points order 1) (position points order 2) p)
    (coin : Nat → Bool) (fuel' : Nat) :
    T.depthAt L env' p coin fuel' = .ok (some none) ∧ hasInterpolatedDepth env' T p coin fuel' = .error .ub := by
  obtain ⟨x, a, b, c, d, -⟩ := depthAt_spec hL henv henv' ho hG hu h p coin fuel'
  match x, a, b, c, d with
  | none, a, _, _, _ =>
    obtain ⟨-, -, -, hpt, hor, -⟩ := newTerrain_spec h
    have hpos : T.pos = position points order := by unfold Terrain.pos; rw [hpt, hor]
    have hb : (queryAt T.pos (T.settings.epsPointIsOnSegment * maxDim T.points) p).inBound = false := by
      rw [hpos]
      unfold queryAt
      simp only [decide_eq_false_iff_not]
      exact fun hh => hp (inTriangle_iff.1 hh)
    unfold Terrain.enclosing enclosingTriangle at a
    rw [hb] at a
    cases a
  | some (some k), _, b, _, _ => exact absurd ((b _ rfl).2 hp) (by simp)
  | some none, a, _, _, d =>
    refine ⟨d rfl, ?_⟩
    unfold hasInterpolatedDepth
    rw [a]
    rfl

/-! ### Demonstration -/

/-- There are decompositions as specified. -/
theorem exact_exists : ∃ L, Exact L := by
  classical
  have hplane : ∀ a b c : V3, ∃ p : V3 × ℝ, p.1.dot a + p.2 = 0 ∧ p.1.dot b + p.2 = 0 ∧ p.1.dot c + p.2 = 0 ∧
      p.1.sqNorm + p.2 * p.2 = 1 := by
    intro a b c
    obtain ⟨f, hf⟩ : ∃ f : (Fin 4 → ℝ) →ₗ[ℝ] (Fin 3 → ℝ), f = Matrix.toLin'
      !![a.x, a.y, a.z, 1; b.x, b.y, b.z, 1; c.x, c.y, c.z, 1] := ⟨_, rfl⟩
    have hker : LinearMap.ker f ≠ ⊥ := LinearMap.ker_ne_bot_of_finrank_lt (by simp)
    obtain ⟨v, hv, hv0⟩ := (Submodule.ne_bot_iff _).1 hker
    rw [LinearMap.mem_ker, hf, Matrix.toLin'_apply] at hv
    have e0 := congrFun hv 0
    have e1 := congrFun hv 1
    have e2 := congrFun hv 2
    simp [Matrix.mulVec, dotProduct, Fin.sum_univ_succ] at e0 e1 e2
    obtain ⟨n, hn⟩ : ∃ n, n = v 0 * v 0 + v 1 * v 1 + v 2 * v 2 + v 3 * v 3 := ⟨_, rfl⟩
    have hnpos : 0 < n := by
      rw [hn]
      by_contra hle
      apply hv0
      funext i
      have h0 := mul_self_nonneg (v 0)
      have h1 := mul_self_nonneg (v 1)
      have h2 := mul_self_nonneg (v 2)
      have h3 := mul_self_nonneg (v 3)
      fin_cases i
      · exact mul_self_eq_zero.1 (le_antisymm (by show v 0 * v 0 ≤ 0; linarith) h0)
      · exact mul_self_eq_zero.1 (le_antisymm (by show v 1 * v 1 ≤ 0; linarith) h1)
      · exact mul_self_eq_zero.1 (le_antisymm (by show v 2 * v 2 ≤ 0; linarith) h2)
      · exact mul_self_eq_zero.1 (le_antisymm (by show v 3 * v 3 ≤ 0; linarith) h3)
    have hs : Real.sqrt n * Real.sqrt n = n := Real.mul_self_sqrt hnpos.le
    have hs0 : Real.sqrt n ≠ 0 := (Real.sqrt_pos.2 hnpos).ne'
    refine ⟨(⟨v 0 / Real.sqrt n, v 1 / Real.sqrt n, v 2 / Real.sqrt n⟩, v 3 / Real.sqrt n), ?_, ?_, ?_, ?_⟩
    · unfold V3.dot; field_simp; linear_combination e0
    · unfold V3.dot; field_simp; linear_combination e1
    · unfold V3.dot; field_simp; linear_combination e2
    · unfold V3.sqNorm
      field_simp
      linear_combination -hs - hn
  choose pl h1 h2 h3 h4 using hplane
  refine ⟨⟨fun a b c r => ⟨det3 r b c / det3 a b c, det3 a r c / det3 a b c, det3 a b r / det3 a b c⟩, pl⟩, ⟨?_, ?_, ?_⟩⟩
  · intro a b c r hd
    ext
    · have e : det3 r b c * a.x + det3 a r c * b.x + det3 a b r * c.x = det3 a b c * r.x := by
        unfold det3 V3.dot V3.cross; ring
      simp only [V3.add_x, V3.smul_x]
      field_simp
      linear_combination e
    · have e : det3 r b c * a.y + det3 a r c * b.y + det3 a b r * c.y = det3 a b c * r.y := by
        unfold det3 V3.dot V3.cross; ring
      simp only [V3.add_y, V3.smul_y]
      field_simp
      linear_combination e
    · have e : det3 r b c * a.z + det3 a r c * b.z + det3 a b r * c.z = det3 a b c * r.z := by
        unfold det3 V3.dot V3.cross; ring
      simp only [V3.add_z, V3.smul_z]
      field_simp
      linear_combination e
  · exact fun a b c => ⟨h1 a b c, h2 a b c, h3 a b c⟩
  · exact h4

/-- `queryAt` for rational points. -/
def queryQ (pos : Nat → Q2) (e : ℚ) (q : Q2) : Query where
  inBound := Q2.inTri (pos 0) (pos 1) (pos 2) q
  onEdge a b := Q2.seg (pos a) (pos b) q e
  inTri a b c := Q2.inTri (pos a) (pos b) (pos c) q
  sameSide a b c := Q2.ss (pos a) (pos b) (pos c) q

theorem queryAt_real (pos : Nat → Q2) (e : ℚ) (h : 0 ≤ e) (q : Q2) :
    queryAt (fun v => (pos v).real) e q.real = queryQ pos e q := by
  have key : ∀ {P : Prop} {i : Decidable P} {b : Bool}, (P ↔ b = true) → @decide P i = b := by
    intro P _ b h
    rw [Bool.eq_iff_iff, decide_eq_true_eq]
    exact h
  unfold queryAt queryQ
  congr 1
  · exact key (Q2.inTri_real _ _ _ _)
  · funext a b
    exact key (Q2.seg_real _ _ _ _ h)
  · funext a b c
    exact key (Q2.inTri_real _ _ _ _)
  · funext a b c
    exact key (Q2.ss_real _ _ _ _)

/-- The centre of the three points of the demonstration. -/
def demoCentre : Q2 := ⟨4 / 3, 1⟩

/-- Checks that the point asked for is clear of all edges and in a triangle with corners 3, 4, 5. -/
def check (r : Except Fault (Option (Triangulation × List Nat))) (q : Query) : Bool :=
  match r with
  | .ok (some (t, _)) => (t.allEdges.all fun e => !q.onEdge (t.mesh.ev e 0) (t.mesh.ev e 1)) &&
    match enclosingTriangle demoEnv t.mesh q (fun _ => true) 100 with
    | .ok (some (some k)) => decide (k ∈ triangles t ∧ t.mesh.tv k 0 = 3 ∧ t.mesh.tv k 1 = 4 ∧ t.mesh.tv k 2 = 5)
    | _ => false
  | _ => false

theorem check_spec {r : Except Fault (Option (Triangulation × List Nat))} {q : Query} (h : check r q = true) :
    ∃ t l k, r = .ok (some (t, l)) ∧ (∀ e ∈ t.allEdges, q.onEdge (t.mesh.ev e 0) (t.mesh.ev e 1) = false) ∧
      enclosingTriangle demoEnv t.mesh q (fun _ => true) 100 = .ok (some (some k)) ∧ k ∈ triangles t ∧
      t.mesh.tv k 0 = 3 ∧ t.mesh.tv k 1 = 4 ∧ t.mesh.tv k 2 = 5 := by
  unfold check at h
  split at h
  · next t l =>
    rw [Bool.and_eq_true, List.all_eq_true] at h
    obtain ⟨h1, h2⟩ := h
    split at h2
    · next k hk =>
      refine ⟨t, l, k, rfl, fun e he => by simpa using h1 e he, hk, ?_⟩
      simpa using h2
    · cases h2
  · cases h

/-- The terrain over the three points with depths 1, 2, 3, and a lookup at their centre. -/
theorem demo_terrain : ∃ (T : Terrain) (k : Nat),
    newTerrain demoEnv (fun _ => axis) defaultSettings (demoPoints.map Q2.real) [1, 2, 3] [2, 0, 1] 100 = .ok (some T) ∧
    Clear T demoCentre.real ∧ T.enclosing demoEnv demoCentre.real (fun _ => true) 100 = .ok (some (some k)) ∧
    k ∈ triangles T.triang ∧ T.triang.mesh.tv k 0 = 3 ∧ T.triang.mesh.tv k 1 = 4 ∧ T.triang.mesh.tv k 2 = 5 := by
  have hr := triangulate_real demoEnv (1 / 1000000000) (1 / 1000000000) demoPoints (by decide +kernel) [2, 0, 1] 100
  have hq := queryAt_real (positionQ demoPoints [2, 0, 1]) (1 / 1000000000 * maxDimQ demoPoints) (by decide +kernel) demoCentre
  have hc : check (construct demoEnv (predsQ (positionQ demoPoints [2, 0, 1]) (1 / 1000000000 * maxDimQ demoPoints)
      (1 / 1000000000 * maxDimQ demoPoints)) [2, 0, 1] 100) (queryQ (positionQ demoPoints [2, 0, 1])
      (1 / 1000000000 * maxDimQ demoPoints) demoCentre) = true := by decide +kernel
  rw [← hr, ← hq, ← position_real] at hc
  obtain ⟨t, l, k, h1, h2, h3, h4, h5⟩ := check_spec hc
  have hT : newTerrain demoEnv (fun _ => axis) defaultSettings (demoPoints.map Q2.real) [1, 2, 3] [2, 0, 1] 100 =
      .ok (some ⟨defaultSettings, demoPoints.map Q2.real, [2, 0, 1], t,
        ((demoPoints.map Q2.real).zip [(1 : ℝ), 2, 3]).map fun pd => pd.2 • (axis).normalized⟩) := by
    unfold newTerrain defaultSettings
    rw [h1]
    simp [demoPoints]
  have heps : ((1 / 1000000000 * maxDimQ demoPoints : ℚ) : ℝ) = defaultSettings.epsPointIsOnSegment *
      maxDim (demoPoints.map Q2.real) := by
    rw [maxDim_real, Rat.cast_mul]
    rfl
  rw [heps] at h2 h3
  refine ⟨_, k, hT, ?_, h3, h4, h5⟩
  intro e he
  have := h2 e he
  unfold Terrain.pos
  simpa [queryAt] using this

/-- The hypotheses of the theorems are met by that terrain, and the depth at the centre is the mean. -/
theorem demo_depth {L : Linear} (hL : Exact L) : ∃ T,
    newTerrain demoEnv (fun _ => axis) defaultSettings (demoPoints.map Q2.real) [1, 2, 3] [2, 0, 1] 100 = .ok (some T) ∧
    Clear T demoCentre.real ∧ T.depthAt L demoEnv demoCentre.real (fun _ => true) 100 = .ok (some (some 2)) := by
  obtain ⟨T, k, h, hc, he, hk, t0, t1, t2⟩ := demo_terrain
  refine ⟨T, h, hc, ?_⟩
  have ho : Shuffle (demoPoints.map Q2.real).length [2, 0, 1] := by show [2, 0, 1].Perm [0, 1, 2]; decide
  have hax : axis ≠ 0 := fun hh => by simpa [axis] using congrArg V3.z hh
  obtain ⟨⟨l, ht⟩, -⟩ := newTerrain_spec h
  obtain ⟨r, e1, -, -, -, e4⟩ := depthAt_spec hL demoEnv_lawful demoEnv_lawful ho demo_general (fun _ _ => hax) h
    demoCentre.real (fun _ => true) 100
  rw [he] at e1
  obtain rfl := Except.ok.inj e1
  obtain ⟨-, -, ⟨hnk, -⟩ | ⟨-, i, a, d, res, g1, g2, g3, g4⟩⟩ := e4 k rfl
  · exact absurd hk hnk
  · rw [g4]
    obtain ⟨r', hr', -, g⟩ := triangulate_general demoEnv_lawful ho demo_general 100
    have ht' := ht
    rw [hr'] at ht'
    obtain ⟨-, -, -, hget, -⟩ := g _ l (Except.ok.inj ht')
    have hix : ∀ (j : Fin 3) (v : Nat), T.triang.mesh.tv k j = 3 + v → [2, 0, 1][v]? = some (i j) := by
      intro j v hv
      obtain ⟨j', hj', hg⟩ := hget (i j) (List.getElem?_eq_some_iff.1 (g1 j).2.1).1
      rw [(g1 j).1, hv] at hg
      obtain rfl : v = j' := by have := Except.ok.inj hg; omega
      exact hj'
    have i0 : 2 = i 0 := Option.some.inj (hix 0 0 t0)
    have i1 : 0 = i 1 := Option.some.inj (hix 1 1 t1)
    have i2 : 1 = i 2 := Option.some.inj (hix 2 2 t2)
    have d0 := (g1 0).2.2.1
    have d1 := (g1 1).2.2.1
    have d2 := (g1 2).2.2.1
    have a0 := (g1 0).2.1
    have a1 := (g1 1).2.1
    have a2 := (g1 2).2.1
    rw [← i0] at d0 a0
    rw [← i1] at d1 a1
    rw [← i2] at d2 a2
    have d0 : (3 : ℝ) = d 0 := Option.some.inj d0
    have d1 : (1 : ℝ) = d 1 := Option.some.inj d1
    have d2 : (2 : ℝ) = d 2 := Option.some.inj d2
    have a0 : Q2.real ⟨1, 2⟩ = a 0 := Option.some.inj a0
    have a1 : Q2.real ⟨0, 0⟩ = a 1 := Option.some.inj a1
    have a2 : Q2.real ⟨3, 1⟩ = a 2 := Option.some.inj a2
    congr 3
    refine Interpolates.unique g2 g3 ⟨1 / 3, 1 / 3, 1 / 3, by norm_num, ?_, ?_⟩
    · rw [← a0, ← a1, ← a2]
      unfold demoCentre Q2.real
      ext
      · simp only [add_x, smul_x]; push_cast; norm_num
      · simp only [add_y, smul_y]; push_cast; norm_num
    · rw [← d0, ← d1, ← d2]
      norm_num

/-- `C58_plain_bounds` for that terrain. -/
example {L : Linear} (hL : Exact L) : ∃ T,
    newTerrain demoEnv (fun _ => axis) defaultSettings (demoPoints.map Q2.real) [1, 2, 3] [2, 0, 1] 100 = .ok (some T) ∧
    1 ≤ (2 : ℝ) ∧ (2 : ℝ) ≤ 3 := by
  obtain ⟨T, h, hc, hd⟩ := demo_depth hL
  have ho : Shuffle (demoPoints.map Q2.real).length [2, 0, 1] := by show [2, 0, 1].Perm [0, 1, 2]; decide
  have hax : axis ≠ 0 := fun hh => by simpa [axis] using congrArg V3.z hh
  exact ⟨T, h, C58_plain_bounds hL demoEnv_lawful demoEnv_lawful ho demo_general (fun _ _ => hax) h hc hd
    (by simp; norm_num)⟩

/-- Checks that the lookup finds a triangle without bounding vertices, or that it finds one with bounding vertices. -/
def inner (r : Except Fault (Option (Triangulation × List Nat))) (q : Query) (coin : Nat → Bool) : Option Bool :=
  match r with
  | .ok (some (t, _)) =>
    match enclosingTriangle demoEnv t.mesh q coin 100 with
    | .ok (some (some k)) => some (decide (k ∈ triangles t))
    | _ => none
  | _ => none

theorem inner_spec {r : Except Fault (Option (Triangulation × List Nat))} {t : Triangulation} {l : List Nat}
    (ht : r = .ok (some (t, l))) {q : Query} {coin : Nat → Bool} {b : Bool} (h : inner r q coin = some b) :
    ∃ k, enclosingTriangle demoEnv t.mesh q coin 100 = .ok (some (some k)) ∧ (b = true ↔ k ∈ triangles t) := by
  subst ht
  unfold inner at h
  simp only at h
  split at h
  · next k hk => exact ⟨k, hk, by rw [← Option.some.inj h, decide_eq_true_eq]⟩
  · cases h

/-- C58 is not met at the given points themselves: at a point with depth 3 the terrain reports 3 for some coins of the
walk, and no depth for others. -/
theorem C58_plain_vertex_violated {L : Linear} (hL : Exact L) : ∃ (T : Terrain) (p : V2) (coin coin' : Nat → Bool),
    newTerrain demoEnv (fun _ => axis) defaultSettings (demoPoints.map Q2.real) [1, 2, 3] [2, 0, 1] 100 = .ok (some T) ∧
    (demoPoints.map Q2.real)[2]? = some p ∧ T.depthAt L demoEnv p coin 100 = .ok (some (some 3)) ∧
    T.depthAt L demoEnv p coin' 100 = .ok (some none) := by
  obtain ⟨T, -, h, -⟩ := demo_terrain
  refine ⟨T, Q2.real ⟨1, 2⟩, fun _ => false, fun _ => true, h, rfl, ?_⟩
  have ho : Shuffle (demoPoints.map Q2.real).length [2, 0, 1] := by show [2, 0, 1].Perm [0, 1, 2]; decide
  have hax : axis ≠ 0 := fun hh => by simpa [axis] using congrArg V3.z hh
  obtain ⟨⟨l, ht⟩, -, hs, hpt, hor, -⟩ := newTerrain_spec h
  have hr := triangulate_real demoEnv (1 / 1000000000) (1 / 1000000000) demoPoints (by decide +kernel) [2, 0, 1] 100
  have hq := queryAt_real (positionQ demoPoints [2, 0, 1]) (1 / 1000000000 * maxDimQ demoPoints) (by decide +kernel) ⟨1, 2⟩
  have c1 : inner (construct demoEnv (predsQ (positionQ demoPoints [2, 0, 1]) (1 / 1000000000 * maxDimQ demoPoints)
      (1 / 1000000000 * maxDimQ demoPoints)) [2, 0, 1] 100) (queryQ (positionQ demoPoints [2, 0, 1])
      (1 / 1000000000 * maxDimQ demoPoints) ⟨1, 2⟩) (fun _ => false) = some true := by decide +kernel
  have c2 : inner (construct demoEnv (predsQ (positionQ demoPoints [2, 0, 1]) (1 / 1000000000 * maxDimQ demoPoints)
      (1 / 1000000000 * maxDimQ demoPoints)) [2, 0, 1] 100) (queryQ (positionQ demoPoints [2, 0, 1])
      (1 / 1000000000 * maxDimQ demoPoints) ⟨1, 2⟩) (fun _ => true) = some false := by decide +kernel
  rw [← hr, ← hq, ← position_real] at c1 c2
  have heps : ((1 / 1000000000 * maxDimQ demoPoints : ℚ) : ℝ) = defaultSettings.epsPointIsOnSegment *
      maxDim (demoPoints.map Q2.real) := by
    rw [maxDim_real, Rat.cast_mul]
    rfl
  rw [heps] at c1 c2
  have hpos : T.pos = position (demoPoints.map Q2.real) [2, 0, 1] := by unfold Terrain.pos; rw [hpt, hor]
  obtain ⟨k1, a1, b1⟩ := inner_spec ht c1
  obtain ⟨k2, a2, b2⟩ := inner_spec ht c2
  have f1 : T.enclosing demoEnv (Q2.real ⟨1, 2⟩) (fun _ => false) 100 = .ok (some (some k1)) := by
    unfold Terrain.enclosing
    rw [hpos, hs, hpt]
    exact a1
  have f2 : T.enclosing demoEnv (Q2.real ⟨1, 2⟩) (fun _ => true) 100 = .ok (some (some k2)) := by
    unfold Terrain.enclosing
    rw [hpos, hs, hpt]
    exact a2
  constructor
  · obtain ⟨r, e1, -, -, -, e4⟩ := depthAt_spec hL demoEnv_lawful demoEnv_lawful ho demo_general (fun _ _ => hax) h
      (Q2.real ⟨1, 2⟩) (fun _ => false) 100
    rw [f1] at e1
    obtain rfl := Except.ok.inj e1
    obtain ⟨-, -, ⟨hnk, -⟩ | ⟨-, -, -, -, res, -, -, -, g4⟩⟩ := e4 k1 rfl
    · exact absurd (b1.1 rfl) hnk
    · have := C58_plain_vertex hL demoEnv_lawful demoEnv_lawful ho demo_general (fun _ _ => hax) h (i := 2)
        (d := 3) rfl rfl g4
      rw [g4, this]
      norm_num
  · obtain ⟨r, e1, -, -, -, e4⟩ := depthAt_spec hL demoEnv_lawful demoEnv_lawful ho demo_general (fun _ _ => hax) h
      (Q2.real ⟨1, 2⟩) (fun _ => true) 100
    rw [f2] at e1
    obtain rfl := Except.ok.inj e1
    obtain ⟨-, -, ⟨-, hd⟩ | ⟨hk, -⟩⟩ := e4 k2 rfl
    · exact hd
    · exact absurd (b2.2 hk) (by simp)

end Mdso.Tri
