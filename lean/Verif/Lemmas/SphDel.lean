import Verif.Lemmas.DelCover
import Verif.Props.SphericalTerrain
import Verif.Props.Delaunay

/-!
# Circles of the plane and of the sphere
-/

set_option autoImplicit false

namespace Mdso.Tri

open Mdso.Geom Mdso.Tri.Spec Filter Topology

theorem unit_normalized {r : V3} (h : r ≠ 0) : r.normalized.x * r.normalized.x + r.normalized.y * r.normalized.y +
    r.normalized.z * r.normalized.z = 1 := by
  have hn := V3.norm_pos h
  have hs : r.norm * r.norm = r.sqNorm := by
    unfold V3.norm
    exact Real.mul_self_sqrt (by unfold V3.sqNorm; nlinarith [mul_self_nonneg r.x, mul_self_nonneg r.y, mul_self_nonneg r.z])
  unfold V3.sqNorm at hs
  rw [V3.normalized_eq h]
  simp only [V3.smul_x, V3.smul_y, V3.smul_z]
  field_simp
  linarith

/-- The projection of a direction, and the direction of a projection. -/
theorem project_spec {r : V3} (h : r ≠ 0) {p : V2} (hp : stereographicProject r = some p) :
    0 < 1 + r.normalized.z ∧ (1 + r.normalized.z) * p.x = 2 * r.normalized.x ∧
    (1 + r.normalized.z) * p.y = 2 * r.normalized.y ∧ (1 + r.normalized.z) * (4 + sqNorm p) = 8 := by
  have hu := unit_normalized h
  unfold stereographicProject at hp
  simp only at hp
  split at hp
  · cases hp
  · next hz =>
    have h0 : 0 < 1 + r.normalized.z := by
      have : 0 ≤ 1 + r.normalized.z := by
        nlinarith [mul_self_nonneg r.normalized.x, mul_self_nonneg r.normalized.y]
      exact lt_of_le_of_ne this (Ne.symm hz)
    obtain rfl := Option.some.inj hp
    refine ⟨h0, by field_simp, by field_simp, ?_⟩
    unfold sqNorm
    field_simp
    nlinarith

/-- The side of a circle is the side of a plane. -/
theorem project_power {r : V3} (h : r ≠ 0) {p : V2} (hp : stereographicProject r = some p) (o : V2) (d : ℝ) :
    (1 + r.normalized.z) * (sqNorm (p - o) - d) =
      4 + (sqNorm o - d) - (⟨4 * o.x, 4 * o.y, 4 - (sqNorm o - d)⟩ : V3).dot r.normalized := by
  obtain ⟨h0, h1, h2, h3⟩ := project_spec h hp
  unfold V3.dot
  unfold sqNorm at *
  simp only [sub_x, sub_y]
  linear_combination h3 - 2 * o.x * h1 - 2 * o.y * h2

theorem inside_of_bary {a b c q : V2} (h : area a b c ≠ 0) {x y z : ℝ} (hx : 0 < x) (hy : 0 < y) (hz : 0 < z)
    (hs : x + y + z = 1) (hq : q = x • a + y • b + z • c) : Inside a b c q := by
  have h2 : 0 < area a b c * area a b c := mul_self_pos.2 h
  obtain rfl : z = 1 - x - y := by linarith
  subst hq
  refine ⟨?_, ?_, ?_⟩
  · have : area (x • a + y • b + (1 - x - y) • c) b c = x * area a b c := by
      unfold area; simp only [add_x, add_y, smul_x, smul_y]; ring
    rw [this]; nlinarith
  · have : area a (x • a + y • b + (1 - x - y) • c) c = y * area a b c := by
      unfold area; simp only [add_x, add_y, smul_x, smul_y]; ring
    rw [this]; nlinarith
  · have : area a b (x • a + y • b + (1 - x - y) • c) = (1 - x - y) * area a b c := by
      unfold area; simp only [add_x, add_y, smul_x, smul_y]; ring
    rw [this]; nlinarith

theorem within_of_bary {a b c q : V2} (h : area a b c ≠ 0) {x y z : ℝ} (hx : 0 ≤ x) (hy : 0 ≤ y) (hz : 0 ≤ z)
    (hs : x + y + z = 1) (hq : q = x • a + y • b + z • c) : Within a b c q := by
  have h2 : 0 < area a b c * area a b c := mul_self_pos.2 h
  obtain rfl : z = 1 - x - y := by linarith
  subst hq
  refine ⟨?_, ?_, ?_⟩
  · have : area (x • a + y • b + (1 - x - y) • c) b c = x * area a b c := by
      unfold area; simp only [add_x, add_y, smul_x, smul_y]; ring
    rw [this]; nlinarith
  · have : area a (x • a + y • b + (1 - x - y) • c) c = y * area a b c := by
      unfold area; simp only [add_x, add_y, smul_x, smul_y]; ring
    rw [this]; nlinarith
  · have : area a b (x • a + y • b + (1 - x - y) • c) = (1 - x - y) * area a b c := by
      unfold area; simp only [add_x, add_y, smul_x, smul_y]; ring
    rw [this]; nlinarith

/-- The centre of a triangle is inside. -/
theorem centre_inside {a b c : V2} (h : area a b c ≠ 0) :
    Inside a b c ((1 / 3 : ℝ) • a + (1 / 3 : ℝ) • b + (1 / 3 : ℝ) • c) :=
  inside_of_bary h (by norm_num) (by norm_num) (by norm_num) (by norm_num) rfl

theorem inside_lin {a b c q p : V2} (hq : Within a b c q) (hp : Inside a b c p) {e : ℝ} (e0 : 0 < e) (e1 : e ≤ 1) :
    Inside a b c (lin q p e) := by
  obtain ⟨q1, q2, q3⟩ := hq
  obtain ⟨p1, p2, p3⟩ := hp
  have e2 : 0 ≤ 1 - e := by linarith
  refine ⟨?_, ?_, ?_⟩
  · rw [area_lin'']
    nlinarith [mul_nonneg e2 q1, mul_pos e0 p1]
  · rw [area_lin']
    nlinarith [mul_nonneg e2 q2, mul_pos e0 p2]
  · rw [area_lin]
    nlinarith [mul_nonneg e2 q3, mul_pos e0 p3]

/-- Two tiles, a point inside the first and within the second. -/
theorem tiles_apart {pos : Nat → V2} {t : Triangulation} (h : Tiles pos t) {k k' : Nat} (hk : k ∈ t.allTriangles)
    (hk' : k' ∈ t.allTriangles) (h0 : area (pos (t.mesh.tv k' 0)) (pos (t.mesh.tv k' 1)) (pos (t.mesh.tv k' 2)) ≠ 0) {q : V2}
    (h1 : Inside (pos (t.mesh.tv k 0)) (pos (t.mesh.tv k 1)) (pos (t.mesh.tv k 2)) q)
    (h2 : Within (pos (t.mesh.tv k' 0)) (pos (t.mesh.tv k' 1)) (pos (t.mesh.tv k' 2)) q) : k = k' := by
  have hc := centre_inside h0
  obtain ⟨e, e1, e2, e3⟩ := ((inside_near _ h1).and ((eventually_mem_nhdsWithin (a := (0 : ℝ)) (s := Set.Ioi 0)).and
    (nhdsWithin_le_nhds (Iio_mem_nhds (zero_lt_one (α := ℝ)))))).exists
  exact h.apart _ k hk k' hk' e1 (inside_lin h2 hc e2 (le_of_lt e3))

/-- The central projection of a point of a flat triangle between three directions. -/
theorem central {r0 r1 r2 : V3} (n0 : r0 ≠ 0) (n1 : r1 ≠ 0) (n2 : r2 ≠ 0) {p0 p1 p2 : V2}
    (h0 : stereographicProject r0 = some p0) (h1 : stereographicProject r1 = some p1)
    (h2 : stereographicProject r2 = some p2) {x y z : ℝ} (hx : 0 ≤ x) (hy : 0 ≤ y) (hz : 0 ≤ z) (hs : 0 < x + y + z)
    {q : V3} (hq : q = x • r0.normalized + y • r1.normalized + z • r2.normalized) :
    0 < x + y + z + q.z ∧ ∃ x' y' z' : ℝ, (0 ≤ x' ∧ 0 ≤ y' ∧ 0 ≤ z') ∧ (0 < x → 0 < x') ∧ (0 < y → 0 < y') ∧
      (0 < z → 0 < z') ∧ x' + y' + z' = 1 ∧
      (⟨2 * q.x / (x + y + z + q.z), 2 * q.y / (x + y + z + q.z)⟩ : V2) = x' • p0 + y' • p1 + z' • p2 := by
  obtain ⟨a0, a1, a2, -⟩ := project_spec n0 h0
  obtain ⟨b0, b1, b2, -⟩ := project_spec n1 h1
  obtain ⟨c0, c1, c2, -⟩ := project_spec n2 h2
  have qx := congrArg V3.x hq
  have qy := congrArg V3.y hq
  have qz := congrArg V3.z hq
  simp only [V3.add_x, V3.add_y, V3.add_z, V3.smul_x, V3.smul_y, V3.smul_z] at qx qy qz
  obtain ⟨s0, hs0⟩ : ∃ s, s = 1 + r0.normalized.z := ⟨_, rfl⟩
  obtain ⟨s1, hs1⟩ : ∃ s, s = 1 + r1.normalized.z := ⟨_, rfl⟩
  obtain ⟨s2, hs2⟩ : ∃ s, s = 1 + r2.normalized.z := ⟨_, rfl⟩
  rw [← hs0] at a0 a1 a2
  rw [← hs1] at b0 b1 b2
  rw [← hs2] at c0 c1 c2
  have hm : x + y + z + q.z = x * s0 + y * s1 + z * s2 := by rw [qz, hs0, hs1, hs2]; ring
  have g0 := mul_nonneg hx a0.le
  have g1 := mul_nonneg hy b0.le
  have g2 := mul_nonneg hz c0.le
  have hpos : 0 < x * s0 + y * s1 + z * s2 := by
    rcases hx.lt_or_eq with hh | rfl
    · have := mul_pos hh a0; linarith
    · rcases hy.lt_or_eq with hh | rfl
      · have := mul_pos hh b0; linarith
      · have := mul_pos (show 0 < z by linarith) c0; linarith
  rw [hm]
  obtain ⟨m, hmm⟩ : ∃ m, m = x * s0 + y * s1 + z * s2 := ⟨_, rfl⟩
  rw [← hmm] at hpos ⊢
  refine ⟨hpos, x * s0 / m, y * s1 / m, z * s2 / m, ⟨by positivity, by positivity, by positivity⟩, fun h => by positivity,
    fun h => by positivity, fun h => by positivity, ?_, ?_⟩
  · field_simp
    linarith
  · ext
    · simp only [add_x, smul_x]
      field_simp
      rw [qx]
      linear_combination -x * a1 - y * b1 - z * c1
    · simp only [add_y, smul_y]
      field_simp
      rw [qy]
      linear_combination -x * a2 - y * b2 - z * c2

/-- The determinant of three directions. -/
theorem det_of_cap {r0 r1 r2 : V3} (n0 : r0 ≠ 0) (n1 : r1 ≠ 0) (n2 : r2 ≠ 0) {p0 p1 p2 : V2}
    (h0 : stereographicProject r0 = some p0) (h1 : stereographicProject r1 = some p1)
    (h2 : stereographicProject r2 = some p2) {o : V2} {d : ℝ} (e0 : sqNorm (p0 - o) = d) (e1 : sqNorm (p1 - o) = d)
    (e2 : sqNorm (p2 - o) = d) :
    4 * det3 r0.normalized r1.normalized r2.normalized = (1 + r0.normalized.z) * (1 + r1.normalized.z) *
      (1 + r2.normalized.z) * ((4 + (sqNorm o - d)) / 8) * area p0 p1 p2 := by
  have key : ∀ {r : V3} {p : V2}, r ≠ 0 → stereographicProject r = some p → sqNorm (p - o) = d →
      r.normalized.x = (1 + r.normalized.z) * p.x / 2 ∧ r.normalized.y = (1 + r.normalized.z) * p.y / 2 ∧
      r.normalized.z = (1 + r.normalized.z) * (4 + (sqNorm o - d) - 2 * (o.x * p.x + o.y * p.y)) / 8 := by
    intro r p hr hp hd
    obtain ⟨-, k1, k2, k3⟩ := project_spec hr hp
    refine ⟨by linarith, by linarith, ?_⟩
    unfold sqNorm at *
    simp only [sub_x, sub_y] at hd
    rw [← hd]
    linear_combination k3 / 8
  obtain ⟨a1, a2, a3⟩ := key n0 h0 e0
  obtain ⟨b1, b2, b3⟩ := key n1 h1 e1
  obtain ⟨c1, c2, c3⟩ := key n2 h2 e2
  have hdet : ∀ u v w : V3, det3 u v w = u.x * (v.y * w.z - v.z * w.y) + u.y * (v.z * w.x - v.x * w.z) +
      u.z * (v.x * w.y - v.y * w.x) := by
    intro u v w; unfold det3 V3.dot V3.cross; ring
  have : det3 r0.normalized r1.normalized r2.normalized = det3
      ⟨(1 + r0.normalized.z) * p0.x / 2, (1 + r0.normalized.z) * p0.y / 2,
        (1 + r0.normalized.z) * (4 + (sqNorm o - d) - 2 * (o.x * p0.x + o.y * p0.y)) / 8⟩
      ⟨(1 + r1.normalized.z) * p1.x / 2, (1 + r1.normalized.z) * p1.y / 2,
        (1 + r1.normalized.z) * (4 + (sqNorm o - d) - 2 * (o.x * p1.x + o.y * p1.y)) / 8⟩
      ⟨(1 + r2.normalized.z) * p2.x / 2, (1 + r2.normalized.z) * p2.y / 2,
        (1 + r2.normalized.z) * (4 + (sqNorm o - d) - 2 * (o.x * p2.x + o.y * p2.y)) / 8⟩ := by
    rw [← a1, ← a2, ← a3, ← b1, ← b2, ← b3, ← c1, ← c2, ← c3]
  rw [this, hdet]
  unfold area
  ring

theorem projectAll_get : ∀ {rays : List V3} {points : List V2}, projectAll rays = some points →
    ∀ {i : Nat} {r : V3}, rays[i]? = some r → ∃ p, points[i]? = some p ∧ stereographicProject r = some p := by
  intro rays
  induction rays with
  | nil => intro points h i r hr; simp at hr
  | cons r0 rays ih =>
    intro points h i r hr
    unfold projectAll at h
    cases h1 : stereographicProject r0 with
    | none => rw [h1] at h; cases h
    | some p =>
      cases h2 : projectAll rays with
      | none => rw [h1, h2] at h; cases h
      | some ps =>
        rw [h1, h2] at h
        cases h
        cases i with
        | zero =>
          simp only [List.getElem?_cons_zero, Option.some.injEq] at hr
          subst hr
          exact ⟨p, by simp, h1⟩
        | succ i =>
          rw [List.getElem?_cons_succ] at hr ⊢
          exact ih h2 hr

section

variable {env : Env} {arrange : List Nat → List Nat} {s : Settings} {rays : List V3} {points : List V2} {order : List Nat}
  {fuel : Nat} {t : Triangulation} {l : List Nat}

/-- A sector of the terrain, its triangle and its circle. -/
theorem sector_facts (henv : Lawful env) (hnz : ∀ r ∈ rays, r ≠ 0) (hp : projectAll rays = some points)
    (ho : Shuffle points.length order) (hG : GeneralPosition s points)
    (ht : triangulate env s points order fuel = .ok (some (t, l))) {x : Sector} (hk : x.key ∈ triangles t)
    (hx : sectorOf rays order t.mesh x.key = .ok x) :
    (x.r0 ∈ rays ∧ x.r1 ∈ rays ∧ x.r2 ∈ rays) ∧
    (stereographicProject x.r0 = some (position points order (t.mesh.tv x.key 0)) ∧
      stereographicProject x.r1 = some (position points order (t.mesh.tv x.key 1)) ∧
      stereographicProject x.r2 = some (position points order (t.mesh.tv x.key 2))) ∧
    area (position points order (t.mesh.tv x.key 0)) (position points order (t.mesh.tv x.key 1))
      (position points order (t.mesh.tv x.key 2)) ≠ 0 ∧
    ∃ (o : V2) (d : ℝ), sqNorm (position points order (t.mesh.tv x.key 0) - o) = d ∧
      sqNorm (position points order (t.mesh.tv x.key 1) - o) = d ∧
      sqNorm (position points order (t.mesh.tv x.key 2) - o) = d ∧ ∀ p ∈ points, d ≤ sqNorm (p - o) := by
  obtain ⟨-, i, hi, c0, c1, c2⟩ := sectorOf_spec hx
  have pos : ∀ j r, rays[i j]? = some r → stereographicProject r = some (position points order (t.mesh.tv x.key j)) := by
    intro j r hr
    obtain ⟨p, p1, p2⟩ := projectAll_get hp hr
    obtain ⟨h3, h4⟩ := hi j
    have h5 : i j < points.length := (List.getElem?_eq_some_iff.1 p1).1
    have := position_of (points := points) h4 h5
    rw [show 3 + (t.mesh.tv x.key j - 3) = t.mesh.tv x.key j from by omega, p1] at this
    rw [p2, this]
  obtain ⟨m1, m2, m3, m4, m5, m6, m7⟩ := run_mesh henv ho hG ht
  obtain ⟨hcell, -⟩ := (m5 (t.mesh.tv x.key 0) (t.mesh.tv x.key 1) (t.mesh.tv x.key 2)).2
    ⟨fun h => by simpa using m6 _ hk _ _ h, fun h => by simpa using m6 _ hk _ _ h, fun h => by simpa using m6 _ hk _ _ h,
      x.key, hk, fun v => by rw [ex_fin3]; simp only [eq_comm]⟩
  refine ⟨⟨List.mem_of_getElem? c0, List.mem_of_getElem? c1, List.mem_of_getElem? c2⟩, ⟨pos 0 _ c0, pos 1 _ c1, pos 2 _ c2⟩,
    m1.area m2 hcell, C148_empty_circles henv ho hG ht _ hk⟩

end

end Mdso.Tri
