import Verif.Lemmas.SphDel

/-!
# Spherical terrains and the Delaunay property
-/

set_option autoImplicit false

namespace Mdso.Tri

open Mdso.Geom Mdso.Tri.Spec

section

variable {env : Env} {arrange : List Nat → List Nat} {s : Settings} {rays : List V3} {points : List V2} {order : List Nat}
  {fuel : Nat} {init : List Sector}

/-- The circle of a sector as a plane. -/
theorem sector_plane (henv : Lawful env) (ha : Arrangement arrange) (hnz : ∀ r ∈ rays, r ≠ 0)
    (hp : projectAll rays = some points) (ho : Shuffle points.length order) (hG : GeneralPosition s points)
    (h : newSectors env arrange s rays order fuel = .ok (some init)) {x : Sector} (hx : x ∈ init) :
    ∃ (o : V2) (e : ℝ) (a : ℝ), a ≠ 0 ∧
      (∀ r ∈ [x.r0, x.r1, x.r2], (⟨4 * o.x, 4 * o.y, 4 - e⟩ : V3).dot r.normalized = 4 + e) ∧
      (∀ r ∈ rays, (⟨4 * o.x, 4 * o.y, 4 - e⟩ : V3).dot r.normalized ≤ 4 + e) ∧
      det3 x.r0.normalized x.r1.normalized x.r2.normalized = (4 + e) * a := by
  obtain ⟨points', t, l, hp', ht, hk, hs⟩ := newSectors_spec h
  rw [hp] at hp'
  obtain rfl := Option.some.inj hp'
  have hk' : x.key ∈ triangles t := (ha _).mem_iff.1 (hk ▸ List.mem_map_of_mem hx)
  obtain ⟨⟨f0, f1, f2⟩, ⟨g0, g1, g2⟩, har, o, d, e0, e1, e2, em⟩ := sector_facts henv hnz hp ho hG ht hk' (hs x hx)
  have pw : ∀ {r p}, r ∈ rays → stereographicProject r = some p → _ := fun {r p} hr hq =>
    project_power (hnz r hr) (p := p) hq o d
  have s0 := (project_spec (hnz _ f0) g0).1
  have s1 := (project_spec (hnz _ f1) g1).1
  have s2 := (project_spec (hnz _ f2) g2).1
  have hd := det_of_cap (hnz _ f0) (hnz _ f1) (hnz _ f2) g0 g1 g2 e0 e1 e2
  obtain ⟨A, hA⟩ : ∃ A, A = area (position points order (t.mesh.tv x.key 0)) (position points order (t.mesh.tv x.key 1))
    (position points order (t.mesh.tv x.key 2)) := ⟨_, rfl⟩
  rw [← hA] at hd har
  refine ⟨o, sqNorm o - d, (1 + x.r0.normalized.z) * (1 + x.r1.normalized.z) * (1 + x.r2.normalized.z) * A / 32,
    ?_, ?_, ?_, ?_⟩
  · have := mul_ne_zero (mul_ne_zero (mul_ne_zero s0.ne' s1.ne') s2.ne') har
    exact div_ne_zero this (by norm_num)
  · intro r hr
    simp only [List.mem_cons, List.not_mem_nil, or_false] at hr
    rcases hr with rfl | rfl | rfl
    · have := pw f0 g0
      rw [e0, sub_self, mul_zero] at this
      linarith
    · have := pw f1 g1
      rw [e1, sub_self, mul_zero] at this
      linarith
    · have := pw f2 g2
      rw [e2, sub_self, mul_zero] at this
      linarith
  · intro r hr
    obtain ⟨i, hi⟩ := List.mem_iff_getElem?.1 hr
    obtain ⟨p, p1, p2⟩ := projectAll_get hp hi
    have h1 := pw hr p2
    have h2 := (project_spec (hnz r hr) p2).1
    have h3 := em p (List.mem_of_getElem? p1)
    have h4 := mul_nonneg h2.le (sub_nonneg.2 h3)
    linarith
  · linarith

/-- C152: the three directions of every sector lie on a circle of the unit sphere, none of the directions lies beyond it,
and the direction opposite to the optical axis is on their side. -/
theorem C152_empty_caps (henv : Lawful env) (ha : Arrangement arrange) (hnz : ∀ r ∈ rays, r ≠ 0)
    (hp : projectAll rays = some points) (ho : Shuffle points.length order) (hG : GeneralPosition s points)
    (h : newSectors env arrange s rays order fuel = .ok (some init)) :
    ∀ x ∈ init, EmptyCap rays x.r0 x.r1 x.r2 := by
  intro x hx
  obtain ⟨o, e, a, -, h1, h2, -⟩ := sector_plane henv ha hnz hp ho hG h hx
  refine ⟨_, _, h1 _ (by simp), h1 _ (by simp), h1 _ (by simp), h2, ?_⟩
  unfold V3.dot
  simp only
  linarith

theorem dot_normalized {r : V3} (h : r ≠ 0) (w : V3) : w.dot r = r.norm * w.dot r.normalized := by
  have hn := (V3.norm_pos h).ne'
  rw [V3.normalized_eq h]
  unfold V3.dot
  simp only [V3.smul_x, V3.smul_y, V3.smul_z]
  field_simp

theorem eq_normalized {r : V3} (h : r ≠ 0) : r = r.norm • r.normalized := by
  have hn := (V3.norm_pos h).ne'
  rw [V3.normalized_eq h]
  ext <;> simp only [V3.smul_x, V3.smul_y, V3.smul_z] <;> field_simp

/-- The circle is smaller than a great one if the rays surround the axis. -/
theorem cap_small (hA : AroundAxis rays) (hnz : ∀ r ∈ rays, r ≠ 0) {o : V2} {e : ℝ}
    (h : ∀ r ∈ rays, (⟨4 * o.x, 4 * o.y, 4 - e⟩ : V3).dot r.normalized ≤ 4 + e) : 0 < 4 + e := by
  by_contra hc
  push Not at hc
  have := hA ⟨4 * o.x, 4 * o.y, 4 - e⟩ fun r hr => by
    rw [dot_normalized (hnz r hr)]
    exact mul_nonpos_of_nonneg_of_nonpos (V3.norm_pos (hnz r hr)).le ((h r hr).trans hc)
  unfold V3.dot at this
  simp only at this
  linarith

theorem det_normalized {a b c : V3} (ha : a ≠ 0) (hb : b ≠ 0) (hc : c ≠ 0) :
    det3 a b c = a.norm * b.norm * c.norm * det3 a.normalized b.normalized c.normalized := by
  have h : ∀ (x y z : ℝ) (u v w : V3), det3 (x • u) (y • v) (z • w) = x * y * z * det3 u v w := by
    intro x y z u v w
    unfold det3 V3.dot V3.cross
    simp only [V3.smul_x, V3.smul_y, V3.smul_z]
    ring
  rw [← h, ← eq_normalized ha, ← eq_normalized hb, ← eq_normalized hc]

theorem sector_rays (henv : Lawful env) (ha : Arrangement arrange) (hnz : ∀ r ∈ rays, r ≠ 0)
    (hp : projectAll rays = some points) (ho : Shuffle points.length order) (hG : GeneralPosition s points)
    (h : newSectors env arrange s rays order fuel = .ok (some init)) {x : Sector} (hx : x ∈ init) :
    x.r0 ∈ rays ∧ x.r1 ∈ rays ∧ x.r2 ∈ rays := by
  obtain ⟨points', t, l, hp', ht, hk, hs⟩ := newSectors_spec h
  obtain ⟨-, i, -, c0, c1, c2⟩ := sectorOf_spec (hs x hx)
  exact ⟨List.mem_of_getElem? c0, List.mem_of_getElem? c1, List.mem_of_getElem? c2⟩

/-- C153: if the rays surround the optical axis, the rays of every sector are independent. -/
theorem C153_regular (henv : Lawful env) (ha : Arrangement arrange) (hnz : ∀ r ∈ rays, r ≠ 0)
    (hp : projectAll rays = some points) (ho : Shuffle points.length order) (hG : GeneralPosition s points)
    (hA : AroundAxis rays) (h : newSectors env arrange s rays order fuel = .ok (some init)) :
    ∀ x ∈ init, det3 x.r0 x.r1 x.r2 ≠ 0 := by
  intro x hx
  obtain ⟨o, e, a, ha0, -, h2, h3⟩ := sector_plane henv ha hnz hp ho hG h hx
  obtain ⟨f0, f1, f2⟩ := sector_rays henv ha hnz hp ho hG h hx
  rw [det_normalized (hnz _ f0) (hnz _ f1) (hnz _ f2), h3]
  exact mul_ne_zero (mul_ne_zero (mul_ne_zero (V3.norm_pos (hnz _ f0)).ne' (V3.norm_pos (hnz _ f1)).ne')
    (V3.norm_pos (hnz _ f2)).ne') (mul_ne_zero (cap_small hA hnz h2).ne' ha0)

theorem comb_normalized {a b c : V3} (ha : a ≠ 0) (hb : b ≠ 0) (hc : c ≠ 0) (x y z : ℝ) :
    x • a + y • b + z • c = (x * a.norm) • a.normalized + (y * b.norm) • b.normalized + (z * c.norm) • c.normalized := by
  have e1 := eq_normalized ha
  have e2 := eq_normalized hb
  have e3 := eq_normalized hc
  have x1 := congrArg V3.x e1
  have x2 := congrArg V3.x e2
  have x3 := congrArg V3.x e3
  have y1 := congrArg V3.y e1
  have y2 := congrArg V3.y e2
  have y3 := congrArg V3.y e3
  have z1 := congrArg V3.z e1
  have z2 := congrArg V3.z e2
  have z3 := congrArg V3.z e3
  simp only [V3.smul_x, V3.smul_y, V3.smul_z] at x1 x2 x3 y1 y2 y3 z1 z2 z3
  ext <;> simp only [V3.smul_x, V3.smul_y, V3.smul_z, V3.add_x, V3.add_y, V3.add_z]
  · linear_combination x * x1 + y * x2 + z * x3
  · linear_combination x * y1 + y * y2 + z * y3
  · linear_combination x * z1 + y * z2 + z * z3

theorem dot_comb (w a b c : V3) (x y z : ℝ) : w.dot (x • a + y • b + z • c) = x * w.dot a + y * w.dot b + z * w.dot c := by
  unfold V3.dot
  simp only [V3.smul_x, V3.smul_y, V3.smul_z, V3.add_x, V3.add_y, V3.add_z]
  ring

/-- C153: if the rays surround the optical axis, the sectors do not overlap: a direction in the open sector between three of
the rays is in no other sector. -/
theorem C153_apart (henv : Lawful env) (ha : Arrangement arrange) (hnz : ∀ r ∈ rays, r ≠ 0)
    (hp : projectAll rays = some points) (ho : Shuffle points.length order) (hG : GeneralPosition s points)
    (hA : AroundAxis rays) (h : newSectors env arrange s rays order fuel = .ok (some init)) {x y : Sector} (hx : x ∈ init)
    (hy : y ∈ init) {dir : V3} {x0 x1 x2 y0 y1 y2 : ℝ} (hx0 : 0 < x0) (hx1 : 0 < x1) (hx2 : 0 < x2)
    (hdx : dir = x0 • x.r0 + x1 • x.r1 + x2 • x.r2) (hy0 : 0 ≤ y0) (hy1 : 0 ≤ y1) (hy2 : 0 ≤ y2)
    (hdy : dir = y0 • y.r0 + y1 • y.r1 + y2 • y.r2) : x = y := by
  obtain ⟨ox, ex, -, -, a1, a2, -⟩ := sector_plane henv ha hnz hp ho hG h hx
  obtain ⟨oy, ey, -, -, b1, b2, -⟩ := sector_plane henv ha hnz hp ho hG h hy
  have cx := cap_small hA hnz a2
  have cy := cap_small hA hnz b2
  obtain ⟨f0, f1, f2⟩ := sector_rays henv ha hnz hp ho hG h hx
  obtain ⟨g0, g1, g2⟩ := sector_rays henv ha hnz hp ho hG h hy
  rw [comb_normalized (hnz _ f0) (hnz _ f1) (hnz _ f2)] at hdx
  rw [comb_normalized (hnz _ g0) (hnz _ g1) (hnz _ g2)] at hdy
  have u0 := mul_pos hx0 (V3.norm_pos (hnz _ f0))
  have u1 := mul_pos hx1 (V3.norm_pos (hnz _ f1))
  have u2 := mul_pos hx2 (V3.norm_pos (hnz _ f2))
  have v0 := mul_nonneg hy0 (V3.norm_pos (hnz _ g0)).le
  have v1 := mul_nonneg hy1 (V3.norm_pos (hnz _ g1)).le
  have v2 := mul_nonneg hy2 (V3.norm_pos (hnz _ g2)).le
  generalize x0 * x.r0.norm = X0 at *
  generalize x1 * x.r1.norm = X1 at *
  generalize x2 * x.r2.norm = X2 at *
  generalize y0 * y.r0.norm = Y0 at *
  generalize y1 * y.r1.norm = Y1 at *
  generalize y2 * y.r2.norm = Y2 at *
  have hsum : X0 + X1 + X2 = Y0 + Y1 + Y2 := by
    apply le_antisymm
    · have e1 := congrArg (⟨4 * ox.x, 4 * ox.y, 4 - ex⟩ : V3).dot (hdx.symm.trans hdy)
      rw [dot_comb, dot_comb, a1 x.r0 (by simp), a1 x.r1 (by simp), a1 x.r2 (by simp)] at e1
      have := mul_le_mul_of_nonneg_left (a2 _ g0) v0
      have := mul_le_mul_of_nonneg_left (a2 _ g1) v1
      have := mul_le_mul_of_nonneg_left (a2 _ g2) v2
      nlinarith
    · have e1 := congrArg (⟨4 * oy.x, 4 * oy.y, 4 - ey⟩ : V3).dot (hdx.symm.trans hdy)
      rw [dot_comb, dot_comb, b1 y.r0 (by simp), b1 y.r1 (by simp), b1 y.r2 (by simp)] at e1
      have := mul_le_mul_of_nonneg_left (b2 _ f0) u0.le
      have := mul_le_mul_of_nonneg_left (b2 _ f1) u1.le
      have := mul_le_mul_of_nonneg_left (b2 _ f2) u2.le
      nlinarith
  obtain ⟨points', t, l, hp', ht, hk, hs⟩ := newSectors_spec h
  rw [hp] at hp'
  obtain rfl := Option.some.inj hp'
  have hkx : x.key ∈ triangles t := (ha _).mem_iff.1 (hk ▸ List.mem_map_of_mem hx)
  have hky : y.key ∈ triangles t := (ha _).mem_iff.1 (hk ▸ List.mem_map_of_mem hy)
  obtain ⟨-, ⟨k0, k1, k2⟩, kar, -⟩ := sector_facts henv hnz hp ho hG ht hkx (hs x hx)
  obtain ⟨-, ⟨m0, m1, m2⟩, mar, -⟩ := sector_facts henv hnz hp ho hG ht hky (hs y hy)
  obtain ⟨-, x', y', z', -, px, py, pz, ps, pe⟩ := central (hnz _ f0) (hnz _ f1) (hnz _ f2) k0 k1 k2 u0.le u1.le u2.le
    (by linarith) hdx
  obtain ⟨-, x'', y'', z'', ⟨qx, qy, qz⟩, -, -, -, qs, qe⟩ := central (hnz _ g0) (hnz _ g1) (hnz _ g2) m0 m1 m2 v0 v1 v2
    (by linarith) hdy
  rw [← hsum] at qe
  have hin := inside_of_bary kar (px u0) (py u1) (pz u2) ps pe
  have hwi := within_of_bary mar qx qy qz qs qe
  have hkk := tiles_apart (C87_tiles henv ho hG ht) (List.mem_filter.1 hkx).1 (List.mem_filter.1 hky).1 mar hin hwi
  have e1 := hs x hx
  rw [hkk, hs y hy] at e1
  injection e1 with e1
  exact e1.symm

theorem length_le_one {α : Type} {p : α → Bool} {l : List α} (hn : l.Nodup)
    (h : ∀ x ∈ l, ∀ y ∈ l, p x = true → p y = true → x = y) : (l.filter p).length ≤ 1 := by
  match hf : l.filter p with
  | [] => simp
  | [_] => simp
  | a :: b :: r =>
    have ha : a ∈ l.filter p := by rw [hf]; simp
    have hb : b ∈ l.filter p := by rw [hf]; simp
    rw [List.mem_filter] at ha hb
    have := h a ha.1 b hb.1 ha.2 hb.2
    have hn' := hn.filter p
    rw [hf, this] at hn'
    simp at hn'

/-- A direction on no side is in at most one sector. -/
theorem one_sector {L : Linear} (hL : Exact L) (henv : Lawful env) (ha : Arrangement arrange) (hnz : ∀ r ∈ rays, r ≠ 0)
    (hp : projectAll rays = some points) (ho : Shuffle points.length order) (hG : GeneralPosition s points)
    (hA : AroundAxis rays) (h : newSectors env arrange s rays order fuel = .ok (some init)) {dir : V3}
    (hd : ∀ x ∈ init, OffSides x.r0 x.r1 x.r2 dir) :
    ∀ x ∈ init, ∀ y ∈ init, inSector L dir x = true → inSector L dir y = true → x = y := by
  intro x hx y hy h1 h2
  have hreg := C153_regular henv ha hnz hp ho hG hA h
  obtain ⟨x0, x1, x2, a0, a1, a2, hdx⟩ := (inSector_cone hL (hreg x hx)).1 h1
  obtain ⟨y0, y1, y2, b0, b1, b2, hdy⟩ := (inSector_cone hL (hreg y hy)).1 h2
  obtain ⟨c0, c1, c2⟩ := hd x hx _ _ _ a0 a1 a2 hdx
  exact C153_apart henv ha hnz hp ho hG hA h hx hy c0 c1 c2 hdx b0 b1 b2 hdy

/-- C153: if the rays surround the optical axis, what a spherical terrain reports does not depend on earlier lookups, as long
as those are on no side of a sector. -/
theorem C153_history {L : Linear} (hL : Exact L) (henv : Lawful env) (ha : Arrangement arrange) (hnz : ∀ r ∈ rays, r ≠ 0)
    (hp : projectAll rays = some points) (ho : Shuffle points.length order) (hG : GeneralPosition s points)
    (hA : AroundAxis rays) (h : newSectors env arrange s rays order fuel = .ok (some init)) (dirs : List V3)
    (hd : ∀ d ∈ dirs, ∀ x ∈ init, OffSides x.r0 x.r1 x.r2 d) (dir : V3) :
    sphericalDepth L (lookedUp L init dirs) dir = sphericalDepth L init dir :=
  C58_spherical_history_partial init dirs (fun d hdd => length_le_one
    (List.Nodup.of_map _ (keys_nodup henv ha hp ho hG h)) (one_sector hL henv ha hnz hp ho hG hA h (hd d hdd))) dir

/-! ### The order of insertion -/

/-- The closed trihedral angle. -/
def Cone3 (a b c q : V3) : Prop := ∃ x y z : ℝ, 0 ≤ x ∧ 0 ≤ y ∧ 0 ≤ z ∧ q = x • a + y • b + z • c

theorem Cone3.swap {a b c q : V3} (h : Cone3 a b c q) : Cone3 b a c q := by
  obtain ⟨x, y, z, hx, hy, hz, rfl⟩ := h
  exact ⟨y, x, z, hy, hx, hz, by ext <;> simp only [V3.add_x, V3.add_y, V3.add_z] <;> ring⟩

theorem Cone3.rot {a b c q : V3} (h : Cone3 a b c q) : Cone3 b c a q := by
  obtain ⟨x, y, z, hx, hy, hz, rfl⟩ := h
  exact ⟨y, z, x, hy, hz, hx, by ext <;> simp only [V3.add_x, V3.add_y, V3.add_z] <;> ring⟩

theorem onTriangle_swap {a b c q : V3} (h : OnTriangle a b c q) : OnTriangle b a c q := by
  obtain ⟨x, y, z, hx, hy, hz, hs, rfl⟩ := h
  exact ⟨y, x, z, hy, hx, hz, by linarith, by ext <;> simp only [V3.add_x, V3.add_y, V3.add_z] <;> ring⟩

theorem onTriangle_rot {a b c q : V3} (h : OnTriangle a b c q) : OnTriangle b c a q := by
  obtain ⟨x, y, z, hx, hy, hz, hs, rfl⟩ := h
  exact ⟨y, z, x, hy, hz, hx, by linarith, by ext <;> simp only [V3.add_x, V3.add_y, V3.add_z] <;> ring⟩

/-- A ray meets a triangle of independent corners once. -/
theorem onTriangle_unique {a b c dir : V3} (hd : det3 a b c ≠ 0) {α β : ℝ} (h1 : OnTriangle a b c (α • dir))
    (h2 : OnTriangle a b c (β • dir)) : α = β := by
  obtain ⟨x, y, z, -, -, -, hs, h1⟩ := h1
  obtain ⟨x', y', z', -, -, -, hs', h2⟩ := h2
  obtain ⟨n, hn⟩ : ∃ n : V3, n = b.cross c + c.cross a + a.cross b := ⟨_, rfl⟩
  have na : n.dot a = det3 a b c := by
    rw [hn]; unfold det3 V3.dot V3.cross; simp only [V3.add_x, V3.add_y, V3.add_z]; ring
  have nb : n.dot b = det3 a b c := by
    rw [hn]; unfold det3 V3.dot V3.cross; simp only [V3.add_x, V3.add_y, V3.add_z]; ring
  have nc : n.dot c = det3 a b c := by
    rw [hn]; unfold det3 V3.dot V3.cross; simp only [V3.add_x, V3.add_y, V3.add_z]; ring
  have hsm : ∀ t : ℝ, n.dot (t • dir) = t * n.dot dir := by
    intro t; unfold V3.dot; simp only [V3.smul_x, V3.smul_y, V3.smul_z]; ring
  have e1 := congrArg n.dot h1
  have e2 := congrArg n.dot h2
  rw [hsm, dot_comb, na, nb, nc, ← add_mul, ← add_mul, hs, one_mul] at e1
  rw [hsm, dot_comb, na, nb, nc, ← add_mul, ← add_mul, hs', one_mul] at e2
  have h0 : n.dot dir ≠ 0 := by
    intro h0
    rw [h0, mul_zero] at e1
    exact hd e1.symm
  exact mul_right_cancel₀ h0 (e1.trans e2.symm)

/-- If no four directions are on a circle of the sphere, no four projections are on a circle of the plane. -/
theorem noFour_project (hnz : ∀ r ∈ rays, r ≠ 0) (hp : projectAll rays = some points) (hC : NoFourOnPlane rays) :
    NoFourOnCircle points := by
  intro i j k l p q r u n1 n2 n3 n4 n5 n6 hi hj hk hl ⟨o, d, e1, e2, e3, e4⟩
  have hlen := projectAll_length hp
  have back : ∀ {i : Nat} {p : V2}, points[i]? = some p → sqNorm (p - o) = d → ∃ v, rays[i]? = some v ∧
      (⟨4 * o.x, 4 * o.y, 4 - (sqNorm o - d)⟩ : V3).dot v.normalized = 4 + (sqNorm o - d) := by
    intro i p hi he
    have hlt : i < rays.length := by rw [← hlen]; exact (List.getElem?_eq_some_iff.1 hi).1
    obtain ⟨p', p1, p2⟩ := projectAll_get hp (List.getElem?_eq_getElem hlt)
    rw [hi] at p1
    obtain rfl := Option.some.inj p1
    refine ⟨_, List.getElem?_eq_getElem hlt, ?_⟩
    have := project_power (hnz _ (List.getElem_mem hlt)) p2 o d
    rw [he, sub_self, mul_zero] at this
    linarith
  obtain ⟨a, a1, a2⟩ := back hi e1
  obtain ⟨b, b1, b2⟩ := back hj e2
  obtain ⟨c, c1, c2⟩ := back hk e3
  obtain ⟨v, v1, v2⟩ := back hl e4
  refine hC i j k l a b c v n1 n2 n3 n4 n5 n6 a1 b1 c1 v1 ⟨_, _, ?_, a2, b2, c2, v2⟩
  intro h0
  have z1 := congrArg V3.x h0
  have z2 := congrArg V3.y h0
  have z3 := congrArg V3.z h0
  simp only [V3.zero_x, V3.zero_y, V3.zero_z] at z1 z2 z3
  have hd : 0 ≤ d := by
    rw [← e1]; unfold sqNorm; nlinarith [mul_self_nonneg (p - o).x, mul_self_nonneg (p - o).y]
  have : sqNorm o = 0 := by
    unfold sqNorm
    rw [show o.x = 0 by linarith, show o.y = 0 by linarith]; ring
  linarith

variable {env' : Env} {arrange' : List Nat → List Nat} {s' : Settings} {order' : List Nat} {fuel' : Nat} {init' : List Sector}

/-- Every sector of one terrain is, up to the order of its rays, one of the other. -/
theorem sector_again (henv : Lawful env) (ha : Arrangement arrange) (hnz : ∀ r ∈ rays, r ≠ 0)
    (hp : projectAll rays = some points) (ho : Shuffle points.length order) (hG : GeneralPosition s points)
    (h : newSectors env arrange s rays order fuel = .ok (some init)) (henv' : Lawful env') (ha' : Arrangement arrange')
    (ho' : Shuffle points.length order') (hG' : GeneralPosition s' points)
    (h' : newSectors env' arrange' s' rays order' fuel' = .ok (some init')) (hC : NoFourOnPlane rays) {x : Sector}
    (hx : x ∈ init) : ∃ y ∈ init', ∀ q, (Cone3 x.r0 x.r1 x.r2 q → Cone3 y.r0 y.r1 y.r2 q) ∧
      (OnTriangle x.r0 x.r1 x.r2 q → OnTriangle y.r0 y.r1 y.r2 q) := by
  obtain ⟨pp, t, l, hpp, ht, hk, hs⟩ := newSectors_spec h
  rw [hp] at hpp
  obtain rfl := Option.some.inj hpp
  obtain ⟨pp, t', l', hpp, ht', hk', hs'⟩ := newSectors_spec h'
  rw [hp] at hpp
  obtain rfl := Option.some.inj hpp
  have hkx : x.key ∈ triangles t := (ha _).mem_iff.1 (hk ▸ List.mem_map_of_mem hx)
  obtain ⟨-, i, hi, c0, c1, c2⟩ := sectorOf_spec (hs x hx)
  obtain ⟨-, -, -, -, -, -, m7⟩ := run_mesh henv ho hG ht
  have hg : ∀ j, get t (i j) = .ok (t.mesh.tv x.key j) := by
    intro j
    obtain ⟨h3, h4⟩ := hi j
    rw [m7 _ _ h4]
    congr 1
    omega
  have hJ : Joined t (i 0) (i 1) (i 2) := ⟨_, _, _, hg 0, hg 1, hg 2, x.key, hkx, fun v => by
    rw [ex_fin3]; simp only [eq_comm]⟩
  obtain ⟨va, vb, vc, ga, gb, gc, n, hn, hv⟩ := (C150_order_irrelevant henv ho hG ht henv' ho' hG' ht'
    (noFour_project hnz hp hC) _ _ _).1 hJ
  obtain ⟨-, -, -, -, -, m6', m7'⟩ := run_mesh henv' ho' hG' ht'
  have hky : n ∈ init'.map Sector.key := by rw [hk']; exact (ha' _).mem_iff.2 hn
  obtain ⟨y, hy, rfl⟩ := List.mem_map.1 hky
  obtain ⟨-, i', hi', d0, d1, d2⟩ := sectorOf_spec (hs' y hy)
  have hl' := (C48_general_position_partial henv' ho' hG' ht').2
  have hlen := projectAll_length hp
  have idx : ∀ (j : Fin 3) (r : V3), rays[i' j]? = some r → ∀ (k : Fin 3) (v : Nat) (r' : V3), rays[i k]? = some r' →
      get t' (i k) = .ok v → t'.mesh.tv y.key j = v → r = r' := by
    intro j r hr k v r' hr' hg' hv'
    obtain ⟨h3, h4⟩ := hi' j
    have : i' j = i k := by
      refine get_inj ho' ht' hl' ?_ ?_ ?_
      · rw [hlen]; exact (List.getElem?_eq_some_iff.1 hr).1
      · rw [hlen]; exact (List.getElem?_eq_some_iff.1 hr').1
      · rw [m7' _ _ h4, hg', ← hv']
        congr 1
        omega
    rw [this, hr'] at hr
    exact (Option.some.inj hr).symm
  refine ⟨y, hy, fun q => ?_⟩
  rcases fin3_cases (fun a b => m6' _ hn a b) hv with ⟨w0, w1, w2⟩ | ⟨w0, w1, w2⟩ | ⟨w0, w1, w2⟩ | ⟨w0, w1, w2⟩ |
    ⟨w0, w1, w2⟩ | ⟨w0, w1, w2⟩
  · rw [idx 0 _ d0 0 va _ c0 ga w0, idx 1 _ d1 1 vb _ c1 gb w1, idx 2 _ d2 2 vc _ c2 gc w2]
    exact ⟨id, id⟩
  · rw [idx 0 _ d0 0 va _ c0 ga w0, idx 1 _ d1 2 vc _ c2 gc w1, idx 2 _ d2 1 vb _ c1 gb w2]
    exact ⟨fun h => h.swap.rot, fun h => onTriangle_rot (onTriangle_swap h)⟩
  · rw [idx 0 _ d0 1 vb _ c1 gb w0, idx 1 _ d1 0 va _ c0 ga w1, idx 2 _ d2 2 vc _ c2 gc w2]
    exact ⟨fun h => h.swap, fun h => onTriangle_swap h⟩
  · rw [idx 0 _ d0 1 vb _ c1 gb w0, idx 1 _ d1 2 vc _ c2 gc w1, idx 2 _ d2 0 va _ c0 ga w2]
    exact ⟨fun h => h.rot, fun h => onTriangle_rot h⟩
  · rw [idx 0 _ d0 2 vc _ c2 gc w0, idx 1 _ d1 0 va _ c0 ga w1, idx 2 _ d2 1 vb _ c1 gb w2]
    exact ⟨fun h => h.rot.rot, fun h => onTriangle_rot (onTriangle_rot h)⟩
  · rw [idx 0 _ d0 2 vc _ c2 gc w0, idx 1 _ d1 1 vb _ c1 gb w1, idx 2 _ d2 0 va _ c0 ga w2]
    exact ⟨fun h => h.rot.swap, fun h => onTriangle_swap (onTriangle_rot h)⟩

/-- What is reported in a sector that no other overlaps. -/
theorem depth_in {L : Linear} {dir : V3} (hone : ∀ x ∈ init, ∀ y ∈ init, inSector L dir x = true → inSector L dir y = true →
    x = y) {x : Sector} (hx : x ∈ init) (hin : inSector L dir x = true) :
    (sphericalDepth L init dir).1 = some (-(L.plane x.r0 x.r1 x.r2).2 / (L.plane x.r0 x.r1 x.r2).1.dot dir * dir.norm) := by
  obtain ⟨h1, h2, -⟩ := enclosingSector_spec L init dir
  unfold sphericalDepth
  split
  · next st hst =>
    rw [hst] at h2
    have := h2.1 rfl x hx
    rw [hin] at this
    cases this
  · next y st hst =>
    rw [hst] at h1
    obtain ⟨hy, hyin⟩ := h1 y rfl
    obtain rfl := hone x hx y hy hin hyin
    rfl

/-- C154: if the rays surround the optical axis and no four directions are on a circle of the sphere, what a spherical
terrain reports for a direction on no side of a sector does not depend on the order in which the points were inserted, on
the order of the map of sectors or on earlier lookups. -/
theorem C154_order_irrelevant {L : Linear} (hL : Exact L) (henv : Lawful env) (ha : Arrangement arrange)
    (hnz : ∀ r ∈ rays, r ≠ 0) (hp : projectAll rays = some points) (ho : Shuffle points.length order)
    (hG : GeneralPosition s points) (h : newSectors env arrange s rays order fuel = .ok (some init)) (henv' : Lawful env')
    (ha' : Arrangement arrange') (ho' : Shuffle points.length order') (hG' : GeneralPosition s' points)
    (h' : newSectors env' arrange' s' rays order' fuel' = .ok (some init')) (hA : AroundAxis rays)
    (hC : NoFourOnPlane rays) (dirs dirs' : List V3) {dir : V3}
    (hd : ∀ d ∈ dir :: dirs, ∀ x ∈ init, OffSides x.r0 x.r1 x.r2 d)
    (hd' : ∀ d ∈ dir :: dirs', ∀ x ∈ init', OffSides x.r0 x.r1 x.r2 d) :
    (sphericalDepth L (lookedUp L init dirs) dir).1 = (sphericalDepth L (lookedUp L init' dirs') dir).1 := by
  rw [C153_history hL henv ha hnz hp ho hG hA h dirs (fun d hh => hd d (List.mem_cons_of_mem _ hh)),
    C153_history hL henv' ha' hnz hp ho' hG' hA h' dirs' (fun d hh => hd' d (List.mem_cons_of_mem _ hh))]
  have hone := one_sector hL henv ha hnz hp ho hG hA h (hd dir (List.mem_cons_self ..))
  have hone' := one_sector hL henv' ha' hnz hp ho' hG' hA h' (hd' dir (List.mem_cons_self ..))
  have hreg := C153_regular henv ha hnz hp ho hG hA h
  have hreg' := C153_regular henv' ha' hnz hp ho' hG' hA h'
  by_cases hex : ∃ x ∈ init, inSector L dir x = true
  · obtain ⟨x, hx, hin⟩ := hex
    obtain ⟨y, hy, hxy⟩ := sector_again henv ha hnz hp ho hG h henv' ha' ho' hG' h' hC hx
    have hin' : inSector L dir y = true :=
      (inSector_cone hL (hreg' y hy)).2 ((hxy dir).1 ((inSector_cone hL (hreg x hx)).1 hin))
    rw [depth_in hone hx hin, depth_in hone' hy hin']
    have h0 : dir ≠ 0 := by
      rintro rfl
      have := hd 0 (List.mem_cons_self ..) x hx 0 0 0 le_rfl le_rfl le_rfl (by ext <;> simp)
      exact lt_irrefl _ this.1
    have k1 := (sector_depth hL (hreg x hx) h0 hin).2
    have k2 := (sector_depth hL (hreg' y hy) h0 hin').2
    rw [onTriangle_unique (hreg' y hy) ((hxy _).2 k1) k2]
  · have h1 : (sphericalDepth L init dir).1 = none := by
      rw [depth_none]
      intro x hx
      by_contra hc
      exact hex ⟨x, hx, by simpa using hc⟩
    have h2 : (sphericalDepth L init' dir).1 = none := by
      rw [depth_none]
      intro y hy
      by_contra hc
      have hin : inSector L dir y = true := by simpa using hc
      obtain ⟨x, hx, hxy⟩ := sector_again henv' ha' hnz hp ho' hG' h' henv ha ho hG h hC hy
      exact hex ⟨x, hx, (inSector_cone hL (hreg x hx)).2 ((hxy dir).1 ((inSector_cone hL (hreg' y hy)).1 hin))⟩
    rw [h1, h2]

end

/-! ### Demonstration -/

theorem lift_norm (p : V2) : (lift p).norm = 4 + p.x * p.x + p.y * p.y := by
  unfold V3.norm
  rw [show (lift p).sqNorm = (4 + p.x * p.x + p.y * p.y) * (4 + p.x * p.x + p.y * p.y) from by
    unfold lift V3.sqNorm; ring]
  exact Real.sqrt_mul_self (by nlinarith [mul_self_nonneg p.x, mul_self_nonneg p.y])

theorem lift_ne (p : V2) : lift p ≠ 0 := by
  intro hh
  have hn := lift_norm p
  rw [hh] at hn
  have : (0 : V3).norm = 0 := by simp [V3.norm, V3.sqNorm]
  nlinarith [mul_self_nonneg p.x, mul_self_nonneg p.y]

/-- The sectors computed from rational points. -/
theorem two_sectors (pts : List Q2) (order : List Nat) (S1 S2 : Sector) {a1 b1 c1 a2 b2 c2 : Nat}
    (hd : 0 ≤ 1 / 1000000000 * maxDimQ pts)
    (hc : innerCorners (construct demoEnv (predsQ (positionQ pts order) (1 / 1000000000 * maxDimQ pts)
      (1 / 1000000000 * maxDimQ pts)) order 100) = some [[S1.key, a1, b1, c1], [S2.key, a2, b2, c2]])
    (h1 : rayOf ((pts.map Q2.real).map lift) order a1 = .ok S1.r0 ∧ rayOf ((pts.map Q2.real).map lift) order b1 = .ok S1.r1 ∧
      rayOf ((pts.map Q2.real).map lift) order c1 = .ok S1.r2)
    (h2 : rayOf ((pts.map Q2.real).map lift) order a2 = .ok S2.r0 ∧ rayOf ((pts.map Q2.real).map lift) order b2 = .ok S2.r1 ∧
      rayOf ((pts.map Q2.real).map lift) order c2 = .ok S2.r2) :
    newSectors demoEnv id defaultSettings ((pts.map Q2.real).map lift) order 100 = .ok (some [S1, S2]) := by
  have hr := triangulate_real demoEnv (1 / 1000000000) (1 / 1000000000) pts hd order 100
  rw [← hr] at hc
  unfold newSectors
  rw [projectAll_lift]
  simp only
  unfold defaultSettings
  generalize triangulate demoEnv ⟨((1 / 1000000000 : ℚ) : ℝ), ((1 / 1000000000 : ℚ) : ℝ)⟩ (pts.map Q2.real)
    order 100 = R at hc
  cases R with
  | error f => cases hc
  | ok r =>
    cases r with
    | none => cases hc
    | some r =>
      obtain ⟨t, l⟩ := r
      have hc := Option.some.inj hc
      simp only [id]
      generalize triangles t = ks at hc
      match ks, hc with
      | [], hc => simp at hc
      | [_], hc => simp at hc
      | _ :: _ :: _ :: _, hc => simp at hc
      | [k1, k2], hc =>
        simp only [List.map_cons, List.map_nil, List.cons.injEq, and_true] at hc
        obtain ⟨⟨rfl, x0, x1, x2⟩, rfl, y0, y1, y2⟩ := hc
        have sA : sectorOf ((pts.map Q2.real).map lift) order t.mesh S1.key = .ok S1 := by
          unfold sectorOf
          rw [x0, x1, x2, h1.1, h1.2.1, h1.2.2]
          rfl
        have sB : sectorOf ((pts.map Q2.real).map lift) order t.mesh S2.key = .ok S2 := by
          unfold sectorOf
          rw [y0, y1, y2, h2.1, h2.2.1, h2.2.2]
          rfl
        unfold sectorsOf
        rw [sA]
        unfold sectorsOf
        rw [sB]
        rfl

theorem lift_real (x y : ℚ) : lift (Q2.real ⟨x, y⟩) = ⟨4 * x, 4 * y, 4 - x * x - y * y⟩ := rfl

/-- The sectors of the same four rays inserted in another order. -/
noncomputable def sectorA' : Sector := ⟨14, ⟨0, 0, 4⟩, ⟨4, 8, -1⟩, ⟨12, 4, -6⟩⟩
noncomputable def sectorB' : Sector := ⟨12, ⟨-4, 4, 2⟩, ⟨4, 8, -1⟩, ⟨0, 0, 4⟩⟩

theorem sphere_sectors' : newSectors demoEnv id defaultSettings sphereRays [3, 0, 2, 1] 100 =
    .ok (some [sectorB', sectorA']) := by
  refine two_sectors spherePoints [3, 0, 2, 1] sectorB' sectorA' (a1 := 3) (b1 := 5) (c1 := 4) (a2 := 4) (b2 := 5) (c2 := 6)
    (by decide +kernel) (by show _ = some [[12, 3, 5, 4], [14, 4, 5, 6]]; decide +kernel) ⟨?_, ?_, ?_⟩ ⟨?_, ?_, ?_⟩
  · show (.ok (lift (Q2.real ⟨-1, 1⟩)) : Except Fault V3) = _
    rw [lift_real]; unfold sectorB'; push_cast; norm_num
  · show (.ok (lift (Q2.real ⟨1, 2⟩)) : Except Fault V3) = _
    rw [lift_real]; unfold sectorB'; push_cast; norm_num
  · show (.ok (lift (Q2.real ⟨0, 0⟩)) : Except Fault V3) = _
    rw [lift_real]; unfold sectorB'; push_cast; norm_num
  · show (.ok (lift (Q2.real ⟨0, 0⟩)) : Except Fault V3) = _
    rw [lift_real]; unfold sectorA'; push_cast; norm_num
  · show (.ok (lift (Q2.real ⟨1, 2⟩)) : Except Fault V3) = _
    rw [lift_real]; unfold sectorA'; push_cast; norm_num
  · show (.ok (lift (Q2.real ⟨3, 1⟩)) : Except Fault V3) = _
    rw [lift_real]; unfold sectorA'; push_cast; norm_num

theorem sphere_around : AroundAxis sphereRays := by
  intro w hw
  have := hw (lift (Q2.real ⟨0, 0⟩)) (by simp [sphereRays, spherePoints])
  rw [lift_real] at this
  unfold V3.dot at this ⊢
  push_cast at this
  simp only at this ⊢
  linarith

theorem sphere_nonzero : ∀ r ∈ sphereRays, r ≠ 0 := by
  intro r hr
  obtain ⟨p, -, rfl⟩ := List.mem_map.1 hr
  exact lift_ne p

theorem sphere_noFour : NoFourOnPlane sphereRays := by
  rintro i j k l p q r u n1 n2 n3 n4 n5 n6 hp hq hr hu ⟨w, d, hw, e1, e2, e3, e4⟩
  have k1 : i < 4 := (List.getElem?_eq_some_iff.1 hp).1
  have k2 : j < 4 := (List.getElem?_eq_some_iff.1 hq).1
  have k3 : k < 4 := (List.getElem?_eq_some_iff.1 hr).1
  have k4 : l < 4 := (List.getElem?_eq_some_iff.1 hu).1
  have all : ∀ (m : Nat) (v : V3), sphereRays[m]? = some v → w.dot v = v.norm * d := by
    intro m v hv
    have hm : m < 4 := (List.getElem?_eq_some_iff.1 hv).1
    have : m = i ∨ m = j ∨ m = k ∨ m = l := by omega
    rw [dot_normalized (sphere_nonzero v (List.mem_of_getElem? hv))]
    congr 1
    rcases this with rfl | rfl | rfl | rfl
    · rw [hv] at hp; cases hp; exact e1
    · rw [hv] at hq; cases hq; exact e2
    · rw [hv] at hr; cases hr; exact e3
    · rw [hv] at hu; cases hu; exact e4
  have a0 := all 0 (lift (Q2.real ⟨0, 0⟩)) rfl
  have a1 := all 1 (lift (Q2.real ⟨3, 1⟩)) rfl
  have a2 := all 2 (lift (Q2.real ⟨1, 2⟩)) rfl
  have a3 := all 3 (lift (Q2.real ⟨-1, 1⟩)) rfl
  rw [lift_norm, lift_real] at a0 a1 a2 a3
  unfold V3.dot Q2.real at a0 a1 a2 a3
  push_cast at a0 a1 a2 a3
  apply hw
  have hz : w.z = 0 := by linarith
  have hx : w.x = 0 := by linarith
  have hy : w.y = 0 := by linarith
  ext
  · exact hx
  · exact hy
  · exact hz

theorem off_A : OffSides sectorA.r0 sectorA.r1 sectorA.r2 ⟨16, 12, -3⟩ := by
  intro x y z hx hy hz h
  have e1 := congrArg V3.x h
  have e2 := congrArg V3.y h
  have e3 := congrArg V3.z h
  unfold sectorA at e1 e2 e3
  simp only [V3.add_x, V3.add_y, V3.add_z, V3.smul_x, V3.smul_y, V3.smul_z] at e1 e2 e3
  exact ⟨by linarith, by linarith, by linarith⟩

theorem off_B : OffSides sectorB.r0 sectorB.r1 sectorB.r2 ⟨16, 12, -3⟩ := by
  intro x y z hx hy hz h
  have e1 := congrArg V3.x h
  have e2 := congrArg V3.y h
  unfold sectorB at e1 e2
  simp only [V3.add_x, V3.add_y, V3.add_z, V3.smul_x, V3.smul_y, V3.smul_z] at e1 e2
  exact absurd hy (by linarith)

theorem off_A' : OffSides sectorA'.r0 sectorA'.r1 sectorA'.r2 ⟨16, 12, -3⟩ := by
  intro x y z hx hy hz h
  have e1 := congrArg V3.x h
  have e2 := congrArg V3.y h
  have e3 := congrArg V3.z h
  unfold sectorA' at e1 e2 e3
  simp only [V3.add_x, V3.add_y, V3.add_z, V3.smul_x, V3.smul_y, V3.smul_z] at e1 e2 e3
  exact ⟨by linarith, by linarith, by linarith⟩

theorem off_B' : OffSides sectorB'.r0 sectorB'.r1 sectorB'.r2 ⟨16, 12, -3⟩ := by
  intro x y z hx hy hz h
  have e1 := congrArg V3.x h
  have e2 := congrArg V3.y h
  unfold sectorB' at e1 e2
  simp only [V3.add_x, V3.add_y, V3.add_z, V3.smul_x, V3.smul_y, V3.smul_z] at e1 e2
  exact absurd hx (by linarith)

/-- The hypotheses of the theorems are met: the two terrains report the same depth for a direction between three of the
rays, whatever number of times it has been looked up before. -/
example {L : Linear} (hL : Exact L) (n n' : Nat) : ∃ init init' d,
    newSectors demoEnv id defaultSettings sphereRays [0, 1, 2, 3] 100 = .ok (some init) ∧
    newSectors demoEnv id defaultSettings sphereRays [3, 0, 2, 1] 100 = .ok (some init') ∧
    (∀ x ∈ init, EmptyCap sphereRays x.r0 x.r1 x.r2) ∧
    (sphericalDepth L (lookedUp L init (List.replicate n ⟨16, 12, -3⟩)) ⟨16, 12, -3⟩).1 = some d ∧
    (sphericalDepth L (lookedUp L init' (List.replicate n' ⟨16, 12, -3⟩)) ⟨16, 12, -3⟩).1 = some d := by
  have hp : projectAll sphereRays = some (spherePoints.map Q2.real) := projectAll_lift _
  have ho : Shuffle (spherePoints.map Q2.real).length [0, 1, 2, 3] := by show [0, 1, 2, 3].Perm [0, 1, 2, 3]; decide
  have ho' : Shuffle (spherePoints.map Q2.real).length [3, 0, 2, 1] := by show [3, 0, 2, 1].Perm [0, 1, 2, 3]; decide
  have hid : Arrangement id := fun _ => List.Perm.refl _
  have hd : ∀ d ∈ (⟨16, 12, -3⟩ : V3) :: List.replicate n ⟨16, 12, -3⟩, ∀ x ∈ [sectorA, sectorB],
      OffSides x.r0 x.r1 x.r2 d := by
    intro d hd x hx
    have hd' : d = ⟨16, 12, -3⟩ := (List.mem_cons.1 hd).elim id List.eq_of_mem_replicate
    rw [hd']
    simp only [List.mem_cons, List.not_mem_nil, or_false] at hx
    rcases hx with rfl | rfl
    · exact off_A
    · exact off_B
  have hd' : ∀ d ∈ (⟨16, 12, -3⟩ : V3) :: List.replicate n' ⟨16, 12, -3⟩, ∀ x ∈ [sectorB', sectorA'],
      OffSides x.r0 x.r1 x.r2 d := by
    intro d hd x hx
    have hd' : d = ⟨16, 12, -3⟩ := (List.mem_cons.1 hd).elim id List.eq_of_mem_replicate
    rw [hd']
    simp only [List.mem_cons, List.not_mem_nil, or_false] at hx
    rcases hx with rfl | rfl
    · exact off_B'
    · exact off_A'
  have key := C154_order_irrelevant hL demoEnv_lawful hid sphere_nonzero hp ho sphere_general sphere_sectors demoEnv_lawful
    hid ho' sphere_general sphere_sectors' sphere_around sphere_noFour (List.replicate n ⟨16, 12, -3⟩)
    (List.replicate n' ⟨16, 12, -3⟩) hd hd'
  have h1 : (sphericalDepth L (lookedUp L [sectorA, sectorB] (List.replicate n ⟨16, 12, -3⟩)) ⟨16, 12, -3⟩).1 ≠ none := by
    rw [C153_history hL demoEnv_lawful hid sphere_nonzero hp ho sphere_general sphere_around sphere_sectors _
      (fun d hh => hd d (List.mem_cons_of_mem _ hh))]
    intro hh
    rw [depth_none] at hh
    have := hh sectorA (by simp)
    rw [(only_A hL).1] at this
    cases this
  obtain ⟨d, hd⟩ := Option.ne_none_iff_exists'.1 h1
  exact ⟨_, _, d, sphere_sectors, sphere_sectors',
    C152_empty_caps demoEnv_lawful hid sphere_nonzero hp ho sphere_general sphere_sectors, hd, key ▸ hd⟩

/-- Four rays that point backwards. -/
def rearPoints : List Q2 := [⟨4, 1⟩, ⟨-3, 3⟩, ⟨-2, -4⟩, ⟨9, -2⟩]

noncomputable def rearRays : List V3 := (rearPoints.map Q2.real).map lift

noncomputable def sectorC : Sector := ⟨14, ⟨16, 4, -13⟩, ⟨-8, -16, -16⟩, ⟨-12, 12, -14⟩⟩
noncomputable def sectorD : Sector := ⟨18, ⟨16, 4, -13⟩, ⟨-8, -16, -16⟩, ⟨36, -8, -81⟩⟩

theorem rear_sectors : newSectors demoEnv id defaultSettings rearRays [0, 1, 2, 3] 100 = .ok (some [sectorC, sectorD]) := by
  refine two_sectors rearPoints [0, 1, 2, 3] sectorC sectorD (a1 := 3) (b1 := 5) (c1 := 4) (a2 := 3) (b2 := 5) (c2 := 6)
    (by decide +kernel) (by show _ = some [[14, 3, 5, 4], [18, 3, 5, 6]]; decide +kernel) ⟨?_, ?_, ?_⟩ ⟨?_, ?_, ?_⟩
  · show (.ok (lift (Q2.real ⟨4, 1⟩)) : Except Fault V3) = _
    rw [lift_real]; unfold sectorC; push_cast; norm_num
  · show (.ok (lift (Q2.real ⟨-2, -4⟩)) : Except Fault V3) = _
    rw [lift_real]; unfold sectorC; push_cast; norm_num
  · show (.ok (lift (Q2.real ⟨-3, 3⟩)) : Except Fault V3) = _
    rw [lift_real]; unfold sectorC; push_cast; norm_num
  · show (.ok (lift (Q2.real ⟨4, 1⟩)) : Except Fault V3) = _
    rw [lift_real]; unfold sectorD; push_cast; norm_num
  · show (.ok (lift (Q2.real ⟨-2, -4⟩)) : Except Fault V3) = _
    rw [lift_real]; unfold sectorD; push_cast; norm_num
  · show (.ok (lift (Q2.real ⟨9, -2⟩)) : Except Fault V3) = _
    rw [lift_real]; unfold sectorD; push_cast; norm_num

/-- C153 needs its hypothesis on the axis: for four rays of a wide-angle camera there are two sectors with
independent rays and a direction in both of the open sectors. No depth is reported along the optical axis, although its
projection is in the convex hull of the projected rays. -/
theorem C153_axis_needed {L : Linear} (hL : Exact L) : ∃ (init : List Sector) (x y : Sector) (dir : V3),
    newSectors demoEnv id defaultSettings rearRays [0, 1, 2, 3] 100 = .ok (some init) ∧
    GeneralPosition defaultSettings (rearPoints.map Q2.real) ∧ x ∈ init ∧ y ∈ init ∧ x ≠ y ∧
    (∀ x ∈ init, det3 x.r0 x.r1 x.r2 ≠ 0) ∧
    (∃ a b c : ℝ, 0 < a ∧ 0 < b ∧ 0 < c ∧ dir = a • x.r0 + b • x.r1 + c • x.r2) ∧
    (∃ a b c : ℝ, 0 < a ∧ 0 < b ∧ 0 < c ∧ dir = a • y.r0 + b • y.r1 + c • y.r2) ∧
    stereographicProject ⟨0, 0, 1⟩ = some ⟨0, 0⟩ ∧ InConvexHull (rearPoints.map Q2.real) ⟨0, 0⟩ ∧
    (sphericalDepth L init ⟨0, 0, 1⟩).1 = none := by
  have hC : det3 sectorC.r0 sectorC.r1 sectorC.r2 ≠ 0 := by unfold sectorC det3 V3.dot V3.cross; norm_num
  have hD : det3 sectorD.r0 sectorD.r1 sectorD.r2 ≠ 0 := by unfold sectorD det3 V3.dot V3.cross; norm_num
  refine ⟨_, sectorC, sectorD, ⟨44, -20, -110⟩, rear_sectors, general_of_check (by decide +kernel), by simp, by simp, ?_, ?_,
    ⟨1512 / 335, 185 / 67, 171 / 335, by norm_num, by norm_num, by norm_num, ?_⟩,
    ⟨1, 1, 1, by norm_num, by norm_num, by norm_num, ?_⟩, ?_, ?_, ?_⟩
  · intro h
    have := congrArg Sector.key h
    simp [sectorC, sectorD] at this
  · intro x hx
    simp only [List.mem_cons, List.not_mem_nil, or_false] at hx
    rcases hx with rfl | rfl
    · exact hC
    · exact hD
  · unfold sectorC
    ext <;> simp only [V3.add_x, V3.add_y, V3.add_z, V3.smul_x, V3.smul_y, V3.smul_z] <;> norm_num
  · unfold sectorD
    ext <;> simp only [V3.add_x, V3.add_y, V3.add_z, V3.smul_x, V3.smul_y, V3.smul_z] <;> norm_num
  · have hn : (⟨0, 0, 1⟩ : V3).norm = 1 := by unfold V3.norm V3.sqNorm; simp
    have h0 : (⟨0, 0, 1⟩ : V3) ≠ 0 := fun h => by simpa using congrArg V3.z h
    unfold stereographicProject
    rw [V3.normalized_eq h0, hn]
    simp
  · intro α β γ hp
    have h1 := hp (Q2.real ⟨4, 1⟩) (by simp [rearPoints])
    have h2 := hp (Q2.real ⟨-3, 3⟩) (by simp [rearPoints])
    have h3 := hp (Q2.real ⟨-2, -4⟩) (by simp [rearPoints])
    unfold Q2.real at h1 h2 h3
    push_cast at h1 h2 h3
    simp only at h1 h2 h3 ⊢
    linarith
  · rw [depth_none]
    intro x hx
    simp only [List.mem_cons, List.not_mem_nil, or_false] at hx
    rcases hx with rfl | rfl
    · rw [← Bool.not_eq_true, inSector_cone hL hC]
      rintro ⟨x, y, z, hx, hy, hz, h⟩
      have := congrArg V3.z h
      unfold sectorC at this
      simp only [V3.add_z, V3.smul_z] at this
      linarith
    · rw [← Bool.not_eq_true, inSector_cone hL hD]
      rintro ⟨x, y, z, hx, hy, hz, h⟩
      have := congrArg V3.z h
      unfold sectorD at this
      simp only [V3.add_z, V3.smul_z] at this
      linarith

end Mdso.Tri
