import Verif.Lemmas.TriWalk
import Verif.Spec.Terrain

/-!
# Lemmas about terrains
-/

set_option autoImplicit false

namespace Mdso.Tri

open Mdso.Geom Mdso.Tri.Spec

theorem at'_some {α : Type} {l : List α} {i : Nat} {a : α} (h : l[i]? = some a) : at' l i = .ok a := by
  unfold at'
  rw [h]

theorem interpolates {L : Linear} (hL : Exact L) {a b c : V2} (h : area a b c ≠ 0) (d0 d1 d2 : ℝ) (p : V2) :
    Interpolates a b c d0 d1 d2 p
      ((L.solve ⟨a.x, b.x, c.x⟩ ⟨a.y, b.y, c.y⟩ ⟨1, 1, 1⟩ ⟨d0, d1, d2⟩).x * p.x +
        (L.solve ⟨a.x, b.x, c.x⟩ ⟨a.y, b.y, c.y⟩ ⟨1, 1, 1⟩ ⟨d0, d1, d2⟩).y * p.y +
        (L.solve ⟨a.x, b.x, c.x⟩ ⟨a.y, b.y, c.y⟩ ⟨1, 1, 1⟩ ⟨d0, d1, d2⟩).z) := by
  have hs := hL.solve ⟨a.x, b.x, c.x⟩ ⟨a.y, b.y, c.y⟩ ⟨1, 1, 1⟩ ⟨d0, d1, d2⟩ (by
    rw [show det3 ⟨a.x, b.x, c.x⟩ ⟨a.y, b.y, c.y⟩ ⟨1, 1, 1⟩ = area a b c from by
      unfold det3 area V3.dot V3.cross; ring]
    exact h)
  generalize L.solve ⟨a.x, b.x, c.x⟩ ⟨a.y, b.y, c.y⟩ ⟨1, 1, 1⟩ ⟨d0, d1, d2⟩ = co at hs ⊢
  have h0 := congrArg V3.x hs
  have h1 := congrArg V3.y hs
  have h2 := congrArg V3.z hs
  simp at h0 h1 h2
  have hx : area p b c / area a b c + area a p c / area a b c + area a b p / area a b c = 1 := by
    rw [← add_div, ← add_div, div_eq_one_iff_eq h]
    unfold area; ring
  refine ⟨area p b c / area a b c, area a p c / area a b c, area a b p / area a b c, hx, ?_, ?_⟩
  · have e1 : p.x = area p b c / area a b c * a.x + area a p c / area a b c * b.x + area a b p / area a b c * c.x := by
      field_simp
      unfold area; ring
    have e2 : p.y = area p b c / area a b c * a.y + area a p c / area a b c * b.y + area a b p / area a b c * c.y := by
      field_simp
      unfold area; ring
    ext
    · exact e1
    · exact e2
  · rw [← h0, ← h1, ← h2]
    field_simp
    unfold area; ring

/-- An affine function is determined by its values at the corners of a proper triangle. -/
theorem Interpolates.unique {a b c : V2} (h : area a b c ≠ 0) {d0 d1 d2 : ℝ} {p : V2} {d d' : ℝ}
    (h1 : Interpolates a b c d0 d1 d2 p d) (h2 : Interpolates a b c d0 d1 d2 p d') : d = d' := by
  have key : ∀ e, Interpolates a b c d0 d1 d2 p e →
      e * area a b c = area p b c * d0 + area a p c * d1 + area a b p * d2 := by
    rintro e ⟨x, y, z, hs, rfl, rfl⟩
    obtain rfl : z = 1 - x - y := by linarith
    show (x * d0 + y * d1 + (1 - x - y) * d2) * area a b c = _
    have e1 : area (x • a + y • b + (1 - x - y) • c) b c = x * area a b c := by
      show area ⟨x * a.x + y * b.x + (1 - x - y) * c.x, x * a.y + y * b.y + (1 - x - y) * c.y⟩ b c = _
      unfold area; ring
    have e2 : area a (x • a + y • b + (1 - x - y) • c) c = y * area a b c := by
      show area a ⟨x * a.x + y * b.x + (1 - x - y) * c.x, x * a.y + y * b.y + (1 - x - y) * c.y⟩ c = _
      unfold area; ring
    have e3 : area a b (x • a + y • b + (1 - x - y) • c) = (1 - x - y) * area a b c := by
      show area a b ⟨x * a.x + y * b.x + (1 - x - y) * c.x, x * a.y + y * b.y + (1 - x - y) * c.y⟩ = _
      unfold area; ring
    rw [e1, e2, e3]
    ring
  exact mul_right_cancel₀ h ((key d h1).trans (key d' h2).symm)

/-- The members of a constructed terrain. -/
theorem newTerrain_spec {env : Env} {unmap : V2 → V3} {s : Settings} {points : List V2} {depths : List ℝ}
    {order : List Nat} {fuel : Nat} {T : Terrain} (h : newTerrain env unmap s points depths order fuel = .ok (some T)) :
    (∃ l, triangulate env s points order fuel = .ok (some (T.triang, l))) ∧ points.length = depths.length ∧
      T.settings = s ∧ T.points = points ∧ T.order = order ∧
      T.refRays = (points.zip depths).map fun pd => pd.2 • (unmap pd.1).normalized := by
  unfold newTerrain at h
  split at h
  · cases h
  · cases h
  · rename_i t l ht
    by_cases hl : points.length ≠ depths.length
    · rw [if_pos hl] at h
      cases h
    · rw [if_neg hl] at h
      cases h
      exact ⟨⟨l, ht⟩, not_not.1 hl, rfl, rfl, rfl, rfl⟩

theorem norm_scaled {d : ℝ} {r : V3} (h : r ≠ 0) : (d • r.normalized).norm = |d| := by
  unfold V3.norm
  rw [V3.sqNorm_smul, V3.sqNorm_normalized h, mul_one, Real.sqrt_mul_self_eq_abs]

theorem vertexDepth_spec {unmap : V2 → V3} {points : List V2} {depths : List ℝ} {T : Terrain} {i j : Nat}
    (hl : points.length = depths.length) (hr : T.refRays = (points.zip depths).map fun pd => pd.2 • (unmap pd.1).normalized)
    (hu : ∀ p ∈ points, unmap p ≠ 0) (hj : T.order[j]? = some i) (hi : i < points.length) :
    ∃ d, depths[i]? = some d ∧ vertexDepth T (3 + j) = .ok |d| := by
  have hi' : i < depths.length := by omega
  refine ⟨depths[i], List.getElem?_eq_getElem hi', ?_⟩
  unfold vertexDepth
  rw [if_neg (by omega), show 3 + j - 3 = j from by omega, at'_some hj]
  have hk : T.refRays[i]? = some (depths[i] • (unmap points[i]).normalized) := by
    rw [hr]
    simp [List.getElem?_zip_eq_some, hi, hi']
  show (do let ray ← at' T.refRays i; Except.ok ray.norm) = _
  rw [at'_some hk]
  show Except.ok _ = _
  rw [norm_scaled (hu _ (List.getElem_mem hi))]

open Filter Topology in
theorem near_first {a b c a' b' c' : V2} (h : Inside a b c a') (h' : area a' b' c' ≠ 0) :
    ∃ q, Inside a b c q ∧ Inside a' b' c' q := by
  obtain ⟨h1, h2, h3⟩ := h
  obtain ⟨f, hf⟩ : ∃ f : ℝ → V2, f = fun t => ⟨(1 - 2 * t) * a'.x + t * b'.x + t * c'.x,
    (1 - 2 * t) * a'.y + t * b'.y + t * c'.y⟩ := ⟨_, rfl⟩
  have f0 : f 0 = a' := by rw [hf]; ext <;> simp
  have g1 : Continuous fun t => area a b c * area (f t) b c := by rw [hf]; unfold area; fun_prop
  have g2 : Continuous fun t => area a b c * area a (f t) c := by rw [hf]; unfold area; fun_prop
  have g3 : Continuous fun t => area a b c * area a b (f t) := by rw [hf]; unfold area; fun_prop
  have k1 : ∀ᶠ t in 𝓝 (0 : ℝ), 0 < area a b c * area (f t) b c :=
    continuousAt_const.eventually_lt g1.continuousAt (by simpa [f0] using h1)
  have k2 : ∀ᶠ t in 𝓝 (0 : ℝ), 0 < area a b c * area a (f t) c :=
    continuousAt_const.eventually_lt g2.continuousAt (by simpa [f0] using h2)
  have k3 : ∀ᶠ t in 𝓝 (0 : ℝ), 0 < area a b c * area a b (f t) :=
    continuousAt_const.eventually_lt g3.continuousAt (by simpa [f0] using h3)
  have k4 : ∀ᶠ t in 𝓝[>] (0 : ℝ), 0 < t := eventually_mem_nhdsWithin
  have k5 : ∀ᶠ t in 𝓝[>] (0 : ℝ), t < 1 / 2 := nhdsWithin_le_nhds (eventually_lt_nhds (by norm_num))
  have k6 : ∀ᶠ t in 𝓝[>] (0 : ℝ), 0 < area a b c * area (f t) b c ∧ 0 < area a b c * area a (f t) c ∧
      0 < area a b c * area a b (f t) ∧ 0 < t ∧ t < 1 / 2 := by
    filter_upwards [nhdsWithin_le_nhds k1, nhdsWithin_le_nhds k2, nhdsWithin_le_nhds k3, k4, k5] with t t1 t2 t3 t4 t5
    exact ⟨t1, t2, t3, t4, t5⟩
  obtain ⟨t, t1, t2, t3, t4, t5⟩ := k6.exists
  refine ⟨f t, ⟨t1, t2, t3⟩, ?_⟩
  have hA : 0 < area a' b' c' * area a' b' c' := mul_self_pos.2 h'
  have e1 : area a' b' c' * area (f t) b' c' = (1 - 2 * t) * (area a' b' c' * area a' b' c') := by
    rw [hf]; unfold area; ring
  have e2 : area a' b' c' * area a' (f t) c' = t * (area a' b' c' * area a' b' c') := by
    rw [hf]; unfold area; ring
  have e3 : area a' b' c' * area a' b' (f t) = t * (area a' b' c' * area a' b' c') := by
    rw [hf]; unfold area; ring
  exact ⟨by rw [e1]; exact mul_pos (by linarith) hA, by rw [e2]; exact mul_pos t4 hA, by rw [e3]; exact mul_pos t4 hA⟩

/-- Close to a corner inside of one triangle the two triangles overlap. -/
theorem near_corner {pos : Nat → V2} {f : Fin 3 → Nat} {a b c v : V2} (h : Inside a b c v) {i : Fin 3}
    (h' : area (pos (f 0)) (pos (f 1)) (pos (f 2)) ≠ 0) (hi : pos (f i) = v) :
    ∃ q, Inside a b c q ∧ Inside (pos (f 0)) (pos (f 1)) (pos (f 2)) q := by
  subst hi
  fin_cases i
  · exact near_first h h'
  · obtain ⟨q, h1, h2⟩ := near_first (b' := pos (f 2)) (c' := pos (f 0)) h (by rw [area_rot]; exact h')
    exact ⟨q, h1, inside_rot.2 h2⟩
  · obtain ⟨q, h1, h2⟩ := near_first (b' := pos (f 0)) (c' := pos (f 1)) h (by rw [← area_rot]; exact h')
    exact ⟨q, h1, inside_rot.1 h2⟩

/-- A vertex in a triangle, or close to a side of it, is a corner. -/
theorem corner_of_within {s : Settings} {points : List V2} {order : List Nat} (hG : GeneralPosition s points)
    (ho : Shuffle points.length order) {m : Mesh} {V AE AT : Finset Nat} (h : Inv m V AE AT)
    (hg : Geo (position points order) (3 + points.length) V m AE AT) {v k : Nat} (hv : v ∈ V) (h3 : 3 ≤ v) (hk : k ∈ AT)
    (hc : WithinT (position points order) m k (position points order v) ∨
      ∃ i, doesABcontain (position points order (m.ev (m.te k i) 0)) (position points order (m.ev (m.te k i) 1))
        (position points order v) (s.epsPointIsOnSegment * maxDim points)) : ∃ i, m.tv k i = v := by
  have hN := general_noncol hG ho
  have hA := general_apart hG ho
  by_contra hno
  have hne : ∀ i, m.tv k i ≠ v := fun i hh => hno ⟨i, hh⟩
  have hvl := hg.lt v hv
  rcases hc with hc | ⟨i, hc⟩
  · have hlt : ∀ i, m.tv k i < 3 + points.length := fun i => hg.lt _ (corner_mem h hk i)
    have hij : ∀ i j, i ≠ j → m.tv k i ≠ m.tv k j := fun i j hh h' => hh (h.inj k hk h')
    obtain ⟨c1, c2, c3⟩ := hc
    have n0 := hN _ _ _ (hlt 0) (hlt 1) (hlt 2) (hij 0 1 (by decide)) (hij 0 2 (by decide)) (hij 1 2 (by decide))
    have n1 := hN _ _ _ hvl (hlt 1) (hlt 2) (hne 1).symm (hne 2).symm (hij 1 2 (by decide))
    have n2 := hN _ _ _ (hlt 0) hvl (hlt 2) (hne 0) (hij 0 2 (by decide)) (hne 2).symm
    have n3 := hN _ _ _ (hlt 0) (hlt 1) hvl (hij 0 1 (by decide)) (hne 0) (hne 1)
    have hin : InT (position points order) m k (position points order v) :=
      ⟨lt_of_le_of_ne c1 (mul_ne_zero n0 n1).symm, lt_of_le_of_ne c2 (mul_ne_zero n0 n2).symm,
        lt_of_le_of_ne c3 (mul_ne_zero n0 n3).symm⟩
    -- a triangle with the corner `v` has points in its interior close to `v`
    obtain ⟨k', hk', i', hi'⟩ := h.used v hv
    have hkk : k ≠ k' := by
      rintro rfl
      exact hne i' hi'
    have hlt' : ∀ i, m.tv k' i < 3 + points.length := fun i => hg.lt _ (corner_mem h hk' i)
    have hij' : ∀ i j, i ≠ j → m.tv k' i ≠ m.tv k' j := fun i j hh h' => hh (h.inj k' hk' h')
    have n0' := hN _ _ _ (hlt' 0) (hlt' 1) (hlt' 2) (hij' 0 1 (by decide)) (hij' 0 2 (by decide)) (hij' 1 2 (by decide))
    obtain ⟨q, h1, h2⟩ := near_corner hin (i := i') n0' (by rw [hi'])
    exact hkk (hg.apart hN q k hk k' hk' h1 h2)
  · have he := (h.side k hk i).1
    have hend : ∀ q, m.ev (m.te k i) q ≠ v := by
      intro q hh
      obtain ⟨x, -, -, hy, hx⟩ := tri_canon h hk
      obtain ⟨j, hj⟩ := (hy (m.te k i)).1 (mem_sides.2 ⟨i, rfl⟩)
      obtain ⟨-, j', hj'⟩ := (hx j v).1 ⟨q, by rw [hj]; exact hh⟩
      exact hne j' hj'
    have := hA.onEdge v _ _ h3 hvl (hg.lt _ (h.endV _ he 0)) (hg.lt _ (h.endV _ he 1)) (hend 0) (hend 1) (h.ends _ he)
    simp only [predsAt, queryAt, decide_eq_false_iff_not] at this
    exact this hc

/-! ### Points on a side -/

theorem on_segment {a b : V2} {l e : ℝ} (hab : a ≠ b) (he : 0 < e) (h0 : 0 ≤ l) (h1 : l ≤ 1) :
    doesABcontain a b (a + l • (b - a)) e := by
  obtain ⟨n, hn⟩ : ∃ n, n = Real.sqrt (sqNorm (b - a)) := ⟨_, rfl⟩
  have hs : 0 ≤ sqNorm (b - a) := by unfold sqNorm; nlinarith [mul_self_nonneg (b - a).x, mul_self_nonneg (b - a).y]
  have hnn : 0 ≤ n := hn ▸ Real.sqrt_nonneg _
  have hsq : n * n = (b.x - a.x) * (b.x - a.x) + (b.y - a.y) * (b.y - a.y) := by
    rw [hn, Real.mul_self_sqrt hs]; rfl
  have hn0 : n ≠ 0 := by
    rintro rfl
    apply hab
    have h2 : (b.x - a.x) = 0 := by nlinarith [mul_self_nonneg (b.x - a.x), mul_self_nonneg (b.y - a.y)]
    have h3 : (b.y - a.y) = 0 := by nlinarith [mul_self_nonneg (b.x - a.x), mul_self_nonneg (b.y - a.y)]
    ext
    · linarith
    · linarith
  unfold doesABcontain
  rw [← hn]
  unfold Geom.dot
  simp only [sub_x, sub_y, add_x, add_y, smul_x, smul_y]
  have e1 : (a.x + l * (b.x - a.x) - a.x) * ((b.y - a.y) / n) + (a.y + l * (b.y - a.y) - a.y) * -((b.x - a.x) / n) = 0 := by
    field_simp; ring
  have e2 : (b.x - a.x) / n * (a.x + l * (b.x - a.x) - a.x) + (b.y - a.y) / n * (a.y + l * (b.y - a.y) - a.y) = l * n := by
    field_simp; linear_combination -l * hsq
  rw [e1, e2, abs_zero]
  refine ⟨hn0, he, ?_, ?_⟩
  · nlinarith [mul_nonneg h0 hnn]
  · nlinarith [mul_nonneg (sub_nonneg.2 h1) hnn]

theorem on_side {a b c q : V2} (h : area a b c ≠ 0) (hw : Within a b c q) (hq : area q b c = 0) :
    ∃ l : ℝ, 0 ≤ l ∧ l ≤ 1 ∧ q = b + l • (c - b) := by
  obtain ⟨-, h2, h3⟩ := hw
  have hsum : area q b c + area a q c + area a b q = area a b c := by unfold area; ring
  have hp : 0 < area a b c * area a b c := mul_self_pos.2 h
  refine ⟨area a b q * area a b c / (area a b c * area a b c), ?_, ?_, ?_⟩
  · apply div_nonneg _ hp.le
    linarith
  · rw [div_le_one hp]
    have e : area a b c * area a b c = area a b c * area a q c + area a b q * area a b c := by
      linear_combination area a b c * (-hsum + hq)
    linarith
  · have e : area a b q * area a b c / (area a b c * area a b c) = area a b q / area a b c := by field_simp
    rw [e]
    unfold area at *
    ext
    · simp only [add_x, smul_x, sub_x]
      field_simp
      linear_combination (-(b.x-a.x)) * hq
    · simp only [add_y, smul_y, sub_y]
      field_simp
      linear_combination (-(b.y-a.y)) * hq

end Mdso.Tri
