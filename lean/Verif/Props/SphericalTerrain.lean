import Verif.Props.Terrain

/-!
# Properties of `SphericalTerrain`
-/

set_option autoImplicit false

namespace Mdso.Tri

open Mdso.Geom Mdso.Tri.Spec

/-! ### One lookup -/

theorem inSector_iff {L : Linear} {ray : V3} {s : Sector} : inSector L ray s = true ↔
    (L.solve s.r0 s.r1 s.r2 ray).x ≥ 0 ∧ (L.solve s.r0 s.r1 s.r2 ray).y ≥ 0 ∧ (L.solve s.r0 s.r1 s.r2 ray).z ≥ 0 := by
  unfold inSector
  simp only [decide_eq_true_eq]

/-- For independent rays the sector is the cone they span. -/
theorem inSector_cone {L : Linear} (hL : Exact L) {ray : V3} {s : Sector} (hd : det3 s.r0 s.r1 s.r2 ≠ 0) :
    inSector L ray s = true ↔ ∃ x y z : ℝ, 0 ≤ x ∧ 0 ≤ y ∧ 0 ≤ z ∧ ray = x • s.r0 + y • s.r1 + z • s.r2 := by
  rw [inSector_iff]
  have hs := hL.solve s.r0 s.r1 s.r2 ray hd
  constructor
  · rintro ⟨h1, h2, h3⟩
    exact ⟨_, _, _, h1, h2, h3, hs.symm⟩
  · rintro ⟨x, y, z, h1, h2, h3, rfl⟩
    obtain ⟨w, hw⟩ : ∃ w, w = L.solve s.r0 s.r1 s.r2 (x • s.r0 + y • s.r1 + z • s.r2) := ⟨_, rfl⟩
    rw [← hw] at hs ⊢
    have hx := congrArg V3.x hs
    have hy := congrArg V3.y hs
    have hz := congrArg V3.z hs
    simp only [V3.add_x, V3.add_y, V3.add_z, V3.smul_x, V3.smul_y, V3.smul_z] at hx hy hz
    have e1 : (w.x - x) * det3 s.r0 s.r1 s.r2 = 0 := by
      unfold det3 V3.dot V3.cross
      linear_combination (s.r1.y * s.r2.z - s.r1.z * s.r2.y) * hx + (s.r1.z * s.r2.x - s.r1.x * s.r2.z) * hy +
        (s.r1.x * s.r2.y - s.r1.y * s.r2.x) * hz
    have e2 : (w.y - y) * det3 s.r0 s.r1 s.r2 = 0 := by
      unfold det3 V3.dot V3.cross
      linear_combination (s.r2.y * s.r0.z - s.r2.z * s.r0.y) * hx + (s.r2.z * s.r0.x - s.r2.x * s.r0.z) * hy +
        (s.r2.x * s.r0.y - s.r2.y * s.r0.x) * hz
    have e3 : (w.z - z) * det3 s.r0 s.r1 s.r2 = 0 := by
      unfold det3 V3.dot V3.cross
      linear_combination (s.r0.y * s.r1.z - s.r0.z * s.r1.y) * hx + (s.r0.z * s.r1.x - s.r0.x * s.r1.z) * hy +
        (s.r0.x * s.r1.y - s.r0.y * s.r1.x) * hz
    have f1 := (mul_eq_zero.1 e1).resolve_right hd
    have f2 := (mul_eq_zero.1 e2).resolve_right hd
    have f3 := (mul_eq_zero.1 e3).resolve_right hd
    exact ⟨by linarith, by linarith, by linarith⟩

theorem foldl_best_mem (l : List Sector) (s : Sector) : bestSector s l = s ∨ bestSector s l ∈ l := by
  unfold bestSector
  induction l generalizing s with
  | nil => exact .inl rfl
  | cons x l ih =>
    rw [List.foldl_cons]
    rcases ih (if sectorBadness x < sectorBadness s then x else s) with h | h
    · rw [h]
      split
      · exact .inr (List.mem_cons_self ..)
      · exact .inl rfl
    · exact .inr (List.mem_cons_of_mem _ h)

/-- A lookup returns a stored sector that contains the ray, or nothing if there is none. -/
theorem enclosingSector_spec (L : Linear) (st : List Sector) (ray : V3) :
    (∀ s, (enclosingSector L st ray).1 = some s → s ∈ st ∧ inSector L ray s = true) ∧
    ((enclosingSector L st ray).1 = none ↔ ∀ s ∈ st, inSector L ray s = false) ∧
    (enclosingSector L st ray).2.Sublist st := by
  unfold enclosingSector
  cases hf : st.filter (inSector L ray) with
  | nil =>
    refine ⟨fun s hs => (by cases hs), ⟨fun _ => ?_, fun _ => rfl⟩, List.Sublist.refl _⟩
    intro s hs
    have := List.filter_eq_nil_iff.1 hf s hs
    simpa using this
  | cons a l =>
    have hm : ∀ s ∈ a :: l, s ∈ st ∧ inSector L ray s = true := fun s hs => List.mem_filter.1 (hf ▸ hs)
    have hno : ¬ ∀ s ∈ st, inSector L ray s = false := by
      intro hh
      have h1 := hm a (List.mem_cons_self ..)
      rw [hh a h1.1] at h1
      simp at h1
    cases l with
    | nil =>
      refine ⟨fun s hs => hm s (by cases hs; exact List.mem_cons_self ..), ⟨fun h => (by cases h), fun h => absurd h hno⟩,
        List.Sublist.refl _⟩
    | cons b l =>
      refine ⟨fun s hs => ?_, ⟨fun h => (by cases h), fun h => absurd h hno⟩, List.filter_sublist⟩
      obtain rfl := Option.some.inj hs
      apply hm
      rcases foldl_best_mem (b :: l) a with h | h
      · rw [h]; exact List.mem_cons_self ..
      · exact List.mem_cons_of_mem _ h

/-- The depth found in a sector with independent rays. -/
theorem sector_depth {L : Linear} (hL : Exact L) {s : Sector} (hd : det3 s.r0 s.r1 s.r2 ≠ 0) {dir : V3} (h0 : dir ≠ 0)
    (hin : inSector L dir s = true) :
    0 < -(L.plane s.r0 s.r1 s.r2).2 / (L.plane s.r0 s.r1 s.r2).1.dot dir ∧
    OnTriangle s.r0 s.r1 s.r2 ((-(L.plane s.r0 s.r1 s.r2).2 / (L.plane s.r0 s.r1 s.r2).1.dot dir) • dir) := by
  obtain ⟨x, y, z, hx, hy, hz, rfl⟩ := (inSector_cone hL hd).1 hin
  obtain ⟨o1, o2, o3⟩ := hL.orthogonal s.r0 s.r1 s.r2
  have hu := hL.unit s.r0 s.r1 s.r2
  obtain ⟨⟨n, w⟩, hp⟩ : ∃ p, p = L.plane s.r0 s.r1 s.r2 := ⟨_, rfl⟩
  rw [← hp] at o1 o2 o3 hu ⊢
  simp only at o1 o2 o3 hu ⊢
  have hw : w ≠ 0 := by
    rintro rfl
    have hn : n = 0 := by
      unfold V3.dot at o1 o2 o3
      have e1 : n.x * det3 s.r0 s.r1 s.r2 = 0 := by
        unfold det3 V3.dot V3.cross
        linear_combination (s.r1.y * s.r2.z - s.r1.z * s.r2.y) * o1 + (s.r2.y * s.r0.z - s.r2.z * s.r0.y) * o2 +
          (s.r0.y * s.r1.z - s.r0.z * s.r1.y) * o3
      have e2 : n.y * det3 s.r0 s.r1 s.r2 = 0 := by
        unfold det3 V3.dot V3.cross
        linear_combination (s.r1.z * s.r2.x - s.r1.x * s.r2.z) * o1 + (s.r2.z * s.r0.x - s.r2.x * s.r0.z) * o2 +
          (s.r0.z * s.r1.x - s.r0.x * s.r1.z) * o3
      have e3 : n.z * det3 s.r0 s.r1 s.r2 = 0 := by
        unfold det3 V3.dot V3.cross
        linear_combination (s.r1.x * s.r2.y - s.r1.y * s.r2.x) * o1 + (s.r2.x * s.r0.y - s.r2.y * s.r0.x) * o2 +
          (s.r0.x * s.r1.y - s.r0.y * s.r1.x) * o3
      ext
      · exact (mul_eq_zero.1 e1).resolve_right hd
      · exact (mul_eq_zero.1 e2).resolve_right hd
      · exact (mul_eq_zero.1 e3).resolve_right hd
    rw [hn] at hu
    simp [V3.sqNorm] at hu
  have hsum : 0 < x + y + z := by
    have h1 : 0 ≤ x + y + z := by linarith
    refine lt_of_le_of_ne h1 fun h2 => h0 ?_
    obtain rfl : x = 0 := by linarith
    obtain rfl : y = 0 := by linarith
    obtain rfl : z = 0 := by linarith
    ext <;> simp
  have hdot : n.dot (x • s.r0 + y • s.r1 + z • s.r2) = -w * (x + y + z) := by
    unfold V3.dot at *
    simp only [V3.add_x, V3.add_y, V3.add_z, V3.smul_x, V3.smul_y, V3.smul_z]
    linear_combination x * o1 + y * o2 + z * o3
  have ha : -w / n.dot (x • s.r0 + y • s.r1 + z • s.r2) = 1 / (x + y + z) := by
    rw [hdot]
    field_simp
  rw [ha]
  refine ⟨by positivity, x / (x + y + z), y / (x + y + z), z / (x + y + z), by positivity, by positivity, by positivity, ?_, ?_⟩
  · field_simp
  · ext
    · simp only [V3.add_x, V3.smul_x]; field_simp
    · simp only [V3.add_y, V3.smul_y]; field_simp
    · simp only [V3.add_z, V3.smul_z]; field_simp

/-! ### Histories of lookups -/

theorem sphericalDepth_state (L : Linear) (st : List Sector) (dir : V3) :
    (sphericalDepth L st dir).2 = (enclosingSector L st dir).2 := by
  unfold sphericalDepth
  split <;> (next h => rw [h])

theorem lookedUp_sublist (L : Linear) (dirs : List V3) (st : List Sector) : (lookedUp L st dirs).Sublist st := by
  unfold lookedUp
  induction dirs generalizing st with
  | nil => exact List.Sublist.refl _
  | cons d dirs ih =>
    rw [List.foldl_cons]
    refine (ih _).trans ?_
    rw [sphericalDepth_state]
    exact (enclosingSector_spec L st d).2.2

theorem rayOf_spec {rays : List V3} {order : List Nat} {v : Nat} {r : V3} (h : rayOf rays order v = .ok r) :
    3 ≤ v ∧ ∃ i, order[v - 3]? = some i ∧ rays[i]? = some r := by
  unfold rayOf at h
  by_cases hv : v < 3
  · rw [if_pos hv] at h; cases h
  · rw [if_neg hv] at h
    cases ho : at' order (v - 3) with
    | error f => rw [ho] at h; cases h
    | ok i =>
      rw [ho] at h
      exact ⟨by omega, i, at'_ok ho, at'_ok h⟩

theorem sectorOf_spec {rays : List V3} {order : List Nat} {m : Mesh} {k : Nat} {s : Sector}
    (h : sectorOf rays order m k = .ok s) : s.key = k ∧ ∃ i : Fin 3 → Nat,
      (∀ j, 3 ≤ m.tv k j ∧ order[m.tv k j - 3]? = some (i j)) ∧ rays[i 0]? = some s.r0 ∧ rays[i 1]? = some s.r1 ∧
      rays[i 2]? = some s.r2 := by
  unfold sectorOf at h
  cases h0 : rayOf rays order (m.tv k 0) with
  | error f => rw [h0] at h; cases h
  | ok r0 =>
    cases h1 : rayOf rays order (m.tv k 1) with
    | error f => rw [h0, h1] at h; cases h
    | ok r1 =>
      cases h2 : rayOf rays order (m.tv k 2) with
      | error f => rw [h0, h1, h2] at h; cases h
      | ok r2 =>
        rw [h0, h1, h2] at h
        cases h
        obtain ⟨a0, i0, b0, c0⟩ := rayOf_spec h0
        obtain ⟨a1, i1, b1, c1⟩ := rayOf_spec h1
        obtain ⟨a2, i2, b2, c2⟩ := rayOf_spec h2
        refine ⟨rfl, ![i0, i1, i2], ?_, c0, c1, c2⟩
        intro j
        fin_cases j
        · exact ⟨a0, b0⟩
        · exact ⟨a1, b1⟩
        · exact ⟨a2, b2⟩

theorem sectorsOf_spec {rays : List V3} {order : List Nat} {m : Mesh} : ∀ {ks : List Nat} {l : List Sector},
    sectorsOf rays order m ks = .ok l → l.map Sector.key = ks ∧ ∀ s ∈ l, sectorOf rays order m s.key = .ok s := by
  intro ks
  induction ks with
  | nil =>
    intro l h
    cases h
    exact ⟨rfl, by simp⟩
  | cons k ks ih =>
    intro l h
    unfold sectorsOf at h
    cases h0 : sectorOf rays order m k with
    | error f => rw [h0] at h; cases h
    | ok s =>
      cases h1 : sectorsOf rays order m ks with
      | error f => rw [h0, h1] at h; cases h
      | ok ss =>
        rw [h0, h1] at h
        cases h
        obtain ⟨e1, e2⟩ := ih h1
        have hk := (sectorOf_spec h0).1
        refine ⟨by rw [List.map_cons, e1, hk], ?_⟩
        intro x hx
        rcases List.mem_cons.1 hx with rfl | hx
        · rw [hk]; exact h0
        · exact e2 x hx

/-- The initial sectors. -/
theorem newSectors_spec {env : Env} {arrange : List Nat → List Nat} {s : Settings} {rays : List V3} {order : List Nat}
    {fuel : Nat} {init : List Sector} (h : newSectors env arrange s rays order fuel = .ok (some init)) :
    ∃ points t l, projectAll rays = some points ∧ triangulate env s points order fuel = .ok (some (t, l)) ∧
      init.map Sector.key = arrange (triangles t) ∧ ∀ x ∈ init, sectorOf rays order t.mesh x.key = .ok x := by
  unfold newSectors at h
  cases hp : projectAll rays with
  | none => rw [hp] at h; cases h
  | some points =>
    rw [hp] at h
    simp only at h
    cases ht : triangulate env s points order fuel with
    | error f => rw [ht] at h; cases h
    | ok r =>
      cases r with
      | none => rw [ht] at h; cases h
      | some r =>
        obtain ⟨t, l⟩ := r
        rw [ht] at h
        simp only at h
        cases hs : sectorsOf rays order t.mesh (arrange (triangles t)) with
        | error f => rw [hs] at h; cases h
        | ok ss =>
          rw [hs] at h
          cases h
          obtain ⟨e1, e2⟩ := sectorsOf_spec hs
          exact ⟨points, t, l, rfl, ht, e1, e2⟩

/-- C58 for spherical terrains: after any lookups, a depth reported for a direction is positive, and the point at that
depth in that direction lies on the flat triangle between three of the given points, the corners of a triangle of the
tangent triangulation. -/
theorem C58_spherical_partial {L : Linear} (hL : Exact L) {env : Env} {arrange : List Nat → List Nat}
    (ha : Arrangement arrange) {s : Settings} {rays : List V3} {order : List Nat} {fuel : Nat} {init : List Sector}
    (h : newSectors env arrange s rays order fuel = .ok (some init))
    (hreg : ∀ x ∈ init, det3 x.r0 x.r1 x.r2 ≠ 0) (dirs : List V3) {dir : V3} (h0 : dir ≠ 0) {d : ℝ}
    (hd : (sphericalDepth L (lookedUp L init dirs) dir).1 = some d) :
    0 < d ∧ ∃ points t l k, projectAll rays = some points ∧ triangulate env s points order fuel = .ok (some (t, l)) ∧
      k ∈ triangles t ∧ ∃ (i : Fin 3 → Nat) (r : Fin 3 → V3),
        (∀ j, order[t.mesh.tv k j - 3]? = some (i j) ∧ rays[i j]? = some (r j)) ∧
        OnTriangle (r 0) (r 1) (r 2) ((d / dir.norm) • dir) := by
  obtain ⟨points, t, l, hp, ht, hk, hs⟩ := newSectors_spec h
  have hspec := enclosingSector_spec L (lookedUp L init dirs) dir
  unfold sphericalDepth at hd
  split at hd
  · cases hd
  · next x st hx =>
    rw [hx] at hspec
    obtain ⟨hmem, hin⟩ := hspec.1 x rfl
    have hmem' : x ∈ init := (lookedUp_sublist L dirs init).subset hmem
    obtain ⟨hpos, htri⟩ := sector_depth hL (hreg x hmem') h0 hin
    have hn := V3.norm_pos h0
    simp only at hd
    obtain rfl := Option.some.inj hd
    refine ⟨mul_pos hpos hn, points, t, l, x.key, hp, ht, ?_, ?_⟩
    · have : x.key ∈ arrange (triangles t) := hk ▸ List.mem_map_of_mem hmem'
      exact (ha _).mem_iff.1 this
    · obtain ⟨-, i, hi, c0, c1, c2⟩ := sectorOf_spec (hs x hmem')
      refine ⟨i, ![x.r0, x.r1, x.r2], ?_, ?_⟩
      · intro j
        refine ⟨(hi j).2, ?_⟩
        fin_cases j
        · exact c0
        · exact c1
        · exact c2
      · rw [mul_div_assoc, div_self hn.ne', mul_one]
        exact htri

/-- C58 for spherical terrains: in the direction of a given point the distance of that point is reported, if the sector
used has the point as a corner. -/
theorem C58_spherical_vertex_partial {L : Linear} (hL : Exact L) {st : List Sector} {x : Sector} {dir : V3}
    (hx : (enclosingSector L st dir).1 = some x) (hreg : det3 x.r0 x.r1 x.r2 ≠ 0) {r : V3}
    (hr : r = x.r0 ∨ r = x.r1 ∨ r = x.r2) {c : ℝ} (hc : 0 < c) (hdir : dir = c • r) :
    (sphericalDepth L st dir).1 = some r.norm := by
  have hin := ((enclosingSector_spec L st dir).1 x hx).2
  have hr0 : r ≠ 0 := by
    rintro rfl
    apply hreg
    rcases hr with h | h | h
    · rw [← h]; simp [det3, V3.dot]
    · rw [← h]; simp [det3, V3.dot, V3.cross]
    · rw [← h]; simp [det3, V3.dot, V3.cross]
  have h0 : dir ≠ 0 := by
    rw [hdir]
    intro hh
    apply hr0
    have hcz := hc.ne'
    ext
    · have := congrArg V3.x hh; simpa [hcz] using this
    · have := congrArg V3.y hh; simpa [hcz] using this
    · have := congrArg V3.z hh; simpa [hcz] using this
  have hv : (sphericalDepth L st dir).1 =
      some (-(L.plane x.r0 x.r1 x.r2).2 / (L.plane x.r0 x.r1 x.r2).1.dot dir * dir.norm) := by
    unfold sphericalDepth
    split
    · next h => rw [h] at hx; cases hx
    · next h => rw [h] at hx; cases hx; rfl
  rw [hv]
  obtain ⟨o1, o2, o3⟩ := hL.orthogonal x.r0 x.r1 x.r2
  obtain ⟨hpos, -⟩ := sector_depth hL hreg h0 hin
  obtain ⟨⟨n, w⟩, hp⟩ : ∃ p, p = L.plane x.r0 x.r1 x.r2 := ⟨_, rfl⟩
  rw [← hp] at o1 o2 o3 hpos ⊢
  simp only at o1 o2 o3 hpos ⊢
  have hnr : n.dot r + w = 0 := by
    rcases hr with h | h | h
    · rw [h]; exact o1
    · rw [h]; exact o2
    · rw [h]; exact o3
  have hdot : n.dot dir = -w * c := by
    rw [hdir]
    unfold V3.dot at *
    simp only [V3.smul_x, V3.smul_y, V3.smul_z]
    linear_combination c * hnr
  have hw : w ≠ 0 := by
    rintro rfl
    rw [hdot] at hpos
    simp at hpos
  rw [hdot, hdir, V3.norm_smul hc.le]
  congr 1
  field_simp

theorem filter_key {st : List Sector} (hn : (st.map Sector.key).Nodup) {y : Sector} (hy : y ∈ st) :
    st.filter (fun z => z.key == y.key) = [y] := by
  induction st with
  | nil => cases hy
  | cons a st ih =>
    rw [List.map_cons, List.nodup_cons] at hn
    rcases List.mem_cons.1 hy with rfl | hy
    · rw [List.filter_cons_of_pos (by simp)]
      congr 1
      rw [List.filter_eq_nil_iff]
      intro z hz hk
      rw [beq_iff_eq] at hk
      exact hn.1 (hk ▸ List.mem_map_of_mem hz)
    · rw [List.filter_cons_of_neg, ih hn.2 hy]
      intro hk
      rw [beq_iff_eq] at hk
      exact hn.1 (hk ▸ List.mem_map_of_mem hy)

/-- After a lookup at most one stored sector contains the direction: a lookup erases sectors. -/
theorem lookup_leaves_one {L : Linear} {st : List Sector} (hn : (st.map Sector.key).Nodup) (dir : V3) :
    (∀ x, (enclosingSector L st dir).1 = some x → (enclosingSector L st dir).2.filter (inSector L dir) = [x]) ∧
    ((enclosingSector L st dir).1 = none → (enclosingSector L st dir).2.filter (inSector L dir) = []) := by
  have hspec := (enclosingSector_spec L st dir).1
  unfold enclosingSector at *
  cases hf : st.filter (inSector L dir) with
  | nil => exact ⟨fun x hx => (by cases hx), fun _ => hf⟩
  | cons a l =>
    cases l with
    | nil =>
      refine ⟨fun x hx => ?_, fun hx => (by cases hx)⟩
      cases hx
      exact hf
    | cons b l =>
      rw [hf] at hspec
      refine ⟨fun x hx => ?_, fun hx => (by cases hx)⟩
      obtain ⟨hm, hin⟩ := hspec x hx
      obtain rfl := Option.some.inj hx
      simp only at hm hin ⊢
      rw [List.filter_filter]
      obtain ⟨y, hy⟩ : ∃ y, y = bestSector a (b :: l) := ⟨_, rfl⟩
      rw [← hy] at hm hin ⊢
      rw [← filter_key hn hm]
      apply List.filter_congr
      intro z hz
      rw [Bool.eq_iff_iff]
      simp only [Bool.and_eq_true, Bool.or_eq_true, Bool.not_eq_true', beq_iff_eq]
      constructor
      · rintro ⟨h1, h2 | h2⟩
        · rw [h1] at h2; cases h2
        · exact h2
      · intro hk
        have hzy : z = y := List.inj_on_of_nodup_map hn hz hm hk
        rw [hzy]
        exact ⟨hin, .inr rfl⟩

/-- The keys of the initial sectors are different. -/
theorem keys_nodup {env : Env} (henv : Lawful env) {arrange : List Nat → List Nat}
    (ha : Arrangement arrange) {s : Settings} {rays : List V3} {points : List V2} (hp : projectAll rays = some points)
    {order : List Nat} (ho : Shuffle points.length order) (hG : GeneralPosition s points) {fuel : Nat} {init : List Sector}
    (h : newSectors env arrange s rays order fuel = .ok (some init)) : (init.map Sector.key).Nodup := by
  obtain ⟨points', t, l, hp', ht, hk, -⟩ := newSectors_spec h
  rw [hp] at hp'
  obtain rfl := Option.some.inj hp'
  rw [hk]
  exact (ha _).nodup_iff.2 ((C48_general_position_partial henv ho hG ht).1.nodup.2.2.filter _)

/-- Asking twice gives the same answer. -/
theorem C58_spherical_repeat {L : Linear} {st : List Sector} (hn : (st.map Sector.key).Nodup) (dir : V3) :
    sphericalDepth L (sphericalDepth L st dir).2 dir = sphericalDepth L st dir := by
  have h := lookup_leaves_one (L := L) hn dir
  have hs := sphericalDepth_state L st dir
  have he : enclosingSector L (enclosingSector L st dir).2 dir = enclosingSector L st dir := by
    obtain ⟨⟨o, st'⟩, ho⟩ : ∃ r, r = enclosingSector L st dir := ⟨_, rfl⟩
    rw [← ho] at h ⊢
    cases o with
    | none =>
      have := h.2 rfl
      simp only at this ⊢
      unfold enclosingSector
      rw [this]
    | some x =>
      have := h.1 x rfl
      simp only at this ⊢
      unfold enclosingSector
      rw [this]
  rw [hs]
  unfold sphericalDepth
  rw [he]

/-- A lookup in a direction that lies in at most one sector changes nothing. -/
theorem lookup_keeps {L : Linear} {st : List Sector} {dir : V3} (h : (st.filter (inSector L dir)).length ≤ 1) :
    (sphericalDepth L st dir).2 = st := by
  rw [sphericalDepth_state]
  unfold enclosingSector
  cases hf : st.filter (inSector L dir) with
  | nil => rfl
  | cons a l =>
    cases l with
    | nil => rfl
    | cons b l => rw [hf] at h; simp at h

/-- C58 for spherical terrains: the answer does not depend on the lookups before it, if none of them lay in more than one
sector. -/
theorem C58_spherical_history_partial {L : Linear} (init : List Sector) (dirs : List V3)
    (h : ∀ d ∈ dirs, (init.filter (inSector L d)).length ≤ 1) (dir : V3) :
    sphericalDepth L (lookedUp L init dirs) dir = sphericalDepth L init dir := by
  have : lookedUp L init dirs = init := by
    unfold lookedUp
    induction dirs with
    | nil => rfl
    | cons d dirs ih =>
      rw [List.foldl_cons, lookup_keeps (h d (List.mem_cons_self ..))]
      exact ih fun x hx => h x (List.mem_cons_of_mem _ hx)
  rw [this]

/-! ### The constructor -/

theorem sectorsOf_ok {rays : List V3} {order : List Nat} {m : Mesh} : ∀ {ks : List Nat},
    (∀ k ∈ ks, ∀ j, ∃ r, rayOf rays order (m.tv k j) = .ok r) → ∃ l, sectorsOf rays order m ks = .ok l := by
  intro ks
  induction ks with
  | nil => exact fun _ => ⟨[], rfl⟩
  | cons k ks ih =>
    intro h
    obtain ⟨r0, h0⟩ := h k (List.mem_cons_self ..) 0
    obtain ⟨r1, h1⟩ := h k (List.mem_cons_self ..) 1
    obtain ⟨r2, h2⟩ := h k (List.mem_cons_self ..) 2
    obtain ⟨l, hl⟩ := ih fun k hk => h k (List.mem_cons_of_mem _ hk)
    refine ⟨⟨k, r0, r1, r2⟩ :: l, ?_⟩
    unfold sectorsOf sectorOf
    rw [h0, h1, h2, hl]
    rfl

theorem projectAll_length : ∀ {rays : List V3} {points : List V2}, projectAll rays = some points →
    points.length = rays.length := by
  intro rays
  induction rays with
  | nil => intro points h; cases h; rfl
  | cons r rays ih =>
    intro points h
    unfold projectAll at h
    cases h1 : stereographicProject r with
    | none => rw [h1] at h; cases h
    | some p =>
      cases h2 : projectAll rays with
      | none => rw [h1, h2] at h; cases h
      | some ps =>
        rw [h1, h2] at h
        cases h
        rw [List.length_cons, List.length_cons, ih h2]

/-- The construction of a spherical terrain of rays with projections in general position does not fail. -/
theorem C58_spherical_no_fault {env : Env} (henv : Lawful env) {arrange : List Nat → List Nat}
    (ha : Arrangement arrange) {s : Settings} {rays : List V3} {points : List V2} (hp : projectAll rays = some points)
    {order : List Nat} (ho : Shuffle points.length order) (hG : GeneralPosition s points) (fuel : Nat) :
    ∃ r, newSectors env arrange s rays order fuel = .ok r := by
  unfold newSectors
  rw [hp]
  simp only
  obtain ⟨r, hr, -, g⟩ := triangulate_general henv ho hG fuel
  rw [hr]
  cases r with
  | none => exact ⟨none, rfl⟩
  | some r =>
    obtain ⟨t, l⟩ := r
    obtain ⟨-, -, hv, -, -, AE, AT, k1, k2, k3, k4, k5, -⟩ := g t l rfl
    obtain ⟨ss, hss⟩ := sectorsOf_ok (rays := rays) (order := order) (m := t.mesh) (ks := arrange (triangles t)) (by
      intro k hk j
      have hk' := (ha _).mem_iff.1 hk
      unfold triangles at hk'
      rw [List.mem_filter] at hk'
      obtain ⟨hka, hb⟩ := hk'
      have h3 : 3 ≤ t.mesh.tv k j := by
        unfold isIncidentToBoundary isBound at hb
        simp only [Bool.not_eq_true', Bool.or_eq_false_iff, decide_eq_false_iff_not, not_lt] at hb
        fin_cases j
        · exact hb.1.1
        · exact hb.1.2
        · exact hb.2
      obtain ⟨i, n, hn, hi, hlt, -⟩ := vertex_index ho hr hv (k1.cornerV ((k5 k).1 hka) j) h3
      have hlt' : i < rays.length := by rw [← projectAll_length hp]; exact hlt
      refine ⟨rays[i], ?_⟩
      unfold rayOf
      rw [if_neg (by omega), hn, show 3 + n - 3 = n by omega, at'_some hi]
      exact at'_some (List.getElem?_eq_getElem hlt'))
    simp only
    rw [hss]
    exact ⟨_, rfl⟩

/-! ### Demonstration -/

/-- The ray that is projected to `(u, v)`. -/
noncomputable def lift (p : V2) : V3 := ⟨4 * p.x, 4 * p.y, 4 - p.x * p.x - p.y * p.y⟩

theorem project_lift (p : V2) : stereographicProject (lift p) = some p := by
  have hn : (lift p).norm = 4 + p.x * p.x + p.y * p.y := by
    unfold V3.norm
    rw [show (lift p).sqNorm = (4 + p.x * p.x + p.y * p.y) * (4 + p.x * p.x + p.y * p.y) from by
      unfold lift V3.sqNorm; ring]
    exact Real.sqrt_mul_self (by nlinarith [mul_self_nonneg p.x, mul_self_nonneg p.y])
  have hpos : 0 < 4 + p.x * p.x + p.y * p.y := by nlinarith [mul_self_nonneg p.x, mul_self_nonneg p.y]
  have h0 : lift p ≠ 0 := by
    intro hh
    rw [hh] at hn
    have : (0 : V3).norm = 0 := by simp [V3.norm, V3.sqNorm]
    linarith
  unfold stereographicProject
  rw [V3.normalized_eq h0, hn]
  simp only [V3.smul_x, V3.smul_y, V3.smul_z]
  have e : 1 + 1 / (4 + p.x * p.x + p.y * p.y) * (lift p).z = 8 / (4 + p.x * p.x + p.y * p.y) := by
    unfold lift; field_simp; ring
  rw [e, if_neg (by positivity)]
  congr 1
  unfold lift
  ext
  · field_simp
    norm_num
  · field_simp
    norm_num

theorem projectAll_lift (l : List V2) : projectAll (l.map lift) = some l := by
  induction l with
  | nil => rfl
  | cons p l ih =>
    rw [List.map_cons]
    unfold projectAll
    rw [project_lift, ih]
    rfl

/-- Four points of the tangent plane. -/
def spherePoints : List Q2 := [⟨0, 0⟩, ⟨3, 1⟩, ⟨1, 2⟩, ⟨-1, 1⟩]

/-- The four rays. -/
noncomputable def sphereRays : List V3 := (spherePoints.map Q2.real).map lift

/-- The two sectors. -/
noncomputable def sectorA : Sector := ⟨9, ⟨0, 0, 4⟩, ⟨12, 4, -6⟩, ⟨4, 8, -1⟩⟩
noncomputable def sectorB : Sector := ⟨19, ⟨0, 0, 4⟩, ⟨-4, 4, 2⟩, ⟨4, 8, -1⟩⟩

theorem sphere_general : GeneralPosition defaultSettings (spherePoints.map Q2.real) :=
  general_of_check (by decide +kernel)

/-- The corners of the inner triangles. -/
def innerCorners (r : Except Fault (Option (Triangulation × List Nat))) : Option (List (List Nat)) :=
  match r with
  | .ok (some (t, _)) => some ((triangles t).map fun k => [k, t.mesh.tv k 0, t.mesh.tv k 1, t.mesh.tv k 2])
  | _ => none

theorem sphere_sectors : newSectors demoEnv id defaultSettings sphereRays [0, 1, 2, 3] 100 =
    .ok (some [sectorA, sectorB]) := by
  have hr := triangulate_real demoEnv (1 / 1000000000) (1 / 1000000000) spherePoints (by decide +kernel) [0, 1, 2, 3] 100
  have hc : innerCorners (construct demoEnv (predsQ (positionQ spherePoints [0, 1, 2, 3]) (1 / 1000000000 * maxDimQ spherePoints)
      (1 / 1000000000 * maxDimQ spherePoints)) [0, 1, 2, 3] 100) = some [[9, 3, 4, 5], [19, 3, 6, 5]] := by decide +kernel
  rw [← hr] at hc
  unfold newSectors sphereRays
  rw [projectAll_lift]
  simp only
  unfold defaultSettings
  generalize triangulate demoEnv ⟨((1 / 1000000000 : ℚ) : ℝ), ((1 / 1000000000 : ℚ) : ℝ)⟩ (spherePoints.map Q2.real)
    [0, 1, 2, 3] 100 = R at hc
  cases R with
  | error f => cases hc
  | ok r =>
    cases r with
    | none => cases hc
    | some r =>
      obtain ⟨t, l⟩ := r
      have hc := Option.some.inj hc
      simp only [id]
      generalize triangles t = ks at hc
      match ks, hc with
      | [], hc => simp at hc
      | [_], hc => simp at hc
      | _ :: _ :: _ :: _, hc => simp at hc
      | [k1, k2], hc =>
        simp only [List.map_cons, List.map_nil, List.cons.injEq, and_true] at hc
        obtain ⟨⟨rfl, a0, a1, a2⟩, rfl, b0, b1, b2⟩ := hc
        have r0 : rayOf ((spherePoints.map Q2.real).map lift) [0, 1, 2, 3] 3 = .ok ⟨0, 0, 4⟩ := by
          show (.ok (lift (Q2.real ⟨0, 0⟩)) : Except Fault V3) = _
          unfold lift Q2.real; push_cast; norm_num
        have r1 : rayOf ((spherePoints.map Q2.real).map lift) [0, 1, 2, 3] 4 = .ok ⟨12, 4, -6⟩ := by
          show (.ok (lift (Q2.real ⟨3, 1⟩)) : Except Fault V3) = _
          unfold lift Q2.real; push_cast; norm_num
        have r2 : rayOf ((spherePoints.map Q2.real).map lift) [0, 1, 2, 3] 5 = .ok ⟨4, 8, -1⟩ := by
          show (.ok (lift (Q2.real ⟨1, 2⟩)) : Except Fault V3) = _
          unfold lift Q2.real; push_cast; norm_num
        have r3 : rayOf ((spherePoints.map Q2.real).map lift) [0, 1, 2, 3] 6 = .ok ⟨-4, 4, 2⟩ := by
          show (.ok (lift (Q2.real ⟨-1, 1⟩)) : Except Fault V3) = _
          unfold lift Q2.real; push_cast; norm_num
        have sA : sectorOf ((spherePoints.map Q2.real).map lift) [0, 1, 2, 3] t.mesh 9 = .ok sectorA := by
          unfold sectorOf
          rw [a0, a1, a2, r0, r1, r2]
          rfl
        have sB : sectorOf ((spherePoints.map Q2.real).map lift) [0, 1, 2, 3] t.mesh 19 = .ok sectorB := by
          unfold sectorOf
          rw [b0, b1, b2, r0, r2, r3]
          rfl
        unfold sectorsOf
        rw [sA]
        unfold sectorsOf
        rw [sB]
        rfl

theorem sectorA_regular : det3 sectorA.r0 sectorA.r1 sectorA.r2 ≠ 0 := by
  unfold sectorA det3 V3.dot V3.cross; norm_num

theorem sectorB_regular : det3 sectorB.r0 sectorB.r1 sectorB.r2 ≠ 0 := by
  unfold sectorB det3 V3.dot V3.cross; norm_num

/-- The direction between the first and the third ray lies in both sectors. -/
theorem both_sectors {L : Linear} (hL : Exact L) :
    inSector L ⟨4, 8, 3⟩ sectorA = true ∧ inSector L ⟨4, 8, 3⟩ sectorB = true :=
  ⟨(inSector_cone hL sectorA_regular).2 ⟨1, 0, 1, by norm_num, by norm_num, by norm_num, by
      unfold sectorA; ext <;> simp; norm_num⟩,
    (inSector_cone hL sectorB_regular).2 ⟨1, 0, 1, by norm_num, by norm_num, by norm_num, by
      unfold sectorB; ext <;> simp; norm_num⟩⟩

theorem only_A {L : Linear} (hL : Exact L) :
    inSector L ⟨16, 12, -3⟩ sectorA = true ∧ inSector L ⟨16, 12, -3⟩ sectorB = false := by
  constructor
  · exact (inSector_cone hL sectorA_regular).2 ⟨1, 1, 1, by norm_num, by norm_num, by norm_num, by
      unfold sectorA; ext <;> simp <;> norm_num⟩
  · rw [← Bool.not_eq_true, inSector_cone hL sectorB_regular]
    rintro ⟨x, y, z, h1, h2, h3, h⟩
    have hx := congrArg V3.x h
    have hy := congrArg V3.y h
    unfold sectorB at hx hy
    simp at hx hy
    nlinarith

theorem only_B {L : Linear} (hL : Exact L) :
    inSector L ⟨0, 12, 5⟩ sectorB = true ∧ inSector L ⟨0, 12, 5⟩ sectorA = false := by
  constructor
  · exact (inSector_cone hL sectorB_regular).2 ⟨1, 1, 1, by norm_num, by norm_num, by norm_num, by
      unfold sectorB; ext <;> simp <;> norm_num⟩
  · rw [← Bool.not_eq_true, inSector_cone hL sectorA_regular]
    rintro ⟨x, y, z, h1, h2, h3, h⟩
    have hx := congrArg V3.x h
    have hy := congrArg V3.y h
    unfold sectorA at hx hy
    simp at hx hy
    nlinarith

theorem depth_none {L : Linear} {st : List Sector} {dir : V3} :
    (sphericalDepth L st dir).1 = none ↔ ∀ s ∈ st, inSector L dir s = false := by
  rw [← (enclosingSector_spec L st dir).2.1]
  unfold sphericalDepth
  split
  · next h => rw [h]; simp
  · next h => rw [h]; simp

/-- C58 is violated for spherical terrains: a lookup changes what later lookups report. Whatever Eigen computes, there are
four points, a direction between two of them, and a second direction for which the fresh terrain reports a depth, but none
once the first direction has been looked up. -/
theorem C58_spherical_history_violated {L : Linear} (hL : Exact L) : ∃ (init : List Sector) (dir dir' : V3),
    newSectors demoEnv id defaultSettings sphereRays [0, 1, 2, 3] 100 = .ok (some init) ∧
    (∀ x ∈ init, det3 x.r0 x.r1 x.r2 ≠ 0) ∧ dir ≠ 0 ∧ dir' ≠ 0 ∧
    (∃ d, (sphericalDepth L init dir').1 = some d) ∧ (sphericalDepth L (lookedUp L init [dir]) dir').1 = none := by
  have hne : ∀ {v : V3}, v.y ≠ 0 → v ≠ 0 := fun hv h => hv (by rw [h]; rfl)
  have hn : (([sectorA, sectorB] : List Sector).map Sector.key).Nodup := by
    unfold sectorA sectorB; simp
  have hreg : ∀ x ∈ [sectorA, sectorB], det3 x.r0 x.r1 x.r2 ≠ 0 := by
    intro x hx
    rcases List.mem_cons.1 hx with rfl | hx
    · exact sectorA_regular
    · rw [List.mem_singleton] at hx; subst hx; exact sectorB_regular
  obtain ⟨hA, hB⟩ := both_sectors hL
  have hl := lookup_leaves_one (L := L) hn ⟨4, 8, 3⟩
  have hsp := enclosingSector_spec L [sectorA, sectorB] ⟨4, 8, 3⟩
  obtain ⟨⟨o, st⟩, ho⟩ : ∃ r, r = enclosingSector L [sectorA, sectorB] ⟨4, 8, 3⟩ := ⟨_, rfl⟩
  have hst : lookedUp L [sectorA, sectorB] [⟨4, 8, 3⟩] = st := by
    show (sphericalDepth L [sectorA, sectorB] ⟨4, 8, 3⟩).2 = st
    rw [sphericalDepth_state, ← ho]
  rw [← ho] at hl hsp
  cases o with
  | none =>
    have := hsp.2.1.1 rfl sectorA (List.mem_cons_self ..)
    rw [hA] at this
    cases this
  | some x =>
    have h1 := hl.1 x rfl
    simp only at h1
    have hx := (hsp.1 x rfl).1
    have hall : ∀ y ∈ st, y = x := by
      intro y hy
      have hy' : y ∈ [sectorA, sectorB] := hsp.2.2.subset hy
      have hyin : inSector L ⟨4, 8, 3⟩ y = true := by
        rcases List.mem_cons.1 hy' with rfl | hy'
        · exact hA
        · rw [List.mem_singleton] at hy'; subst hy'; exact hB
      have : y ∈ st.filter (inSector L ⟨4, 8, 3⟩) := List.mem_filter.2 ⟨hy, hyin⟩
      rw [h1] at this
      exact List.mem_singleton.1 this
    have key : ∀ dir', (∃ y ∈ [sectorA, sectorB], inSector L dir' y = true) → inSector L dir' x = false →
        (∃ d, (sphericalDepth L [sectorA, sectorB] dir').1 = some d) ∧
        (sphericalDepth L (lookedUp L [sectorA, sectorB] [⟨4, 8, 3⟩]) dir').1 = none := by
      rintro dir' ⟨y, hy, hyin⟩ hxin
      constructor
      · rw [← Option.ne_none_iff_exists']
        intro hh
        rw [depth_none] at hh
        rw [hh y hy] at hyin
        cases hyin
      · rw [hst, depth_none]
        intro z hz
        rw [hall z hz]
        exact hxin
    rcases List.mem_cons.1 hx with rfl | hx
    · refine ⟨_, ⟨4, 8, 3⟩, ⟨0, 12, 5⟩, sphere_sectors, hreg, hne (by norm_num), hne (by norm_num), ?_⟩
      exact key _ ⟨sectorB, by simp, (only_B hL).1⟩ (only_B hL).2
    · rw [List.mem_singleton] at hx
      subst hx
      refine ⟨_, ⟨4, 8, 3⟩, ⟨16, 12, -3⟩, sphere_sectors, hreg, hne (by norm_num), hne (by norm_num), ?_⟩
      exact key _ ⟨sectorA, by simp, (only_A hL).1⟩ (only_A hL).2

/-- The hypotheses of the theorems about spherical terrains are met. -/
example {L : Linear} (hL : Exact L) : ∃ d, (sphericalDepth L (lookedUp L [sectorA, sectorB] []) ⟨16, 12, -3⟩).1 = some d ∧
    0 < d := by
  have hreg : ∀ x ∈ [sectorA, sectorB], det3 x.r0 x.r1 x.r2 ≠ 0 := by
    intro x hx
    rcases List.mem_cons.1 hx with rfl | hx
    · exact sectorA_regular
    · rw [List.mem_singleton] at hx; subst hx; exact sectorB_regular
  have h1 : (sphericalDepth L [sectorA, sectorB] ⟨16, 12, -3⟩).1 ≠ none := by
    intro hh
    rw [depth_none] at hh
    have := hh sectorA (by simp)
    rw [(only_A hL).1] at this
    cases this
  obtain ⟨d, hd⟩ := Option.ne_none_iff_exists'.1 h1
  exact ⟨d, hd, (C58_spherical_partial hL (fun _ => List.Perm.refl _) sphere_sectors hreg [] (by
    intro hh; have := congrArg V3.x hh; simp at this) hd).1⟩

end Mdso.Tri
