import Verif.Spec.InitUnit
import Verif.Props.InitOrder
import Verif.Props.Symmetry3

/-!
# Terrains and the first keyframes in another unit of length (C188)
-/

set_option autoImplicit false

namespace Mdso.Tri

open Mdso.Geom Mdso.Tri.Spec

/-! ## Spherical terrains -/

/-- The sector between rays of another length. -/
noncomputable def Sector.inUnit (σ : ℝ) (s : Sector) : Sector := ⟨s.key, σ • s.r0, σ • s.r1, σ • s.r2⟩

theorem projectAll_unit {σ : ℝ} (hσ : 0 < σ) : ∀ rays : List V3, projectAll (rays.map fun r => σ • r) = projectAll rays
  | [] => rfl
  | r :: rs => by
    have h : stereographicProject (σ • r) = stereographicProject r := by
      unfold stereographicProject
      rw [Sym.normalized_smul hσ]
    rw [List.map_cons, projectAll, projectAll, h, projectAll_unit hσ rs]

theorem at_map {α β : Type} (f : α → β) (l : List α) (i : Nat) : at' (l.map f) i = (at' l i).map f := by
  unfold at'
  rw [List.getElem?_map]
  cases l[i]? <;> rfl

theorem rayOf_unit (σ : ℝ) (rays : List V3) (order : List Nat) (v : Nat) :
    rayOf (rays.map fun r => σ • r) order v = (rayOf rays order v).map fun r => σ • r := by
  unfold rayOf
  split
  · rfl
  · cases at' order (v - 3) with
    | error e => rfl
    | ok i => exact at_map _ _ _

theorem sectorOf_unit (σ : ℝ) (rays : List V3) (order : List Nat) (m : Mesh) (k : Nat) :
    sectorOf (rays.map fun r => σ • r) order m k = (sectorOf rays order m k).map (Sector.inUnit σ) := by
  unfold sectorOf
  rw [rayOf_unit, rayOf_unit, rayOf_unit]
  cases rayOf rays order (m.tv k 0) with
  | error e => rfl
  | ok a =>
    cases rayOf rays order (m.tv k 1) with
    | error e => rfl
    | ok b =>
      cases rayOf rays order (m.tv k 2) with
      | error e => rfl
      | ok c => rfl

theorem sectorsOf_unit (σ : ℝ) (rays : List V3) (order : List Nat) (m : Mesh) : ∀ ks : List Nat,
    sectorsOf (rays.map fun r => σ • r) order m ks = (sectorsOf rays order m ks).map fun l => l.map (Sector.inUnit σ)
  | [] => rfl
  | k :: ks => by
    rw [sectorsOf, sectorsOf, sectorOf_unit, sectorsOf_unit σ rays order m ks]
    cases sectorOf rays order m k with
    | error e => rfl
    | ok a =>
      cases sectorsOf rays order m ks with
      | error e => rfl
      | ok l => rfl

theorem newSectors_unit {σ : ℝ} (hσ : 0 < σ) (env : Env) (arrange : List Nat → List Nat) (s : Settings) (rays : List V3) (order : List Nat) (fuel : Nat) :
    newSectors env arrange s (rays.map fun r => σ • r) order fuel =
      (newSectors env arrange s rays order fuel).map fun o => o.map fun l => l.map (Sector.inUnit σ) := by
  unfold newSectors
  rw [projectAll_unit hσ]
  cases projectAll rays with
  | none => rfl
  | some points =>
    dsimp only
    cases triangulate env s points order fuel with
    | error e => rfl
    | ok r =>
      cases r with
      | none => rfl
      | some r =>
        obtain ⟨t, l⟩ := r
        dsimp only
        rw [sectorsOf_unit]
        cases sectorsOf rays order t.mesh (arrange (triangles t)) with
        | error e => rfl
        | ok l => rfl

theorem det_unit (σ : ℝ) (a b c : V3) : det3 (σ • a) (σ • b) (σ • c) = σ ^ 3 * det3 a b c := by
  unfold det3 V3.dot V3.cross
  simp only [V3.smul_x, V3.smul_y, V3.smul_z]
  ring

theorem inSector_unit {L : Linear} (hL : Exact L) {σ : ℝ} (hσ : 0 < σ) {s : Sector} (hd : det3 s.r0 s.r1 s.r2 ≠ 0) (ray : V3) :
    inSector L ray (s.inUnit σ) = inSector L ray s := by
  have hd' : det3 (s.inUnit σ).r0 (s.inUnit σ).r1 (s.inUnit σ).r2 ≠ 0 := by
    show det3 (σ • s.r0) (σ • s.r1) (σ • s.r2) ≠ 0
    rw [det_unit]
    exact mul_ne_zero (by positivity) hd
  rw [Bool.eq_iff_iff, inSector_cone hL hd', inSector_cone hL hd]
  constructor
  · rintro ⟨x, y, z, hx, hy, hz, e⟩
    refine ⟨x * σ, y * σ, z * σ, by positivity, by positivity, by positivity, ?_⟩
    rw [e]
    show x • σ • s.r0 + y • σ • s.r1 + z • σ • s.r2 = _
    rw [Sym.mul_smul3, Sym.mul_smul3, Sym.mul_smul3]
  · rintro ⟨x, y, z, hx, hy, hz, e⟩
    refine ⟨x / σ, y / σ, z / σ, by positivity, by positivity, by positivity, ?_⟩
    rw [e]
    show _ = (x / σ) • σ • s.r0 + (y / σ) • σ • s.r1 + (z / σ) • σ • s.r2
    rw [← Sym.mul_smul3, ← Sym.mul_smul3, ← Sym.mul_smul3, div_mul_cancel₀ _ hσ.ne', div_mul_cancel₀ _ hσ.ne', div_mul_cancel₀ _ hσ.ne']

theorem badness_unit {σ : ℝ} (hσ : 0 < σ) (s : Sector) : sectorBadness (s.inUnit σ) = sectorBadness s := by
  unfold sectorBadness Sector.inUnit angle
  simp only [Sym.normalized_smul hσ]

theorem best_unit {σ : ℝ} (hσ : 0 < σ) : ∀ (l : List Sector) (s : Sector),
    bestSector (s.inUnit σ) (l.map (Sector.inUnit σ)) = (bestSector s l).inUnit σ
  | [], _ => rfl
  | x :: l, s => by
    have ih := best_unit hσ l
    unfold bestSector at ih ⊢
    rw [List.map_cons, List.foldl_cons, List.foldl_cons, badness_unit hσ, badness_unit hσ]
    by_cases h : sectorBadness x < sectorBadness s
    · rw [if_pos h, if_pos h]
      exact ih x
    · rw [if_neg h, if_neg h]
      exact ih s

theorem enclosing_unit {L : Linear} (hL : Exact L) {σ : ℝ} (hσ : 0 < σ) {st : List Sector} (hreg : ∀ x ∈ st, det3 x.r0 x.r1 x.r2 ≠ 0) (ray : V3) :
    enclosingSector L (st.map (Sector.inUnit σ)) ray =
      ((enclosingSector L st ray).1.map (Sector.inUnit σ), (enclosingSector L st ray).2.map (Sector.inUnit σ)) := by
  have hf : (st.map (Sector.inUnit σ)).filter (inSector L ray) = (st.filter (inSector L ray)).map (Sector.inUnit σ) := by
    rw [List.filter_map]
    congr 1
    apply List.filter_congr
    intro x hx
    exact inSector_unit hL hσ (hreg x hx) ray
  unfold enclosingSector
  rw [hf]
  cases st.filter (inSector L ray) with
  | nil => rfl
  | cons a l =>
    cases l with
    | nil => rfl
    | cons b l =>
      simp only [List.map_cons]
      have hb := best_unit hσ (b :: l) a
      rw [List.map_cons] at hb
      rw [hb]
      refine Prod.ext rfl ?_
      show (st.map (Sector.inUnit σ)).filter _ = (st.filter _).map _
      rw [List.filter_map]
      congr 1
      apply List.filter_congr
      intro x hx
      show (!inSector L ray (x.inUnit σ) || x.key == (bestSector a (b :: l)).key) = _
      rw [inSector_unit hL hσ (hreg x hx)]

/-- The plane through three independent points does not contain the origin. -/
theorem plane_offset {L : Linear} (hL : Exact L) {a b c : V3} (hd : det3 a b c ≠ 0) : (L.plane a b c).2 ≠ 0 := by
  obtain ⟨o1, o2, o3⟩ := hL.orthogonal a b c
  have hu := hL.unit a b c
  obtain ⟨⟨n, w⟩, hp⟩ : ∃ p, p = L.plane a b c := ⟨_, rfl⟩
  rw [← hp] at o1 o2 o3 hu ⊢
  simp only at o1 o2 o3 hu ⊢
  rintro rfl
  have hn : n = 0 := by
    unfold V3.dot at o1 o2 o3
    have e1 : n.x * det3 a b c = 0 := by
      unfold det3 V3.dot V3.cross
      linear_combination (b.y * c.z - b.z * c.y) * o1 + (c.y * a.z - c.z * a.y) * o2 + (a.y * b.z - a.z * b.y) * o3
    have e2 : n.y * det3 a b c = 0 := by
      unfold det3 V3.dot V3.cross
      linear_combination (b.z * c.x - b.x * c.z) * o1 + (c.z * a.x - c.x * a.z) * o2 + (a.z * b.x - a.x * b.z) * o3
    have e3 : n.z * det3 a b c = 0 := by
      unfold det3 V3.dot V3.cross
      linear_combination (b.x * c.y - b.y * c.x) * o1 + (c.x * a.y - c.y * a.x) * o2 + (a.x * b.y - a.y * b.x) * o3
    ext
    · exact (mul_eq_zero.1 e1).resolve_right hd
    · exact (mul_eq_zero.1 e2).resolve_right hd
    · exact (mul_eq_zero.1 e3).resolve_right hd
  rw [hn] at hu
  simp [V3.sqNorm] at hu

/-- Where a direction given by its coordinates meets the plane. -/
theorem plane_meets {L : Linear} (hL : Exact L) {a b c : V3} (hd : det3 a b c ≠ 0) (x y z : ℝ) :
    -(L.plane a b c).2 / (L.plane a b c).1.dot (x • a + y • b + z • c) = 1 / (x + y + z) := by
  obtain ⟨o1, o2, o3⟩ := hL.orthogonal a b c
  have hw := plane_offset hL hd
  obtain ⟨⟨n, w⟩, hp⟩ : ∃ p, p = L.plane a b c := ⟨_, rfl⟩
  rw [← hp] at o1 o2 o3 hw ⊢
  simp only at o1 o2 o3 hw ⊢
  have hdot : n.dot (x • a + y • b + z • c) = -w * (x + y + z) := by
    unfold V3.dot at *
    simp only [V3.add_x, V3.add_y, V3.add_z, V3.smul_x, V3.smul_y, V3.smul_z]
    linear_combination x * o1 + y * o2 + z * o3
  rw [hdot, div_mul_eq_div_div, div_self (neg_ne_zero.2 hw)]

/-- One lookup in a spherical terrain in another unit. -/
theorem sphericalDepth_unit {L : Linear} (hL : Exact L) {σ : ℝ} (hσ : 0 < σ) {st : List Sector} (hreg : ∀ x ∈ st, det3 x.r0 x.r1 x.r2 ≠ 0) (dir : V3) :
    sphericalDepth L (st.map (Sector.inUnit σ)) dir =
      ((sphericalDepth L st dir).1.map (fun d => σ * d), (sphericalDepth L st dir).2.map (Sector.inUnit σ)) := by
  have he := enclosing_unit hL hσ hreg dir
  have hm := (enclosingSector_spec L st dir).1
  unfold sphericalDepth
  rw [he]
  cases h : enclosingSector L st dir with
  | mk o st' =>
    rw [h] at hm
    cases o with
    | none => rfl
    | some s =>
      have hd := hreg s (hm s rfl).1
      refine Prod.ext ?_ rfl
      show some _ = some _
      congr 1
      have hs := hL.solve s.r0 s.r1 s.r2 dir hd
      obtain ⟨co, hco⟩ : ∃ co, co = L.solve s.r0 s.r1 s.r2 dir := ⟨_, rfl⟩
      rw [← hco] at hs
      have hd' : det3 (σ • s.r0) (σ • s.r1) (σ • s.r2) ≠ 0 := by
        rw [det_unit]
        exact mul_ne_zero (by positivity) hd
      have h1 := plane_meets hL hd co.x co.y co.z
      have h2 := plane_meets hL hd' (co.x / σ) (co.y / σ) (co.z / σ)
      rw [← Sym.mul_smul3, ← Sym.mul_smul3, ← Sym.mul_smul3, div_mul_cancel₀ _ hσ.ne', div_mul_cancel₀ _ hσ.ne', div_mul_cancel₀ _ hσ.ne', hs] at h2
      rw [hs] at h1
      show -(L.plane (σ • s.r0) (σ • s.r1) (σ • s.r2)).2 / (L.plane (σ • s.r0) (σ • s.r1) (σ • s.r2)).1.dot dir * dir.norm =
        σ * (-(L.plane s.r0 s.r1 s.r2).2 / (L.plane s.r0 s.r1 s.r2).1.dot dir * dir.norm)
      rw [h1, h2, ← add_div, ← add_div, one_div_div]
      ring

theorem sphericalDepth_sublist (L : Linear) (st : List Sector) (dir : V3) : (sphericalDepth L st dir).2.Sublist st := by
  have h := (enclosingSector_spec L st dir).2.2
  unfold sphericalDepth
  cases he : enclosingSector L st dir with
  | mk o st' =>
    rw [he] at h
    cases o <;> exact h

theorem lookedUp_unit {L : Linear} (hL : Exact L) {σ : ℝ} (hσ : 0 < σ) : ∀ (dirs : List V3) {st : List Sector}, (∀ x ∈ st, det3 x.r0 x.r1 x.r2 ≠ 0) →
    lookedUp L (st.map (Sector.inUnit σ)) dirs = (lookedUp L st dirs).map (Sector.inUnit σ) ∧ ∀ x ∈ lookedUp L st dirs, det3 x.r0 x.r1 x.r2 ≠ 0
  | [], _, h => ⟨rfl, h⟩
  | dir :: dirs, st, h => by
    unfold lookedUp
    rw [List.foldl_cons, List.foldl_cons, sphericalDepth_unit hL hσ h]
    exact lookedUp_unit hL hσ dirs fun x hx => h x ((sphericalDepth_sublist L st dir).subset hx)

/-- **C188, spherical terrains.** A spherical terrain made from the same points in another unit of length can be made or not alike. It reports, after any
lookups, for every direction the same depth in the new unit, and none where the other one reports none, if the rays of each sector are independent. -/
theorem C188_spherical {L : Linear} (hL : Exact L) {σ : ℝ} (hσ : 0 < σ) (env : Env) (arrange : List Nat → List Nat) (s : Settings) (rays : List V3)
    (order : List Nat) (fuel : Nat) :
    (∀ f, newSectors env arrange s rays order fuel = .error f → newSectors env arrange s (rays.map fun r => σ • r) order fuel = .error f) ∧
    (newSectors env arrange s rays order fuel = .ok none → newSectors env arrange s (rays.map fun r => σ • r) order fuel = .ok none) ∧
    ∀ init, newSectors env arrange s rays order fuel = .ok (some init) →
      ∃ init', newSectors env arrange s (rays.map fun r => σ • r) order fuel = .ok (some init') ∧ init'.map Sector.key = init.map Sector.key ∧
        ((∀ x ∈ init, det3 x.r0 x.r1 x.r2 ≠ 0) → ∀ (dirs : List V3) (dir : V3),
          (sphericalDepth L (lookedUp L init' dirs) dir).1 = (sphericalDepth L (lookedUp L init dirs) dir).1.map fun d => σ * d) := by
  rw [newSectors_unit hσ]
  refine ⟨fun f h => ?_, fun h => ?_, fun init h => ⟨init.map (Sector.inUnit σ), ?_, ?_, ?_⟩⟩
  · rw [h]; rfl
  · rw [h]; rfl
  · rw [h]; rfl
  · rw [List.map_map]; rfl
  · intro hreg dirs dir
    obtain ⟨h1, h2⟩ := lookedUp_unit hL hσ dirs hreg
    rw [h1, sphericalDepth_unit hL hσ h2]

/-! ## Plain terrains -/

/-- The terrain with its points at other distances. -/
noncomputable def Terrain.inUnit (σ : ℝ) (T : Terrain) : Terrain := { T with refRays := T.refRays.map fun r => σ • r }

theorem newTerrain_unit (σ : ℝ) (env : Env) (unmap : V2 → V3) (s : Settings) (points : List V2) (depths : List ℝ) (order : List Nat) (fuel : Nat) :
    newTerrain env unmap s points (depths.map fun d => σ * d) order fuel =
      (newTerrain env unmap s points depths order fuel).map fun o => o.map (Terrain.inUnit σ) := by
  unfold newTerrain
  cases triangulate env s points order fuel with
  | error e => rfl
  | ok r =>
    cases r with
    | none => rfl
    | some r =>
      obtain ⟨t, l⟩ := r
      dsimp only
      rw [List.length_map]
      by_cases h : points.length ≠ depths.length
      · rw [if_pos h, if_pos h]; rfl
      · rw [if_neg h, if_neg h]
        show Except.ok (some _) = Except.ok (some _)
        congr 2
        unfold Terrain.inUnit
        congr 1
        rw [List.zip_map_right, List.map_map, List.map_map]
        apply List.map_congr_left
        intro pd _
        exact Sym.mul_smul3 σ pd.2 _

theorem vertexDepth_unit {σ : ℝ} (hσ : 0 < σ) (T : Terrain) (v : Nat) : vertexDepth (T.inUnit σ) v = (vertexDepth T v).map fun d => σ * d := by
  unfold vertexDepth
  by_cases h : v < 3
  · rw [if_pos h, if_pos h]; rfl
  · rw [if_neg h, if_neg h]
    show (do let i ← at' T.order (v - 3); let ray ← at' (T.refRays.map fun r => σ • r) i; Except.ok ray.norm) = _
    cases at' T.order (v - 3) with
    | error e => rfl
    | ok i =>
      show (do let ray ← at' (T.refRays.map fun r => σ • r) i; Except.ok ray.norm) = Except.map _ (do let ray ← at' T.refRays i; Except.ok ray.norm)
      rw [at_map]
      cases at' T.refRays i with
      | error e => rfl
      | ok r => exact congrArg Except.ok (V3.norm_smul hσ.le r)

theorem interpolates_unique {a b c p : V2} (h : area a b c ≠ 0) {d0 d1 d2 r r' σ : ℝ} (h1 : Interpolates a b c d0 d1 d2 p r)
    (h2 : Interpolates a b c (σ * d0) (σ * d1) (σ * d2) p r') : r' = σ * r := by
  obtain ⟨x, y, z, hs, hp, rfl⟩ := h1
  obtain ⟨x', y', z', hs', hp', rfl⟩ := h2
  rw [hp] at hp'
  have hx := congrArg V2.x hp'
  have hy := congrArg V2.y hp'
  simp only [add_x, add_y, smul_x, smul_y] at hx hy
  have e1 : (y - y') * area a b c = 0 := by
    have hz : z = 1 - x - y := by linarith
    have hz' : z' = 1 - x' - y' := by linarith
    have hxx : x = 1 - y - z := by linarith
    have hxx' : x' = 1 - y' - z' := by linarith
    unfold area
    rw [hxx, hxx'] at hx hy
    linear_combination (c.y - a.y) * hx - (c.x - a.x) * hy
  have e2 : (z - z') * area a b c = 0 := by
    have hxx : x = 1 - y - z := by linarith
    have hxx' : x' = 1 - y' - z' := by linarith
    unfold area
    rw [hxx, hxx'] at hx hy
    linear_combination -(b.y - a.y) * hx + (b.x - a.x) * hy
  have f1 := (mul_eq_zero.1 e1).resolve_right h
  have f2 := (mul_eq_zero.1 e2).resolve_right h
  obtain rfl : y' = y := by linarith
  obtain rfl : z' = z := by linarith
  obtain rfl : x' = x := by linarith
  ring

/-- One lookup in a plain terrain in another unit. -/
theorem depthAt_unit {L : Linear} (hL : Exact L) {σ : ℝ} (hσ : 0 < σ) {env env' : Env} (henv : Lawful env) (henv' : Lawful env')
    {unmap : V2 → V3} {s : Settings} {points : List V2} {depths : List ℝ} {order : List Nat} {fuel : Nat}
    (ho : Shuffle points.length order) (hG : GeneralPosition s points) (hu : ∀ p ∈ points, unmap p ≠ 0) {T : Terrain}
    (h : newTerrain env unmap s points depths order fuel = .ok (some T)) (p : V2) (coin : Nat → Bool) (fuel' : Nat) :
    (T.inUnit σ).depthAt L env' p coin fuel' = (T.depthAt L env' p coin fuel').map fun o => o.map fun o => o.map fun d => σ * d := by
  have h' : newTerrain env unmap s points (depths.map fun d => σ * d) order fuel = .ok (some (T.inUnit σ)) := by
    rw [newTerrain_unit, h]
    rfl
  obtain ⟨r, e, -, g1, g2, g3⟩ := depthAt_spec hL henv henv' ho hG hu h p coin fuel'
  obtain ⟨r', e', -, g1', g2', g3'⟩ := depthAt_spec hL henv henv' ho hG hu h' p coin fuel'
  have er : r' = r := by
    have e'' : T.enclosing env' p coin fuel' = .ok r' := e'
    rw [e] at e''
    exact (Except.ok.inj e'').symm
  subst er
  match r', g1, g2, g3, g1', g2', g3' with
  | none, g1, _, _, g1', _, _ => rw [g1 rfl, g1' rfl]; rfl
  | some none, _, g2, _, _, g2', _ => rw [g2 rfl, g2' rfl]; rfl
  | some (some k), _, _, g3, _, _, g3' =>
    obtain ⟨-, -, ⟨n1, h1⟩ | ⟨hk, i, a, d, res, h1, ha, h3, h4⟩⟩ := g3 k rfl
    · obtain ⟨-, -, ⟨-, h1'⟩ | ⟨hk', -⟩⟩ := g3' k rfl
      · rw [h1, h1']; rfl
      · exact absurd hk' n1
    · obtain ⟨-, -, ⟨n1, -⟩ | ⟨-, i', a', d', res', h1', ha', h3', h4'⟩⟩ := g3' k rfl
      · exact absurd hk n1
      · have aa : ∀ j, a' j = a j := fun j => (h1' j).2.2.2.trans (h1 j).2.2.2.symm
        have ii : ∀ j, i' j = i j := by
          intro j
          obtain ⟨⟨l, ht⟩, hlen, -⟩ := newTerrain_spec h
          have hg : get T.triang (i' j) = get T.triang (i j) := ((h1' j).1).trans ((h1 j).1).symm
          obtain ⟨r2, hr2, -, g⟩ := triangulate_general henv ho hG fuel
          have ht' := ht
          rw [hr2] at ht'
          obtain ⟨-, -, hv, -⟩ := g _ l (Except.ok.inj ht')
          exact get_inj ho ht hv (List.getElem?_eq_some_iff.1 (h1' j).2.1).1 (List.getElem?_eq_some_iff.1 (h1 j).2.1).1 hg
        have dd : ∀ j, |d' j| = σ * |d j| := by
          intro j
          have e1 := (h1' j).2.2.1
          rw [ii j, List.getElem?_map, (h1 j).2.2.1] at e1
          rw [← Option.some.inj e1, abs_mul, abs_of_pos hσ]
        rw [aa, aa, aa, dd, dd, dd] at h3'
        rw [h4, h4', interpolates_unique ha h3 h3']
        rfl

/-- **C188, plain terrains.** A plain terrain of points in general position reports the same depths in the new unit, and the lookups that fail, find nothing or
do not end are the same. -/
theorem C188_plain {L : Linear} (hL : Exact L) {σ : ℝ} (hσ : 0 < σ) {env env' : Env} (henv : Lawful env) (henv' : Lawful env')
    {unmap : V2 → V3} {s : Settings} {points : List V2} {depths : List ℝ} {order : List Nat} {fuel : Nat}
    (ho : Shuffle points.length order) (hG : GeneralPosition s points) (hu : ∀ p ∈ points, unmap p ≠ 0) {T : Terrain}
    (h : newTerrain env unmap s points depths order fuel = .ok (some T)) :
    ∃ T', newTerrain env unmap s points (depths.map fun d => σ * d) order fuel = .ok (some T') ∧
      ∀ (p : V2) (coin : Nat → Bool) (fuel' : Nat), hasInterpolatedDepth env' T' p coin fuel' = hasInterpolatedDepth env' T p coin fuel' ∧
        T'.depthAt L env' p coin fuel' = (T.depthAt L env' p coin fuel').map fun o => o.map fun o => o.map fun d => σ * d :=
  ⟨T.inUnit σ, by rw [newTerrain_unit, h]; rfl, fun p coin fuel' => ⟨rfl, depthAt_unit hL hσ henv henv' ho hG hu h p coin fuel'⟩⟩

end Mdso.Tri

namespace Mdso.Init

open Mdso.Geom Mdso.Tri Mdso.Tri.Spec Mdso.Init.Spec

/-! ## The first keyframes -/

theorem spatial_unit (σ : ℝ) (S : Setup) (m : Matched) : depthedRays S (Matched.inUnit σ m) = (depthedRays S m).map fun l => l.map fun r => σ • r := by
  unfold depthedRays Matched.inUnit
  dsimp only
  rw [List.length_map]
  by_cases h : m.depths.length < m.keyPoints.length
  · rw [if_pos h, if_pos h]; rfl
  · rw [if_neg h, if_neg h]
    show Except.ok _ = Except.ok _
    congr 1
    rw [List.zip_map_right, List.map_map]
    refine Eq.trans ?_ (List.map_map ..).symm
    apply List.map_congr_left
    intro pd _
    exact Sym.mul_smul3 σ pd.2 _

theorem new_unit (σ : ℝ) (S : Setup) (ps : List V2) : (addImmatures S ps).map (IPoint.inUnit σ) = addImmatures S ps := by
  unfold addImmatures
  rw [List.map_map]
  apply List.map_congr_left
  intro p _
  cases h : S.onPatch p <;> simp [IPoint.inUnit, Sym.scalePoint, Trace.new, h]

theorem construct_unit (σ : ℝ) (S : Setup) (i : Nat) : (construct S i).map (IPoint.inUnit σ) = construct S i := by
  unfold construct addImmatures
  rw [List.map_map, List.map_map, List.map_map]
  apply List.map_congr_left
  intro p _
  cases h : S.onPatch p <;> simp [IPoint.inUnit, Sym.scalePoint, Trace.new, h]

theorem mark_unit {S : Setup} (hL : Exact S.L) {σ : ℝ} (hσ : 0 < σ) : ∀ (ips : List IPoint) {st : List Sector}, (∀ x ∈ st, det3 x.r0 x.r1 x.r2 ≠ 0) →
    markSpherical S (st.map (Sector.inUnit σ)) (ips.map (IPoint.inUnit σ)) =
      ((markSpherical S st ips).1.map (IPoint.inUnit σ), (markSpherical S st ips).2.map (Sector.inUnit σ)) ∧
    ∀ x ∈ (markSpherical S st ips).2, det3 x.r0 x.r1 x.r2 ≠ 0
  | [], st, h => ⟨rfl, h⟩
  | ip :: ips, st, h => by
    rw [List.map_cons, markSpherical, markSpherical]
    by_cases ha : ip.pt.state = .active
    · rw [if_pos ha, if_pos (show (IPoint.inUnit σ ip).pt.state = .active from ha)]
      have hs := sphericalDepth_unit hL hσ h (S.unmap ip.p)
      have hsub := sphericalDepth_sublist S.L st (S.unmap ip.p)
      rw [show (IPoint.inUnit σ ip).p = ip.p from rfl, hs]
      cases hd : sphericalDepth S.L st (S.unmap ip.p) with
      | mk o st' =>
        rw [hd] at hsub
        have ih := mark_unit hL hσ ips (st := st') fun x hx => h x (hsub.subset hx)
        cases o with
        | none =>
          dsimp only [Option.map_none]
          rw [ih.1]
          exact ⟨rfl, ih.2⟩
        | some d =>
          dsimp only [Option.map_some]
          rw [ih.1]
          exact ⟨rfl, ih.2⟩
    · rw [if_neg ha, if_neg (show ¬(IPoint.inUnit σ ip).pt.state = .active from ha)]
      have ih := mark_unit hL hσ ips h
      dsimp only
      rw [ih.1]
      exact ⟨rfl, ih.2⟩

theorem erase_unit (σ : ℝ) : ∀ ips : List IPoint, eraseInactive (ips.map (IPoint.inUnit σ)) = (eraseInactive ips).map (IPoint.inUnit σ)
  | [] => rfl
  | ip :: ips => by
    rw [List.map_cons, eraseInactive, eraseInactive, erase_unit σ ips]
    by_cases h : ip.pt.state ≠ .active
    · rw [if_pos h, if_pos (show (IPoint.inUnit σ ip).pt.state ≠ .active from h)]
    · rw [if_neg h, if_neg (show ¬(IPoint.inUnit σ ip).pt.state ≠ .active from h)]
      rfl

theorem rounds_unit {S : Setup} (hL : Exact S.L) {σ : ℝ} (hσ : 0 < σ) (call : Nat → Int → List V2) : ∀ (n : Nat) (ips : List IPoint) {st : List Sector},
    (∀ x ∈ st, det3 x.r0 x.r1 x.r2 ≠ 0) →
    rounds S call n (st.map (Sector.inUnit σ)) (ips.map (IPoint.inUnit σ)) = (rounds S call n st ips).map fun l => l.map (IPoint.inUnit σ)
  | 0, ips, st, h => by
    obtain ⟨h1, h2⟩ := mark_unit hL hσ ips h
    rw [rounds, rounds, h1]
    dsimp only
    rw [erase_unit, List.length_map, List.length_map]
    cases newPointsNeeded S.pointsNeeded (markSpherical S st ips).1.length (eraseInactive (markSpherical S st ips).1).length with
    | error e => rfl
    | ok k => rfl
  | n + 1, ips, st, h => by
    obtain ⟨h1, h2⟩ := mark_unit hL hσ ips h
    rw [rounds, rounds, h1]
    dsimp only
    rw [erase_unit, List.length_map, List.length_map]
    cases newPointsNeeded S.pointsNeeded (markSpherical S st ips).1.length (eraseInactive (markSpherical S st ips).1).length with
    | error e => rfl
    | ok k =>
      show rounds S call n ((markSpherical S st ips).2.map (Sector.inUnit σ)) (addImmatures S (call n k)) = _
      rw [← new_unit σ S (call n k)]
      exact rounds_unit hL hσ call n _ h2

/-- **C188, initialization.** If the depths of the matched key points of the two frames are given in other units of length, `createKeyFrames` ends alike, and
the keyframes have the same points, in the same states, with the depths in these units. The rays of the key points of each sector must be independent. -/
theorem C188_initialization {S : Setup} (hL : Exact S.L) {σ σ' : ℝ} (hσ : 0 < σ) (hσ' : 0 < σ') (m0 m1 : Matched)
    (hreg0 : ∀ init, newSectors S.env S.arrange S.s (spatial S m0) (S.order 0) S.fuel = .ok (some init) → ∀ x ∈ init, det3 x.r0 x.r1 x.r2 ≠ 0)
    (hreg1 : ∀ init, newSectors S.env S.arrange S.s (spatial S m1) (S.order 1) S.fuel = .ok (some init) → ∀ x ∈ init, det3 x.r0 x.r1 x.r2 ≠ 0) :
    createKeyFrames S false (Matched.inUnit σ m0) (Matched.inUnit σ' m1) =
      (createKeyFrames S false m0 m1).map fun o => o.map fun l => (l.1.map (IPoint.inUnit σ), l.2.map (IPoint.inUnit σ')) := by
  unfold createKeyFrames
  simp only [Bool.false_eq_true, if_false]
  unfold createSpherical
  rw [spatial_unit, spatial_unit]
  cases h0 : depthedRays S m0 with
  | error e => rfl
  | ok rays0 =>
    have e0 : rays0 = spatial S m0 := by
      unfold depthedRays at h0
      split at h0
      · cases h0
      · injection h0 with h0
        exact h0.symm
    cases h1 : depthedRays S m1 with
    | error e => rfl
    | ok rays1 =>
      have e1 : rays1 = spatial S m1 := by
        unfold depthedRays at h1
        split at h1
        · cases h1
        · injection h1 with h1
          exact h1.symm
      subst e0 e1
      simp only [Except.map, bind, Except.bind]
      rw [newSectors_unit hσ, newSectors_unit hσ']
      cases g0 : newSectors S.env S.arrange S.s (spatial S m0) (S.order 0) S.fuel with
      | error e => rfl
      | ok o0 =>
        cases o0 with
        | none => rfl
        | some st0 =>
          cases g1 : newSectors S.env S.arrange S.s (spatial S m1) (S.order 1) S.fuel with
          | error e => rfl
          | ok o1 =>
            cases o1 with
            | none => rfl
            | some st1 =>
              have r0 := rounds_unit hL hσ (fun i => S.select (2 + i)) reselectCount (construct S 0) (hreg0 st0 g0)
              have r1 := rounds_unit hL hσ' (fun i => S.select (2 + reselectCount + i)) reselectCount (construct S 1) (hreg1 st1 g1)
              rw [construct_unit] at r0 r1
              simp only [Except.map, Option.map_some]
              rw [r0, r1]
              cases rounds S (fun i => S.select (2 + i)) reselectCount st0 (construct S 0) with
              | error e => rfl
              | ok l0 =>
                cases rounds S (fun i => S.select (2 + reselectCount + i)) reselectCount st1 (construct S 1) with
                | error e => rfl
                | ok l1 => rfl

/-- The sectors of the demonstration have independent rays. -/
theorem sphere_reg (L : Linear) (i : Nat) (init : List Sector) (t : newSectors (sphereSetup L [⟨1, 1⟩]).env (sphereSetup L [⟨1, 1⟩]).arrange
    (sphereSetup L [⟨1, 1⟩]).s (spatial (sphereSetup L [⟨1, 1⟩]) sphereMatched) ((sphereSetup L [⟨1, 1⟩]).order i) (sphereSetup L [⟨1, 1⟩]).fuel =
      .ok (some init)) : ∀ x ∈ init, det3 x.r0 x.r1 x.r2 ≠ 0 := by
  intro x hx
  rw [spatial_sphere] at t
  have e : init = [sectorA, sectorB] := Option.some.inj (Except.ok.inj (t.symm.trans sphere_sectors))
  subst e
  rcases List.mem_cons.1 hx with rfl | hx
  · exact sectorA_regular
  · obtain rfl := List.mem_singleton.1 hx
    exact sectorB_regular

/-- The hypotheses of `C188_initialization` are met: with the depths of the first frame in metres and in millimetres the first keyframe has the same points,
with depths a thousand times greater. -/
example {L : Linear} (hL : Exact L) : ∃ l0 l1, createKeyFrames (sphereSetup L [⟨1, 1⟩]) false sphereMatched sphereMatched = .ok (some (l0, l1)) ∧ l0 ≠ [] ∧
    (∀ ip ∈ l0, ip.pt.depth ≠ none) ∧
    createKeyFrames (sphereSetup L [⟨1, 1⟩]) false (Matched.inUnit 1000 sphereMatched) (Matched.inUnit 3 sphereMatched) =
      .ok (some (l0.map (IPoint.inUnit 1000), l1.map (IPoint.inUnit 3))) := by
  obtain ⟨l0, l1, h⟩ := sphere_created hL
  obtain ⟨i0, i1, -, -, g0, -, n0, -⟩ := spherical_spec h
  have e := C188_initialization (S := sphereSetup L [⟨1, 1⟩]) hL (σ := 1000) (σ' := 3) (by norm_num) (by norm_num) sphereMatched sphereMatched
    (sphere_reg L 0) (sphere_reg L 1)
  rw [h] at e
  exact ⟨l0, l1, h, n0, fun ip hip => by obtain ⟨⟨-, d, -, hd, -⟩, -⟩ := g0 ip hip; rw [hd]; exact Option.some_ne_none d, e⟩

/-! ## The first keyframes from plain terrains -/

/-- One lookup per point, in another unit. -/
theorem markPlain_unit {S : Setup} {σ : ℝ} {T : Terrain}
    (hT : ∀ p coin, (T.inUnit σ).depthAt S.L S.env p coin S.fuel = (T.depthAt S.L S.env p coin S.fuel).map fun o => o.map fun o => o.map fun d => σ * d)
    (walk : Nat → Nat → Bool) : ∀ (n : Nat) (ips : List IPoint),
    markPlain S (T.inUnit σ) walk n (ips.map (IPoint.inUnit σ)) = (markPlain S T walk n ips).map fun o => o.map fun l => l.map (IPoint.inUnit σ)
  | _, [] => rfl
  | n, ip :: ips => by
    rw [List.map_cons, markPlain, markPlain, show (IPoint.inUnit σ ip).p = ip.p from rfl, hT, markPlain_unit hT walk (n + 1) ips]
    cases T.depthAt S.L S.env ip.p (walk n) S.fuel with
    | error e => rfl
    | ok o =>
      cases o with
      | none => rfl
      | some o =>
        cases markPlain S T walk (n + 1) ips with
        | error e => rfl
        | ok l =>
          cases l with
          | none => rfl
          | some l => cases o <;> rfl

/-- **C188, initialization from plain terrains.** The same for the plain triangulation, if the key points are in general position. -/
theorem C188_initialization_plain {S : Setup} (hL : Exact S.L) (henv : Lawful S.env) {σ σ' : ℝ} (hσ : 0 < σ) (hσ' : 0 < σ') (m0 m1 : Matched)
    (ho0 : Shuffle m0.keyPoints.length (S.order 0)) (ho1 : Shuffle m1.keyPoints.length (S.order 1)) (hG0 : GeneralPosition S.s m0.keyPoints)
    (hG1 : GeneralPosition S.s m1.keyPoints) (hu0 : ∀ p ∈ m0.keyPoints, S.unmap p ≠ 0) (hu1 : ∀ p ∈ m1.keyPoints, S.unmap p ≠ 0) :
    createKeyFrames S true (Matched.inUnit σ m0) (Matched.inUnit σ' m1) =
      (createKeyFrames S true m0 m1).map fun o => o.map fun l => (l.1.map (IPoint.inUnit σ), l.2.map (IPoint.inUnit σ')) := by
  unfold createKeyFrames
  simp only [if_true]
  unfold createPlain Matched.inUnit
  simp only [newTerrain_unit]
  cases g0 : newTerrain S.env S.unmap S.s m0.keyPoints m0.depths (S.order 0) S.fuel with
  | error e => rfl
  | ok o0 =>
    cases o0 with
    | none => rfl
    | some T0 =>
      cases g1 : newTerrain S.env S.unmap S.s m1.keyPoints m1.depths (S.order 1) S.fuel with
      | error e => rfl
      | ok o1 =>
        cases o1 with
        | none => rfl
        | some T1 =>
          have r0 := markPlain_unit (S := S) (σ := σ) (T := T0) (fun p coin => depthAt_unit hL hσ henv henv ho0 hG0 hu0 g0 p coin S.fuel) (S.walk 0) 0 (construct S 0)
          have r1 := markPlain_unit (S := S) (σ := σ') (T := T1) (fun p coin => depthAt_unit hL hσ' henv henv ho1 hG1 hu1 g1 p coin S.fuel) (S.walk 1) 0 (construct S 1)
          rw [construct_unit] at r0 r1
          simp only [Except.map, Option.map_some, bind, Except.bind]
          rw [r0, r1]
          cases markPlain S T0 (S.walk 0) 0 (construct S 0) with
          | error e => rfl
          | ok l0 =>
            cases l0 with
            | none => rfl
            | some l0 =>
              cases markPlain S T1 (S.walk 1) 0 (construct S 1) with
              | error e => rfl
              | ok l1 => cases l1 <;> rfl

/-- The hypotheses of `C188_initialization_plain` are met. -/
example {L : Linear} (hL : Exact L) : ∃ d ip, ip.pt.depth = some d ∧
    createKeyFrames (quadSetup L [0, 1, 2, 3]) true quadMatched quadMatched = .ok (some ([ip], [ip])) ∧
    createKeyFrames (quadSetup L [0, 1, 2, 3]) true (Matched.inUnit 1000 quadMatched) (Matched.inUnit 3 quadMatched) =
      .ok (some ([IPoint.inUnit 1000 ip], [IPoint.inUnit 3 ip])) ∧ (IPoint.inUnit 1000 ip).pt.depth = some (1000 * d) := by
  obtain ⟨d, h⟩ := quad_created hL [0, 1, 2, 3] (by decide) (by decide +kernel)
  have f := quad_frame L [0, 1, 2, 3] (by decide)
  have e := C188_initialization_plain (S := quadSetup L [0, 1, 2, 3]) hL demoEnv_lawful (σ := 1000) (σ' := 3) (by norm_num) (by norm_num) quadMatched quadMatched
    (f 0).order (f 1).order quad_general quad_general (f 0).ray (f 1).ray
  rw [h] at e
  exact ⟨d, _, rfl, h, e, rfl⟩

end Mdso.Init
