import Verif.Spec.FirstFrames
import Verif.Props.Initializer
import Verif.Props.StereoGeometry
import Verif.Props.BaseProjection
import Verif.Props.Geometry3

/-!
# C167: the first keyframes show the scene
-/

set_option autoImplicit false

namespace Mdso.Init

open Mdso.Geom Mdso.Tri Mdso.Tri.Spec Mdso.Init.Spec Mdso.StereoSpec Mdso.Cam

theorem orthogonal_of {m : M3} (h : IsOrthogonal m) : Base.Spec.Orthogonal m := by
  intro v
  rw [← M3.mulVec_mul, ← M3.mulVec_mul, M3.transpose_mul_self h, show m.mul m.transpose = M3.one from h, M3.mulVec_one]
  exact ⟨rfl, rfl⟩

/-- Rigid motions take flat triangles to flat triangles. -/
theorem onTriangle_act (m : Motion3) {a b c q : V3} (h : OnTriangle a b c q) : OnTriangle (m.act a) (m.act b) (m.act c) (m.act q) := by
  obtain ⟨x, y, z, hx, hy, hz, h1, rfl⟩ := h
  refine ⟨x, y, z, hx, hy, hz, h1, ?_⟩
  have hz' : z = 1 - x - y := by linarith
  subst hz'
  unfold Motion3.act M3.mulVec
  ext <;> simp [V3.dot] <;> ring

/-- The matched points of both frames are points of the scene. -/
theorem scene_points {e : Stereo.Env} (htri : ∀ m p q d, Geom.triangulate m p q = some d → e.tri m p q = d) {m : Motion3} {c : V2 × V2} {X : V3}
    (h : Sees e m c X) :
    (e.tri m (rayOf e c.1) (rayOf e c.2)).1 • rayOf e c.1 = X ∧ (e.tri m (rayOf e c.1) (rayOf e c.2)).2 • rayOf e c.2 = m.act X := by
  obtain ⟨x, y, rfl, h2, h3⟩ := h
  rw [htri _ _ _ _ (Geom.C69_triangulate m _ _ x y h2 h3)]
  exact ⟨rfl, h2.symm⟩

/-- C167: the matcher reports for each match the distances of the point seen, in units of the distance between the views. -/
theorem C167_distances {e : Stereo.Env} (htri : ∀ m p q d, Geom.triangulate m p q = some d → e.tri m p q = d) {corr : List (V2 × V2)} {samples : Nat → List Nat}
    {fuel : Nat} {m : Motion3} {pts : List ((V2 × V2) × (ℝ × ℝ))} (hmatch : Stereo.matchGeometry e samples fuel true corr = .ok (some (m, pts)))
    {pt : (V2 × V2) × (ℝ × ℝ)} (hpt : pt ∈ pts) {X : V3} (hX : Sees e m pt.1 X) :
    pt.2.1 • rayOf e pt.1.1 = X ∧ pt.2.2 • rayOf e pt.1.2 = m.act X := by
  obtain ⟨h, -⟩ := Stereo.C82_match hmatch
  simp only at h
  obtain ⟨i, c, -, rfl⟩ : ∃ (i : Nat) (c : V2 × V2), corr[i]? = some c ∧ pt = (c, e.tri m (rayOf e c.1) (rayOf e c.2)) := by
    clear hmatch
    generalize inliers e corr (toEssential m) m = is at h
    induction h with
    | nil => cases hpt
    | cons h1 _ ih =>
      rcases List.mem_cons.1 hpt with rfl | hpt
      · exact ⟨_, h1⟩
      · exact ih hpt
  exact scene_points htri hX

theorem spatial0 {S : Setup} {e : Stereo.Env} {pts : List ((V2 × V2) × (ℝ × ℝ))} {r : V3}
    (hr : r ∈ spatial { S with unmap := e.unmap } (matched0 pts)) : ∃ pt ∈ pts, r = pt.2.1 • rayOf e pt.1.1 := by
  unfold spatial matched0 at hr
  rw [List.zip_map', List.map_map] at hr
  obtain ⟨pt, hpt, rfl⟩ := List.mem_map.1 hr
  exact ⟨pt, hpt, rfl⟩

theorem spatial1 {S : Setup} {e : Stereo.Env} {pts : List ((V2 × V2) × (ℝ × ℝ))} {r : V3}
    (hr : r ∈ spatial { S with unmap := e.unmap } (matched1 pts)) : ∃ pt ∈ pts, r = pt.2.2 • rayOf e pt.1.2 := by
  unfold spatial matched1 at hr
  rw [List.zip_map', List.map_map] at hr
  obtain ⟨pt, hpt, rfl⟩ := List.mem_map.1 hr
  exact ⟨pt, hpt, rfl⟩

/-- C167: if the motion found is the true one and the matches reported are exact images of points of the scene, every point of the two keyframes is active with a
positive depth, and its place in the world lies on a flat triangle between three points of the scene. -/
theorem C167_between {S : Setup} {e : Stereo.Env} (hL : Exact S.L) (ha : Arrangement S.arrange) (hu : ∀ p, e.unmap p ≠ 0)
    (htri : ∀ m p q d, Geom.triangulate m p q = some d → e.tri m p q = d) {corr : List (V2 × V2)} {samples : Nat → List Nat}
    {fuel : Nat} {m : Motion3} (hm : IsUnitMotion m) {pts : List ((V2 × V2) × (ℝ × ℝ))}
    (hmatch : Stereo.matchGeometry e samples fuel true corr = .ok (some (m, pts)))
    (hflat0 : NoFlatSector { S with unmap := e.unmap } (matched0 pts) (S.order 0))
    (hflat1 : NoFlatSector { S with unmap := e.unmap } (matched1 pts) (S.order 1))
    {scene : V3 → Prop} (hscene : ∀ pt ∈ pts, ∃ X, scene X ∧ Sees e m pt.1 X) {f0 f1 : First}
    (h : fromMatches S false e samples fuel true corr = .ok (some (f0, f1))) :
    ∀ f ∈ [f0, f1], ∀ ip ∈ f.points, ∃ d, HasDepth ip d ∧
      ∃ A B C, scene A ∧ scene B ∧ scene C ∧ OnTriangle A B C (place e f ip.p d) := by
  unfold fromMatches at h
  rw [hmatch] at h
  simp only at h
  split at h
  · cases h
  · cases h
  · rename_i l hl
    obtain ⟨l0, l1⟩ := l
    obtain ⟨rfl, rfl⟩ := Prod.mk.inj (Option.some.inj (Except.ok.inj h))
    have geo := C60_spherical_geometry (S := { S with unmap := e.unmap }) hL ha hu hl (by
      intro x hx init
      rcases List.mem_cons.1 hx with rfl | hx
      · exact hflat0 init
      · obtain rfl := List.mem_singleton.1 hx
        exact hflat1 init)
    have ho := orthogonal_of hm.1.1
    intro f hf ip hip
    rcases List.mem_cons.1 hf with rfl | hf
    · obtain ⟨hs, d, hd, h0, r, hr, ht⟩ := geo (matched0 pts, l0) (by simp) ip hip
      refine ⟨d, ⟨hs, hd, h0⟩, r 0, r 1, r 2, ?_, ?_, ?_, ?_⟩
      iterate 3
        obtain ⟨pt, hpt, e1⟩ := spatial0 (hr _)
        obtain ⟨X, hX, hsee⟩ := hscene pt hpt
        rw [e1, (C167_distances htri hmatch hpt hsee).1]
        exact hX
      have : place e ⟨l0, Motion3.one⟩ ip.p d = d • (e.unmap ip.p).normalized := by
        unfold place Motion3.act Motion3.one
        rw [M3.mulVec_one]
        ext <;> simp [StereoSpec.rayOf]
      rw [this]
      exact ht
    · obtain rfl := List.mem_singleton.1 hf
      obtain ⟨hs, d, hd, h0, r, hr, ht⟩ := geo (matched1 pts, l1) (by simp) ip hip
      refine ⟨d, ⟨hs, hd, h0⟩, (Base.inverse m).act (r 0), (Base.inverse m).act (r 1), (Base.inverse m).act (r 2), ?_, ?_, ?_, ?_⟩
      iterate 3
        obtain ⟨pt, hpt, e1⟩ := spatial1 (hr _)
        obtain ⟨X, hX, hsee⟩ := hscene pt hpt
        rw [e1, (C167_distances htri hmatch hpt hsee).2, (Base.act_inverse ho X).2]
        exact hX
      exact onTriangle_act _ ht

theorem onPlane_triangle {n : V3} {c : ℝ} {A B C q : V3} (hA : OnPlane n c A) (hB : OnPlane n c B) (hC : OnPlane n c C) (h : OnTriangle A B C q) :
    OnPlane n c q := by
  obtain ⟨x, y, z, -, -, -, h1, rfl⟩ := h
  unfold OnPlane at *
  have e : n.dot (x • A + y • B + z • C) = x * n.dot A + y * n.dot B + z * n.dot C := by simp [V3.dot]; ring
  rw [e, hA, hB, hC, ← add_mul, ← add_mul, h1, one_mul]

/-- Along a ray from outside the plane there is one distance to it. -/
theorem plane_distance {e : Stereo.Env} {f : First} {p : V2} {n : V3} {c d s : ℝ} (hc : ¬ OnPlane n c (f.thisToWorld.act 0))
    (hd : OnPlane n c (place e f p d)) (hs : OnPlane n c (place e f p s)) : s = d := by
  unfold OnPlane place at *
  have e1 : ∀ t : ℝ, n.dot (f.thisToWorld.act (t • rayOf e p)) = t * n.dot (f.thisToWorld.rot.mulVec (rayOf e p)) + n.dot (f.thisToWorld.act 0) := by
    intro t
    unfold Motion3.act M3.mulVec
    simp [V3.dot]; ring
  rw [e1] at hd hs
  have hk : n.dot (f.thisToWorld.rot.mulVec (rayOf e p)) ≠ 0 := by
    intro h0
    rw [h0, mul_zero, zero_add] at hd
    exact hc hd
  apply mul_right_cancel₀ hk
  linarith

/-- C167: so a flat scene is reconstructed exactly: the place of every point of the two keyframes is on the plane, and its depth is the only distance in the
direction of its pixel at which the plane is. -/
theorem C167_plane {S : Setup} {e : Stereo.Env} (hL : Exact S.L) (ha : Arrangement S.arrange) (hu : ∀ p, e.unmap p ≠ 0)
    (htri : ∀ m p q d, Geom.triangulate m p q = some d → e.tri m p q = d) {corr : List (V2 × V2)} {samples : Nat → List Nat}
    {fuel : Nat} {m : Motion3} (hm : IsUnitMotion m) {pts : List ((V2 × V2) × (ℝ × ℝ))}
    (hmatch : Stereo.matchGeometry e samples fuel true corr = .ok (some (m, pts)))
    (hflat0 : NoFlatSector { S with unmap := e.unmap } (matched0 pts) (S.order 0))
    (hflat1 : NoFlatSector { S with unmap := e.unmap } (matched1 pts) (S.order 1))
    {n : V3} {c : ℝ} (hscene : ∀ pt ∈ pts, ∃ X, OnPlane n c X ∧ Sees e m pt.1 X) {f0 f1 : First}
    (h : fromMatches S false e samples fuel true corr = .ok (some (f0, f1)))
    (hout0 : ¬ OnPlane n c (f0.thisToWorld.act 0)) (hout1 : ¬ OnPlane n c (f1.thisToWorld.act 0)) :
    ∀ f ∈ [f0, f1], ∀ ip ∈ f.points, ∃ d, HasDepth ip d ∧ OnPlane n c (place e f ip.p d) ∧ ∀ s, OnPlane n c (place e f ip.p s) → s = d := by
  intro f hf ip hip
  obtain ⟨d, hd, A, B, C, hA, hB, hC, ht⟩ := C167_between hL ha hu htri hm hmatch hflat0 hflat1 hscene h f hf ip hip
  have hp := onPlane_triangle hA hB hC ht
  refine ⟨d, hd, hp, fun s hs => plane_distance ?_ hp hs⟩
  rcases List.mem_cons.1 hf with rfl | hf
  · exact hout0
  · obtain rfl := List.mem_singleton.1 hf
    exact hout1

/-! ## A case: five points of a plane -/

/-- If the coarse search ends, so does the matcher, with the motion that averaging finds. -/
theorem precise_ok {e : Stereo.Env} {corr : List (V2 × V2)} {samples : Nat → List Nat} {fuel : Nat} {M : Motion3}
    (h : ∃ r, Stereo.findCoarseMotion e samples fuel (Stereo.create e corr) = .ok (some r)) (hM : ∀ m is, e.solve m is = M) :
    ∃ pts, Stereo.matchGeometry e samples fuel true corr = .ok (some (M, pts)) := by
  obtain ⟨r, hr⟩ := h
  have hp : Stereo.findPreciseMotion e samples fuel (Stereo.create e corr) = .ok (some (Stereo.refineMotion e r.2)) := by
    unfold Stereo.findPreciseMotion
    have e1 : (Stereo.create e corr).preciseFound = false := rfl
    have e2 : (Stereo.create e corr).coarseFound = false := rfl
    rw [e1, e2, hr]
    simp
  have h81 := (Stereo.C81_precise hp).1
  obtain ⟨k, l, -, -, -, h2⟩ := Stereo.coarse_unfold hr
  have hmade : Stereo.Made e corr (Stereo.refineMotion e r.2).2 := by
    unfold Stereo.refineMotion; rw [h2]; exact ⟨rfl, rfl⟩
  have hlen : (Stereo.refineMotion e r.2).2.depths.length = corr.length := by
    unfold Stereo.refineMotion; rw [h2]; simp [Stereo.create]
  have hev : (Stereo.refineMotion e r.2).2.depthsEvaluated = false := by
    unfold Stereo.refineMotion; rw [h2]; rfl
  have hi : ∀ i ∈ (Stereo.refineMotion e r.2).2.inliersInds, i < corr.length := by
    intro i hx
    rw [h81] at hx
    obtain ⟨c, hc, -⟩ := Stereo.mem_indices.1 hx
    exact (List.getElem?_eq_some_iff.1 hc).1
  obtain ⟨pts, hpts, -⟩ := Stereo.report_spec hmade hlen hev hi
  refine ⟨pts, ?_⟩
  unfold Stereo.matchGeometry
  rw [if_pos rfl, hp]
  simp only
  rw [hpts]
  simp only [Stereo.refineMotion, hM]

/-- A camera, and averaging that finds the move to the right. -/
noncomputable def cam : Stereo.Env := Stereo.demo 1 fun _ _ => Stereo.m0

/-- The point of the plane `x = -1/2`. -/
noncomputable def spot (yz : ℝ × ℝ) : V3 := ⟨-1 / 2, yz.1, yz.2⟩

/-- Its images before and after the move. -/
noncomputable def view (yz : ℝ × ℝ) : V2 × V2 := (⟨-1 / (2 * yz.2), yz.1 / yz.2⟩, ⟨1 / (2 * yz.2), yz.1 / yz.2⟩)

/-- Five points of the plane. -/
noncomputable def spots : List (ℝ × ℝ) := [(1, 1), (-1, 1), (3 / 4, 3 / 2), (-1 / 2, 7 / 8), (2, 4)]

theorem spots_front : ∀ s ∈ spots, 0 < s.2 := by
  intro s hs
  simp only [spots, List.mem_cons, List.not_mem_nil, or_false] at hs
  rcases hs with rfl | rfl | rfl | rfl | rfl <;> norm_num

theorem view_sees {s : ℝ × ℝ} (hs : 0 < s.2) : ∃ x y : ℝ, 0 < x ∧ 0 < y ∧ spot s = x • rayOf cam (view s).1 ∧
    Stereo.m0.act (spot s) = y • rayOf cam (view s).2 ∧
    (Stereo.m0.rot.mulVec (rayOf cam (view s).1)).cross (rayOf cam (view s).2) ≠ 0 := by
  obtain ⟨n1, h1, e1, -⟩ := Stereo.ray_eq (f := 1) (solve := fun _ _ => Stereo.m0) (view s).1
  obtain ⟨n2, h2, e2, -⟩ := Stereo.ray_eq (f := 1) (solve := fun _ _ => Stereo.m0) (view s).2
  have hne := hs.ne'
  have h1' := h1.ne'
  have h2' := h2.ne'
  refine ⟨s.2 / n1, s.2 / n2, by positivity, by positivity, ?_, ?_, ?_⟩
  · unfold cam; rw [e1]
    unfold spot view
    ext <;> simp <;> field_simp
  · unfold cam; rw [e2]
    unfold spot view Motion3.act Stereo.m0
    rw [M3.mulVec_one]
    ext <;> simp <;> field_simp
    norm_num
  · unfold cam; rw [e1, e2]
    unfold Stereo.m0
    rw [M3.mulVec_one]
    intro h
    have := congrArg V3.y h
    unfold view at this
    simp [V3.cross] at this
    field_simp at this
    norm_num at this
    exact this.elim h1' h2'

theorem view_tri {s : ℝ × ℝ} (hs : 0 < s.2) :
    Front cam Stereo.m0 (view s) ∧ Fits cam (toEssential Stereo.m0) (view s) ∧
    (cam.tri Stereo.m0 (rayOf cam (view s).1) (rayOf cam (view s).2)).1 • rayOf cam (view s).1 = spot s ∧
    (cam.tri Stereo.m0 (rayOf cam (view s).1) (rayOf cam (view s).2)).2 • rayOf cam (view s).2 = Stereo.m0.act (spot s) := by
  obtain ⟨x, y, hx, hy, h1, h2, h3⟩ := view_sees hs
  have hpt : Stereo.m0.rot.mulVec (x • rayOf cam (view s).1) + Stereo.m0.t = y • rayOf cam (view s).2 := by rw [← h1]; exact h2
  have ht := Stereo.demo_tri (f := 1) (solve := fun _ _ => Stereo.m0) _ _ _ _ (Geom.C69_triangulate Stereo.m0 _ _ x y hpt h3)
  refine ⟨?_, ?_, ?_, ?_⟩
  · unfold Front
    exact ⟨ht ▸ hx, ht ▸ hy⟩
  · exact Stereo.C80_fits (by norm_num [cam, Stereo.demo]) (Stereo.demo_cam one_ne_zero _) (Geom.C69_essential _ _ _ x y hy.ne' hpt)
  · exact (congrArg (fun t : ℝ × ℝ => t.1 • rayOf cam (view s).1) ht).trans h1.symm
  · exact (congrArg (fun t : ℝ × ℝ => t.2 • rayOf cam (view s).2) ht).trans h2.symm

/-- The five correspondences. -/
noncomputable def views : List (V2 × V2) := spots.map view

/-- What the matcher reports of them. -/
noncomputable def reported : List ((V2 × V2) × (ℝ × ℝ)) := views.map fun c => (c, cam.tri Stereo.m0 (rayOf cam c.1) (rayOf cam c.2))

theorem forall₂_range {β : Type} {g : V2 × V2 → β} : ∀ (l : List (V2 × V2)) (k : Nat) (m : List β) (P : Nat → β → Prop)
    (_ : ∀ i b, P i b → ∀ c, l[i - k]? = some c → k ≤ i → b = g c) (_ : List.Forall₂ P (List.range' k l.length) m), m = l.map g := by
  intro l
  induction l with
  | nil =>
    intro k m P _ h
    simp at h
    exact h
  | cons c l ih =>
    intro k m P hP h
    rw [List.length_cons, List.range'_succ] at h
    cases h with
    | cons h1 h2 =>
      rw [List.map_cons]
      congr 1
      · exact hP _ _ h1 c (by simp) (le_refl _)
      · refine ih (k + 1) _ P ?_ h2
        intro i b hb c' hc' hk
        refine hP i b hb c' ?_ (by omega)
        rw [show i - k = (i - (k + 1)) + 1 by omega, List.getElem?_cons_succ]
        exact hc'

theorem demo_match : Stereo.matchGeometry cam Stereo.samples5 1 true views = .ok (some (Stereo.m0, reported)) := by
  have hd : Drawn views.length Stereo.samples5 := Stereo.samples5_drawn
  obtain ⟨pts, h⟩ := precise_ok (e := cam) (M := Stereo.m0) (Stereo.C85_defined_partial (e := cam) (by norm_num [cam, Stereo.demo]) (by norm_num [cam, Stereo.demo])
    (le_refl _) (corr := views) (by simp [views, spots]) hd (fun it pairs _ => by simp [cam, Stereo.demo]) (fuel := 1) (le_refl _)) (fun _ _ => rfl)
  have hin : inliers cam views (toEssential Stereo.m0) Stereo.m0 = List.range views.length := by
    unfold inliers indices
    apply List.filter_eq_self.2
    intro i hi
    have hlt := List.mem_range.1 hi
    have hmem := List.getElem_mem hlt
    obtain ⟨s, hs, e⟩ := List.mem_map.1 hmem
    obtain ⟨a, b, -⟩ := view_tri (spots_front s hs)
    rw [e] at a b
    have : ∃ c, views[i]? = some c ∧ (Fits cam (toEssential Stereo.m0) c ∧ Front cam Stereo.m0 c) := ⟨_, List.getElem?_eq_getElem hlt, b, a⟩
    simpa using this
  obtain ⟨hf, -⟩ := Stereo.C82_match h
  simp only at hf
  rw [hin, List.range_eq_range'] at hf
  have : pts = reported := by
    refine forall₂_range views 0 pts _ ?_ hf
    rintro i b ⟨c, hc, rfl⟩ c' hc' -
    rw [Nat.sub_zero, hc] at hc'
    cases hc'
    rfl
  rw [h, this]

theorem project_of {r : V3} {n : ℝ} {p : Q2} (hn : 0 < n) (h : r.sqNorm = n * n) (hz : 0 < n + r.z)
    (hx : 2 * r.x = (p.x : ℝ) * (n + r.z)) (hy : 2 * r.y = (p.y : ℝ) * (n + r.z)) : stereographicProject r = some p.real := by
  have hnorm : r.norm = n := by unfold V3.norm; rw [h]; exact Real.sqrt_mul_self hn.le
  have h0 : r ≠ 0 := by
    rintro rfl
    have : (0 : V3).norm = 0 := by simp [V3.norm, V3.sqNorm]
    linarith
  have hn' := hn.ne'
  have hz' := hz.ne'
  unfold stereographicProject
  rw [V3.normalized_eq h0, hnorm]
  simp only [V3.smul_x, V3.smul_y, V3.smul_z]
  have e : 1 + 1 / n * r.z = (n + r.z) / n := by field_simp
  rw [e, if_neg (by positivity)]
  congr 1
  unfold Q2.real
  ext
  · field_simp
    linarith
  · field_simp
    linarith

/-- The sectors from the corners of the triangles. -/
theorem sectors_of {rays : List V3} {P : List Q2} {order : List Nat} {cs : List (List Nat)} {secs : List Sector}
    (hp : projectAll rays = some (P.map Q2.real)) (h0 : (0 : ℚ) ≤ 1 / 1000000000 * maxDimQ P)
    (hc : innerCorners (Tri.construct demoEnv (predsQ (positionQ P order) (1 / 1000000000 * maxDimQ P) (1 / 1000000000 * maxDimQ P)) order 100) = some cs)
    (hs : List.Forall₂ (fun c (s : Sector) => ∃ a b d, c = [s.key, a, b, d] ∧ Tri.rayOf rays order a = .ok s.r0 ∧ Tri.rayOf rays order b = .ok s.r1 ∧
      Tri.rayOf rays order d = .ok s.r2) cs secs) :
    newSectors demoEnv id defaultSettings rays order 100 = .ok (some secs) := by
  have hr := triangulate_real demoEnv (1 / 1000000000) (1 / 1000000000) P h0 order 100
  rw [← hr] at hc
  unfold newSectors
  rw [hp]
  simp only
  unfold defaultSettings
  generalize Tri.triangulate demoEnv ⟨((1 / 1000000000 : ℚ) : ℝ), ((1 / 1000000000 : ℚ) : ℝ)⟩ (P.map Q2.real) order 100 = R at hc
  cases R with
  | error f => cases hc
  | ok r =>
    cases r with
    | none => cases hc
    | some r =>
      obtain ⟨t, l⟩ := r
      have hc' := Option.some.inj hc
      clear hc hr
      simp only [id]
      have : sectorsOf rays order t.mesh (triangles t) = .ok secs := by
        generalize triangles t = ks at hc'
        clear hp
        induction hs generalizing ks with
        | nil =>
          obtain rfl := List.map_eq_nil_iff.1 hc'
          rfl
        | @cons c s cs secs h1 _ ih =>
          cases ks with
          | nil => cases hc'
          | cons k ks =>
            rw [List.map_cons] at hc'
            obtain ⟨hc1, hc2⟩ := List.cons.inj hc'
            obtain ⟨a, b, d, e, ha, hb, hd⟩ := h1
            rw [e] at hc1
            simp only [List.cons.injEq, and_true] at hc1
            obtain ⟨rfl, rfl, rfl, rfl⟩ := hc1
            unfold sectorsOf
            rw [ih ks hc2]
            unfold sectorOf
            rw [ha, hb, hd]
            rfl
      rw [this]

/-- One selected pixel that has a depth survives both rounds. -/
theorem rounds_keep_one {S : Setup} {call : Nat → Int → List V2} {st : List Sector} {p : V2} {ip : IPoint} (hneed : S.pointsNeeded = 7)
    (hp : S.onPatch p = true) (hcall : call 0 7 = [p]) (hkeys : (st.map Sector.key).Nodup)
    (hd : ∃ s ∈ st, inSector S.L (S.unmap p) s = true) (ha : ip.pt.state = .active) (hip : ip.p = p) :
    ∃ l, rounds S call 1 st [ip] = .ok l ∧ l ≠ [] := by
  obtain ⟨d, hd⟩ : ∃ d, (sphericalDepth S.L st (S.unmap p)).1 = some d := by
    cases h : (sphericalDepth S.L st (S.unmap p)).1 with
    | some d => exact ⟨d, rfl⟩
    | none =>
      obtain ⟨s, hs, ht⟩ := hd
      rw [depth_none.1 h s hs] at ht
      cases ht
  have hrep := C58_spherical_repeat (L := S.L) hkeys (S.unmap p)
  have hm : ∀ (st : List Sector) (ip : IPoint), (sphericalDepth S.L st (S.unmap p)).1 = some d → ip.pt.state = .active → ip.p = p →
      markSpherical S st [ip] = ([ip.accept d], (sphericalDepth S.L st (S.unmap p)).2) := by
    intro st ip hd ha hp
    rw [markSpherical, if_pos ha, hp]
    cases h : sphericalDepth S.L st (S.unmap p) with
    | mk o st' =>
      rw [h] at hd
      simp only at hd
      subst hd
      rfl
  have hn : newPointsNeeded 7 1 1 = .ok 7 := by decide +kernel
  have he : ∀ ip : IPoint, eraseInactive [ip.accept d] = [ip.accept d] := fun _ => rfl
  refine ⟨[IPoint.accept ⟨p, Trace.new true⟩ d], ?_, by simp⟩
  rw [rounds, hm st ip hd ha hip]
  simp only [he, List.length_singleton, bind, Except.bind]
  rw [hneed, hn]
  simp only
  rw [hcall]
  have hadd : addImmatures S [p] = [⟨p, Trace.new true⟩] := by
    unfold addImmatures
    simp [hp]
  rw [hadd, rounds, hm _ _ (by rw [hrep]; exact hd) rfl rfl]
  simp only [he, List.length_singleton, bind, Except.bind, hneed, hn]

/-- The keyframes of the two views: in each one pixel is selected. -/
noncomputable def flatSetup (L : Linear) : Setup where
  unmap := cam.unmap
  onPatch := fun _ => true
  pointsNum := 5
  pointsNeeded := 7
  select := fun i _ => if i % 2 = 0 then [⟨-4 / 17, 6 / 17⟩] else [⟨4 / 17, 6 / 17⟩]
  L := L
  env := demoEnv
  s := defaultSettings
  order := fun _ => [0, 1, 2, 3, 4]
  arrange := id
  walk := fun _ _ _ => true
  fuel := 100

/-- The five points before the move. -/
noncomputable def before : List V3 := [⟨-1 / 2, 1, 1⟩, ⟨-1 / 2, -1, 1⟩, ⟨-1 / 2, 3 / 4, 3 / 2⟩, ⟨-1 / 2, -1 / 2, 7 / 8⟩, ⟨-1 / 2, 2, 4⟩]

/-- The five points after the move. -/
noncomputable def after : List V3 := [⟨1 / 2, 1, 1⟩, ⟨1 / 2, -1, 1⟩, ⟨1 / 2, 3 / 4, 3 / 2⟩, ⟨1 / 2, -1 / 2, 7 / 8⟩, ⟨1 / 2, 2, 4⟩]

theorem flat_spatial0 (L : Linear) : spatial (flatSetup L) (matched0 reported) = before := by
  have : spatial (flatSetup L) (matched0 reported) = spots.map spot := by
    unfold spatial matched0 reported views
    rw [List.zip_map', List.map_map, List.map_map, List.map_map]
    apply List.map_congr_left
    intro s hs
    exact (view_tri (spots_front s hs)).2.2.1
  rw [this]
  rfl

theorem flat_spatial1 (L : Linear) : spatial (flatSetup L) (matched1 reported) = after := by
  have : spatial (flatSetup L) (matched1 reported) = spots.map fun s => Stereo.m0.act (spot s) := by
    unfold spatial matched1 reported views
    rw [List.zip_map', List.map_map, List.map_map, List.map_map]
    apply List.map_congr_left
    intro s hs
    exact (view_tri (spots_front s hs)).2.2.2
  rw [this]
  unfold spots after spot Stereo.m0 Motion3.act
  simp only [List.map_cons, List.map_nil, M3.mulVec_one]
  congr <;> (ext <;> norm_num)

/-- The sectors before the move. -/
noncomputable def sectors0 : List Sector :=
  [⟨18, ⟨-1 / 2, 3 / 4, 3 / 2⟩, ⟨-1 / 2, -1 / 2, 7 / 8⟩, ⟨-1 / 2, 1, 1⟩⟩, ⟨19, ⟨-1 / 2, 1, 1⟩, ⟨-1 / 2, 3 / 4, 3 / 2⟩, ⟨-1 / 2, 2, 4⟩⟩,
    ⟨26, ⟨-1 / 2, -1 / 2, 7 / 8⟩, ⟨-1 / 2, 2, 4⟩, ⟨-1 / 2, 3 / 4, 3 / 2⟩⟩, ⟨27, ⟨-1 / 2, -1 / 2, 7 / 8⟩, ⟨-1 / 2, 2, 4⟩, ⟨-1 / 2, -1, 1⟩⟩]

/-- The sectors after the move. -/
noncomputable def sectors1 : List Sector :=
  [⟨18, ⟨1 / 2, -1 / 2, 7 / 8⟩, ⟨1 / 2, 3 / 4, 3 / 2⟩, ⟨1 / 2, 1, 1⟩⟩, ⟨22, ⟨1 / 2, 1, 1⟩, ⟨1 / 2, 2, 4⟩, ⟨1 / 2, 3 / 4, 3 / 2⟩⟩,
    ⟨26, ⟨1 / 2, 2, 4⟩, ⟨1 / 2, -1 / 2, 7 / 8⟩, ⟨1 / 2, 3 / 4, 3 / 2⟩⟩, ⟨27, ⟨1 / 2, 2, 4⟩, ⟨1 / 2, -1 / 2, 7 / 8⟩, ⟨1 / 2, -1, 1⟩⟩]

theorem project_before : projectAll before =
    some (([⟨-2 / 5, 4 / 5⟩, ⟨-2 / 5, -4 / 5⟩, ⟨-4 / 13, 6 / 13⟩, ⟨-1 / 2, -1 / 2⟩, ⟨-2 / 17, 8 / 17⟩] : List Q2).map Q2.real) := by
  unfold before projectAll projectAll projectAll projectAll projectAll projectAll
  rw [project_of (n := 3 / 2) (p := ⟨-2 / 5, 4 / 5⟩), project_of (n := 3 / 2) (p := ⟨-2 / 5, -4 / 5⟩), project_of (n := 7 / 4) (p := ⟨-4 / 13, 6 / 13⟩),
    project_of (n := 9 / 8) (p := ⟨-1 / 2, -1 / 2⟩), project_of (n := 9 / 2) (p := ⟨-2 / 17, 8 / 17⟩)]
  · rfl
  all_goals norm_num [V3.sqNorm]

theorem project_after : projectAll after =
    some (([⟨2 / 5, 4 / 5⟩, ⟨2 / 5, -4 / 5⟩, ⟨4 / 13, 6 / 13⟩, ⟨1 / 2, -1 / 2⟩, ⟨2 / 17, 8 / 17⟩] : List Q2).map Q2.real) := by
  unfold after projectAll projectAll projectAll projectAll projectAll projectAll
  rw [project_of (n := 3 / 2) (p := ⟨2 / 5, 4 / 5⟩), project_of (n := 3 / 2) (p := ⟨2 / 5, -4 / 5⟩), project_of (n := 7 / 4) (p := ⟨4 / 13, 6 / 13⟩),
    project_of (n := 9 / 8) (p := ⟨1 / 2, -1 / 2⟩), project_of (n := 9 / 2) (p := ⟨2 / 17, 8 / 17⟩)]
  · rfl
  all_goals norm_num [V3.sqNorm]

theorem flat_sectors0 : newSectors demoEnv id defaultSettings before [0, 1, 2, 3, 4] 100 = .ok (some sectors0) := by
  refine sectors_of (cs := [[18, 5, 6, 3], [19, 3, 5, 7], [26, 6, 7, 5], [27, 6, 7, 4]]) project_before (by decide +kernel) (by decide +kernel) ?_
  unfold sectors0
  refine .cons ⟨_, _, _, rfl, rfl, rfl, rfl⟩ (.cons ⟨_, _, _, rfl, rfl, rfl, rfl⟩ (.cons ⟨_, _, _, rfl, rfl, rfl, rfl⟩ (.cons ⟨_, _, _, rfl, rfl, rfl, rfl⟩ .nil)))

theorem flat_sectors1 : newSectors demoEnv id defaultSettings after [0, 1, 2, 3, 4] 100 = .ok (some sectors1) := by
  refine sectors_of (cs := [[18, 6, 5, 3], [22, 3, 7, 5], [26, 7, 6, 5], [27, 7, 6, 4]]) project_after (by decide +kernel) (by decide +kernel) ?_
  unfold sectors1
  refine .cons ⟨_, _, _, rfl, rfl, rfl, rfl⟩ (.cons ⟨_, _, _, rfl, rfl, rfl, rfl⟩ (.cons ⟨_, _, _, rfl, rfl, rfl, rfl⟩ (.cons ⟨_, _, _, rfl, rfl, rfl, rfl⟩ .nil)))

theorem regular0 : ∀ x ∈ sectors0, det3 x.r0 x.r1 x.r2 ≠ 0 := by
  intro x hx
  simp only [sectors0, List.mem_cons, List.not_mem_nil, or_false] at hx
  rcases hx with rfl | rfl | rfl | rfl <;> norm_num [det3, V3.dot, V3.cross]

theorem regular1 : ∀ x ∈ sectors1, det3 x.r0 x.r1 x.r2 ≠ 0 := by
  intro x hx
  simp only [sectors1, List.mem_cons, List.not_mem_nil, or_false] at hx
  rcases hx with rfl | rfl | rfl | rfl <;> norm_num [det3, V3.dot, V3.cross]

theorem flat_created {L : Linear} (hL : Exact L) : ∃ l0 l1, l0 ≠ [] ∧ l1 ≠ [] ∧
    createKeyFrames (flatSetup L) false (matched0 reported) (matched1 reported) = .ok (some (l0, l1)) := by
  obtain ⟨l0, h0, n0⟩ := rounds_keep_one (S := flatSetup L) (call := fun i => (flatSetup L).select (2 + i)) (st := sectors0) (p := ⟨-4 / 17, 6 / 17⟩)
    (ip := ⟨⟨-4 / 17, 6 / 17⟩, { Trace.new true with stddev := ((1 : ℝ) : WithTop ℝ) }⟩) rfl rfl rfl (by decide +kernel)
    ⟨⟨26, ⟨-1 / 2, -1 / 2, 7 / 8⟩, ⟨-1 / 2, 2, 4⟩, ⟨-1 / 2, 3 / 4, 3 / 2⟩⟩, by simp [sectors0], by
      refine (inSector_cone hL (regular0 _ (by simp [sectors0]))).2 ⟨8 / 51, 8 / 51, 8 / 51, by norm_num, by norm_num, by norm_num, ?_⟩
      ext <;> norm_num [flatSetup, cam, Stereo.demo]⟩ rfl rfl
  obtain ⟨l1, h1, n1⟩ := rounds_keep_one (S := flatSetup L) (call := fun i => (flatSetup L).select (2 + 1 + i)) (st := sectors1) (p := ⟨4 / 17, 6 / 17⟩)
    (ip := ⟨⟨4 / 17, 6 / 17⟩, { Trace.new true with stddev := ((1 : ℝ) : WithTop ℝ) }⟩) rfl rfl rfl (by decide +kernel)
    ⟨⟨26, ⟨1 / 2, 2, 4⟩, ⟨1 / 2, -1 / 2, 7 / 8⟩, ⟨1 / 2, 3 / 4, 3 / 2⟩⟩, by simp [sectors1], by
      refine (inSector_cone hL (regular1 _ (by simp [sectors1]))).2 ⟨8 / 51, 8 / 51, 8 / 51, by norm_num, by norm_num, by norm_num, ?_⟩
      ext <;> norm_num [flatSetup, cam, Stereo.demo]⟩ rfl rfl
  refine ⟨l0, l1, n0, n1, ?_⟩
  have hs0 : newSectors (flatSetup L).env (flatSetup L).arrange (flatSetup L).s (spatial (flatSetup L) (matched0 reported)) ((flatSetup L).order 0)
      (flatSetup L).fuel = .ok (some sectors0) := by
    rw [flat_spatial0]; exact flat_sectors0
  have hs1 : newSectors (flatSetup L).env (flatSetup L).arrange (flatSetup L).s (spatial (flatSetup L) (matched1 reported)) ((flatSetup L).order 1)
      (flatSetup L).fuel = .ok (some sectors1) := by
    rw [flat_spatial1]; exact flat_sectors1
  unfold spatial at hs0 hs1
  unfold createKeyFrames
  simp only [Bool.false_eq_true, if_false, createSpherical, depthedRays]
  have hl0 : ¬ (matched0 reported).depths.length < (matched0 reported).keyPoints.length := by simp [matched0]
  have hl1 : ¬ (matched1 reported).depths.length < (matched1 reported).keyPoints.length := by simp [matched1]
  rw [if_neg hl0, if_neg hl1]
  simp only [bind, Except.bind]
  rw [hs0]
  simp only
  rw [hs1]
  simp only [reselectCount]
  have hc0 : construct (flatSetup L) 0 = [⟨⟨-4 / 17, 6 / 17⟩, { Trace.new true with stddev := ((1 : ℝ) : WithTop ℝ) }⟩] := rfl
  have hc1 : construct (flatSetup L) 1 = [⟨⟨4 / 17, 6 / 17⟩, { Trace.new true with stddev := ((1 : ℝ) : WithTop ℝ) }⟩] := rfl
  rw [hc0, hc1, h0]
  simp only
  rw [h1]

/-- The hypotheses of `C167_plane`, and so of `C167_between` and `C167_distances`, are met by five points of a plane, and both keyframes have points. -/
theorem C167_demo {L : Linear} (hL : Exact L) : ∃ f0 f1 : First, f0.points ≠ [] ∧ f1.points ≠ [] ∧
    fromMatches (flatSetup L) false cam Stereo.samples5 1 true views = .ok (some (f0, f1)) ∧
    ∀ f ∈ [f0, f1], ∀ ip ∈ f.points, ∃ d, HasDepth ip d ∧ OnPlane ⟨1, 0, 0⟩ (-1 / 2) (place cam f ip.p d) ∧
      ∀ s, OnPlane ⟨1, 0, 0⟩ (-1 / 2) (place cam f ip.p s) → s = d := by
  obtain ⟨l0, l1, n0, n1, hc⟩ := flat_created hL
  have hfrom : fromMatches (flatSetup L) false cam Stereo.samples5 1 true views =
      .ok (some (⟨l0, Motion3.one⟩, ⟨l1, Base.inverse Stereo.m0⟩)) := by
    unfold fromMatches
    rw [demo_match]
    simp only
    have : ({ flatSetup L with unmap := cam.unmap } : Setup) = flatSetup L := rfl
    rw [this, hc]
  refine ⟨_, _, n0, n1, hfrom, ?_⟩
  refine C167_plane (S := flatSetup L) (e := cam) hL (fun _ => List.Perm.refl _) ?_ Stereo.demo_tri Stereo.m0_unit demo_match ?_ ?_ ?_ hfrom ?_ ?_
  · intro p h
    have := congrArg V3.z h
    simp [cam, Stereo.demo] at this
  · intro init hi
    have hs : newSectors (flatSetup L).env (flatSetup L).arrange (flatSetup L).s (spatial (flatSetup L) (matched0 reported)) ((flatSetup L).order 0)
      (flatSetup L).fuel = .ok (some sectors0) := by
      rw [flat_spatial0]; exact flat_sectors0
    have := hs.symm.trans hi
    obtain rfl := Option.some.inj (Except.ok.inj this)
    exact regular0
  · intro init hi
    have hs : newSectors (flatSetup L).env (flatSetup L).arrange (flatSetup L).s (spatial (flatSetup L) (matched1 reported)) ((flatSetup L).order 1)
      (flatSetup L).fuel = .ok (some sectors1) := by
      rw [flat_spatial1]; exact flat_sectors1
    have := hs.symm.trans hi
    obtain rfl := Option.some.inj (Except.ok.inj this)
    exact regular1
  · intro pt hpt
    unfold reported views at hpt
    rw [List.map_map] at hpt
    obtain ⟨s, hs, rfl⟩ := List.mem_map.1 hpt
    refine ⟨spot s, by simp [OnPlane, spot, V3.dot], ?_⟩
    obtain ⟨x, y, -, -, h1, h2, h3⟩ := view_sees (spots_front s hs)
    exact ⟨x, y, h1, h2, h3⟩
  · norm_num [OnPlane, V3.dot, Motion3.act, Motion3.one, M3.mulVec]
  · norm_num [OnPlane, V3.dot, Motion3.act, Base.inverse, Stereo.m0, M3.mulVec, M3.transpose, M3.one]

end Mdso.Init
