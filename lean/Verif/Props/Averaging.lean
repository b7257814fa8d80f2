import Verif.Spec.Averaging
import Verif.Props.StereoGeometry

/-!
# Averaging after RANSAC
-/

set_option autoImplicit false

namespace Mdso.Stereo

open Mdso.Geom Mdso.Cam Mdso.StereoSpec

/-- Taking away the component along the normal gives the nearest vector of a plane. -/
theorem nearest_plane {n : V3} (hn : 0 < n.sqNorm) (v : V3) :
    IsNearest (fun w => n.dot w = 0) v (v - (v.dot n / n.sqNorm) • n) := by
  obtain ⟨k, hk⟩ : ∃ k, k = v.dot n / n.sqNorm := ⟨_, rfl⟩
  have hkn : k * n.sqNorm = v.dot n := by rw [hk]; field_simp
  rw [← hk]
  refine ⟨?_, ?_⟩
  · have : n.dot (v - k • n) = v.dot n - k * n.sqNorm := by
      simp only [V3.dot, V3.sqNorm, V3.sub_x, V3.sub_y, V3.sub_z, V3.smul_x, V3.smul_y, V3.smul_z]; ring
    show n.dot (v - k • n) = 0
    rw [this, hkn]; ring
  · intro w' hw'
    have h1 : (v - (v - k • n)).sqNorm = k * k * n.sqNorm := by
      simp only [V3.sqNorm, V3.sub_x, V3.sub_y, V3.sub_z, V3.smul_x, V3.smul_y, V3.smul_z]; ring
    have h2 : (v - w' - k • n).sqNorm = (v - w').sqNorm - 2 * k * (v.dot n - n.dot w') + k * k * n.sqNorm := by
      simp only [V3.dot, V3.sqNorm, V3.sub_x, V3.sub_y, V3.sub_z, V3.smul_x, V3.smul_y, V3.smul_z]; ring
    have h3 := V3.sqNorm_nonneg (v - w' - k • n)
    have h4 : n.dot w' = 0 := hw'
    rw [h2, h4, sub_zero, ← hkn] at h3
    rw [h1]; linarith

/-- The nearest vector of a plane is unique. -/
theorem nearest_unique {n v w w' : V3} (h : IsNearest (fun w => n.dot w = 0) v w)
    (h' : IsNearest (fun w => n.dot w = 0) v w') : w = w' := by
  have e1 := h.2 w' h'.1
  have e2 := h'.2 w h.1
  have hmid : n.dot ((1 / 2 : ℝ) • (w + w')) = 0 := by
    have a : n.dot w = 0 := h.1
    have b : n.dot w' = 0 := h'.1
    simp only [V3.dot, V3.add_x, V3.add_y, V3.add_z, V3.smul_x, V3.smul_y, V3.smul_z] at *
    linarith
  have e3 := h.2 _ hmid
  have e4 : (v - (1 / 2 : ℝ) • (w + w')).sqNorm =
      1 / 2 * (v - w).sqNorm + 1 / 2 * (v - w').sqNorm - 1 / 4 * (w - w').sqNorm := by
    simp only [V3.sqNorm, V3.sub_x, V3.sub_y, V3.sub_z, V3.add_x, V3.add_y, V3.add_z, V3.smul_x, V3.smul_y, V3.smul_z]
    ring
  have e5 : (w - w').sqNorm = 0 := by
    have := V3.sqNorm_nonneg (w - w')
    linarith
  by_contra hne
  have : w - w' ≠ 0 := by
    intro h0
    apply hne
    have hx := congrArg V3.x h0
    have hy := congrArg V3.y h0
    have hz := congrArg V3.z h0
    simp only [V3.sub_x, V3.sub_y, V3.sub_z, V3.zero_x, V3.zero_y, V3.zero_z] at hx hy hz
    ext <;> linarith
  exact absurd e5 (V3.sqNorm_pos this).ne'

theorem nearest_congr {P Q : V3 → Prop} (h : ∀ w, P w ↔ Q w) {v w : V3} : IsNearest P v w ↔ IsNearest Q v w := by
  have : P = Q := funext fun w => propext (h w)
  rw [this]

theorem plane_first (E : M3) (p q : V3) : ∀ w : V3, (q.dot (E.mulVec w) = 0) ↔ (E.transpose.mulVec q).dot w = 0 := by
  intro w; rw [M3.dot_mulVec]

theorem plane_second (n : V3) : ∀ w : V3, (w.dot n = 0) ↔ n.dot w = 0 := by
  intro w; rw [show w.dot n = n.dot w by simp only [V3.dot]; ring]

/-- The residual block of a match. -/
noncomputable def residualOf (e : Env) (c : V2 × V2) : Residual := ⟨rayOf e c.1, rayOf e c.2, c.1, c.2⟩

/-- **C127.** The four residuals of a match are the displacements from its two pixels to the projections of the
nearest rays that satisfy the epipolar constraint of the motion with the other pixel; matches close to an epipole have
residual zero. -/
theorem C127_displacement_partial (e : Env) (m : Motion3) (c : V2 × V2) :
    Displaced e m c ((residualOf e c).eval e.map m) := by
  by_cases h : NearEpipole e m c
  · refine Or.inl ⟨h, ?_⟩
    exact if_pos h
  · refine Or.inr ⟨h, _, _, ?_, ?_, if_neg h⟩
    · have h2 : 0 < ((toEssential m).transpose.mulVec (rayOf e c.2)).sqNorm := by
        have := not_lt.1 (fun hlt => h (Or.inr hlt)); linarith
      exact (nearest_congr (plane_first _ (rayOf e c.1) _)).2 (nearest_plane h2 _)
    · have h1 : 0 < ((toEssential m).mulVec (rayOf e c.1)).sqNorm := by
        have := not_lt.1 (fun hlt => h (Or.inl hlt)); linarith
      exact (nearest_congr (plane_second _)).2 (nearest_plane h1 _)

/-- The displacements of a match are determined. -/
theorem displaced_unique {e : Env} {m : Motion3} {c d d' : V2 × V2} (h : Displaced e m c d) (h' : Displaced e m c d') :
    d = d' := by
  rcases h with ⟨hn, rfl⟩ | ⟨hn, w1, w2, h1, h2, rfl⟩ <;> rcases h' with ⟨hn', rfl⟩ | ⟨hn', v1, v2, h1', h2', rfl⟩
  · rfl
  · exact absurd hn hn'
  · exact absurd hn' hn
  · have e1 : w1 = v1 := nearest_unique ((nearest_congr (plane_first _ (rayOf e c.1) _)).1 h1)
      ((nearest_congr (plane_first _ (rayOf e c.1) _)).1 h1')
    have e2 : w2 = v2 := nearest_unique ((nearest_congr (plane_second _)).1 h2) ((nearest_congr (plane_second _)).1 h2')
    rw [e1, e2]

/-- The error of a motion is determined. -/
theorem hasError_unique {e : Env} {m : Motion3} {cs : List (V2 × V2)} {s s' : ℝ} (h : HasError e m cs s)
    (h' : HasError e m cs s') : s = s' := by
  obtain ⟨ds, hd, rfl⟩ := h
  obtain ⟨ds', hd', rfl⟩ := h'
  have : ds = ds' := by
    induction hd generalizing ds' with
    | nil => cases hd'; rfl
    | cons h1 _ ih =>
      cases hd' with
      | cons h2 h3 => rw [displaced_unique h1 h2, ih _ h3]
  rw [this]

theorem displaced_exact {e : Env} {m : Motion3} {c : V2 × V2} (h1 : e.map (rayOf e c.1) = c.1)
    (h2 : e.map (rayOf e c.2) = c.2) (hx : Exact e m c) : Displaced e m c (⟨0, 0⟩, ⟨0, 0⟩) := by
  by_cases h : NearEpipole e m c
  · exact Or.inl ⟨h, rfl⟩
  · refine Or.inr ⟨h, rayOf e c.1, rayOf e c.2, ⟨hx, ?_⟩, ⟨hx, ?_⟩, ?_⟩
    · intro w _
      have : ((rayOf e c.1) - (rayOf e c.1)).sqNorm = 0 := by simp [V3.sqNorm]
      rw [this]; exact V3.sqNorm_nonneg _
    · intro w _
      have : ((rayOf e c.2) - (rayOf e c.2)).sqNorm = 0 := by simp [V3.sqNorm]
      rw [this]; exact V3.sqNorm_nonneg _
    · rw [h1, h2]
      have : ∀ a : V2, a - a = ⟨0, 0⟩ := by intro a; ext <;> simp
      rw [this, this]

/-- **C127, exact matches.** A match that agrees exactly with the motion has residual zero, if the camera maps its rays
to its pixels. -/
theorem C127_exact {e : Env} {m : Motion3} {c : V2 × V2} (h1 : e.map (rayOf e c.1) = c.1)
    (h2 : e.map (rayOf e c.2) = c.2) (hx : Exact e m c) :
    (residualOf e c).eval e.map m = (⟨0, 0⟩, ⟨0, 0⟩) :=
  displaced_unique (C127_displacement_partial e m c) (displaced_exact h1 h2 hx)

/-- **C127 is violated close to an epipole.** With a move to the right, the match of pixel `(200, 0)` with pixel
`(0, 5)` has residual zero, although every ray that satisfies the epipolar constraint with the second pixel is seen at
least 5 pixels away from the first; the threshold of the settings is 5/4. -/
theorem C127_epipole_violated (solve : Motion3 → List Nat → Motion3) :
    let e := demo 1 solve
    let c : V2 × V2 := (⟨200, 0⟩, ⟨0, 5⟩)
    (residualOf e c).eval e.map m0 = (⟨0, 0⟩, ⟨0, 0⟩) ∧
    ¬ Exact e m0 c ∧
    ∀ w : V3, w.z ≠ 0 → (rayOf e c.2).dot ((toEssential m0).mulVec w) = 0 → 5 ≤ norm2 (e.map w - c.1) := by
  intro e c
  obtain ⟨n1, hn1, h1, u1⟩ := ray_eq (f := 1) (solve := solve) ⟨200, 0⟩
  obtain ⟨n2, hn2, h2, u2⟩ := ray_eq (f := 1) (solve := solve) ⟨0, 5⟩
  have hE : ∀ w : V3, (toEssential m0).mulVec w = ⟨0, -w.z, w.y⟩ := by
    intro w
    simp [toEssential, m0, M3.mul, M3.mulVec, hat, V3.dot, M3.one]
  refine ⟨?_, ?_, ?_⟩
  · have hnear : NearEpipole e m0 c := by
      left
      show ((toEssential m0).mulVec (rayOf (demo 1 solve) ⟨200, 0⟩)).sqNorm < 1 / 10000
      rw [hE, h1]
      rw [h1] at u1
      simp [V3.sqNorm] at u1 ⊢
      nlinarith [mul_pos hn1 hn1]
    exact if_pos hnear
  · show ¬ (rayOf (demo 1 solve) ⟨0, 5⟩).dot ((toEssential m0).mulVec (rayOf (demo 1 solve) ⟨200, 0⟩)) = 0
    rw [hE, h1, h2]
    simp [V3.dot]
    exact ⟨hn2.ne', hn1.ne'⟩
  · intro w hz hw
    change (rayOf (demo 1 solve) ⟨0, 5⟩).dot ((toEssential m0).mulVec w) = 0 at hw
    rw [hE, h2] at hw
    simp [V3.dot] at hw
    have hy : w.y = 5 * w.z := by
      have : n2 * (w.y - 5 * w.z) = 0 := by linarith
      rcases mul_eq_zero.1 this with h' | h'
      · exact absurd h' hn2.ne'
      · linarith
    have hq : w.y / w.z = 5 := by rw [hy]; field_simp
    show 5 ≤ norm2 ((⟨1 * (w.x / w.z), 1 * (w.y / w.z)⟩ : V2) - ⟨200, 0⟩)
    rw [hq]
    unfold norm2 sqNorm
    apply Real.le_sqrt_of_sq_le
    simp only [sub_x, sub_y]
    nlinarith [mul_self_nonneg (1 * (w.x / w.z) - 200)]

/-! ## The problem handed to the solver -/

theorem blockOf_made {e : Env} {corr : List (V2 × V2)} {g : Estimator} (h : Made e corr g) {i : Nat} {c : V2 × V2}
    (hc : corr[i]? = some c) : blockOf g i = .ok (residualOf e c) := by
  have hr : at' g.rays i = .ok (rayOf e c.1, rayOf e c.2) := by
    unfold at'; rw [h.2, List.getElem?_map, hc]; rfl
  have hi : at' g.imgCorresps i = .ok c := by
    unfold at'; rw [h.1, hc]
  simp only [blockOf, hr, hi]; rfl

theorem blocksOf_made {e : Env} {corr : List (V2 × V2)} {g : Estimator} (h : Made e corr g) (inds : List Nat)
    (hi : ∀ i ∈ inds, i < corr.length) :
    blocksOf g inds = .ok ((matchesAt corr inds).map (residualOf e)) := by
  induction inds with
  | nil => rfl
  | cons i is ih =>
    have hlt := hi i (by simp)
    have hc : corr[i]? = some corr[i] := List.getElem?_eq_getElem hlt
    have ih := ih fun j hj => hi j (by simp [hj])
    simp only [blocksOf, blockOf_made h hc, ih]
    simp only [matchesAt, List.filterMap_cons, hc, List.map_cons]

/-- The cost that Ceres minimizes is the error of the specification. -/
theorem cost_error {e : Env} {corr : List (V2 × V2)} {g : Estimator} (h : Made e corr g)
    (hi : ∀ i ∈ g.inliersInds, i < corr.length) :
    ∃ P, averaging e g = .ok P ∧ P.start = g.motion ∧
      ∀ m, HasError e m (matchesAt corr g.inliersInds) (Averaging.cost P m) := by
  refine ⟨_, by rw [averaging, blocksOf_made h _ hi], rfl, ?_⟩
  intro m
  refine ⟨(matchesAt corr g.inliersInds).map fun c => (residualOf e c).eval e.map m, ?_, ?_⟩
  · rw [List.forall₂_map_right_iff, List.forall₂_same]
    exact fun c _ => C127_displacement_partial e m c
  · simp only [Averaging.cost, List.map_map]; rfl

theorem coarse_inliers {e : Env} (he : SvdCorrect e) (hp0 : 0 < e.s.successProb) (hp1 : e.s.successProb < 1)
    (hn : 1 ≤ e.s.maxRansacIter) {corr : List (V2 × V2)} {samples : Nat → List Nat}
    (hd : Drawn corr.length samples) {fuel : Nat} {r : Motion3 × Estimator}
    (h : findCoarseMotion e samples fuel (create e corr) = .ok (some r)) :
    Made e corr r.2 ∧ r.2.preciseFound = false ∧ r.2.coarseFound = true ∧
      ∀ i ∈ r.2.inliersInds, i < corr.length := by
  obtain ⟨k, l, hr, hne, -, h2⟩ := coarse_unfold h
  have hcorr : 0 < corr.length := List.length_pos_of_ne_nil hne
  obtain ⟨-, g2, -⟩ := ransac_inv (made_create e corr) hcorr hp0 hp1 hn (fun it => (hd it).2) fuel 0 k _ l
    (start_inv rfl hp0 hp1 hn) (by omega) hr
  refine ⟨by rw [h2]; exact ⟨rfl, rfl⟩, by rw [h2]; rfl, by rw [h2], ?_⟩
  intro i hi
  rw [h2] at hi
  rcases final_choice he g2 with ⟨-, -, h5⟩ | ⟨_, _, _, _, _, _, hin, _, h5, _⟩ | ⟨-, _, _, _, _, _, _, h5⟩
  · rw [h5] at hi; exact absurd hi (by simp)
  · rw [h5] at hi
    have hi' : i ∈ l.inliersInds := hi
    rw [hin] at hi'
    obtain ⟨c, hc, -, hf⟩ := mem_indices.1 hi'
    exact (List.getElem?_eq_some_iff.1 hc).1
  · rw [h5] at hi; exact absurd hi (by simp)

/-- The motion of `findPreciseMotion` is that of the solver, started with the coarse estimate. -/
theorem precise_motion {e : Env} {corr : List (V2 × V2)} {samples : Nat → List Nat} {fuel : Nat}
    {r0 r : Motion3 × Estimator} (h0 : findCoarseMotion e samples fuel (create e corr) = .ok (some r0))
    (h : findPreciseMotion e samples fuel (create e corr) = .ok (some r)) : r = refineMotion e r0.2 := by
  unfold findPreciseMotion at h
  have e1 : (create e corr).preciseFound = false := rfl
  have e2 : (create e corr).coarseFound = false := rfl
  rw [e1, e2, h0] at h
  simpa using h.symm

/-- **C128.** Averaging does not increase the error of the motion: on the inliers of the coarse motion, the error of the
precise motion is at most that of the coarse one, for every solver that does not increase its cost. -/
theorem C128_descent {e : Env} (he : SvdCorrect e) (hp0 : 0 < e.s.successProb) (hp1 : e.s.successProb < 1)
    (hn : 1 ≤ e.s.maxRansacIter) {corr : List (V2 × V2)} {samples : Nat → List Nat}
    (hd : Drawn corr.length samples) {solve : Averaging → Motion3} (hs : IsDescent solve)
    (hc : CallsSolver e corr solve) {fuel : Nat} {r0 r : Motion3 × Estimator}
    (h0 : findCoarseMotion e samples fuel (create e corr) = .ok (some r0))
    (h : findPreciseMotion e samples fuel (create e corr) = .ok (some r)) :
    ∃ before after, HasError e r0.2.motion (matchesAt corr r0.2.inliersInds) before ∧
      HasError e r.1 (matchesAt corr r0.2.inliersInds) after ∧ after ≤ before := by
  obtain ⟨hmade, -, -, hi⟩ := coarse_inliers he hp0 hp1 hn hd h0
  obtain ⟨P, hP, hstart, hcost⟩ := cost_error hmade hi
  have hr : r.1 = solve P := by
    rw [precise_motion h0 h]
    exact hc r0.2 P hmade.1 hmade.2 hP
  refine ⟨_, _, hcost r0.2.motion, hcost r.1, ?_⟩
  rw [hr, ← hstart]
  exact hs P

theorem sqLen_nonneg (d : V2 × V2) : 0 ≤ sqLen d := by unfold sqLen; positivity

theorem huber_nonneg {δ s : ℝ} (hδ : 0 ≤ δ) (hs : 0 ≤ s) : 0 ≤ huber δ s := by
  unfold huber
  split
  · exact hs
  · rename_i h
    have h1 : δ ≤ Real.sqrt s := Real.le_sqrt_of_sq_le (not_le.1 h).le
    nlinarith

theorem huber_zero {δ s : ℝ} (hδ : 0 < δ) (hs : 0 ≤ s) (h : huber δ s = 0) : s = 0 := by
  unfold huber at h
  split at h
  · exact h
  · rename_i h'
    have h1 : δ ≤ Real.sqrt s := Real.le_sqrt_of_sq_le (not_le.1 h').le
    nlinarith [mul_pos hδ hδ]

theorem sum_zero {l : List ℝ} (hl : ∀ x ∈ l, 0 ≤ x) (h : l.sum ≤ 0) : ∀ x ∈ l, x = 0 := by
  induction l with
  | nil => simp
  | cons a l ih =>
    have h1 : 0 ≤ l.sum := List.sum_nonneg fun x hx => hl x (by simp [hx])
    have h2 := hl a (by simp)
    rw [List.sum_cons] at h
    intro x hx
    rcases List.mem_cons.1 hx with rfl | hx
    · linarith
    · exact ih (fun y hy => hl y (by simp [hy])) (by linarith) x hx

theorem sqLen_zero {d : V2 × V2} (h : sqLen d = 0) : d = (⟨0, 0⟩, ⟨0, 0⟩) := by
  unfold sqLen at h
  have h1 := sq_nonneg d.1.x
  have h2 := sq_nonneg d.1.y
  have h3 := sq_nonneg d.2.x
  have h4 := sq_nonneg d.2.y
  refine Prod.ext ?_ ?_ <;> ext
  · exact pow_eq_zero_iff (two_ne_zero) |>.1 (by linarith)
  · exact pow_eq_zero_iff (two_ne_zero) |>.1 (by linarith)
  · exact pow_eq_zero_iff (two_ne_zero) |>.1 (by linarith)
  · exact pow_eq_zero_iff (two_ne_zero) |>.1 (by linarith)

/-- **C128, exact matches stay.** If all inliers of the coarse motion agree with it exactly, and the camera maps their
rays to their pixels, then after averaging they all still fit the motion: none of them is lost as an outlier (only the
test that the depths are positive can remove one). -/
theorem C128_keeps {e : Env} (he : SvdCorrect e) (hp0 : 0 < e.s.successProb) (hp1 : e.s.successProb < 1)
    (hn : 1 ≤ e.s.maxRansacIter) (htol : 0 < e.s.outlierReprojError) {corr : List (V2 × V2)}
    {samples : Nat → List Nat}
    (hd : Drawn corr.length samples) {solve : Averaging → Motion3} (hs : IsDescent solve)
    (hc : CallsSolver e corr solve) {fuel : Nat} {r0 r : Motion3 × Estimator}
    (h0 : findCoarseMotion e samples fuel (create e corr) = .ok (some r0))
    (h : findPreciseMotion e samples fuel (create e corr) = .ok (some r))
    (hexact : ∀ i ∈ r0.2.inliersInds, ∀ c, corr[i]? = some c → Exact e r0.2.motion c ∧
      e.map (rayOf e c.1) = c.1 ∧ e.map (rayOf e c.2) = c.2) :
    ∀ i ∈ r0.2.inliersInds, ∀ c, corr[i]? = some c → Fits e (toEssential r.1) c ∧
      (Front e r.1 c → i ∈ r.2.inliersInds) := by
  have hδ : 0 < Real.sqrt 2 * e.s.outlierReprojError := mul_pos (by positivity) htol
  obtain ⟨before, after, ⟨ds0, hd0, e0⟩, ⟨ds, hds, e1⟩, hle⟩ := C128_descent he hp0 hp1 hn hd hs hc h0 h
  obtain ⟨hmade, -, -, hi⟩ := coarse_inliers he hp0 hp1 hn hd h0
  have hmem : ∀ c ∈ matchesAt corr r0.2.inliersInds, ∃ i ∈ r0.2.inliersInds, corr[i]? = some c := by
    intro c hc
    obtain ⟨i, hi', hci⟩ := List.mem_filterMap.1 hc
    exact ⟨i, hi', hci⟩
  have hzero : before = 0 := by
    have : ∀ d ∈ ds0, d = (⟨0, 0⟩, ⟨0, 0⟩) := by
      intro d hdm
      obtain ⟨k, hk, rfl⟩ := List.mem_iff_getElem.1 hdm
      have hlen := hd0.length_eq
      have hk' : k < (matchesAt corr r0.2.inliersInds).length := by omega
      have hdisp : Displaced e r0.2.motion (matchesAt corr r0.2.inliersInds)[k] ds0[k] :=
        (List.forall₂_iff_get.1 hd0).2 k hk' hk
      obtain ⟨i, hii, hci⟩ := hmem _ (List.getElem_mem hk')
      obtain ⟨hx, hm1, hm2⟩ := hexact i hii _ hci
      exact displaced_unique hdisp (displaced_exact hm1 hm2 hx)
    rw [e0]
    have hall : (ds0.map fun d => huber (Real.sqrt 2 * e.s.outlierReprojError) (sqLen d)) = ds0.map fun _ => (0 : ℝ) := by
      apply List.map_congr_left
      intro d hdm
      rw [this d hdm]
      have : (0 : ℝ) ≤ (Real.sqrt 2 * e.s.outlierReprojError) ^ 2 := sq_nonneg _
      simp [sqLen, huber]
      intro hlt; exfalso; linarith [hlt, this]
    rw [hall]; simp
  have hsum : (ds.map fun d => huber (Real.sqrt 2 * e.s.outlierReprojError) (sqLen d)).sum ≤ 0 := by
    have : after ≤ 0 := by rw [← hzero]; exact hle
    rw [e1] at this; linarith
  have hres : ∀ d ∈ ds, d = (⟨0, 0⟩, ⟨0, 0⟩) := by
    intro d hdm
    have := sum_zero (l := ds.map fun d => huber (Real.sqrt 2 * e.s.outlierReprojError) (sqLen d))
      (by
        intro x hx
        obtain ⟨d', -, rfl⟩ := List.mem_map.1 hx
        exact huber_nonneg hδ.le (sqLen_nonneg _)) hsum _ (List.mem_map_of_mem hdm)
    exact sqLen_zero (huber_zero hδ (sqLen_nonneg _) this)
  intro i hii c hci
  have hcm : c ∈ matchesAt corr r0.2.inliersInds := List.mem_filterMap.2 ⟨i, hii, hci⟩
  have hdz : Displaced e r.1 c (⟨0, 0⟩, ⟨0, 0⟩) := by
    obtain ⟨k, hk, rfl⟩ := List.mem_iff_getElem.1 hcm
    have hlen := hds.length_eq
    have hk' : k < ds.length := by omega
    have := (List.forall₂_iff_get.1 hds).2 k hk hk'
    have h2 : ds[k] = (⟨0, 0⟩, ⟨0, 0⟩) := hres _ (List.getElem_mem hk')
    simp only [List.get_eq_getElem] at this
    rw [h2] at this; exact this
  obtain ⟨-, hm1, hm2⟩ := hexact i hii c hci
  have hzn : ∀ a : V2, norm2 (a - a) = 0 := by intro a; simp [norm2, sqNorm]
  obtain ⟨w1, hw1⟩ : ∃ w, Corrected ((toEssential r.1).transpose.mulVec (rayOf e c.2)) (rayOf e c.1) w := ⟨_, project_corrected _ _⟩
  obtain ⟨w2, hw2⟩ : ∃ w, Corrected ((toEssential r.1).mulVec (rayOf e c.1)) (rayOf e c.2) w := ⟨_, project_corrected _ _⟩
  have hfit : Fits e (toEssential r.1) c := by
    refine ⟨w1, w2, hw1, hw2, ?_⟩
    rcases hdz with ⟨hnear, -⟩ | ⟨-, v1, v2, hv1, hv2, hvd⟩
    · rcases hnear with hnear | hnear
      · right
        rcases hw2 with ⟨-, rfl⟩ | ⟨hbig, -⟩
        · rw [hm2, hzn]; exact htol
        · exact absurd hbig (not_lt.2 hnear.le)
      · left
        rcases hw1 with ⟨-, rfl⟩ | ⟨hbig, -⟩
        · rw [hm1, hzn]; exact htol
        · exact absurd hbig (not_lt.2 hnear.le)
    · left
      rcases hw1 with ⟨-, rfl⟩ | ⟨hbig, hdot, k, hk⟩
      · rw [hm1, hzn]; exact htol
      · have hv1' := (nearest_congr (plane_first _ (rayOf e c.1) _)).1 hv1
        have hpos : 0 < ((toEssential r.1).transpose.mulVec (rayOf e c.2)).sqNorm := by linarith
        have hnp := nearest_plane hpos (rayOf e c.1)
        have e3 : w1 = v1 := by
          rw [nearest_unique hv1' hnp]
          rw [hk]
          have hkk : (w1 + k • (toEssential r.1).transpose.mulVec (rayOf e c.2)).dot
              ((toEssential r.1).transpose.mulVec (rayOf e c.2)) /
              ((toEssential r.1).transpose.mulVec (rayOf e c.2)).sqNorm = k := by
            rw [div_eq_iff hpos.ne']
            have : (w1 + k • (toEssential r.1).transpose.mulVec (rayOf e c.2)).dot
              ((toEssential r.1).transpose.mulVec (rayOf e c.2)) =
              ((toEssential r.1).transpose.mulVec (rayOf e c.2)).dot w1 +
                k * ((toEssential r.1).transpose.mulVec (rayOf e c.2)).sqNorm := by
              simp only [V3.dot, V3.sqNorm, V3.add_x, V3.add_y, V3.add_z, V3.smul_x, V3.smul_y, V3.smul_z]; ring
            rw [this, hdot, zero_add]
          rw [hkk]
          ext <;> simp
        rw [e3]
        have : e.map v1 - c.1 = ⟨0, 0⟩ := (congrArg Prod.fst hvd).symm
        rw [this]; simpa [norm2, sqNorm] using htol
  refine ⟨hfit, fun hfront => ?_⟩
  rw [(C81_precise h).1]
  exact mem_indices.2 ⟨c, hci, hfit, hfront⟩

/-! ## A concrete case -/

theorem demo_calls : CallsSolver (demo 1 fun m _ => m) corr5 (fun P => P.start) := by
  intro g P _ _ h
  unfold averaging at h
  cases h1 : blocksOf g g.inliersInds with
  | error f => rw [h1] at h; simp at h
  | ok bs =>
    rw [h1] at h
    simp only [Except.ok.injEq] at h
    subst h; rfl

theorem demo_descent : IsDescent (fun P => P.start) := fun _ => le_refl _

/-- The hypotheses of both theorems are met: five exact matches, seen by a pinhole camera that moved to the right, and
all of them are inliers of the coarse motion. -/
example : ∃ r0 r, findCoarseMotion (demo 1 fun m _ => m) samples5 1 (create (demo 1 fun m _ => m) corr5) = .ok (some r0) ∧
    findPreciseMotion (demo 1 fun m _ => m) samples5 1 (create (demo 1 fun m _ => m) corr5) = .ok (some r) ∧
    r0.2.inliersInds = [0, 1, 2, 3, 4] ∧
    ∀ i ∈ r0.2.inliersInds, ∀ c, corr5[i]? = some c → Fits (demo 1 fun m _ => m) (toEssential r.1) c := by
  obtain ⟨r0, h1, h2, h3, h4⟩ := demo_run (fun m _ => m)
  have hp : findPreciseMotion (demo 1 fun m _ => m) samples5 1 (create (demo 1 fun m _ => m) corr5) =
      .ok (some (refineMotion (demo 1 fun m _ => m) r0.2)) := by
    unfold findPreciseMotion
    have e1 : (create (demo 1 fun m _ => m) corr5).preciseFound = false := rfl
    have e2 : (create (demo 1 fun m _ => m) corr5).coarseFound = false := rfl
    rw [e1, e2, h1]; rfl
  refine ⟨r0, _, h1, hp, h4, ?_⟩
  intro i hi c hc
  refine (C128_keeps demo_svd (by norm_num [demo]) (by norm_num [demo]) (le_refl _) (by norm_num [demo])
    samples5_drawn demo_descent demo_calls h1 hp ?_ i hi c hc).1
  intro j _ c' hc'
  have hmem : c' ∈ corr5 := List.mem_of_getElem? hc'
  refine ⟨?_, demo_cam one_ne_zero _, demo_cam one_ne_zero _⟩
  have := corr5_epi (solve := fun m _ => m) hmem
  unfold Exact
  rw [h3]
  exact this

end Mdso.Stereo
