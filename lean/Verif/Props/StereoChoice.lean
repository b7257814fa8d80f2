import Verif.Props.StereoGeometry

/-!
# C51: the matrix kept for a sample

Of the matrices the minimal solver finds for a sample only one is kept, the first of those with which most
correspondences agree. Another one may have more correspondences in front of both views.
-/

set_option autoImplicit false

namespace Mdso.Stereo

open Mdso.Geom Mdso.Cam Mdso.StereoSpec

/-- A quarter turn about the optical axis, and a move forward. -/
def mz : Motion3 := ⟨⟨⟨0, -1, 0⟩, ⟨1, 0, 0⟩, ⟨0, 0, 1⟩⟩, ⟨0, 0, 1⟩⟩

/-- The same turn with a move backward. -/
def mzBack : Motion3 := ⟨mz.rot, ⟨0, 0, -1⟩⟩

theorem isRotation_mz : IsRotation mz.rot := by
  refine ⟨?_, ?_⟩
  · unfold IsOrthogonal
    apply M3.ext' <;> ext <;> simp [mz, M3.mul, M3.transpose, M3.one, V3.dot]
  · simp [mz, M3.det, V3.dot, V3.cross]

theorem mz_unit : IsUnitMotion mz := ⟨isRotation_mz, by simp [mz, V3.sqNorm]⟩

theorem mzBack_unit : IsUnitMotion mzBack := ⟨isRotation_mz, by simp [mzBack, V3.sqNorm]⟩

theorem mzBack_essential : HasEssential mzBack (toEssential mz) := by
  refine ⟨-1, by norm_num, ?_⟩
  apply M3.ext' <;> ext <;> simp [toEssential, mzBack, mz, M3.mul, M3.scale, hat, V3.dot]

/-- The camera of the example; the minimal solver finds two matrices. -/
noncomputable def twoEnv (solve : Motion3 → List Nat → Motion3) : Env :=
  { demo 1 solve with solve5 := fun _ => [toEssential mz, toEssential m0] }

variable {solve : Motion3 → List Nat → Motion3}

theorem two_ray (p : V2) : ∃ n : ℝ, 0 < n ∧ rayOf (twoEnv solve) p = n • (⟨p.x, p.y, 1⟩ : V3) ∧
    (rayOf (twoEnv solve) p).sqNorm = 1 ∧ n * n * (p.x * p.x + p.y * p.y + 1) = 1 := by
  obtain ⟨n, hn, h, hu⟩ := ray_eq (f := 1) (solve := solve) p
  have e1 : rayOf (twoEnv solve) p = rayOf (demo 1 solve) p := rfl
  refine ⟨n, hn, ?_, ?_, ?_⟩
  · rw [e1, h]; simp
  · rw [e1, hu]
  · rw [h] at hu
    simp only [V3.sqNorm, V3.smul_x, V3.smul_y, V3.smul_z, div_one] at hu
    linarith

theorem two_svd : SvdCorrect (twoEnv solve) := demo_svd (f := 1) (solve := solve)

theorem two_tri : ∀ m p q d, triangulate m p q = some d → (twoEnv solve).tri m p q = d :=
  demo_tri (f := 1) (solve := solve)

theorem two_cam (p : V2) : (twoEnv solve).map (rayOf (twoEnv solve) p) = p :=
  demo_cam (f := 1) (solve := solve) one_ne_zero p

theorem two_solver : SolverCorrect (twoEnv solve) := by
  intro pairs E hE
  simp only [twoEnv, List.mem_cons, List.not_mem_nil, or_false] at hE
  rcases hE with rfl | rfl
  · exact ⟨mz, mz_unit, toEssential_self _⟩
  · exact ⟨m0, m0_unit, toEssential_self _⟩

/-- Five correspondences that agree exactly with both motions. -/
noncomputable def corrTwo : List (V2 × V2) :=
  [(⟨-1, -1 / 2⟩, ⟨1 / 4, -1 / 2⟩), (⟨-1, -2⟩, ⟨4, -2⟩), (⟨-2, 1⟩, ⟨1 / 2, 1⟩), (⟨-2, 4⟩, ⟨8, 4⟩),
    (⟨-2, -1⟩, ⟨1 / 2, -1⟩)]

theorem corrTwo_form {c : V2 × V2} (h : c ∈ corrTwo) :
    ∃ x x' y : ℝ, c = (⟨x, y⟩, ⟨x', y⟩) ∧ x < x' ∧ x * x' = -(y * y) := by
  simp only [corrTwo, List.mem_cons, List.not_mem_nil, or_false] at h
  rcases h with rfl | rfl | rfl | rfl | rfl <;>
    exact ⟨_, _, _, rfl, by norm_num, by norm_num⟩

theorem corrTwo_epi {c : V2 × V2} (h : c ∈ corrTwo) :
    (rayOf (twoEnv solve) c.2).dot ((toEssential m0).mulVec (rayOf (twoEnv solve) c.1)) = 0 ∧
    (rayOf (twoEnv solve) c.2).dot ((toEssential mz).mulVec (rayOf (twoEnv solve) c.1)) = 0 := by
  obtain ⟨x, x', y, rfl, -, hxy⟩ := corrTwo_form h
  obtain ⟨n1, -, h1, -⟩ := two_ray (solve := solve) ⟨x, y⟩
  obtain ⟨n2, -, h2, -⟩ := two_ray (solve := solve) ⟨x', y⟩
  simp only [h1, h2]
  constructor
  · simp [toEssential, m0, M3.mul, M3.mulVec, hat, V3.dot, M3.one]; ring
  · simp [toEssential, mz, M3.mul, M3.mulVec, hat, V3.dot]
    linear_combination -(n1 * n2) * hxy

theorem corrTwo_front {c : V2 × V2} (h : c ∈ corrTwo) : Front (twoEnv solve) m0 c := by
  obtain ⟨x, x', y, rfl, hlt, -⟩ := corrTwo_form h
  obtain ⟨n1, hn1, h1, u1, s1⟩ := two_ray (solve := solve) ⟨x, y⟩
  obtain ⟨n2, hn2, h2, u2, s2⟩ := two_ray (solve := solve) ⟨x', y⟩
  have e1 : m0.rot.mulVec (rayOf (twoEnv solve) ⟨x, y⟩) = rayOf (twoEnv solve) ⟨x, y⟩ := M3.mulVec_one _
  obtain ⟨d, hd, hd1, hd2⟩ := triangulate_signs (m := m0) (p := rayOf (twoEnv solve) ⟨x, y⟩)
    (q := rayOf (twoEnv solve) ⟨x', y⟩) (by rw [e1]; exact u1) u2 (by
      rw [e1, h1, h2]
      intro h0
      have := congrArg V3.y h0
      simp [V3.cross] at this
      have h3 : n1 * n2 * (x' - x) = 0 := by linarith
      rcases mul_eq_zero.1 h3 with h' | h'
      · exact (mul_pos hn1 hn2).ne' h'
      · linarith)
  unfold Front
  simp only
  rw [two_tri _ _ _ _ hd, hd1, hd2, e1, h1, h2]
  have hy : 0 < y * y + 1 := by have := mul_self_nonneg y; linarith
  simp only at s1 s2
  have hpos : 0 < (x' - x) * (y * y + 1) := mul_pos (by linarith) hy
  constructor
  · simp only [V3.dot, m0, V3.smul_x, V3.smul_y, V3.smul_z]
    have h3 := mul_pos (mul_pos hn1 (mul_pos hn2 hn2)) hpos
    have h4 : n1 * x = n1 * x * (n2 * n2 * (x' * x' + y * y + 1)) := by rw [s2]; ring
    nlinarith
  · simp only [V3.dot, m0, V3.smul_x, V3.smul_y, V3.smul_z]
    have h3 := mul_pos (mul_pos hn2 (mul_pos hn1 hn1)) hpos
    have h4 : n2 * x' = n2 * x' * (n1 * n1 * (x * x + y * y + 1)) := by rw [s1]; ring
    nlinarith

/-- The rays of a correspondence with `x ≠ ± y` are not parallel for any motion with the first matrix. -/
theorem two_nondeg {x x' y : ℝ} (hne : x ≠ y) (hne' : x ≠ -y) (m : Motion3) (hm : IsUnitMotion m)
    (hE : HasEssential m (toEssential mz)) :
    (m.rot.mulVec (rayOf (twoEnv solve) ⟨x, y⟩)).cross (rayOf (twoEnv solve) ⟨x', y⟩) ≠ 0 := by
  have hm0 := solutions_complete (two_svd (solve := solve)) mz_unit (toEssential_self mz)
  have hmm := solutions_complete (two_svd (solve := solve)) hm hE
  obtain ⟨n1, hn1, h1, -⟩ := two_ray (solve := solve) ⟨x, y⟩
  obtain ⟨n2, hn2, h2, -⟩ := two_ray (solve := solve) ⟨x', y⟩
  have hp := mul_pos hn1 hn2
  have hsame : (mz.rot.mulVec (rayOf (twoEnv solve) ⟨x, y⟩)).cross (rayOf (twoEnv solve) ⟨x', y⟩) ≠ 0 := by
    rw [h1, h2]
    intro h0
    have := congrArg V3.x h0
    simp [V3.cross, mz, M3.mulVec, V3.dot] at this
    have h3 : n1 * n2 * (x - y) = 0 := by linarith
    rcases mul_eq_zero.1 h3 with h' | h'
    · exact hp.ne' h'
    · exact hne (by linarith)
  rcases solutions_related two_svd hm0 hmm with rfl | ⟨-, h3⟩ | ⟨-, h3⟩
  · exact hsame
  · rw [h3]; exact hsame
  · rw [h3, h1, h2]
    intro h0
    have := congrArg V3.x h0
    simp [V3.cross, mz, M3.mulVec, V3.dot, halfTurn] at this
    have h4 : n1 * n2 * (x + y) = 0 := by linarith
    rcases mul_eq_zero.1 h4 with h' | h'
    · exact hp.ne' h'
    · exact hne' (by linarith)

/-- The first correspondence is in front after the move forward. -/
theorem front_forward : Front (twoEnv solve) mz (⟨-1, -1 / 2⟩, ⟨1 / 4, -1 / 2⟩) := by
  obtain ⟨n1, hn1, h1, u1, s1⟩ := two_ray (solve := solve) ⟨-1, -1 / 2⟩
  obtain ⟨n2, hn2, h2, u2, s2⟩ := two_ray (solve := solve) ⟨1 / 4, -1 / 2⟩
  have hnd := two_nondeg (solve := solve) (x := -1) (x' := 1 / 4) (y := -1 / 2) (by norm_num) (by norm_num) mz mz_unit
    (toEssential_self mz)
  obtain ⟨d, hd, hd1, hd2⟩ := triangulate_signs (m := mz) (by
    rw [h1] at u1 ⊢
    simp [V3.sqNorm, mz, M3.mulVec, V3.dot] at u1 ⊢; linarith) u2 hnd
  unfold Front
  simp only
  rw [two_tri _ _ _ _ hd, hd1, hd2, h1, h2]
  simp only at s1 s2
  simp [mz, M3.mulVec, V3.dot]
  have a1 : n1 * n1 = 4 / 9 := by linarith
  have a2 : n2 * n2 = 16 / 21 := by linarith
  constructor
  · have : n2 * (-(n1 * (-1 / 2)) * (n2 * 4⁻¹) + -(n1 * (n2 * (-1 / 2))) + n1 * n2) = n1 * (n2 * n2) * (13 / 8) := by
      ring
    nlinarith
  · have : n1 * (-(n1 * (-1 / 2)) * (n2 * 4⁻¹) + -(n1 * (n2 * (-1 / 2))) + n1 * n2) = n2 * (n1 * n1) * (13 / 8) := by
      ring
    nlinarith

/-- The second one after the move backward. -/
theorem front_backward : Front (twoEnv solve) mzBack (⟨-1, -2⟩, ⟨4, -2⟩) := by
  obtain ⟨n1, hn1, h1, u1, s1⟩ := two_ray (solve := solve) ⟨-1, -2⟩
  obtain ⟨n2, hn2, h2, u2, s2⟩ := two_ray (solve := solve) ⟨4, -2⟩
  have hnd := two_nondeg (solve := solve) (x := -1) (x' := 4) (y := -2) (by norm_num) (by norm_num) mzBack mzBack_unit
    mzBack_essential
  obtain ⟨d, hd, hd1, hd2⟩ := triangulate_signs (m := mzBack) (by
    rw [h1] at u1 ⊢
    simp [V3.sqNorm, mzBack, mz, M3.mulVec, V3.dot] at u1 ⊢; linarith) u2 hnd
  unfold Front
  simp only
  rw [two_tri _ _ _ _ hd, hd1, hd2, h1, h2]
  simp only at s1 s2
  simp [mzBack, mz, M3.mulVec, V3.dot]
  have a1 : n1 * n1 = 1 / 6 := by linarith
  have a2 : n2 * n2 = 1 / 21 := by linarith
  constructor
  · have : n2 * (n1 * 2 * (n2 * 4) + n1 * (n2 * 2) + n1 * n2) = n1 * (n2 * n2) * 11 := by
      ring
    nlinarith
  · have : n1 * (n1 * 2 * (n2 * 4) + n1 * (n2 * 2) + n1 * n2) = n2 * (n1 * n1) * 11 := by
      ring
    nlinarith

/-- No motion with the first matrix has both of them in front. -/
theorem not_both (m : Motion3) (hm : IsUnitMotion m) (hE : HasEssential m (toEssential mz))
    (h1 : Front (twoEnv solve) m (⟨-1, -1 / 2⟩, ⟨1 / 4, -1 / 2⟩)) (h2 : Front (twoEnv solve) m (⟨-1, -2⟩, ⟨4, -2⟩)) :
    False := by
  have hs := solutions_complete (two_svd (solve := solve)) hm hE
  have hs1 := solutions_complete (two_svd (solve := solve)) mz_unit (toEssential_self mz)
  have hs2 := solutions_complete (two_svd (solve := solve)) mzBack_unit mzBack_essential
  obtain ⟨_, -, -, u1, -⟩ := two_ray (solve := solve) ⟨-1, -1 / 2⟩
  obtain ⟨_, -, -, u2, -⟩ := two_ray (solve := solve) ⟨1 / 4, -1 / 2⟩
  obtain ⟨_, -, -, u3, -⟩ := two_ray (solve := solve) ⟨-1, -2⟩
  obtain ⟨_, -, -, u4, -⟩ := two_ray (solve := solve) ⟨4, -2⟩
  have e1 : m = mz := front_unique two_svd two_tri hs1 hs (toEssential_self mz) u1 u2
    (corrTwo_epi (c := (⟨-1, -1 / 2⟩, ⟨1 / 4, -1 / 2⟩)) (by simp [corrTwo])).2
    (two_nondeg (by norm_num) (by norm_num) mz mz_unit (toEssential_self mz))
    (two_nondeg (by norm_num) (by norm_num) m hm hE) front_forward h1
  have e2 : m = mzBack := front_unique two_svd two_tri hs2 hs mzBack_essential u3 u4
    (corrTwo_epi (c := (⟨-1, -2⟩, ⟨4, -2⟩)) (by simp [corrTwo])).2
    (two_nondeg (by norm_num) (by norm_num) mzBack mzBack_unit mzBack_essential)
    (two_nondeg (by norm_num) (by norm_num) m hm hE) front_backward h2
  have : mz.t.z = mzBack.t.z := by rw [← e1, e2]
  norm_num [mz, mzBack] at this

theorem two_all (E : M3) (hE : E = toEssential mz ∨ E = toEssential m0) :
    indices corrTwo (Fits (twoEnv solve) E) = [0, 1, 2, 3, 4] := by
  unfold indices
  rw [List.filter_eq_self.2]
  · rfl
  · intro i hi
    have hlt := List.mem_range.1 hi
    have hmem := List.getElem_mem hlt
    simp only [decide_eq_true_eq]
    refine ⟨_, List.getElem?_eq_getElem hlt, ?_⟩
    rcases hE with rfl | rfl
    · exact C80_fits (by norm_num [twoEnv, demo]) (two_cam _) (corrTwo_epi hmem).2
    · exact C80_fits (by norm_num [twoEnv, demo]) (two_cam _) (corrTwo_epi hmem).1

/-- **C51** is violated: for the only sample drawn the minimal solver finds two matrices, with both of which all five
correspondences agree. With the motion to the right, which has the second matrix, all of them are inliers; reported are
fewer, since only the first matrix is looked at, and no motion having it puts all of them in front. -/
theorem C51_other_matrix_violated (solve : Motion3 → List Nat → Motion3) :
    ∃ r, findCoarseMotion (twoEnv solve) samples5 1 (create (twoEnv solve) corrTwo) = .ok (some r) ∧
      ∃ pairs, SamplePairs (twoEnv solve) corrTwo (samples5 0) pairs ∧ toEssential m0 ∈ (twoEnv solve).solve5 pairs ∧
      IsUnitMotion m0 ∧ inliers (twoEnv solve) corrTwo (toEssential m0) m0 = [0, 1, 2, 3, 4] ∧
      r.2.inliersInds.length < 5 := by
  have hp0 : 0 < (twoEnv solve).s.successProb := by norm_num [demo, twoEnv]
  have hp1 : (twoEnv solve).s.successProb < 1 := by norm_num [demo, twoEnv]
  have hn : 1 ≤ (twoEnv solve).s.maxRansacIter := le_refl _
  obtain ⟨r, hr⟩ := C85_defined_partial hp0 hp1 hn (corr := corrTwo) (by simp [corrTwo]) samples5_drawn
    (fun it pairs _ => by simp [twoEnv]) (fuel := 1) (le_refl _)
  obtain ⟨k, hk0, -, -, -, -, hin, -⟩ := C51_ransac_partial two_svd two_solver hp0 hp1 hn (show Drawn corrTwo.length samples5 from samples5_drawn) hr
  refine ⟨r, hr, corrTwo.map fun c => (rayOf (twoEnv solve) c.2, rayOf (twoEnv solve) c.1), ⟨[0, 1, 2, 3, 4], ?_, ?_, ?_⟩,
    by simp [twoEnv], m0_unit, ?_, ?_⟩
  · decide
  · decide
  · refine .cons ⟨_, rfl, rfl⟩ (.cons ⟨_, rfl, rfl⟩ (.cons ⟨_, rfl, rfl⟩ (.cons ⟨_, rfl, rfl⟩
      (.cons ⟨_, rfl, rfl⟩ .nil))))
  · unfold inliers indices
    rw [List.filter_eq_self.2]
    · rfl
    · intro i hi
      have hlt := List.mem_range.1 hi
      have hmem := List.getElem_mem hlt
      simp only [decide_eq_true_eq]
      exact ⟨_, List.getElem?_eq_getElem hlt,
        C80_fits (by norm_num [twoEnv, demo]) (two_cam _) (corrTwo_epi hmem).1, corrTwo_front hmem⟩
  · rcases hin with hin | ⟨j, -, E, ⟨pairs, before, after, -, hsol, hb, ha⟩, hu, hess, hin, -⟩
    · rw [hin]; simp
    · have hE : E = toEssential mz := by
        change [toEssential mz, toEssential m0] = before ++ E :: after at hsol
        match before, hsol, hb with
        | [], hsol, _ => simp only [List.nil_append, List.cons.injEq] at hsol; exact hsol.1.symm
        | [b], hsol, hb =>
          simp only [List.cons_append, List.nil_append, List.cons.injEq] at hsol
          have := hb b (by simp)
          rw [two_all b (Or.inl hsol.1.symm), two_all E (Or.inr hsol.2.1.symm)] at this
          simp at this
        | _ :: _ :: _, hsol, _ => simp at hsol
      subst hE
      by_contra hge
      have hsub : (inliers (twoEnv solve) corrTwo (toEssential mz) r.2.motion).Sublist (List.range corrTwo.length) :=
        List.filter_sublist
      rw [← hin] at hsub
      have hlist := hsub.eq_of_length_le (not_lt.1 hge)
      have hz : ∀ (i : Nat) (c : V2 × V2), corrTwo[i]? = some c → Front (twoEnv solve) r.2.motion c := by
        intro i c hc
        have hi : i ∈ inliers (twoEnv solve) corrTwo (toEssential mz) r.2.motion := by
          rw [← hin, hlist]; exact List.mem_range.2 (List.getElem?_eq_some_iff.1 hc).1
        obtain ⟨c', hc', -, hf⟩ := mem_indices.1 hi
        rw [hc] at hc'
        cases hc'; exact hf
      exact not_both r.2.motion hu hess (hz 0 _ rfl) (hz 1 _ rfl)

end Mdso.Stereo
