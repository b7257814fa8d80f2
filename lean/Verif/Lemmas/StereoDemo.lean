import Verif.Lemmas.Cheirality

/-!
# Concrete views

Singular value decompositions of essential matrices exist, and an example with five noise-free correspondences.
-/

set_option autoImplicit false

namespace Mdso.Stereo

open Mdso.Geom Mdso.Cam Mdso.StereoSpec

theorem frame_exists {t : V3} (ht : t.sqNorm = 1) : ∃ U, IsRotation U ∧ col2 U = t := by
  by_cases h : t.x * t.x + t.y * t.y = 0
  · have hx : t.x = 0 := by nlinarith [mul_self_nonneg t.x, mul_self_nonneg t.y]
    have hy : t.y = 0 := by nlinarith [mul_self_nonneg t.x, mul_self_nonneg t.y]
    have hz : t.z * t.z = 1 := by unfold V3.sqNorm at ht; linarith
    refine ⟨⟨⟨1, 0, 0⟩, ⟨0, t.z, 0⟩, ⟨0, 0, t.z⟩⟩, ⟨?_, ?_⟩, ?_⟩
    · unfold IsOrthogonal
      apply M3.ext' <;> ext <;> simp [M3.mul, M3.transpose, M3.one, V3.dot, hz]
    · simp [M3.det, V3.dot, V3.cross, hz]
    · ext <;> simp [col2, hx, hy]
  · have hpos : 0 < t.x * t.x + t.y * t.y :=
      lt_of_le_of_ne (add_nonneg (mul_self_nonneg _) (mul_self_nonneg _)) (Ne.symm h)
    obtain ⟨r, hr⟩ : ∃ r, r = Real.sqrt (t.x * t.x + t.y * t.y) := ⟨_, rfl⟩
    have hr0 : 0 < r := by rw [hr]; exact Real.sqrt_pos.2 hpos
    have hrr : r * r = t.x * t.x + t.y * t.y := by rw [hr]; exact Real.mul_self_sqrt hpos.le
    obtain ⟨a, ha⟩ : ∃ a, a = t.x / r := ⟨_, rfl⟩
    obtain ⟨b, hb⟩ : ∃ b, b = t.y / r := ⟨_, rfl⟩
    have hx : t.x = a * r := by rw [ha]; field_simp
    have hy : t.y = b * r := by rw [hb]; field_simp
    have hab : a * a + b * b = 1 := by
      rw [hx, hy] at hrr
      have : r * r * (a * a + b * b - 1) = 0 := by linear_combination -hrr
      rcases mul_eq_zero.1 this with h' | h'
      · exact absurd h' (mul_pos hr0 hr0).ne'
      · linarith
    have hrz : r * r + t.z * t.z = 1 := by unfold V3.sqNorm at ht; linarith
    refine ⟨⟨⟨-b, -a * t.z, t.x⟩, ⟨a, -b * t.z, t.y⟩, ⟨0, r, t.z⟩⟩, ⟨?_, ?_⟩, ?_⟩
    · unfold IsOrthogonal
      apply M3.ext' <;> ext <;> simp only [M3.mul, M3.transpose, M3.one, V3.dot, hx, hy]
      · linear_combination hab + a * a * hrz
      · linear_combination a * b * hrz
      · ring
      · linear_combination a * b * hrz
      · linear_combination hab + b * b * hrz
      · ring
      · ring
      · ring
      · linear_combination hrz
    · simp only [M3.det, V3.dot, V3.cross, hx, hy]
      linear_combination (r * r + t.z * t.z) * hab + hrz
    · ext <;> simp [col2]

theorem svd_exists {m : Motion3} {E : M3} (hm : IsUnitMotion m) (h : HasEssential m E) :
    ∃ U V, IsSvd E U V := by
  obtain ⟨c, hc, hE⟩ := h
  obtain ⟨U, hU, ht⟩ := frame_exists hm.2
  have hUU : U.transpose.mul U = M3.one := M3.transpose_mul_self hU.1
  have h1 : hat m.t = (U.mul (hat ⟨0, 0, 1⟩)).mul U.transpose := by
    have h2 : m.t = U.mulVec ⟨0, 0, 1⟩ := by rw [mulVec_e3, ← ht]; ext <;> simp
    rw [mul_hat hU, ← h2, M3.mul_assoc, hU.1, M3.mul_one]
  have h3 : hat (⟨0, 0, 1⟩ : V3) = (diag 1 1 0).mul W := by
    apply M3.ext' <;> ext <;> simp [hat, diag, W, M3.mul, V3.dot]
  have hVt : IsRotation ((W.mul U.transpose).mul m.rot) :=
    isRotation_mul (isRotation_mul isRotation_W (isRotation_transpose hU)) hm.1
  have h4 : toEssential m = (U.mul (diag 1 1 0)).mul ((W.mul U.transpose).mul m.rot) := by
    unfold toEssential; rw [h1, h3]; simp only [M3.mul_assoc]
  have h5 : E = M3.scale c⁻¹ (toEssential m) := by
    rw [hE, M3.scale_scale, inv_mul_cancel₀ hc, M3.scale_one]
  have hV := isRotation_transpose hVt
  rcases lt_or_gt_of_ne hc with hneg | hpos
  · refine ⟨U, M3.scale (-1) ((W.mul U.transpose).mul m.rot).transpose, hU.1, ?_, -c⁻¹, -c⁻¹, 0, le_refl _, ?_,
      le_refl _, ?_⟩
    · unfold IsOrthogonal
      rw [M3.transpose_scale, M3.scale_mul, M3.mul_scale, M3.scale_scale, hV.1]; norm_num [M3.scale_one]
    · have := inv_lt_zero.2 hneg; linarith
    · rw [h5, h4, M3.transpose_scale, M3.transpose_transpose, M3.mul_scale, ← M3.scale_mul, ← M3.mul_scale,
        ← M3.scale_mul, ← M3.mul_scale, diag_scale, diag_scale]
      congr 3
      · ring
      · ring
      · ring
  · refine ⟨U, ((W.mul U.transpose).mul m.rot).transpose, hU.1, hV.1, c⁻¹, c⁻¹, 0, le_refl _,
      (inv_pos.2 hpos).le, le_refl _, ?_⟩
    rw [h5, h4, M3.transpose_transpose, ← M3.scale_mul, ← M3.mul_scale, diag_scale]
    congr 3
    · ring
    · ring
    · ring

theorem svd_exists' (E : M3) : ∃ UV : M3 × M3, IsOrthogonal UV.1 ∧ IsOrthogonal UV.2 ∧
    ((∃ m, IsUnitMotion m ∧ HasEssential m E) → IsSvd E UV.1 UV.2) := by
  by_cases h : ∃ m, IsUnitMotion m ∧ HasEssential m E
  · obtain ⟨m, hm, hE⟩ := h
    obtain ⟨U, V, hs⟩ := svd_exists hm hE
    exact ⟨(U, V), hs.1, hs.2.1, fun _ => hs⟩
  · have h1 : IsOrthogonal M3.one := by
      unfold IsOrthogonal; rw [M3.one_mul]; rfl
    exact ⟨(M3.one, M3.one), h1, h1, fun h' => absurd h' h⟩

/-- A singular value decomposition. -/
noncomputable def someSvd (E : M3) : M3 × M3 := Classical.choose (svd_exists' E)

/-- A move of one to the right. -/
def m0 : Motion3 := ⟨M3.one, ⟨1, 0, 0⟩⟩

theorem isRotation_one : IsRotation M3.one := by
  refine ⟨?_, M3.det_one⟩
  unfold IsOrthogonal; rw [M3.one_mul]; rfl

theorem m0_unit : IsUnitMotion m0 := ⟨isRotation_one, by simp [m0, V3.sqNorm]⟩

/-- A pinhole camera; the solver finds the essential matrix of the move to the right. -/
noncomputable def demo (f : ℝ) (solve : Motion3 → List Nat → Motion3) : Env where
  s := ⟨5 / 4, 1 / 2, 1, false⟩
  map v := ⟨f * (v.x / v.z), f * (v.y / v.z)⟩
  unmap p := ⟨p.x / f, p.y / f, 1⟩
  tri m p q := (triangulate m p q).getD (0, 0)
  solve5 _ := [toEssential m0]
  svd := someSvd
  solve := solve

variable {f : ℝ} {solve : Motion3 → List Nat → Motion3}

theorem demo_svd : SvdCorrect (demo f solve) := fun E => Classical.choose_spec (svd_exists' E)

theorem demo_solver : SolverCorrect (demo f solve) := by
  intro pairs E hE
  simp only [demo, List.mem_singleton] at hE
  subst hE
  exact ⟨m0, m0_unit, toEssential_self _⟩

theorem demo_tri : ∀ m p q d, triangulate m p q = some d → (demo f solve).tri m p q = d := by
  intro m p q d h
  show (triangulate m p q).getD (0, 0) = d
  rw [h]; rfl

theorem ray_eq (p : V2) :
    ∃ n : ℝ, 0 < n ∧ rayOf (demo f solve) p = n • (⟨p.x / f, p.y / f, 1⟩ : V3) ∧
      (rayOf (demo f solve) p).sqNorm = 1 := by
  have hne : (⟨p.x / f, p.y / f, 1⟩ : V3) ≠ 0 := by
    intro h; have := congrArg V3.z h; simp at this
  refine ⟨1 / (⟨p.x / f, p.y / f, 1⟩ : V3).norm, one_div_pos.2 (V3.norm_pos hne), ?_, V3.sqNorm_normalized hne⟩
  exact V3.normalized_eq hne

theorem demo_cam (hf : f ≠ 0) (p : V2) : (demo f solve).map (rayOf (demo f solve) p) = p := by
  obtain ⟨n, hn, h, -⟩ := ray_eq (f := f) (solve := solve) p
  rw [h]
  have := hn.ne'
  ext <;> simp [demo] <;> field_simp

/-- Images of points at depth one, before and after the move. -/
def corr5 : List (V2 × V2) :=
  [(⟨0, 0⟩, ⟨1, 0⟩), (⟨0, 1⟩, ⟨1, 1⟩), (⟨0, 2⟩, ⟨1, 2⟩), (⟨0, 3⟩, ⟨1, 3⟩), (⟨0, 4⟩, ⟨1, 4⟩)]

theorem corr5_form {c : V2 × V2} (h : c ∈ corr5) : ∃ y : ℝ, c = (⟨0, y⟩, ⟨1, y⟩) := by
  simp only [corr5, List.mem_cons, List.not_mem_nil, or_false] at h
  rcases h with rfl | rfl | rfl | rfl | rfl
  · exact ⟨0, rfl⟩
  · exact ⟨1, rfl⟩
  · exact ⟨2, rfl⟩
  · exact ⟨3, rfl⟩
  · exact ⟨4, rfl⟩

/-- The sample of every iteration. -/
def samples5 : Nat → List Nat := fun _ => [3, 1, 0, 4, 2]

theorem samples5_drawn : Drawn corr5.length samples5 := by
  intro it
  refine ⟨rfl, ?_⟩
  intro i hi
  simp only [samples5, List.mem_cons, List.not_mem_nil, or_false] at hi
  simp only [corr5, List.length_cons, List.length_nil]
  omega

theorem corr5_epi {c : V2 × V2} (h : c ∈ corr5) :
    (rayOf (demo 1 solve) c.2).dot ((toEssential m0).mulVec (rayOf (demo 1 solve) c.1)) = 0 := by
  obtain ⟨y, rfl⟩ := corr5_form h
  obtain ⟨n1, -, h1, -⟩ := ray_eq (f := 1) (solve := solve) ⟨0, y⟩
  obtain ⟨n2, -, h2, -⟩ := ray_eq (f := 1) (solve := solve) ⟨1, y⟩
  simp only [h1, h2]
  simp [toEssential, m0, M3.mul, M3.mulVec, hat, V3.dot, M3.one]
  ring

theorem corr5_par {c : V2 × V2} (h : c ∈ corr5) :
    (rayOf (demo 1 solve) c.1).cross (rayOf (demo 1 solve) c.2) ≠ 0 := by
  obtain ⟨y, rfl⟩ := corr5_form h
  obtain ⟨n1, hn1, h1, -⟩ := ray_eq (f := 1) (solve := solve) ⟨0, y⟩
  obtain ⟨n2, hn2, h2, -⟩ := ray_eq (f := 1) (solve := solve) ⟨1, y⟩
  simp only [h1, h2]
  intro h
  have := congrArg V3.y h
  simp [V3.cross] at this
  rcases this with h' | h'
  · exact hn1.ne' h'
  · exact hn2.ne' h'

theorem corr5_front {c : V2 × V2} (h : c ∈ corr5) : Front (demo 1 solve) m0 c := by
  obtain ⟨y, hc⟩ := corr5_form h
  have hpar := corr5_par (solve := solve) h
  obtain ⟨n1, hn1, h1, u1⟩ := ray_eq (f := 1) (solve := solve) ⟨0, y⟩
  obtain ⟨n2, hn2, h2, u2⟩ := ray_eq (f := 1) (solve := solve) ⟨1, y⟩
  subst hc
  simp only at hpar
  have e1 : m0.rot.mulVec (rayOf (demo 1 solve) ⟨0, y⟩) = rayOf (demo 1 solve) ⟨0, y⟩ := M3.mulVec_one _
  obtain ⟨d, hd, hd1, hd2⟩ := triangulate_signs (m := m0) (p := rayOf (demo 1 solve) ⟨0, y⟩)
    (q := rayOf (demo 1 solve) ⟨1, y⟩) (by rw [e1]; exact u1) u2 (by rw [e1]; exact hpar)
  unfold Front
  simp only
  rw [demo_tri _ _ _ _ hd]
  rw [hd1, hd2, e1, h1, h2]
  have hpos : 0 < n1 * n2 := mul_pos hn1 hn2
  have hyy : 0 < y * y + 1 := by have := mul_self_nonneg y; linarith
  constructor
  · simp [V3.dot, m0]
    have : n2 * (n1 * y * (n2 * y) + n1 * n2) = n2 * (n1 * n2) * (y * y + 1) := by ring
    rw [this]; positivity
  · simp [V3.dot, m0]; exact hn2

theorem corr5_nondeg {c : V2 × V2} (h : c ∈ corr5) (m : Motion3) (hm : IsUnitMotion m)
    (hE : HasEssential m (toEssential m0)) :
    (m.rot.mulVec (rayOf (demo 1 solve) c.1)).cross (rayOf (demo 1 solve) c.2) ≠ 0 := by
  have hm0 := solutions_complete (demo_svd (f := 1) (solve := solve)) m0_unit (toEssential_self m0)
  have hmm := solutions_complete (demo_svd (f := 1) (solve := solve)) hm hE
  have hpar := corr5_par (solve := solve) h
  have e1 : ∀ v, m0.rot.mulVec v = v := M3.mulVec_one
  rcases solutions_related demo_svd hm0 hmm with rfl | ⟨-, h2⟩ | ⟨-, h2⟩
  · rw [e1]; exact hpar
  · rw [h2, e1]; exact hpar
  · rw [h2, e1]
    obtain ⟨y, rfl⟩ := corr5_form h
    obtain ⟨n1, hn1, h1, -⟩ := ray_eq (f := 1) (solve := solve) ⟨0, y⟩
    obtain ⟨n2, hn2, h2, -⟩ := ray_eq (f := 1) (solve := solve) ⟨1, y⟩
    simp only [h1, h2]
    intro h
    have := congrArg V3.y h
    simp [V3.cross, halfTurn, m0, V3.dot] at this
    rcases this with h' | h'
    · exact hn1.ne' h'
    · exact hn2.ne' h'

/-- The pairs of rays of the sample. -/
theorem corr5_pairs : ∃ pairs, SamplePairs (demo 1 solve) corr5 [3, 1, 0, 4, 2] pairs := by
  refine ⟨corr5.map fun c => (rayOf (demo 1 solve) c.2, rayOf (demo 1 solve) c.1), [0, 1, 2, 3, 4], ?_, ?_, ?_⟩
  · decide
  · decide
  · refine .cons ⟨_, rfl, rfl⟩ (.cons ⟨_, rfl, rfl⟩ (.cons ⟨_, rfl, rfl⟩ (.cons ⟨_, rfl, rfl⟩
      (.cons ⟨_, rfl, rfl⟩ .nil))))

theorem corr5_hypothesis (it : Nat) : IsHypothesis (demo 1 solve) corr5 (samples5 it) (toEssential m0) := by
  obtain ⟨pairs, hp⟩ := corr5_pairs (solve := solve)
  exact ⟨pairs, [], [], hp, rfl, by simp, by simp⟩

end Mdso.Stereo
