import Verif.Lemmas.CameraModel
import Verif.Props.Pyramid
import Mathlib.Analysis.InnerProductSpace.Projection.Minimal
import Mathlib.Analysis.InnerProductSpace.PiL2
import Mathlib.Tactic.NormNum

/-!
# Properties of the camera model (C38-C41, C71, C72)
-/

set_option autoImplicit false

namespace Mdso.Cam

open Mdso.Geom Mdso.CamSpec

/-! ## C38: projection and back-projection -/

/-- **C38, unmapping.** `unmap` gives the ray of the omnidirectional model, for any number of coefficients. -/
theorem C38_unmap (c : Cam) (p : V2) : unmap c p = ray c.scale c.center c.p0 c.ps p := unmap_eq c p

/-- **C38, homogeneity.** `map` depends only on the direction of the ray. -/
theorem C38_direction (c : Cam) (v : V3) (s : ℝ) (hs : 0 < s) : map c (s • v) = map c v := by
  rw [map_eq, map_eq]
  have h2 : (⟨(s • v).x, (s • v).y⟩ : V2) = s • ⟨v.x, v.y⟩ := rfl
  rw [h2, normalized2_smul hs, norm2_len, len_smul hs.le, ← norm2_len, V3.smul_z, atan2_smul hs]

/-- **C38, radius.** The image of a ray off the axis lies at the distance from the image center that
`getImgRadiusByAngle` gives for its angle to the axis. -/
theorem C38_radius (c : Cam) (hs : 0 < c.scale) (v : V3) (hv : ¬ (v.x = 0 ∧ v.y = 0)) :
    distance (map c v) (getImgCenter c) = |getImgRadiusByAngle c (angleToAxis v)| ∧
    getImgRadiusByAngle c (angleToAxis v) = c.scale * poly c.m0 c.ms (angleToAxis v) := by
  have hne : v ≠ 0 := by rintro rfl; exact hv ⟨rfl, rfl⟩
  have hr : getImgRadiusByAngle c (angleToAxis v) = c.scale * poly c.m0 c.ms (angleToAxis v) := by
    unfold getImgRadiusByAngle calcMapPoly; rw [polyLoop_poly]
  refine ⟨?_, hr⟩
  rw [hr, map_eq, atan2_angle v hne]
  unfold getImgCenter
  rw [distance_smul hs.le, abs_mul, abs_of_pos hs]
  congr 1
  have hl : 0 < len ⟨v.x, v.y⟩ := by
    rcases lt_or_eq_of_le (len_nonneg ⟨v.x, v.y⟩) with h | h
    · exact h
    · exact absurd ((len_zero_iff _).1 h.symm) hv
  rw [normalized2_pos hl]
  unfold distance
  obtain ⟨m, hm⟩ : ∃ m, m = poly c.m0 c.ms (angleToAxis v) := ⟨_, rfl⟩
  rw [← hm]
  have hsq := len_sq ⟨v.x, v.y⟩
  have : (((m • (1 / len ⟨v.x, v.y⟩) • (⟨v.x, v.y⟩ : V2) + c.center).x - c.center.x) ^ 2
      + ((m • (1 / len ⟨v.x, v.y⟩) • (⟨v.x, v.y⟩ : V2) + c.center).y - c.center.y) ^ 2) = m ^ 2 := by
    simp only [add_x, add_y, smul_x, smul_y, add_sub_cancel_right]
    field_simp
    simp only at hsq
    rw [hsq]
  rw [this, Real.sqrt_sq_eq_abs]

/-- **C38, round trip.** For every camera and every pixel off the image center, the distance between the pixel and
the image of its ray is the scale times the difference between the mapping polynomial at the ray's angle and the
radius of the pixel in units of the scale. -/
theorem C38_round_trip (c : Cam) (hs : 0 < c.scale) (p : V2) (hp : p ≠ getImgCenter c) :
    distance (map c (unmap c p)) p
      = c.scale * |poly c.m0 c.ms (angleToAxis (unmap c p)) - len (normalisedPixel c.scale c.center p)| := by
  obtain ⟨q, hq⟩ : ∃ q, q = normalisedPixel c.scale c.center p := ⟨_, rfl⟩
  have hpq : p = c.scale • (q + c.center) := by
    rw [hq]
    unfold normalisedPixel
    ext <;> simp <;> field_simp
  have hu : (⟨(unmap c p).x, (unmap c p).y⟩ : V2) = q := by
    rw [unmap_eq, hq]; rfl
  have hl : 0 < len q := by
    rcases lt_or_eq_of_le (len_nonneg q) with h | h
    · exact h
    · exfalso
      apply hp
      obtain ⟨h1, h2⟩ := (len_zero_iff _).1 h.symm
      rw [hpq]
      unfold getImgCenter
      ext <;> simp [h1, h2]
  have hne : unmap c p ≠ 0 := by
    intro h0
    rw [h0] at hu
    have : len q = 0 := by rw [← hu]; simp [len]
    linarith
  rw [map_eq, atan2_angle _ hne, hu, ← hq]
  obtain ⟨m, hm⟩ : ∃ m, m = poly c.m0 c.ms (angleToAxis (unmap c p)) := ⟨_, rfl⟩
  rw [← hm]
  conv_lhs => rw [hpq]
  rw [distance_smul hs.le]
  congr 1
  rw [normalized2_pos hl]
  unfold distance
  have hsq := len_sq q
  have : ((m • (1 / len q) • q + c.center).x - (q + c.center).x) ^ 2
      + ((m • (1 / len q) • q + c.center).y - (q + c.center).y) ^ 2 = (m - len q) ^ 2 := by
    simp only [add_x, add_y, smul_x, smul_y]
    have e1 : m * (1 / len q * q.x) + c.center.x - (q.x + c.center.x) = (m - len q) * (q.x / len q) := by
      field_simp; ring
    have e2 : m * (1 / len q * q.y) + c.center.y - (q.y + c.center.y) = (m - len q) * (q.y / len q) := by
      field_simp; ring
    have e3 : (q.x / len q) ^ 2 + (q.y / len q) ^ 2 = 1 := by
      rw [div_pow, div_pow, ← add_div, ← hsq, div_self (by positivity)]
    rw [e1, e2, mul_pow, mul_pow, ← mul_add, e3, mul_one]
  rw [this, Real.sqrt_sq_eq_abs]

/-- **C38, center.** The image center is mapped to itself. -/
theorem C38_center (c : Cam) (hs : 0 < c.scale) :
    map c (unmap c (getImgCenter c)) = getImgCenter c := by
  have hu : (⟨(unmap c (getImgCenter c)).x, (unmap c (getImgCenter c)).y⟩ : V2) = ⟨0, 0⟩ := by
    rw [unmap_eq]
    unfold ray normalisedPixel getImgCenter
    ext <;> simp <;> field_simp <;> simp
  rw [map_eq, hu, normalized2_zero (by simp [len])]
  unfold getImgCenter
  ext <;> simp

/-- **C38, fit.** The mapping polynomial of a constructed camera is the best one: over the sampled radii, each taken
as a pixel in any direction, the sum of the squared round-trip errors is at most that of any other polynomial of the
same degree. -/
theorem C38_best_fit {solve : List (ℝ × ℝ) → Nat → ℝ × List ℝ} (hsolve : IsLeastSquares solve) {deg : Nat}
    {samples : List ℝ} (hsam : ∀ r ∈ samples, 0 < r) {w h : Nat} (hw : 0 < w) {scale : ℝ} {center : V2}
    {cs : List ℝ} {c : Cam}
    (hc : ofPoly solve deg samples w h scale center cs = .ok c) (u : V2) (hu : len u = 1)
    (m0 : ℝ) (ms : List ℝ) (hms : ms.length = deg) :
    (samples.map fun r => distance (map c (unmap c (c.scale • (r • u + c.center))))
        (c.scale • (r • u + c.center)) ^ 2).sum
      ≤ (samples.map fun r => (c.scale *
        (poly m0 ms (angleToAxis (unmap c (c.scale • (r • u + c.center)))) - r)) ^ 2).sum := by
  obtain ⟨p0, ps, rfl, hset⟩ := ofPoly_ok hc
  obtain ⟨graph, hperm, -, rfl⟩ := setMap_ok hset
  obtain ⟨n, hn⟩ : ∃ n : Cam, n = normalize ⟨w, h, p0, ps, center, scale, 0, 0, 0, 0, []⟩ := ⟨_, rfl⟩
  rw [← hn] at hperm ⊢
  have hsc : 0 < n.scale := by rw [hn]; exact farthest_pos hw _
  obtain ⟨c, hcdef⟩ : ∃ c : Cam, c = { n with m0 := (solve graph deg).1, ms := (solve graph deg).2 } := ⟨_, rfl⟩
  rw [← hcdef]
  have ecs : c.scale = n.scale := by rw [hcdef]
  have hcs : 0 < c.scale := by rw [ecs]; exact hsc
  have hnp : ∀ r : ℝ, normalisedPixel c.scale c.center (c.scale • (r • u + c.center)) = r • u := by
    intro r
    unfold normalisedPixel
    ext <;> simp <;> field_simp <;> ring
  have hang : ∀ r ∈ samples, angleToAxis (unmap c (c.scale • (r • u + c.center))) = (graphPoint n r).2 := by
    intro r hr
    have hr0 := hsam r hr
    have hlr : len (r • u) = r := by rw [len_smul hr0.le, hu, mul_one]
    have hun : unmap c (c.scale • (r • u + c.center)) = ⟨(r • u).x, (r • u).y, depthPoly c.p0 c.ps r⟩ := by
      rw [unmap_eq]
      unfold ray
      simp only [hnp, hlr]
    have hne : unmap c (c.scale • (r • u + c.center)) ≠ 0 := by
      intro h0
      rw [hun] at h0
      have h1 : (r • u).x = 0 := congrArg V3.x h0
      have h2 : (r • u).y = 0 := congrArg V3.y h0
      have := (len_zero_iff (r • u)).2 ⟨h1, h2⟩
      linarith
    rw [← atan2_angle _ hne, hun]
    unfold graphPoint
    simp only
    have : norm2 ⟨(r • u).x, (r • u).y⟩ = r := by rw [norm2_len]; exact hlr
    rw [this, calcUnmapPoly_eq]
    have e1 : c.p0 = n.p0 := by rw [hcdef]
    have e2 : c.ps = n.ps := by rw [hcdef]
    rw [e1, e2]
  have hL : (samples.map fun r => distance (map c (unmap c (c.scale • (r • u + c.center))))
        (c.scale • (r • u + c.center)) ^ 2)
      = samples.map fun r => c.scale ^ 2 * (poly c.m0 c.ms (graphPoint n r).2 - (graphPoint n r).1) ^ 2 := by
    apply List.map_congr_left
    intro r hr
    have hr0 := hsam r hr
    have hlr : len (r • u) = r := by rw [len_smul hr0.le, hu, mul_one]
    rw [C38_round_trip c hcs, hnp, hlr, hang r hr, mul_pow, sq_abs]
    · rfl
    · intro h0
      have := hnp r
      rw [h0] at this
      have h2 : normalisedPixel c.scale c.center (getImgCenter c) = ⟨0, 0⟩ := by
        unfold normalisedPixel getImgCenter
        ext <;> simp <;> field_simp <;> simp
      rw [h2] at this
      rw [← this] at hlr
      simp [len] at hlr
      linarith
  have hR : (samples.map fun r => (c.scale *
        (poly m0 ms (angleToAxis (unmap c (c.scale • (r • u + c.center)))) - r)) ^ 2)
      = samples.map fun r => c.scale ^ 2 * (poly m0 ms (graphPoint n r).2 - (graphPoint n r).1) ^ 2 := by
    apply List.map_congr_left
    intro r hr
    rw [hang r hr, mul_pow]
    rfl
  rw [hL, hR, List.sum_map_mul_left, List.sum_map_mul_left]
  apply mul_le_mul_of_nonneg_left _ (sq_nonneg _)
  have key := (hsolve graph deg).2 m0 ms hms
  have e1 : c.m0 = (solve graph deg).1 := by rw [hcdef]
  have e2 : c.ms = (solve graph deg).2 := by rw [hcdef]
  rw [e1, e2]
  have p1 := (hperm.map fun g : ℝ × ℝ => (poly (solve graph deg).1 (solve graph deg).2 g.2 - g.1) ^ 2).sum_eq
  have p2 := (hperm.map fun g : ℝ × ℝ => (poly m0 ms g.2 - g.1) ^ 2).sum_eq
  rw [List.map_map] at p1 p2
  simp only [Function.comp_def] at p1 p2
  rw [p1, p2] at key
  exact key

/-! ## C39: normalization -/

/-- **C39.** The ray of every pixel of a constructed camera is a positive multiple of the ray of the parameters
given to the constructor. -/
theorem C39_rays {solve : List (ℝ × ℝ) → Nat → ℝ × List ℝ} {deg : Nat} {samples : List ℝ} {w h : Nat}
    (hw : 0 < w) {scale : ℝ} (hs : 0 < scale) {center : V2} {p0 : ℝ} {ps : List ℝ} {c : Cam}
    (hc : ofPoly solve deg samples w h scale center (p0 :: ps) = .ok c) :
    ∃ k : ℝ, 0 < k ∧ ∀ p, unmap c p = k • ray scale center p0 ps p := by
  obtain ⟨p0', ps', he, hset⟩ := ofPoly_ok hc
  cases he
  obtain ⟨graph, -, -, rfl⟩ := setMap_ok hset
  have hf := farthest_pos (h := h) hw (scale • center)
  refine ⟨scale / farthestCorner w h (scale • center), by positivity, ?_⟩
  intro p
  rw [← unmap_normalize ⟨w, h, p0, ps, center, scale, 0, 0, 0, 0, []⟩ hs hf p]
  rfl

/-- **C39, radius.** After construction every point of the picture has a radius of at most one, so that the mapping
polynomial was fitted on all of it; the image center is where the parameters put it. -/
theorem C39_radius {solve : List (ℝ × ℝ) → Nat → ℝ × List ℝ} {deg : Nat} {samples : List ℝ} {w h : Nat}
    (hw : 0 < w) {scale : ℝ} (hs : 0 < scale) {center : V2} {cs : List ℝ} {c : Cam}
    (hc : ofPoly solve deg samples w h scale center cs = .ok c) :
    getImgCenter c = scale • center ∧ ∀ p : V2, 0 ≤ p.x → p.x ≤ w → 0 ≤ p.y → p.y ≤ h →
      len (normalisedPixel c.scale c.center p) ≤ 1 := by
  obtain ⟨p0, ps, rfl, hset⟩ := ofPoly_ok hc
  obtain ⟨graph, -, -, rfl⟩ := setMap_ok hset
  obtain ⟨f, hf⟩ : ∃ f, f = farthestCorner w h (scale • center) := ⟨_, rfl⟩
  have hpos : 0 < f := by rw [hf]; exact farthest_pos hw _
  have hscale : (normalize ⟨w, h, p0, ps, center, scale, 0, 0, 0, 0, []⟩).scale = f := hf.symm
  have hcen : (normalize ⟨w, h, p0, ps, center, scale, 0, 0, 0, 0, []⟩).center
      = ⟨center.x / (f / scale), center.y / (f / scale)⟩ := by rw [hf]; rfl
  constructor
  · unfold getImgCenter
    simp only
    rw [hscale, hcen]
    ext <;> simp <;> field_simp
  · intro p h1 h2 h3 h4
    simp only
    rw [hscale, hcen]
    have := len_le_farthest w h (scale • center) p h1 h2 h3 h4
    rw [← hf] at this
    have e : normalisedPixel f ⟨center.x / (f / scale), center.y / (f / scale)⟩ p
        = (1 / f) • (p - scale • center) := by
      unfold normalisedPixel
      ext <;> simp <;> field_simp
    rw [e, len_smul (by positivity)]
    rw [one_div, inv_mul_le_iff₀ hpos, mul_one]
    exact this

/-! ## C40: pyramids -/

/-- **C40.** A camera pyramid of up to 31 levels has the levels asked for; level `i` maps every ray to the pixel of
the full picture divided by `2^i`, takes such a pixel back to the same ray, and has the size of level `i` of an image
pyramid of a picture of the camera's size. -/
theorem C40_pyramid (c : Cam) (n : Nat) (hn : n ≤ 31) :
    ∃ cams, camPyr c n = .ok cams ∧ cams.length = n ∧ ∀ (i : Nat) (ci : Cam), cams[i]? = some ci →
      (∀ v, map ci v = (1 / (2 ^ i : ℝ)) • map c v) ∧
      (∀ p : V2, unmap ci ((1 / (2 ^ i : ℝ)) • p) = unmap c p) ∧
      ∀ (base : Pyr.Img Nat) (levels : List (Pyr.Img Nat)) (img : Pyr.Img Nat),
        base.rows = c.height → base.cols = c.width → Pyr.imagePyramid base n = .ok levels →
        levels[i]? = some img → img.rows = ci.height ∧ img.cols = ci.width := by
  refine ⟨(List.range n).map (atLevel c), by unfold camPyr; rw [if_neg (by omega)], by simp, ?_⟩
  intro i ci hi
  rw [List.getElem?_map] at hi
  have hin : i < n := by
    by_contra hcon
    rw [List.getElem?_eq_none (by simpa using hcon)] at hi
    cases hi
  rw [List.getElem?_range hin] at hi
  cases hi
  have h2 : (0 : ℝ) < 2 ^ i := by positivity
  refine ⟨?_, ?_, ?_⟩
  · intro v
    rw [map_eq, map_eq]
    unfold atLevel
    ext <;> simp <;> ring
  · intro p
    rw [unmap_eq, unmap_eq]
    have : normalisedPixel (atLevel c i).scale (atLevel c i).center ((1 / (2 ^ i : ℝ)) • p)
        = normalisedPixel c.scale c.center p := by
      unfold normalisedPixel atLevel
      have e : ∀ t : ℝ, 1 / (2 ^ i : ℝ) * t / (c.scale / ((2 ^ i : Nat) : ℝ)) = t / c.scale := by
        intro t
        push_cast
        rw [div_div_eq_mul_div]
        congr 1
        field_simp
      ext <;> simp only [smul_x, smul_y, e]
    unfold ray
    simp only [this]
    rfl
  · intro base levels img hr hc hl hi
    cases n with
    | zero => omega
    | succ n =>
      obtain ⟨ls, e1, -, e2⟩ := Pyr.C42_pyramid base n
      rw [hl] at e1
      cases e1
      obtain ⟨h1, h2, -⟩ := e2 i img hi
      rw [h1, h2, hr, hc]
      exact ⟨rfl, rfl⟩

/-! ## C41: borders -/

/-- **C41, partial.** If `isOnImage` accepts a point, then it and everything strictly less than the border away
truncates to a pixel of the picture. Missing: things exactly the border away, and the point itself when the border is
zero, see `C41_edge_violated`. -/
theorem C41_index_partial (c : Cam) (p d : V2) (border : Int) (h : isOnImage c p border)
    (hx : |d.x| < border) (hy : |d.y| < border) :
    0 ≤ Util.truncInt (p.x + d.x) ∧ Util.truncInt (p.x + d.x) < c.width ∧
    0 ≤ Util.truncInt (p.y + d.y) ∧ Util.truncInt (p.y + d.y) < c.height := by
  obtain ⟨h1, h2, h3, h4⟩ := h
  push_cast at h3 h4
  have ⟨a, a'⟩ := abs_lt.1 hx
  have ⟨b, b'⟩ := abs_lt.1 hy
  have hx0 : 0 ≤ p.x + d.x := by linarith
  have hy0 : 0 ≤ p.y + d.y := by linarith
  unfold Util.truncInt
  rw [if_pos hx0, if_pos hy0]
  refine ⟨Int.floor_nonneg.2 hx0, ?_, Int.floor_nonneg.2 hy0, ?_⟩
  · rw [Int.floor_lt]; push_cast; linarith
  · rw [Int.floor_lt]; push_cast; linarith

/-- **C41, violated.** For every camera and border, `isOnImage` accepts the corner `(width - border, height -
border)` if the borders leave anything; moved by the border towards the edge it is no pixel. With border zero the
accepted point itself is none. -/
theorem C41_edge_violated (c : Cam) (border : Int) (hb : 0 ≤ border) (hw : 2 * border ≤ c.width)
    (hh : 2 * border ≤ c.height) :
    isOnImage c ⟨((c.width : Int) - border : Int), ((c.height : Int) - border : Int)⟩ border ∧
    ¬ Util.truncInt ((((c.width : Int) - border : Int) : ℝ) + border) < c.width := by
  constructor
  · unfold isOnImage
    simp only
    refine ⟨by exact_mod_cast (by omega : border ≤ (c.width : Int) - border),
      by exact_mod_cast (by omega : border ≤ (c.height : Int) - border), le_rfl, le_rfl⟩
  · have : (((c.width : Int) - border : Int) : ℝ) + border = ((c.width : Int) : ℝ) := by push_cast; ring
    rw [this]
    unfold Util.truncInt
    rw [if_pos (by positivity), Int.floor_intCast]
    omega

/-! ## C71: undistortion -/

/-- **C71.** If the mapped coordinates fit an `int`, `undistort` gives a picture of the same size and every pixel of
it is the pixel of the source whose coordinates are those of the mapped point, truncated, or 0 if there is none. -/
theorem C71_undistort (c : Cam) (img : Pyr.Img Nat) (kinv : M3)
    (hfit : ∀ y x : Nat, y < img.rows → x < img.cols →
      |(map c (kinv.mulVec ⟨x, y, 1⟩)).x| < 2147483648 ∧ |(map c (kinv.mulVec ⟨x, y, 1⟩)).y| < 2147483648) :
    ∃ res, undistort c img kinv = .ok res ∧ res.rows = img.rows ∧ res.cols = img.cols ∧
      ∀ y x : Nat, y < img.rows → x < img.cols →
        let q := map c (kinv.mulVec ⟨x, y, 1⟩)
        (∀ oy ox : Nat, oy < img.rows → ox < img.cols → Util.truncInt q.x = ox → Util.truncInt q.y = oy →
          res.px y x = img.px oy ox) ∧
        ((¬ ∃ oy ox : Nat, oy < img.rows ∧ ox < img.cols ∧ Util.truncInt q.x = ox ∧ Util.truncInt q.y = oy) →
          res.px y x = 0) := by
  have hat : ∀ y x : Nat, y < img.rows → x < img.cols →
      ∃ v, undistortAt c img kinv y x = .ok v ∧
        (∀ oy ox : Nat, oy < img.rows → ox < img.cols →
          Util.truncInt (map c (kinv.mulVec ⟨x, y, 1⟩)).x = ox → Util.truncInt (map c (kinv.mulVec ⟨x, y, 1⟩)).y = oy →
          v = img.px oy ox) ∧
        ((¬ ∃ oy ox : Nat, oy < img.rows ∧ ox < img.cols ∧
          Util.truncInt (map c (kinv.mulVec ⟨x, y, 1⟩)).x = ox ∧
          Util.truncInt (map c (kinv.mulVec ⟨x, y, 1⟩)).y = oy) → v = 0) := by
    intro y x hy hx
    obtain ⟨hfx, hfy⟩ := hfit y x hy hx
    unfold undistortAt
    obtain ⟨q, hq⟩ : ∃ q, q = map c (kinv.mulVec ⟨x, y, 1⟩) := ⟨_, rfl⟩
    rw [← hq] at hfx hfy ⊢
    have ⟨a, a'⟩ := abs_lt.1 hfx
    have ⟨b, b'⟩ := abs_lt.1 hfy
    have e1 : toInt q.x = .ok (Util.truncInt q.x) := by
      unfold toInt; rw [if_pos ⟨by linarith, by linarith⟩]
    have e2 : toInt q.y = .ok (Util.truncInt q.y) := by
      unfold toInt; rw [if_pos ⟨by linarith, by linarith⟩]
    simp only [e1, e2]
    by_cases hin : Util.truncInt q.x ≥ 0 ∧ Util.truncInt q.x < img.cols ∧ Util.truncInt q.y ≥ 0 ∧
        Util.truncInt q.y < img.rows
    · rw [if_pos hin]
      obtain ⟨i1, i2, i3, i4⟩ := hin
      refine ⟨img.px (Util.truncInt q.y).toNat (Util.truncInt q.x).toNat, ?_, ?_, ?_⟩
      · unfold Pyr.Img.read
        rw [if_pos ⟨by omega, by omega⟩]
      · intro oy ox _ _ h3 h4
        rw [h3, h4]
        rfl
      · intro hno
        exact absurd ⟨(Util.truncInt q.y).toNat, (Util.truncInt q.x).toNat, by omega, by omega, by omega, by omega⟩ hno
    · rw [if_neg hin]
      refine ⟨0, rfl, ?_, fun _ => rfl⟩
      intro oy ox h1 h2 h3 h4
      exact absurd (by omega) hin
  obtain ⟨res, h1, h2, h3, h4⟩ := Pyr.build_ok (rows := img.rows) (cols := img.cols)
    (f := undistortAt c img kinv) (v := fun y x => ((undistortAt c img kinv y x).toOption).getD 0) (by
      intro y x hy hx
      obtain ⟨v, hv, -⟩ := hat y x hy hx
      rw [hv]
      rfl)
  refine ⟨res, h1, h2, h3, ?_⟩
  intro y x hy hx
  obtain ⟨v, hv, g1, g2⟩ := hat y x hy hx
  have : res.px y x = v := by rw [h4 y x hy hx, hv]; rfl
  simp only [this]
  exact ⟨g1, g2⟩

/-! ## C72: calibration files -/

/-- The number a token stands for. -/
def Tok.val : Tok → Option ℝ
  | .real x => some x
  | .int n => some n
  | .bad => none

/-- The tokens after the tag give these parameters: scale, center, the number of coefficients, the coefficients, and
possibly more. -/
def Describes (toks : List Tok) (scale : ℝ) (center : V2) (cs : List ℝ) : Prop :=
  ∃ (t1 t2 t3 : Tok) (body extra : List Tok), toks = t1 :: t2 :: t3 :: .int cs.length :: (body ++ extra) ∧
    t1.val = some scale ∧ t2.val = some center.x ∧ t3.val = some center.y ∧ body.map Tok.val = cs.map some

theorem readDouble_val {t : Tok} {x : ℝ} (h : t.val = some x) (rest : List Tok) :
    readDouble ⟨t :: rest, true⟩ = (some x, ⟨rest, true⟩) := by
  cases t <;> simp [Tok.val] at h <;> subst h <;> rfl

theorem readDouble_fail (ts : List Tok) : (readDouble ⟨ts, false⟩) = (none, ⟨ts, false⟩) := rfl

theorem readCoeffs_good (cs : List ℝ) (body extra : List Tok) (h : body.map Tok.val = cs.map some) :
    readCoeffs cs.length ⟨body ++ extra, true⟩ = cs.map some := by
  induction cs generalizing body with
  | nil => rfl
  | cons c cs ih =>
    cases body with
    | nil => simp at h
    | cons t body =>
      simp only [List.map_cons, List.cons.injEq] at h
      simp only [List.length_cons, readCoeffs, List.cons_append, readDouble_val h.1, List.map_cons]
      rw [ih body h.2]

theorem filterMap_some (cs : List ℝ) : (cs.map some).filterMap id = cs := by
  induction cs with
  | nil => rfl
  | cons c cs ih => simp

/-- **C72, acceptance.** A file that gives at least one coefficient yields exactly the parameters it gives. -/
theorem C72_accepts {toks : List Tok} {scale : ℝ} {center : V2} {cs : List ℝ} (h : Describes toks scale center cs)
    (hne : cs ≠ []) (solve : List (ℝ × ℝ) → Nat → ℝ × List ℝ) (deg : Nat) (samples : List ℝ) (w hgt : Nat) :
    ofFile solve deg samples w hgt (some ("omnidirectional", toks))
      = ofPoly solve deg samples w hgt scale center cs := by
  obtain ⟨t1, t2, t3, body, extra, rfl, h1, h2, h3, h4⟩ := h
  have hlen : 0 < cs.length := List.length_pos_iff.2 hne
  have hp : readParams (t1 :: t2 :: t3 :: .int cs.length :: (body ++ extra)) = .ok (scale, center, cs) := by
    unfold readParams
    simp only [readDouble_val h1, readDouble_val h2, readDouble_val h3]
    have hr : readInt ⟨.int cs.length :: (body ++ extra), true⟩ = (some (cs.length : Int), ⟨body ++ extra, true⟩) := rfl
    simp only [hr]
    rw [if_neg (by omega)]
    have e : ((cs.length : Int)).toNat = cs.length := rfl
    rw [e, readCoeffs_good cs body extra h4, filterMap_some, if_pos (by simp)]
  unfold ofFile
  simp only [ne_eq, not_true_eq_false, if_false, hp]

theorem readDouble_some {ts : List Tok} {x : ℝ} (hb : Tok.bad ∉ ts) (h : (readDouble ⟨ts, true⟩).1 = some x) :
    ∃ t rest, ts = t :: rest ∧ t.val = some x ∧ (readDouble ⟨ts, true⟩).2 = ⟨rest, true⟩ := by
  cases ts with
  | nil => cases h
  | cons t rest =>
    cases t with
    | real y => cases h; exact ⟨_, _, rfl, rfl, rfl⟩
    | int n => cases h; exact ⟨_, _, rfl, rfl, rfl⟩
    | bad => simp at hb

theorem readCoeffs_fail (n : Nat) (ts : List Tok) : readCoeffs n ⟨ts, false⟩ = List.replicate n none := by
  induction n with
  | zero => rfl
  | succ n ih => simp only [readCoeffs, readDouble_fail, ih]; rfl

theorem readCoeffs_sound (n : Nat) (ts : List Tok) (hb : Tok.bad ∉ ts)
    (h : (readCoeffs n ⟨ts, true⟩).all Option.isSome = true) :
    ∃ body extra, ts = body ++ extra ∧
      body.map Tok.val = ((readCoeffs n ⟨ts, true⟩).filterMap id).map some ∧
      ((readCoeffs n ⟨ts, true⟩).filterMap id).length = n := by
  induction n generalizing ts with
  | zero => exact ⟨[], ts, rfl, rfl, rfl⟩
  | succ n ih =>
    simp only [readCoeffs, List.all_cons, Bool.and_eq_true] at h
    obtain ⟨h1, h2⟩ := h
    obtain ⟨x, hx⟩ := Option.isSome_iff_exists.1 h1
    obtain ⟨t, rest, rfl, hv, hs⟩ := readDouble_some hb hx
    rw [hs] at h2
    obtain ⟨body, extra, rfl, e1, e2⟩ := ih rest (fun hm => hb (List.mem_cons_of_mem _ hm)) h2
    refine ⟨t :: body, extra, rfl, ?_, ?_⟩
    · simp only [readCoeffs, hs, hx, List.filterMap_cons, id_eq, List.map_cons, hv, e1]
    · simp only [readCoeffs, hs, hx, List.filterMap_cons, id_eq, List.length_cons]
      exact congrArg (· + 1) e2

/-- **C72, partial.** If the parameters are read from a file without unreadable tokens whose fourth number is an
integer, they are the ones the file gives, and there is at least one coefficient. Missing: an unreadable last
coefficient is taken as 0 and a count with decimals is split, see `C72_unreadable_accepted_violated` and
`C72_count_split_violated`. -/
theorem C72_sound_partial {toks : List Tok} {scale : ℝ} {center : V2} {cs : List ℝ}
    (h : readParams toks = .ok (scale, center, cs)) (hb : Tok.bad ∉ toks)
    (hint : ∀ x : ℝ, toks[3]? ≠ some (.real x)) : Describes toks scale center cs ∧ cs ≠ [] := by
  unfold readParams at h
  simp only at h
  split at h
  · rename_i s cx cy n e1 e2 e3 e4
    obtain ⟨t1, r1, rfl, v1, q1⟩ := readDouble_some hb e1
    have hb1 : Tok.bad ∉ r1 := fun hm => hb (List.mem_cons_of_mem _ hm)
    simp only [q1] at e2 e3 e4 h
    obtain ⟨t2, r2, rfl, v2, q2⟩ := readDouble_some hb1 e2
    have hb2 : Tok.bad ∉ r2 := fun hm => hb1 (List.mem_cons_of_mem _ hm)
    simp only [q2] at e3 e4 h
    obtain ⟨t3, r3, rfl, v3, q3⟩ := readDouble_some hb2 e3
    have hb3 : Tok.bad ∉ r3 := fun hm => hb2 (List.mem_cons_of_mem _ hm)
    simp only [q3] at e4 h
    cases r3 with
    | nil => cases e4
    | cons t4 r4 =>
      cases t4 with
      | real x => exact absurd rfl (hint x)
      | bad => simp at hb3
      | int k =>
        have hr : readInt ⟨.int k :: r4, true⟩ = (some k, ⟨r4, true⟩) := rfl
        simp only [hr] at e4 h
        have hkn : k = n := Option.some.inj e4
        subst hkn
        split at h
        · cases h
        · rename_i hk
          split at h
          · rename_i hall
            have hb4 : Tok.bad ∉ r4 := fun hm => hb3 (List.mem_cons_of_mem _ hm)
            obtain ⟨body, extra, rfl, g1, g2⟩ := readCoeffs_sound k.toNat r4 hb4 hall
            cases h
            have hkc : ((((readCoeffs k.toNat ⟨body ++ extra, true⟩).filterMap id).length : Nat) : Int) = k := by
              rw [g2]; omega
            refine ⟨⟨t1, t2, t3, body, extra, ?_, v1, v2, v3, g1⟩, ?_⟩
            · rw [hkc]
            · intro hnil
              rw [hnil] at g2
              simp only [List.length_nil] at g2
              omega
          · cases h
  · cases h

/-- **C72, violated.** A file whose last coefficient is unreadable is accepted, with 0 in its place. -/
theorem C72_unreadable_accepted_violated :
    readParams [.real 1, .real 2, .real 3, .int 2, .real 5, .bad] = .ok (1, ⟨2, 3⟩, [5, 0]) ∧
    ∀ scale center cs, ¬ Describes [.real 1, .real 2, .real 3, .int 2, .real 5, .bad] scale center cs := by
  constructor
  · unfold readParams
    simp [readDouble, readInt, readCoeffs]
  · rintro scale center cs ⟨t1, t2, t3, body, extra, he, -, -, -, hm⟩
    simp only [List.cons.injEq, Tok.int.injEq] at he
    obtain ⟨-, -, -, hn, he⟩ := he
    have hl : body.length = 2 := by
      have := congrArg List.length hm
      simp only [List.length_map] at this
      omega
    match body, hl with
    | [a, b], _ =>
      simp only [List.cons_append, List.nil_append, List.cons.injEq] at he
      obtain ⟨-, rfl, -⟩ := he
      match cs with
      | [] => simp at hm
      | [c] => simp at hm
      | c :: d :: cs => simp [Tok.val] at hm

/-- **C72, violated.** A number of coefficients given as `1.5` is accepted: it counts as 1, and the rest, `0.5`, as
the coefficient. -/
theorem C72_count_split_violated :
    readParams [.real 1, .real 2, .real 3, .real (3 / 2), .real 7] = .ok (1, ⟨2, 3⟩, [1 / 2]) := by
  have hf : Util.truncInt (3 / 2) = 1 := by
    unfold Util.truncInt
    rw [if_pos (by norm_num)]
    norm_num
  unfold readParams
  simp [readDouble, readInt, readCoeffs, hf]
  norm_num

/-- **C72, rejection.** A missing file and a wrong tag raise an exception; a file that ends early is undefined
behaviour, since members are used that were never set. -/
theorem C72_rejects (solve : List (ℝ × ℝ) → Nat → ℝ × List ℝ) (deg : Nat) (samples : List ℝ) (w h : Nat) :
    ofFile solve deg samples w h none = .error .exception ∧
    (∀ tag toks, tag ≠ "omnidirectional" → ofFile solve deg samples w h (some (tag, toks)) = .error .exception) ∧
    (∀ (t1 t2 t3 : Tok) (n : Nat) (body : List Tok), body.length < n →
      ofFile solve deg samples w h (some ("omnidirectional", t1 :: t2 :: t3 :: .int n :: body)) = .error .ub) := by
  refine ⟨rfl, ?_, ?_⟩
  · intro tag toks ht
    unfold ofFile
    simp only [if_pos ht]
  · intro t1 t2 t3 n body hlt
    have key : ∀ (n : Nat) (ts : List Tok), ts.length < n → (readCoeffs n ⟨ts, true⟩).all Option.isSome = false := by
      intro n
      induction n with
      | zero => intro ts h; omega
      | succ n ih =>
        intro ts hts
        simp only [readCoeffs, List.all_cons]
        cases ts with
        | nil => rfl
        | cons t rest =>
          have hrest : rest.length < n := by simpa using hts
          cases t with
          | real x => simp only [readDouble, if_true, ih rest hrest, Bool.and_false]
          | int x => simp only [readDouble, if_true, ih rest hrest, Bool.and_false]
          | bad =>
            simp only [readDouble, if_true, readCoeffs_fail]
            cases n with
            | zero => omega
            | succ n => rfl
    have hp : readParams (t1 :: t2 :: t3 :: .int n :: body) = .error .ub := by
      unfold readParams
      cases t1 <;> simp only [readDouble, if_true, Bool.false_eq_true, if_false] <;>
        cases t2 <;> simp only [if_true, Bool.false_eq_true, if_false] <;>
        cases t3 <;> simp only [readInt, if_true, Bool.false_eq_true, if_false] <;>
        · rw [if_neg (by omega)]
          have e : ((n : Int)).toNat = n := rfl
          rw [e, key n body hlt]
          simp
    unfold ofFile
    simp only [ne_eq, not_true_eq_false, if_false, hp]

/-! ## C73: rejection of polynomials -/

theorem nonDecreasing_pairwise (g : List (ℝ × ℝ)) : nonDecreasing g ↔ g.Pairwise fun a b => a.2 ≤ b.2 := by
  induction g with
  | nil => simp [nonDecreasing]
  | cons a g ih =>
    cases g with
    | nil => simp [nonDecreasing]
    | cons b g =>
      rw [nonDecreasing, ih]
      constructor
      · rintro ⟨h1, h2⟩
        refine List.Pairwise.cons ?_ h2
        intro x hx
        rcases List.mem_cons.1 hx with rfl | hx
        · exact not_lt.1 h1
        · exact le_trans (not_lt.1 h1) (List.rel_of_pairwise_cons h2 hx)
      · intro h
        exact ⟨not_lt.2 (List.rel_of_pairwise_cons h (List.mem_cons_self ..)), h.of_cons⟩

/-- The sorted radii. -/
theorem sorted_samples (samples : List ℝ) :
    (samples.mergeSort fun a b => decide (a ≤ b)).Pairwise fun a b => a ≤ b := by
  have := List.pairwise_mergeSort (le := fun a b : ℝ => decide (a ≤ b))
    (by intro a b c h1 h2; simp only [decide_eq_true_eq] at *; linarith)
    (by intro a b; simp only [Bool.or_eq_true, decide_eq_true_eq]; exact le_total a b) samples
  simpa using this

/-- **C73.** The constructor raises an exception exactly when two of the sampled radii have angles in the opposite
order, and else returns. The radii are fractions of the distance from the image center to the farthest corner; the
angle of a radius is that of the ray that the parameters give a pixel there. -/
theorem C73_rejects_iff (solve : List (ℝ × ℝ) → Nat → ℝ × List ℝ) (deg : Nat) (samples : List ℝ)
    (hsam : ∀ r ∈ samples, 0 < r) (w h : Nat) (hw : 0 < w) (scale : ℝ) (hs : 0 < scale) (center : V2) (p0 : ℝ)
    (ps : List ℝ) :
    let angle := fun r : ℝ => angleToAxis (ray scale center p0 ps
      (scale • center + (r * farRadius w h (scale • center)) • ⟨1, 0⟩))
    (ofPoly solve deg samples w h scale center (p0 :: ps) = .error .exception ↔
      ∃ r₁ ∈ samples, ∃ r₂ ∈ samples, r₁ < r₂ ∧ angle r₂ < angle r₁) ∧
    ((∃ c, ofPoly solve deg samples w h scale center (p0 :: ps) = .ok c) ↔
      ∀ r₁ ∈ samples, ∀ r₂ ∈ samples, r₁ < r₂ → angle r₁ ≤ angle r₂) := by
  intro angle
  obtain ⟨n, hn⟩ : ∃ n : Cam, n = normalize ⟨w, h, p0, ps, center, scale, 0, 0, 0, 0, []⟩ := ⟨_, rfl⟩
  have hang : ∀ r ∈ samples, (graphPoint n r).2 = angle r := by
    intro r hr
    have hr0 := hsam r hr
    obtain ⟨f, hf⟩ : ∃ f, f = farthestCorner w h (scale • center) := ⟨_, rfl⟩
    have hfr : farRadius w h (scale • center) = f := by
      rw [hf]
      unfold farRadius farthestCorner
      simp only [norm2_len]
      rfl
    have hfp : 0 < f := by rw [hf]; exact farthest_pos hw _
    have hs1 : f / scale ≠ 0 := by positivity
    have hnp : normalisedPixel scale center (scale • center + (r * f) • ⟨1, 0⟩) = ⟨r * (f / scale), 0⟩ := by
      unfold normalisedPixel
      ext
      · simp; field_simp; ring
      · simp; field_simp; simp
    have hlen : len ⟨r * (f / scale), 0⟩ = r * (f / scale) := by
      unfold len
      have : 0 ≤ r * (f / scale) := by positivity
      simp [Real.sqrt_sq this]
    have hray : ray scale center p0 ps (scale • center + (r * farRadius w h (scale • center)) • ⟨1, 0⟩)
        = ⟨r * (f / scale), 0, depthPoly p0 ps (r * (f / scale))⟩ := by
      unfold ray
      simp only [hfr, hnp, hlen]
    have hne : ray scale center p0 ps (scale • center + (r * farRadius w h (scale • center)) • ⟨1, 0⟩) ≠ 0 := by
      rw [hray]
      intro h0
      have h1 : r * (f / scale) = 0 := congrArg V3.x h0
      have : 0 < r * (f / scale) := by positivity
      linarith
    simp only [angle]
    rw [← atan2_angle _ hne, hray]
    have e1 : norm2 ⟨r * (f / scale), 0⟩ = f / scale * r := by rw [norm2_len, hlen]; ring
    have e2 : depthPoly p0 ps (r * (f / scale))
        = f / scale * depthPoly (p0 * (1 / (f / scale))) (scaleLoop (f / scale) ps (f / scale)) r := by
      have := depthPoly_scaled hs1 p0 ps (r * (f / scale))
      rw [mul_div_assoc, div_self hs1, mul_one] at this
      rw [this]
      field_simp
    simp only [e1, e2]
    rw [atan2_smul (by positivity)]
    unfold graphPoint
    simp only [calcUnmapPoly_eq]
    rw [hn]
    unfold normalize
    simp only [← hf]
    have e3 : scale / f = 1 / (f / scale) := by field_simp
    rw [e3]
  obtain ⟨sorted, hsorted⟩ : ∃ l, l = samples.mergeSort fun a b => decide (a ≤ b) := ⟨_, rfl⟩
  have hmem : ∀ r, r ∈ sorted ↔ r ∈ samples := by
    intro r; rw [hsorted]; exact (List.mergeSort_perm _ _).mem_iff
  have hpw := sorted_samples samples
  rw [← hsorted] at hpw
  have hchk : nonDecreasing (sorted.map (graphPoint n)) ↔
      ∀ r₁ ∈ samples, ∀ r₂ ∈ samples, r₁ < r₂ → angle r₁ ≤ angle r₂ := by
    rw [nonDecreasing_pairwise, List.pairwise_map]
    constructor
    · intro hp r₁ h1 r₂ h2 hlt
      rw [← hang r₁ h1, ← hang r₂ h2]
      obtain ⟨i, hi, rfl⟩ := List.mem_iff_getElem.1 ((hmem r₁).2 h1)
      obtain ⟨j, hj, rfl⟩ := List.mem_iff_getElem.1 ((hmem r₂).2 h2)
      have hij : i < j := by
        rcases lt_trichotomy i j with hh | hh | hh
        · exact hh
        · subst hh; exact absurd hlt (lt_irrefl _)
        · have := List.pairwise_iff_getElem.1 hpw j i hj hi hh
          linarith
      exact List.pairwise_iff_getElem.1 hp i j hi hj hij
    · intro hall
      refine hpw.imp_of_mem ?_
      intro a b ha hb hab
      rw [hang a ((hmem a).1 ha), hang b ((hmem b).1 hb)]
      rcases lt_or_eq_of_le hab with hh | hh
      · exact hall a ((hmem a).1 ha) b ((hmem b).1 hb) hh
      · rw [hh]
  have hof : ofPoly solve deg samples w h scale center (p0 :: ps) = setMapPolyCoeffs solve deg samples n := by
    rw [hn]; rfl
  rw [hof]
  unfold setMapPolyCoeffs
  simp only
  have hs' : (samples.mergeSort fun a b => @decide (a ≤ b) (Classical.propDecidable _)) = sorted := by
    rw [hsorted]
  rw [hs']
  by_cases hc : nonDecreasing (sorted.map (graphPoint n))
  · rw [if_pos hc]
    have hall := hchk.1 hc
    refine ⟨⟨fun hh => (by cases hh), ?_⟩, ⟨fun _ => hall, fun _ => ⟨_, rfl⟩⟩⟩
    rintro ⟨r₁, h1, r₂, h2, hlt, ha⟩
    exact absurd (hall r₁ h1 r₂ h2 hlt) (not_le.2 ha)
  · rw [if_neg hc]
    refine ⟨⟨fun _ => ?_, fun _ => rfl⟩, ⟨fun hh => ?_, fun hall => absurd (hchk.2 hall) hc⟩⟩
    · by_contra hno
      push Not at hno
      exact hc (hchk.2 fun r₁ h1 r₂ h2 hlt => hno r₁ h1 r₂ h2 hlt)
    · obtain ⟨c, hh⟩ := hh
      cases hh

/-! ## Concrete cases -/

/-- A least-squares solver exists. -/
theorem exists_leastSquares : ∃ solve, IsLeastSquares solve := by
  have key : ∀ (graph : List (ℝ × ℝ)) (deg : Nat), ∃ m : ℝ × List ℝ, m.2.length = deg ∧
      ∀ (m0 : ℝ) (ms : List ℝ), ms.length = deg →
        (graph.map fun g => (poly m.1 m.2 g.2 - g.1) ^ 2).sum
          ≤ (graph.map fun g => (poly m0 ms g.2 - g.1) ^ 2).sum := by
    intro graph deg
    let n := graph.length
    let L : (Fin (deg + 1) → ℝ) →ₗ[ℝ] EuclideanSpace ℝ (Fin n) :=
      { toFun := fun a => WithLp.toLp 2 fun i => a 0 + ∑ k : Fin deg, a k.succ * (graph.get i).2 ^ (k.val + 1)
        map_add' := by
          intro a b
          ext i
          simp only [Pi.add_apply, PiLp.add_apply]
          simp only [add_mul, Finset.sum_add_distrib]
          ring
        map_smul' := by
          intro r a
          ext i
          simp only [Pi.smul_apply, smul_eq_mul, RingHom.id_apply, PiLp.smul_apply]
          rw [mul_add, Finset.mul_sum]
          congr 1
          apply Finset.sum_congr rfl
          intro k _
          ring }
    let b : EuclideanSpace ℝ (Fin n) := WithLp.toLp 2 fun i => (graph.get i).1
    have hcomp : IsComplete ((LinearMap.range L : Submodule ℝ (EuclideanSpace ℝ (Fin n))) : Set (EuclideanSpace ℝ (Fin n))) :=
      (LinearMap.range L).complete_of_finiteDimensional
    obtain ⟨v, hv, hmin⟩ := (LinearMap.range L).exists_norm_eq_iInf_of_complete_subspace hcomp b
    obtain ⟨a, rfl⟩ := hv
    have hval : ∀ (a : Fin (deg + 1) → ℝ), ‖b - L a‖ ^ 2
        = (graph.map fun g => (poly (a 0) (List.ofFn fun k : Fin deg => a k.succ) g.2 - g.1) ^ 2).sum := by
      intro a
      rw [EuclideanSpace.norm_sq_eq]
      have e : (graph.map fun g => (poly (a 0) (List.ofFn fun k : Fin deg => a k.succ) g.2 - g.1) ^ 2).sum
          = ∑ i : Fin n, (poly (a 0) (List.ofFn fun k : Fin deg => a k.succ) (graph.get i).2 - (graph.get i).1) ^ 2 := by
        rw [← List.sum_ofFn]
        congr 1
        apply List.ext_get
        · simp [n]
        · intro i h1 h2
          simp
      rw [e]
      apply Finset.sum_congr rfl
      intro i _
      have hp : poly (a 0) (List.ofFn fun k : Fin deg => a k.succ) (graph.get i).2
          = a 0 + ∑ k : Fin deg, a k.succ * (graph.get i).2 ^ (k.val + 1) := by
        unfold poly
        congr 1
        rw [List.length_ofFn, Finset.sum_range]
        apply Finset.sum_congr rfl
        intro k _
        congr 1
        simp [List.getD_eq_getElem?_getD]
      rw [hp, Real.norm_eq_abs, sq_abs]
      change ((graph.get i).1 - (a 0 + ∑ k : Fin deg, a k.succ * (graph.get i).2 ^ (k.val + 1))) ^ 2 = _
      ring
    refine ⟨(a 0, List.ofFn fun k : Fin deg => a k.succ), by simp, ?_⟩
    intro m0 ms hms
    let a' : Fin (deg + 1) → ℝ := Fin.cons m0 fun k : Fin deg => ms.get (k.cast hms.symm)
    have hms' : ms = List.ofFn fun k : Fin deg => a' k.succ := by
      apply List.ext_get
      · simp [hms]
      · intro i h1 h2
        simp [a']
    have hm0 : m0 = a' 0 := rfl
    have h1 := hval a
    have h2 := hval a'
    rw [← hms', ← hm0] at h2
    simp only
    rw [← h1, ← h2]
    have hle : ‖b - L a‖ ≤ ‖b - L a'‖ := by
      rw [hmin]
      exact ciInf_le ⟨0, by rintro _ ⟨w, rfl⟩; exact norm_nonneg _⟩
        (⟨L a', LinearMap.mem_range_self L a'⟩ : LinearMap.range L)
    exact pow_le_pow_left₀ (norm_nonneg _) hle 2
  choose f hf using key
  exact ⟨f, hf⟩

/-- Every angle is at least as large as the one before if there is only one. -/
theorem ofPoly_one (solve : List (ℝ × ℝ) → Nat → ℝ × List ℝ) (deg : Nat) (r : ℝ) (w h : Nat) (scale : ℝ)
    (center : V2) (p0 : ℝ) (ps : List ℝ) : ∃ c, ofPoly solve deg [r] w h scale center (p0 :: ps) = .ok c := by
  unfold ofPoly setMapPolyCoeffs
  simp only
  rw [if_pos (by rw [List.mergeSort_singleton]; trivial)]
  exact ⟨_, rfl⟩

/-- C38 and C39 apply to a camera with four coefficients on a picture of 640 by 480. -/
example : ∃ solve c, IsLeastSquares solve ∧
    ofPoly solve 10 [1 / 2] 640 480 300 ⟨1, 4 / 5⟩ [1, -1 / 5, 1 / 10, 1 / 50] = .ok c ∧
    distance (map c (unmap c (c.scale • ((1 / 2 : ℝ) • (⟨3 / 5, 4 / 5⟩ : V2) + c.center))))
        (c.scale • ((1 / 2 : ℝ) • (⟨3 / 5, 4 / 5⟩ : V2) + c.center)) ^ 2
      ≤ (c.scale * (poly 0 (List.replicate 10 0)
        (angleToAxis (unmap c (c.scale • ((1 / 2 : ℝ) • (⟨3 / 5, 4 / 5⟩ : V2) + c.center)))) - 1 / 2)) ^ 2 ∧
    ∃ k : ℝ, 0 < k ∧ ∀ p, unmap c p = k • ray 300 ⟨1, 4 / 5⟩ 1 [-1 / 5, 1 / 10, 1 / 50] p := by
  obtain ⟨solve, hs⟩ := exists_leastSquares
  obtain ⟨c, hc⟩ := ofPoly_one solve 10 (1 / 2) 640 480 300 ⟨1, 4 / 5⟩ 1 [-1 / 5, 1 / 10, 1 / 50]
  refine ⟨solve, c, hs, hc, ?_, C39_rays (by norm_num) (by norm_num) hc⟩
  have := C38_best_fit hs (by intro r hr; simp at hr; rw [hr]; norm_num) (by norm_num) hc ⟨3 / 5, 4 / 5⟩
    (by unfold len; norm_num) 0 (List.replicate 10 0) (by simp)
  simpa using this

/-- C73 applies to a polynomial that makes the rays turn back towards the axis. -/
example (solve : List (ℝ × ℝ) → Nat → ℝ × List ℝ) :
    ofPoly solve 10 [1 / 4, 3 / 4] 3 4 5 ⟨0, 0⟩ [-1, 4] = .error .exception := by
  refine ((C73_rejects_iff solve 10 [1 / 4, 3 / 4] (by
    intro r hr; simp at hr; rcases hr with h | h <;> rw [h] <;> norm_num) 3 4 (by norm_num) 5 (by norm_num) ⟨0, 0⟩
    (-1) [4]).1).2 ⟨1 / 4, by simp, 3 / 4, by simp, by norm_num, ?_⟩
  have hd : ∀ a b c : ℝ, 0 ≤ c → a ^ 2 + b ^ 2 = c ^ 2 → distance ⟨a, b⟩ ((5 : ℝ) • ⟨0, 0⟩) = c := by
    intro a b c hc h
    unfold distance
    simp only [smul_x, smul_y, mul_zero, sub_zero]
    rw [h, Real.sqrt_sq hc]
  have hf : farRadius 3 4 ((5 : ℝ) • ⟨0, 0⟩) = 5 := by
    unfold farRadius
    push_cast
    rw [hd 0 0 0 (by norm_num) (by norm_num), hd 3 0 3 (by norm_num) (by norm_num),
      hd 0 4 4 (by norm_num) (by norm_num), hd 3 4 5 (by norm_num) (by norm_num)]
    norm_num
  have hr : ∀ r : ℝ, 0 ≤ r → ray 5 ⟨0, 0⟩ (-1) [4] ((5 : ℝ) • ⟨0, 0⟩ + (r * 5) • ⟨1, 0⟩) = ⟨r, 0, -1 + 4 * r ^ 2⟩ := by
    intro r h0
    have hn : normalisedPixel 5 ⟨0, 0⟩ ((5 : ℝ) • ⟨0, 0⟩ + (r * 5) • ⟨1, 0⟩) = ⟨r, 0⟩ := by
      unfold normalisedPixel; ext <;> simp
    have hl : len ⟨r, 0⟩ = r := by unfold len; simp [Real.sqrt_sq h0]
    unfold ray
    simp only [hn, hl]
    simp [depthPoly]
  rw [hf]
  beta_reduce
  rw [hr _ (by norm_num), hr _ (by norm_num)]
  unfold angleToAxis
  have h1 : Real.arccos ((-1 + 4 * (3 / 4) ^ 2) / Real.sqrt ((3 / 4) ^ 2 + 0 ^ 2 + (-1 + 4 * (3 / 4) ^ 2) ^ 2))
      ≤ Real.pi / 2 := by
    rw [Real.arccos_le_pi_div_two]
    apply div_nonneg (by norm_num) (Real.sqrt_nonneg _)
  have h2 : Real.pi / 2 < Real.arccos ((-1 + 4 * (1 / 4) ^ 2)
      / Real.sqrt ((1 / 4) ^ 2 + 0 ^ 2 + (-1 + 4 * (1 / 4) ^ 2) ^ 2)) := by
    by_contra hc
    have := (Real.arccos_le_pi_div_two).1 (not_lt.1 hc)
    have hneg : (-1 + 4 * (1 / 4 : ℝ) ^ 2)
      / Real.sqrt ((1 / 4) ^ 2 + 0 ^ 2 + (-1 + 4 * (1 / 4) ^ 2) ^ 2) < 0 :=
      div_neg_of_neg_of_pos (by norm_num) (Real.sqrt_pos.2 (by norm_num))
    linarith
  exact lt_of_le_of_lt h1 h2

/-- C41 applies with a border of three pixels. -/
example (c : Cam) (hw : c.width = 640) (hh : c.height = 480) :
    Util.truncInt ((637 : ℝ) + 2) < c.width :=
  (C41_index_partial c ⟨637, 477⟩ ⟨2, -2⟩ 3 (by
    unfold isOnImage; rw [hw, hh]; norm_num) (by norm_num [abs_lt]) (by norm_num [abs_lt])).2.1

/-- C71 applies to a camera that maps everything to the image center. -/
example : ∃ res, undistort ⟨4, 3, 1, [], ⟨1, 1⟩, 1, 1, 0, 0, 0, []⟩ ⟨3, 4, fun y x => 10 * y + x⟩
      ⟨⟨1, 0, 0⟩, ⟨0, 1, 0⟩, ⟨0, 0, 1⟩⟩ = .ok res ∧ res.px 2 3 = 11 := by
  have hm : ∀ v, map ⟨4, 3, 1, [], ⟨1, 1⟩, 1, 1, 0, 0, 0, []⟩ v = ⟨1, 1⟩ := by
    intro v; rw [map_eq]; ext <;> simp [poly]
  obtain ⟨res, h1, -, -, h4⟩ := C71_undistort ⟨4, 3, 1, [], ⟨1, 1⟩, 1, 1, 0, 0, 0, []⟩
    ⟨3, 4, fun y x => 10 * y + x⟩ ⟨⟨1, 0, 0⟩, ⟨0, 1, 0⟩, ⟨0, 0, 1⟩⟩ (by
      intro y x _ _; rw [hm]; norm_num)
  refine ⟨res, h1, ?_⟩
  have ht : Util.truncInt 1 = 1 := by unfold Util.truncInt; rw [if_pos (by norm_num)]; norm_num
  have := (h4 2 3 (by norm_num) (by norm_num)).1 1 1 (by norm_num) (by norm_num)
  rw [hm] at this
  exact this ht ht

/-- C72 applies to a file with three coefficients. -/
example : Describes [.int 1, .real 2, .real 3, .int 3, .real 5, .int 0, .real 7] 1 ⟨2, 3⟩ [5, 0, 7] ∧
    Tok.bad ∉ [Tok.int 1, .real 2, .real 3, .int 3, .real 5, .int 0, .real 7] :=
  ⟨⟨.int 1, .real 2, .real 3, [.real 5, .int 0, .real 7], [], rfl, by simp [Tok.val], rfl, rfl,
    by simp [Tok.val]⟩, by simp⟩

end Mdso.Cam
