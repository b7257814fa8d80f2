import Verif.Spec.TriUnit
import Verif.Props.InitUnit

/-!
# Triangulations in other coordinates (C190)
-/

set_option autoImplicit false

namespace Mdso.Tri

open Mdso.Geom Mdso.Tri.Spec

/-! ## The predicates -/

theorem sameSide_recoord {σ : ℝ} (hσ : 0 < σ) (t a b p q : V2) :
    isSameSide (recoord σ t a) (recoord σ t b) (recoord σ t p) (recoord σ t q) ↔ isSameSide a b p q := by
  unfold isSameSide cross2 recoord
  simp only [sub_x, sub_y, ge_iff_le]
  have e : ((σ * b.x + t.x - (σ * a.x + t.x)) * (σ * p.y + t.y - (σ * a.y + t.y)) - (σ * b.y + t.y - (σ * a.y + t.y)) * (σ * p.x + t.x - (σ * a.x + t.x))) *
      ((σ * b.x + t.x - (σ * a.x + t.x)) * (σ * q.y + t.y - (σ * a.y + t.y)) - (σ * b.y + t.y - (σ * a.y + t.y)) * (σ * q.x + t.x - (σ * a.x + t.x))) =
      σ ^ 4 * (((b.x - a.x) * (p.y - a.y) - (b.y - a.y) * (p.x - a.x)) * ((b.x - a.x) * (q.y - a.y) - (b.y - a.y) * (q.x - a.x))) := by ring
  rw [e]
  exact mul_nonneg_iff_of_pos_left (by positivity)

theorem inside_recoord {σ : ℝ} (hσ : 0 < σ) (t a b c p : V2) :
    isInsideTriangle (recoord σ t a) (recoord σ t b) (recoord σ t c) (recoord σ t p) ↔ isInsideTriangle a b c p := by
  unfold isInsideTriangle
  simp only [sameSide_recoord hσ]

theorem convex_recoord {σ : ℝ} (hσ : 0 < σ) (t a b c d : V2) :
    isABCDConvex (recoord σ t a) (recoord σ t b) (recoord σ t c) (recoord σ t d) ↔ isABCDConvex a b c d := by
  unfold isABCDConvex
  simp only [sameSide_recoord hσ]

theorem delaunay_recoord {σ : ℝ} (hσ : 0 < σ) (t a b c d : V2) :
    isABDelaunay (recoord σ t a) (recoord σ t b) (recoord σ t c) (recoord σ t d) ↔ isABDelaunay a b c d := by
  unfold isABDelaunay cross2 recoord sqNorm
  simp only [sub_x, sub_y]
  obtain ⟨D, hD⟩ : ∃ D, D = ((a.x - d.x) * ((b.y - d.y) * ((c.x - d.x) * (c.x - d.x) + (c.y - d.y) * (c.y - d.y)) - ((b.x - d.x) * (b.x - d.x) + (b.y - d.y) * (b.y - d.y)) * (c.y - d.y))
    - (a.y - d.y) * ((b.x - d.x) * ((c.x - d.x) * (c.x - d.x) + (c.y - d.y) * (c.y - d.y)) - ((b.x - d.x) * (b.x - d.x) + (b.y - d.y) * (b.y - d.y)) * (c.x - d.x))
    + ((a.x - d.x) * (a.x - d.x) + (a.y - d.y) * (a.y - d.y)) * ((b.x - d.x) * (c.y - d.y) - (b.y - d.y) * (c.x - d.x))) *
      ((b.x - a.x) * (c.y - b.y) - (b.y - a.y) * (c.x - b.x)) := ⟨_, rfl⟩
  rw [← hD]
  have key : σ ^ 6 * D ≤ 0 ↔ D ≤ 0 := by
    have := mul_nonneg_iff_of_pos_left (b := -D) (show (0 : ℝ) < σ ^ 6 by positivity)
    constructor <;> intro h
    · linarith [this.1 (by linarith)]
    · linarith [this.2 (by linarith)]
  rw [← key, hD]
  apply iff_of_eq
  congr 1
  ring

theorem equal_recoord {σ : ℝ} (hσ : 0 < σ) (t a b : V2) (eps : ℝ) : areEqual (recoord σ t a) (recoord σ t b) (σ * eps) ↔ areEqual a b eps := by
  unfold areEqual sqNorm recoord
  simp only [sub_x, sub_y]
  have e1 : (σ * a.x + t.x - (σ * b.x + t.x)) * (σ * a.x + t.x - (σ * b.x + t.x)) + (σ * a.y + t.y - (σ * b.y + t.y)) * (σ * a.y + t.y - (σ * b.y + t.y)) =
      σ ^ 2 * ((a.x - b.x) * (a.x - b.x) + (a.y - b.y) * (a.y - b.y)) := by ring
  have e2 : σ * eps * (σ * eps) = σ ^ 2 * (eps * eps) := by ring
  rw [e1, e2]
  exact mul_lt_mul_iff_right₀ (by positivity)

theorem contain_recoord {σ : ℝ} (hσ : 0 < σ) (t a b p : V2) (eps : ℝ) :
    doesABcontain (recoord σ t a) (recoord σ t b) (recoord σ t p) (σ * eps) ↔ doesABcontain a b p eps := by
  have hx : (recoord σ t b - recoord σ t a).x = σ * (b - a).x := by unfold recoord; simp only [sub_x]; ring
  have hy : (recoord σ t b - recoord σ t a).y = σ * (b - a).y := by unfold recoord; simp only [sub_y]; ring
  have px : (recoord σ t p - recoord σ t a).x = σ * (p - a).x := by unfold recoord; simp only [sub_x]; ring
  have py : (recoord σ t p - recoord σ t a).y = σ * (p - a).y := by unfold recoord; simp only [sub_y]; ring
  have hn : Real.sqrt (sqNorm (recoord σ t b - recoord σ t a)) = σ * Real.sqrt (sqNorm (b - a)) := by
    have : sqNorm (recoord σ t b - recoord σ t a) = σ ^ 2 * sqNorm (b - a) := by
      unfold sqNorm
      rw [hx, hy]
      ring
    rw [this, Real.sqrt_mul (by positivity), Real.sqrt_sq hσ.le]
  unfold doesABcontain dot
  dsimp only
  rw [hn, hx, hy, px, py]
  obtain ⟨n, hnn⟩ : ∃ n, n = Real.sqrt (sqNorm (b - a)) := ⟨_, rfl⟩
  rw [← hnn]
  simp only [mul_div_mul_left _ _ hσ.ne']
  have a1 : σ * (p - a).x * ((b - a).y / n) + σ * (p - a).y * -((b - a).x / n) = σ * ((p - a).x * ((b - a).y / n) + (p - a).y * -((b - a).x / n)) := by ring
  have a2 : (b - a).x / n * (σ * (p - a).x) + (b - a).y / n * (σ * (p - a).y) = σ * ((b - a).x / n * (p - a).x + (b - a).y / n * (p - a).y) := by ring
  have a3 : -(σ * eps) = σ * -eps := by ring
  have a4 : σ * n + σ * eps = σ * (n + eps) := by ring
  rw [a1, a2, a3, a4, abs_mul, abs_of_pos hσ, ge_iff_le, ge_iff_le, mul_lt_mul_iff_right₀ hσ, mul_le_mul_iff_right₀ hσ, mul_le_mul_iff_right₀ hσ]
  simp only [ne_eq, mul_eq_zero, hσ.ne', false_or]

/-! ## Positions -/

open Classical in
theorem lowest_fold (g : V2 → ℝ) {σ c : ℝ} (hσ : 0 < σ) (f : V2 → V2) (hg : ∀ p, g (f p) = σ * g p + c) : ∀ (ps : List V2) (lo : ℝ),
    (ps.map f).foldl (fun lo q => if g q < lo then g q else lo) (σ * lo + c) = σ * ps.foldl (fun lo q => if g q < lo then g q else lo) lo + c
  | [], _ => rfl
  | p :: ps, lo => by
    rw [List.map_cons, List.foldl_cons, List.foldl_cons, hg]
    by_cases h : g p < lo
    · rw [if_pos h, if_pos (by linarith [(mul_lt_mul_iff_right₀ hσ).2 h])]
      exact lowest_fold g hσ f hg ps _
    · rw [if_neg h, if_neg (by linarith [(mul_le_mul_iff_right₀ hσ).2 (not_lt.1 h)])]
      exact lowest_fold g hσ f hg ps _

open Classical in
theorem highest_fold (g : V2 → ℝ) {σ c : ℝ} (hσ : 0 < σ) (f : V2 → V2) (hg : ∀ p, g (f p) = σ * g p + c) : ∀ (ps : List V2) (hi : ℝ),
    (ps.map f).foldl (fun hi q => if g q > hi then g q else hi) (σ * hi + c) = σ * ps.foldl (fun hi q => if g q > hi then g q else hi) hi + c
  | [], _ => rfl
  | p :: ps, hi => by
    rw [List.map_cons, List.foldl_cons, List.foldl_cons, hg]
    by_cases h : g p > hi
    · rw [if_pos h, if_pos (by linarith [(mul_lt_mul_iff_right₀ hσ).2 h])]
      exact highest_fold g hσ f hg ps _
    · rw [if_neg h, if_neg (by linarith [(mul_le_mul_iff_right₀ hσ).2 (not_lt.1 h)])]
      exact highest_fold g hσ f hg ps _

theorem lowest_recoord (g : V2 → ℝ) {σ c : ℝ} (hσ : 0 < σ) (f : V2 → V2) (hg : ∀ p, g (f p) = σ * g p + c) {ps : List V2} (h : ps ≠ []) :
    lowest g (ps.map f) = σ * lowest g ps + c := by
  cases ps with
  | nil => exact absurd rfl h
  | cons p ps =>
    rw [List.map_cons, lowest, lowest, hg]
    exact lowest_fold g hσ f hg ps _

theorem highest_recoord (g : V2 → ℝ) {σ c : ℝ} (hσ : 0 < σ) (f : V2 → V2) (hg : ∀ p, g (f p) = σ * g p + c) {ps : List V2} (h : ps ≠ []) :
    highest g (ps.map f) = σ * highest g ps + c := by
  cases ps with
  | nil => exact absurd rfl h
  | cons p ps =>
    rw [List.map_cons, highest, highest, hg]
    exact highest_fold g hσ f hg ps _

theorem maxDim_recoord {σ : ℝ} (hσ : 0 < σ) (t : V2) (ps : List V2) : maxDim (ps.map (recoord σ t)) = σ * maxDim ps := by
  by_cases h : ps = []
  · rw [h]
    simp [maxDim, highest, lowest]
  · unfold maxDim
    rw [lowest_recoord V2.x hσ _ (fun _ => rfl) h, lowest_recoord V2.y hσ _ (fun _ => rfl) h, highest_recoord V2.x hσ _ (fun _ => rfl) h,
      highest_recoord V2.y hσ _ (fun _ => rfl) h, mul_max_of_nonneg _ _ hσ.le]
    congr 1 <;> ring

theorem bounding_recoord {σ : ℝ} (hσ : 0 < σ) (t : V2) {ps : List V2} (h : ps ≠ []) (i : Nat) :
    boundingPos (ps.map (recoord σ t)) i = recoord σ t (boundingPos ps i) := by
  unfold boundingPos
  dsimp only
  rw [maxDim_recoord hσ, lowest_recoord V2.x hσ _ (fun _ => rfl) h, lowest_recoord V2.y hσ _ (fun _ => rfl) h]
  split
  · unfold recoord; ext <;> dsimp only <;> ring
  · split <;> (unfold recoord; ext <;> dsimp only <;> ring)

theorem position_recoord {σ : ℝ} (hσ : 0 < σ) (t : V2) {ps : List V2} (h : ps ≠ []) (order : List Nat) (v : Nat) :
    position (ps.map (recoord σ t)) order v = recoord σ t (position ps order v) := by
  unfold position
  rw [bounding_recoord hσ t h, bounding_recoord hσ t h]
  split
  · rfl
  · cases order[v - 3]? with
    | none => rfl
    | some k =>
      simp only [List.getD, List.getElem?_map]
      cases ps[k]? <;> rfl

theorem query_recoord {σ : ℝ} (hσ : 0 < σ) (t : V2) (pos : Nat → V2) (eps : ℝ) (q : V2) :
    queryAt (fun v => recoord σ t (pos v)) (σ * eps) (recoord σ t q) = queryAt pos eps q := by
  unfold queryAt
  congr 1
  · exact decide_eq_decide.2 (inside_recoord hσ ..)
  · funext a b; exact decide_eq_decide.2 (contain_recoord hσ ..)
  · funext a b c; exact decide_eq_decide.2 (inside_recoord hσ ..)
  · funext a b c; exact decide_eq_decide.2 (sameSide_recoord hσ ..)

theorem preds_recoord {σ : ℝ} (hσ : 0 < σ) (t : V2) (pos : Nat → V2) (eps eps' : ℝ) :
    predsAt (fun v => recoord σ t (pos v)) (σ * eps) (σ * eps') = predsAt pos eps eps' := by
  unfold predsAt
  congr 1
  · funext a b c d; exact decide_eq_decide.2 (convex_recoord hσ ..)
  · funext a b c d; exact decide_eq_decide.2 (delaunay_recoord hσ ..)
  · funext a b; exact decide_eq_decide.2 (equal_recoord hσ ..)
  · funext v; exact query_recoord hσ ..

/-- **C190, triangulations.** Points in other coordinates, with another origin and another unit, have the same triangulation: the same vertices, edges and
triangles with the same numbers, made in the same order, or the same failure. -/
theorem C190_triangulation {σ : ℝ} (hσ : 0 < σ) (t : V2) (env : Env) (s : Settings) (points : List V2) (order : List Nat) (fuel : Nat) :
    triangulate env s (points.map (recoord σ t)) order fuel = triangulate env s points order fuel := by
  by_cases h : points = []
  · rw [h]; rfl
  · unfold triangulate
    rw [maxDim_recoord hσ, show position (points.map (recoord σ t)) order = fun v => recoord σ t (position points order v) from
      funext (position_recoord hσ t h order), mul_left_comm, mul_left_comm s.epsSamePoints, preds_recoord hσ]

/-- **C190, lookups.** Looking up a point in other coordinates finds the same triangle. -/
theorem C190_lookup {σ : ℝ} (hσ : 0 < σ) (t : V2) (env env' : Env) (unmap unmap' : V2 → V3) (s : Settings) {points : List V2} (hne : points ≠ [])
    (depths : List ℝ) (order : List Nat) (fuel : Nat) {T : Terrain} (h : newTerrain env unmap s points depths order fuel = .ok (some T)) :
    ∃ T', newTerrain env unmap' s (points.map (recoord σ t)) depths order fuel = .ok (some T') ∧ T'.triang = T.triang ∧
      ∀ (p : V2) (coin : Nat → Bool) (fuel' : Nat), T'.enclosing env' (recoord σ t p) coin fuel' = T.enclosing env' p coin fuel' ∧
        hasInterpolatedDepth env' T' (recoord σ t p) coin fuel' = hasInterpolatedDepth env' T p coin fuel' := by
  obtain ⟨⟨l, ht⟩, hlen, hs, hp, ho, -⟩ := newTerrain_spec h
  have hT : newTerrain env unmap' s (points.map (recoord σ t)) depths order fuel =
      .ok (some ⟨s, points.map (recoord σ t), order, T.triang, ((points.map (recoord σ t)).zip depths).map fun pd => pd.2 • (unmap' pd.1).normalized⟩) := by
    unfold newTerrain
    rw [C190_triangulation hσ, ht]
    dsimp only
    rw [if_neg (by rw [List.length_map]; simpa using hlen)]
  refine ⟨_, hT, rfl, fun p coin fuel' => ?_⟩
  have he : ∀ r, Terrain.enclosing env' ⟨s, points.map (recoord σ t), order, T.triang, r⟩ (recoord σ t p) coin fuel' = T.enclosing env' p coin fuel' := by
    intro r
    unfold Terrain.enclosing Terrain.pos
    dsimp only
    rw [maxDim_recoord hσ, show position (points.map (recoord σ t)) order = fun v => recoord σ t (position points order v) from
      funext (position_recoord hσ t hne order), mul_left_comm, query_recoord hσ, hs, hp, ho]
  refine ⟨he _, ?_⟩
  unfold hasInterpolatedDepth
  rw [he]

/-- Interpolation does not depend on the coordinates. -/
theorem interpolates_recoord {σ : ℝ} (hσ : 0 < σ) (t : V2) {a b c p : V2} {d0 d1 d2 r : ℝ}
    (h : Interpolates (recoord σ t a) (recoord σ t b) (recoord σ t c) d0 d1 d2 (recoord σ t p) r) : Interpolates a b c d0 d1 d2 p r := by
  obtain ⟨x, y, z, hs, hp, hr⟩ := h
  refine ⟨x, y, z, hs, ?_, hr⟩
  have hx := congrArg V2.x hp
  have hy := congrArg V2.y hp
  simp only [recoord, add_x, add_y, smul_x, smul_y] at hx hy
  have e : x = 1 - y - z := by linarith
  ext
  · simp only [add_x, smul_x]
    refine mul_left_cancel₀ hσ.ne' ?_
    subst e
    linear_combination hx
  · simp only [add_y, smul_y]
    refine mul_left_cancel₀ hσ.ne' ?_
    subst e
    linear_combination hy

theorem sqNorm_recoord (σ : ℝ) (t a b : V2) : sqNorm (recoord σ t a - recoord σ t b) = σ ^ 2 * sqNorm (a - b) := by
  unfold sqNorm recoord
  simp only [sub_x, sub_y]
  ring

/-- General position does not depend on the coordinates. -/
theorem general_recoord {σ : ℝ} (hσ : 0 < σ) (t : V2) {s : Settings} {points : List V2} (hG : GeneralPosition s points) :
    GeneralPosition s (points.map (recoord σ t)) := by
  have hne : points ≠ [] := by
    rintro rfl
    have := hG.dim
    simp [maxDim, highest, lowest] at this
  have hs : sites (points.map (recoord σ t)) = (sites points).map (recoord σ t) := by
    unfold sites
    rw [List.map_append, bounding_recoord hσ t hne, bounding_recoord hσ t hne, bounding_recoord hσ t hne]
    rfl
  have hg : ∀ (i : Nat) (p : V2), ((sites points).map (recoord σ t))[i]? = some p → ∃ q, (sites points)[i]? = some q ∧ p = recoord σ t q := by
    intro i p h
    rw [List.getElem?_map] at h
    obtain ⟨q, hq, e⟩ := Option.map_eq_some_iff.1 h
    exact ⟨q, hq, e.symm⟩
  refine ⟨hG.eps, ?_, ?_, ?_⟩
  · rw [maxDim_recoord hσ]
    exact mul_pos hσ hG.dim
  · intro i j p q hij hp hq
    rw [hs] at hp hq
    obtain ⟨p, hp', rfl⟩ := hg i p hp
    obtain ⟨q, hq', rfl⟩ := hg j q hq
    rw [maxDim_recoord hσ, sqNorm_recoord, mul_left_comm, mul_pow]
    exact mul_le_mul_of_nonneg_left (hG.equal i j p q hij hp' hq') (by positivity)
  · intro i j k p q r hij hik hjk hp hq hr l l0 l1
    rw [hs] at hp hq hr
    obtain ⟨p, hp', rfl⟩ := hg i p hp
    obtain ⟨q, hq', rfl⟩ := hg j q hq
    obtain ⟨r, hr', rfl⟩ := hg k r hr
    have e : recoord σ t p + l • (recoord σ t q - recoord σ t p) = recoord σ t (p + l • (q - p)) := by
      unfold recoord
      ext
      · simp only [add_x, smul_x, sub_x]; ring
      · simp only [add_y, smul_y, sub_y]; ring
    rw [maxDim_recoord hσ, e, sqNorm_recoord, mul_left_comm s.epsPointIsOnSegment, mul_pow, mul_left_comm]
    exact mul_le_mul_of_nonneg_left (hG.segment i j k p q r hij hik hjk hp' hq' hr' l l0 l1) (by positivity)

/-- **C190, terrains.** A terrain of points in general position reports the same depths in other coordinates. -/
theorem C190_terrain {L : Linear} (hL : Exact L) {σ : ℝ} (hσ : 0 < σ) (t : V2) {env env' : Env} (henv : Lawful env) (henv' : Lawful env')
    {unmap unmap' : V2 → V3} {s : Settings} {points : List V2} {depths : List ℝ} {order : List Nat} {fuel : Nat}
    (ho : Shuffle points.length order) (hG : GeneralPosition s points) (hu : ∀ p ∈ points, unmap p ≠ 0)
    (hu' : ∀ p ∈ points, unmap' (recoord σ t p) ≠ 0) {T : Terrain}
    (h : newTerrain env unmap s points depths order fuel = .ok (some T)) :
    ∃ T', newTerrain env unmap' s (points.map (recoord σ t)) depths order fuel = .ok (some T') ∧
      ∀ (p : V2) (coin : Nat → Bool) (fuel' : Nat), T'.depthAt L env' (recoord σ t p) coin fuel' = T.depthAt L env' p coin fuel' := by
  have hne : points ≠ [] := by
    rintro rfl
    have := hG.dim
    simp [maxDim, highest, lowest] at this
  obtain ⟨T', h', htri, hl⟩ := C190_lookup hσ t env env' unmap unmap' s hne depths order fuel h
  refine ⟨T', h', fun p coin fuel' => ?_⟩
  have hu2 : ∀ q ∈ points.map (recoord σ t), unmap' q ≠ 0 := by
    intro q hq
    obtain ⟨p, hp, rfl⟩ := List.mem_map.1 hq
    exact hu' p hp
  have ho' : Shuffle (points.map (recoord σ t)).length order := by rw [List.length_map]; exact ho
  obtain ⟨r, e, -, g1, g2, g3⟩ := depthAt_spec hL henv henv' ho hG hu h p coin fuel'
  obtain ⟨r', e', -, g1', g2', g3'⟩ := depthAt_spec hL henv henv' ho' (general_recoord hσ t hG) hu2 h' (recoord σ t p) coin fuel'
  have er : r' = r := by
    rw [(hl p coin fuel').1, e] at e'
    exact (Except.ok.inj e').symm
  subst er
  match r', g1, g2, g3, g1', g2', g3' with
  | none, g1, _, _, g1', _, _ => rw [g1 rfl, g1' rfl]
  | some none, _, g2, _, _, g2', _ => rw [g2 rfl, g2' rfl]
  | some (some k), _, _, g3, _, _, g3' =>
    obtain ⟨-, -, ⟨n1, h1⟩ | ⟨hk, i, a, d, res, h1, ha, h3, h4⟩⟩ := g3 k rfl
    · obtain ⟨-, -, ⟨-, h1'⟩ | ⟨hk', -⟩⟩ := g3' k rfl
      · rw [h1, h1']
      · exact absurd (htri ▸ hk') n1
    · obtain ⟨-, -, ⟨n1, -⟩ | ⟨-, i', a', d', res', h1', ha', h3', h4'⟩⟩ := g3' k rfl
      · exact absurd (htri ▸ hk) n1
      · have aa : ∀ j, a' j = recoord σ t (a j) := by
          intro j
          rw [(h1' j).2.2.2, htri, position_recoord hσ t hne, ← (h1 j).2.2.2]
        have ii : ∀ j, i' j = i j := by
          intro j
          obtain ⟨⟨l, ht⟩, -, -⟩ := newTerrain_spec h
          have hg : get T.triang (i' j) = get T.triang (i j) := by
            have x1 := (h1' j).1
            rw [htri] at x1
            exact x1.trans ((h1 j).1).symm
          obtain ⟨r2, hr2, -, g⟩ := triangulate_general henv ho hG fuel
          have ht' := ht
          rw [hr2] at ht'
          obtain ⟨-, -, hv, -⟩ := g _ l (Except.ok.inj ht')
          have b1 := (List.getElem?_eq_some_iff.1 (h1' j).2.1).1
          rw [List.length_map] at b1
          exact get_inj ho ht hv b1 (List.getElem?_eq_some_iff.1 (h1 j).2.1).1 hg
        have dd : ∀ j, d' j = d j := by
          intro j
          have e1 := (h1' j).2.2.1
          rw [ii j, (h1 j).2.2.1] at e1
          exact (Option.some.inj e1).symm
        rw [aa, aa, aa, dd, dd, dd] at h3'
        have h5 := interpolates_recoord hσ t h3'
        rw [h4, h4']
        have := interpolates_unique ha (σ := 1) h3 (by simpa using h5)
        rw [this, one_mul]

/-- The hypotheses of `C190_terrain` and `C190_lookup` are met: four points, moved and in half the unit, and a pixel between them. -/
example {L : Linear} (hL : Exact L) : ∃ T T' d,
    newTerrain demoEnv (fun _ => axis) defaultSettings (quadPoints.map Q2.real) [1, 2, 3, 4] [0, 1, 2, 3] 100 = .ok (some T) ∧
    newTerrain demoEnv (fun _ => axis) defaultSettings ((quadPoints.map Q2.real).map (recoord 2 ⟨-7, 3⟩)) [1, 2, 3, 4] [0, 1, 2, 3] 100 = .ok (some T') ∧
    T.depthAt L demoEnv quadCentre.real (fun _ => true) 100 = .ok (some (some d)) ∧
    T'.depthAt L demoEnv (recoord 2 ⟨-7, 3⟩ quadCentre.real) (fun _ => true) 100 = .ok (some (some d)) := by
  obtain ⟨T, d, h, -, hd⟩ := quad_terrain hL [0, 1, 2, 3] (by decide) (by decide +kernel)
  have ho : Shuffle (quadPoints.map Q2.real).length [0, 1, 2, 3] := by show [0, 1, 2, 3].Perm [0, 1, 2, 3]; decide
  obtain ⟨T', h', e⟩ := C190_terrain (σ := 2) (t := ⟨-7, 3⟩) (unmap' := fun _ => axis) hL (by norm_num) demoEnv_lawful demoEnv_lawful ho quad_general
    (fun _ _ => Init.axis_ne) (fun _ _ => Init.axis_ne) h
  exact ⟨T, T', d, h, h', hd, (e _ _ _).trans hd⟩

end Mdso.Tri
