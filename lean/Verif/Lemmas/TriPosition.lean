import Verif.Lemmas.TriGeom
import Mathlib.Tactic.FieldSimp
import Mathlib.Tactic.GCongr
import Mathlib.Topology.Order.Basic
import Mathlib.Topology.Instances.Real.Lemmas
import Mathlib.Order.Filter.Finite
import Mathlib.Topology.Order.DenselyOrdered

/-!
# Points in general position
-/

set_option autoImplicit false

namespace Mdso.Tri

open Mdso.Geom Mdso.Tri.Spec

theorem getD_lt {α : Type} {l : List α} {i : Nat} {d : α} (h : i < l.length) : l.getD i d = l[i] := by
  simp [List.getD, h]

/-! ### The bounding triangle -/

theorem lowest_le (f : V2 → ℝ) (points : List V2) : ∀ p ∈ points, lowest f points ≤ f p := by
  have key : ∀ (ps : List V2) (lo : ℝ), ps.foldl (fun lo q => if f q < lo then f q else lo) lo ≤ lo ∧
      ∀ p ∈ ps, ps.foldl (fun lo q => if f q < lo then f q else lo) lo ≤ f p := by
    intro ps
    induction ps with
    | nil => intro lo; simp
    | cons p ps ih =>
      intro lo
      rw [List.foldl_cons]
      obtain ⟨h1, h2⟩ := ih (if f p < lo then f p else lo)
      have h3 : (if f p < lo then f p else lo) ≤ lo ∧ (if f p < lo then f p else lo) ≤ f p := by
        split
        · rename_i h; exact ⟨h.le, le_refl _⟩
        · rename_i h; exact ⟨le_refl _, not_lt.1 h⟩
      refine ⟨h1.trans h3.1, ?_⟩
      intro q hq
      rcases List.mem_cons.1 hq with rfl | hq
      · exact h1.trans h3.2
      · exact h2 q hq
  intro p hp
  cases points with
  | nil => simp at hp
  | cons q qs =>
    unfold lowest
    rcases List.mem_cons.1 hp with rfl | hp
    · exact (key qs _).1
    · exact (key qs _).2 p hp

theorem le_highest (f : V2 → ℝ) (points : List V2) : ∀ p ∈ points, f p ≤ highest f points := by
  have key : ∀ (ps : List V2) (hi : ℝ), hi ≤ ps.foldl (fun hi q => if f q > hi then f q else hi) hi ∧
      ∀ p ∈ ps, f p ≤ ps.foldl (fun hi q => if f q > hi then f q else hi) hi := by
    intro ps
    induction ps with
    | nil => intro hi; simp
    | cons p ps ih =>
      intro hi
      rw [List.foldl_cons]
      obtain ⟨h1, h2⟩ := ih (if f p > hi then f p else hi)
      have h3 : hi ≤ (if f p > hi then f p else hi) ∧ f p ≤ (if f p > hi then f p else hi) := by
        split
        · rename_i h; exact ⟨le_of_lt h, le_refl _⟩
        · rename_i h; exact ⟨le_refl _, not_lt.1 h⟩
      refine ⟨h3.1.trans h1, ?_⟩
      intro q hq
      rcases List.mem_cons.1 hq with rfl | hq
      · exact h3.2.trans h1
      · exact h2 q hq
  intro p hp
  cases points with
  | nil => simp at hp
  | cons q qs =>
    unfold highest
    rcases List.mem_cons.1 hp with rfl | hp
    · exact (key qs _).1
    · exact (key qs _).2 p hp

/-- The points are inside the bounding triangle. -/
theorem inside_bounding {points : List V2} (hD : 0 < maxDim points) {p : V2} (hp : p ∈ points) :
    0 < area (boundingPos points 0) (boundingPos points 1) (boundingPos points 2) ∧
    0 < area (boundingPos points 0) (boundingPos points 1) p ∧
    0 < area (boundingPos points 1) (boundingPos points 2) p ∧
    0 < area (boundingPos points 2) (boundingPos points 0) p := by
  have x1 := lowest_le V2.x points p hp
  have y1 := lowest_le V2.y points p hp
  have x2 := le_highest V2.x points p hp
  have y2 := le_highest V2.y points p hp
  have dx : highest V2.x points - lowest V2.x points ≤ maxDim points := le_max_left _ _
  have dy : highest V2.y points - lowest V2.y points ≤ maxDim points := le_max_right _ _
  obtain ⟨D, hDe⟩ : ∃ D, D = maxDim points := ⟨_, rfl⟩
  obtain ⟨mx, hmx⟩ : ∃ mx, mx = lowest V2.x points := ⟨_, rfl⟩
  obtain ⟨my, hmy⟩ : ∃ my, my = lowest V2.y points := ⟨_, rfl⟩
  rw [← hDe] at hD dx dy
  rw [← hmx] at x1 dx
  rw [← hmy] at y1 dy
  have b0 : boundingPos points 0 = ⟨mx - D, my - D⟩ := by unfold boundingPos; simp [hDe, hmx, hmy]
  have b1 : boundingPos points 1 = ⟨mx + 4 * D, my - D⟩ := by unfold boundingPos; simp [hDe, hmx, hmy]
  have b2 : boundingPos points 2 = ⟨mx - D, my + 4 * D⟩ := by unfold boundingPos; simp [hDe, hmx, hmy]
  rw [b0, b1, b2]
  unfold area
  simp only
  have hx : p.x - mx ≤ D := by linarith
  have hy : p.y - my ≤ D := by linarith
  refine ⟨?_, ?_, ?_, ?_⟩
  · ring_nf; positivity
  · have : 0 < (5 * D) * (p.y - my + D) := by apply mul_pos <;> linarith
    linarith
  · have : 0 < (5 * D) * (3 * D - (p.x - mx) - (p.y - my)) := by apply mul_pos <;> linarith
    linarith
  · have : 0 < (5 * D) * (p.x - mx + D) := by apply mul_pos <;> linarith
    linarith

/-- The number of a vertex in the list of sites. -/
def siteOf (order : List Nat) (v : Nat) : Nat := if v < 3 then v else 3 + order.getD (v - 3) 0

theorem site_pos {points : List V2} {order : List Nat} (ho : Shuffle points.length order) {v : Nat}
    (hv : v < 3 + points.length) :
    (sites points)[siteOf order v]? = some (position points order v) := by
  unfold siteOf position
  by_cases h3 : v < 3
  · rw [if_pos h3, if_pos h3]
    unfold sites
    have : v = 0 ∨ v = 1 ∨ v = 2 := by omega
    rcases this with rfl | rfl | rfl <;> rfl
  · rw [if_neg h3, if_neg h3]
    have hlen : order.length = points.length := by rw [ho.length_eq]; simp
    have hk : v - 3 < order.length := by omega
    rw [getD_lt hk, List.getElem?_eq_getElem hk]
    have hmem : order[v - 3] < points.length := by
      have := ho.subset (List.getElem_mem hk)
      simpa using this
    unfold sites
    rw [List.getElem?_append_right (by simp)]
    simp only [List.length_cons, List.length_nil]
    rw [show 3 + order[v - 3] - (0 + 1 + 1 + 1) = order[v - 3] from by omega, List.getElem?_eq_getElem hmem]
    rw [getD_lt hmem]

theorem site_inj {points : List V2} {order : List Nat} (ho : Shuffle points.length order) {v w : Nat}
    (hv : v < 3 + points.length) (hw : w < 3 + points.length) (hvw : v ≠ w) : siteOf order v ≠ siteOf order w := by
  have hlen : order.length = points.length := by rw [ho.length_eq]; simp
  have hnd : order.Nodup := ho.nodup_iff.2 List.nodup_range
  unfold siteOf
  by_cases h3 : v < 3 <;> by_cases h4 : w < 3
  · rw [if_pos h3, if_pos h4]; exact hvw
  · rw [if_pos h3, if_neg h4]; omega
  · rw [if_neg h3, if_pos h4]; omega
  · rw [if_neg h3, if_neg h4]
    have hk : v - 3 < order.length := by omega
    have hk' : w - 3 < order.length := by omega
    rw [getD_lt hk, getD_lt hk']
    intro hh
    have := (hnd.getElem_inj_iff (hi := hk) (hj := hk')).1 (by omega)
    omega

/-! ### Three points on a line -/

theorem between_of_area {p q r : V2} (hpq : 0 < sqNorm (q - p)) (h : area p q r = 0) :
    (∃ l : ℝ, 0 ≤ l ∧ l ≤ 1 ∧ sqNorm (r - (p + l • (q - p))) = 0) ∨
    (∃ l : ℝ, 0 ≤ l ∧ l ≤ 1 ∧ sqNorm (q - (p + l • (r - p))) = 0) ∨
    ∃ l : ℝ, 0 ≤ l ∧ l ≤ 1 ∧ sqNorm (p - (r + l • (q - r))) = 0 := by
  obtain ⟨n, hn⟩ : ∃ n, n = sqNorm (q - p) := ⟨_, rfl⟩
  rw [← hn] at hpq
  obtain ⟨t, ht⟩ : ∃ t, t = ((r.x - p.x) * (q.x - p.x) + (r.y - p.y) * (q.y - p.y)) / n := ⟨_, rfl⟩
  have hn' : n = (q.x - p.x) * (q.x - p.x) + (q.y - p.y) * (q.y - p.y) := by rw [hn]; rfl
  have hx : r.x - p.x = t * (q.x - p.x) := by
    rw [ht, div_mul_eq_mul_div, eq_div_iff hpq.ne', hn']
    unfold area at h
    linear_combination (-(q.y - p.y)) * h
  have hy : r.y - p.y = t * (q.y - p.y) := by
    rw [ht, div_mul_eq_mul_div, eq_div_iff hpq.ne', hn']
    unfold area at h
    linear_combination (q.x - p.x) * h
  rcases lt_or_ge t 0 with h0 | h0
  · right; right
    have h1 : 0 < 1 - t := by linarith
    refine ⟨-t / (1 - t), div_nonneg (by linarith) h1.le, by rw [div_le_one h1]; linarith, ?_⟩
    unfold sqNorm
    simp only [sub_x, sub_y, add_x, add_y, smul_x, smul_y]
    have e1 : p.x - (r.x + -t / (1 - t) * (q.x - r.x)) = 0 := by
      field_simp
      linear_combination -hx
    have e2 : p.y - (r.y + -t / (1 - t) * (q.y - r.y)) = 0 := by
      field_simp
      linear_combination -hy
    rw [e1, e2]; ring
  · rcases le_or_gt t 1 with h1 | h1
    · left
      refine ⟨t, h0, h1, ?_⟩
      unfold sqNorm
      simp only [sub_x, sub_y, add_x, add_y, smul_x, smul_y]
      have e1 : r.x - (p.x + t * (q.x - p.x)) = 0 := by linear_combination hx
      have e2 : r.y - (p.y + t * (q.y - p.y)) = 0 := by linear_combination hy
      rw [e1, e2]; ring
    · right; left
      have ht0 : 0 < t := by linarith
      refine ⟨1 / t, by positivity, by rw [div_le_one ht0]; exact h1.le, ?_⟩
      unfold sqNorm
      simp only [sub_x, sub_y, add_x, add_y, smul_x, smul_y]
      have e1 : q.x - (p.x + 1 / t * (r.x - p.x)) = 0 := by
        field_simp
        linear_combination -hx
      have e2 : q.y - (p.y + 1 / t * (r.y - p.y)) = 0 := by
        field_simp
        linear_combination -hy
      rw [e1, e2]; ring

/-! ### A point near a segment -/

theorem near_segment {a b p : V2} {e : ℝ} (h : doesABcontain a b p e) :
    ∃ l : ℝ, 0 ≤ l ∧ l ≤ 1 ∧ sqNorm (p - (a + l • (b - a))) < 2 * e ^ 2 := by
  obtain ⟨hn0, h1, h2, h3⟩ := h
  obtain ⟨n, hn⟩ : ∃ n, n = Real.sqrt (sqNorm (b - a)) := ⟨_, rfl⟩
  rw [← hn] at hn0 h1 h2 h3
  have hnn : 0 ≤ n := hn ▸ Real.sqrt_nonneg _
  have hnp : 0 < n := lt_of_le_of_ne hnn hn0.symm
  have hsq : n * n = (b.x - a.x) * (b.x - a.x) + (b.y - a.y) * (b.y - a.y) := by
    rw [hn, Real.mul_self_sqrt]
    · rfl
    · unfold sqNorm; nlinarith [mul_self_nonneg (b - a).x, mul_self_nonneg (b - a).y]
  unfold Geom.dot at h1 h2 h3
  simp only [sub_x, sub_y] at h1 h2 h3
  obtain ⟨t, ht⟩ : ∃ t, t = (b.x - a.x) / n * (p.x - a.x) + (b.y - a.y) / n * (p.y - a.y) := ⟨_, rfl⟩
  obtain ⟨u, hu⟩ : ∃ u, u = (p.x - a.x) * ((b.y - a.y) / n) + (p.y - a.y) * -((b.x - a.x) / n) := ⟨_, rfl⟩
  rw [← ht] at h2 h3
  rw [← hu] at h1
  have he : 0 < e := lt_of_le_of_lt (abs_nonneg _) h1
  have hu2 : u * u < e * e := by
    have := abs_lt.1 h1
    nlinarith [this.1, this.2]
  -- the distance from a point of the line
  have key : ∀ l : ℝ, sqNorm (p - (a + l • (b - a))) = u * u + (t - l * n) * (t - l * n) := by
    intro l
    unfold sqNorm
    simp only [sub_x, sub_y, add_x, add_y, smul_x, smul_y]
    have ht' : t * n = (b.x - a.x) * (p.x - a.x) + (b.y - a.y) * (p.y - a.y) := by rw [ht]; field_simp
    have hu' : u * n = (p.x - a.x) * (b.y - a.y) - (p.y - a.y) * (b.x - a.x) := by
      rw [hu]; field_simp; ring
    have hn2 : n * n ≠ 0 := mul_ne_zero hn0 hn0
    apply mul_left_cancel₀ hn2
    have e1 : n * n * (u * u + (t - l * n) * (t - l * n)) = (u * n) * (u * n) + (t * n - l * (n * n)) * (t * n - l * (n * n)) := by
      ring
    rw [e1, ht', hu', hsq]
    ring
  rcases lt_or_ge t 0 with k0 | k0
  · refine ⟨0, le_refl _, zero_le_one, ?_⟩
    rw [key]
    nlinarith
  · rcases le_or_gt t n with k1 | k1
    · refine ⟨t / n, by positivity, by rw [div_le_one hnp]; exact k1, ?_⟩
      rw [key, div_mul_cancel₀ _ hn0]
      nlinarith
    · refine ⟨1, zero_le_one, le_refl _, ?_⟩
      rw [key]
      nlinarith

theorem general_noncol {s : Settings} {points : List V2} {order : List Nat} (hG : GeneralPosition s points)
    (ho : Shuffle points.length order) : NonCol (position points order) (3 + points.length) := by
  intro a b c ha hb hc hab hac hbc h0
  have pa := site_pos ho ha
  have pb := site_pos ho hb
  have pc := site_pos ho hc
  have iab := site_inj ho ha hb hab
  have iac := site_inj ho ha hc hac
  have ibc := site_inj ho hb hc hbc
  have hpos : 0 < 2 * (s.epsPointIsOnSegment * maxDim points) ^ 2 := by
    have := mul_pos hG.eps hG.dim
    positivity
  have hpq : 0 < sqNorm (position points order b - position points order a) := by
    have := hG.segment _ _ _ _ _ _ iac iab ibc.symm pa pc pb 0 (le_refl _) zero_le_one
    have e : position points order a + (0 : ℝ) • (position points order c - position points order a) =
        position points order a := by
      ext <;> simp
    rw [e] at this
    linarith
  rcases between_of_area hpq h0 with ⟨l, l0, l1, hl⟩ | ⟨l, l0, l1, hl⟩ | ⟨l, l0, l1, hl⟩
  · have := hG.segment _ _ _ _ _ _ iab iac ibc pa pb pc l l0 l1
    linarith
  · have := hG.segment _ _ _ _ _ _ iac iab ibc.symm pa pc pb l l0 l1
    linarith
  · have := hG.segment _ _ _ _ _ _ ibc.symm iac.symm iab.symm pc pb pa l l0 l1
    linarith

theorem position_mem {points : List V2} {order : List Nat} (ho : Shuffle points.length order) {v : Nat}
    (h3 : 3 ≤ v) (hv : v < 3 + points.length) : position points order v ∈ points := by
  have hlen : order.length = points.length := by rw [ho.length_eq]; simp
  unfold position
  rw [if_neg (by omega)]
  have hk : v - 3 < order.length := by omega
  rw [List.getElem?_eq_getElem hk]
  have hmem : order[v - 3] < points.length := by
    have := ho.subset (List.getElem_mem hk)
    simpa using this
  simp only
  rw [getD_lt hmem]
  exact List.getElem_mem _

theorem position_bound (points : List V2) (order : List Nat) {i : Nat} (h : i < 3) :
    position points order i = boundingPos points i := by
  unfold position
  rw [if_pos h]

theorem general_apart {s : Settings} {points : List V2} {order : List Nat} (hG : GeneralPosition s points)
    (ho : Shuffle points.length order) :
    Apart (predsAt (position points order) (s.epsPointIsOnSegment * maxDim points) (s.epsSamePoints * maxDim points))
      points.length := by
  constructor
  · intro v h3 hv
    obtain ⟨b0, b1, b2, b3⟩ := inside_bounding hG.dim (position_mem ho h3 hv)
    simp only [predsAt, queryAt, decide_eq_true_eq]
    rw [position_bound points order (i := 0) (by omega), position_bound points order (i := 1) (by omega),
      position_bound points order (i := 2) (by omega)]
    obtain ⟨p, hp⟩ : ∃ p, p = position points order v := ⟨_, rfl⟩
    rw [← hp] at b1 b2 b3 ⊢
    refine ⟨?_, ?_, ?_⟩ <;> unfold isSameSide <;> simp only [cross_area]
    · exact (mul_pos b1 b0).le
    · rw [show area (boundingPos points 0) (boundingPos points 2) p =
        -area (boundingPos points 2) (boundingPos points 0) p from by unfold area; ring,
        show area (boundingPos points 0) (boundingPos points 2) (boundingPos points 1) =
        -area (boundingPos points 0) (boundingPos points 1) (boundingPos points 2) from by unfold area; ring]
      have := (mul_pos b3 b0).le
      linarith
    · rw [area_rot (boundingPos points 0)]
      exact (mul_pos b2 b0).le
  · intro v w h3 hv hw hwv
    simp only [predsAt, queryAt, decide_eq_false_iff_not]
    have := hG.equal _ _ _ _ (site_inj ho hw hv hwv) (site_pos ho hw) (site_pos ho hv)
    unfold areEqual
    rw [not_lt]
    linarith
  · intro v a b h3 hv ha hb hav hbv hab
    simp only [predsAt, queryAt, decide_eq_false_iff_not]
    intro hh
    obtain ⟨l, l0, l1, hl⟩ := near_segment hh
    have := hG.segment _ _ _ _ _ _ (site_inj ho ha hb hab) (site_inj ho ha hv hav) (site_inj ho hb hv hbv)
      (site_pos ho ha) (site_pos ho hb) (site_pos ho hv) l l0 l1
    linarith

/-! ### Moving off finitely many lines -/

open Filter Topology

/-- The point `q` moved along a parabola. -/
def move (q : V2) (s : ℝ) : V2 := ⟨q.x + s, q.y + s * s⟩

theorem area_move (a b q : V2) (s : ℝ) :
    area a b (move q s) = area a b q + (b.x - a.x) * (s * s) - (b.y - a.y) * s := by
  unfold area move; ring

theorem move_continuous (a b q : V2) : Continuous fun s => area a b (move q s) := by
  simp only [area_move]
  fun_prop

theorem move_off (a b q : V2) (h : ¬(b.x - a.x = 0 ∧ b.y - a.y = 0)) :
    ∀ᶠ s in 𝓝[>] (0 : ℝ), area a b (move q s) ≠ 0 := by
  by_cases h0 : area a b q = 0
  · have hpos : ∀ᶠ s in 𝓝[>] (0 : ℝ), 0 < s := eventually_mem_nhdsWithin
    by_cases hy : b.y - a.y = 0
    · have hx : b.x - a.x ≠ 0 := fun hh => h ⟨hh, hy⟩
      filter_upwards [hpos] with s hs
      rw [area_move, h0, hy, zero_mul, zero_add, sub_zero]
      exact mul_ne_zero hx (mul_ne_zero hs.ne' hs.ne')
    · have hc : Continuous fun s : ℝ => (b.x - a.x) * s - (b.y - a.y) := by fun_prop
      have h1 : ∀ᶠ s in 𝓝 (0 : ℝ), (b.x - a.x) * s - (b.y - a.y) ≠ 0 := by
        refine hc.continuousAt.eventually_ne ?_
        simpa using fun hh : a.y - b.y = 0 => hy (by linarith)
      filter_upwards [hpos, nhdsWithin_le_nhds h1] with s hs hs1
      rw [area_move, h0, show 0 + (b.x - a.x) * (s * s) - (b.y - a.y) * s = s * ((b.x - a.x) * s - (b.y - a.y)) from by
        ring]
      exact mul_ne_zero hs.ne' hs1
  · refine nhdsWithin_le_nhds ((move_continuous a b q).continuousAt.eventually_ne ?_)
    simpa [area_move] using h0

theorem move_inside {a b c q : V2} (h : Inside a b c q) : ∀ᶠ s in 𝓝[>] (0 : ℝ), Inside a b c (move q s) := by
  refine nhdsWithin_le_nhds ?_
  obtain ⟨h1, h2, h3⟩ := h
  have m0 : move q 0 = q := by unfold move; ext <;> simp
  have g1 : Continuous fun s => area a b c * area b c (move q s) := continuous_const.mul (move_continuous b c q)
  have g2 : Continuous fun s => area a b c * area c a (move q s) := continuous_const.mul (move_continuous c a q)
  have g3 : Continuous fun s => area a b c * area a b (move q s) := continuous_const.mul (move_continuous a b q)
  have e1 : ∀ q : V2, area q b c = area b c q := by intro q; unfold area; ring
  have e2 : ∀ q : V2, area a q c = area c a q := by intro q; unfold area; ring
  rw [e1 q] at h1
  rw [e2 q] at h2
  have k1 : ∀ᶠ s in 𝓝 (0 : ℝ), 0 < area a b c * area b c (move q s) :=
    continuousAt_const.eventually_lt g1.continuousAt (by simpa [m0] using h1)
  have k2 : ∀ᶠ s in 𝓝 (0 : ℝ), 0 < area a b c * area c a (move q s) :=
    continuousAt_const.eventually_lt g2.continuousAt (by simpa [m0] using h2)
  have k3 : ∀ᶠ s in 𝓝 (0 : ℝ), 0 < area a b c * area a b (move q s) :=
    continuousAt_const.eventually_lt g3.continuousAt (by simpa [m0] using h3)
  filter_upwards [k1, k2, k3] with s h1 h2 h3
  exact ⟨by rw [e1 (move q s)]; exact h1, by rw [e2 (move q s)]; exact h2, h3⟩

/-- No two triangles of the mesh overlap. -/
theorem Geo.apart {pos : Nat → V2} {M : Nat} (hN : NonCol pos M) {V AE AT : Finset Nat} {m : Mesh}
    (hg : Geo pos M V m AE AT) (q : V2) : ∀ t ∈ AT, ∀ t' ∈ AT, InT pos m t q → InT pos m t' q → t = t' := by
  intro t ht t' ht' h h'
  have hgen : ∀ᶠ s in 𝓝[>] (0 : ℝ), Generic pos V (move q s) := by
    have : ∀ a ∈ V, ∀ᶠ s in 𝓝[>] (0 : ℝ), ∀ b ∈ V, a ≠ b → area (pos a) (pos b) (move q s) ≠ 0 := by
      intro a ha
      rw [Filter.eventually_all_finset]
      intro b hb
      by_cases hab : a = b
      · exact Filter.Eventually.of_forall fun s hh => absurd hab hh
      · have hd : ¬((pos b).x - (pos a).x = 0 ∧ (pos b).y - (pos a).y = 0) := by
          rintro ⟨hx, hy⟩
          obtain ⟨c, hc3, hca, hcb⟩ : ∃ c, c < 3 ∧ a ≠ c ∧ b ≠ c := by
            by_cases h0 : a ≠ 0 ∧ b ≠ 0
            · exact ⟨0, by omega, h0.1, h0.2⟩
            · by_cases h1 : a ≠ 1 ∧ b ≠ 1
              · exact ⟨1, by omega, h1.1, h1.2⟩
              · exact ⟨2, by omega, by omega, by omega⟩
          refine hN a b c (hg.lt a ha) (hg.lt b hb) (hg.lt c (hg.base c hc3)) hab hca hcb ?_
          unfold area
          rw [hx, hy]; ring
        filter_upwards [move_off _ _ q hd] with s hs _
        exact hs
    rw [← Filter.eventually_all_finset] at this
    exact this
  obtain ⟨s, h1, h2, h3⟩ := (hgen.and ((move_inside h).and (move_inside h'))).exists
  exact (hg.one _ h1).2 t ht t' ht' h2 h3

end Mdso.Tri
