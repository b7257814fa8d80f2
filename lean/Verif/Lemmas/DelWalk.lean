import Verif.Lemmas.DelPlane
import Mathlib.Tactic.IntervalCases

/-!
# Walking through a tessellation

A tessellation is given by the triples of vertices that are its triangles.
-/

set_option autoImplicit false

namespace Mdso.Tri

open Mdso.Geom Mdso.Tri.Spec Filter Topology

/-- Vertices no three of which are on a line, all but the first three in the interior of the triangle of these. -/
structure Sites (pos : Nat → V2) (V : Finset Nat) : Prop where
  noncol : ∀ a ∈ V, ∀ b ∈ V, ∀ c ∈ V, a ≠ b → a ≠ c → b ≠ c → area (pos a) (pos b) (pos c) ≠ 0
  base : ∀ v, v < 3 → v ∈ V
  inside : ∀ v ∈ V, 3 ≤ v → Inside (pos 0) (pos 1) (pos 2) (pos v)

/-- The triangles `T` on the vertices `V`. -/
structure Tess (pos : Nat → V2) (V : Finset Nat) (T : Nat → Nat → Nat → Prop) : Prop where
  rot : ∀ {a b c}, T a b c → T b c a
  swap : ∀ {a b c}, T a b c → T b a c
  mem : ∀ {a b c}, T a b c → a ∈ V
  ne : ∀ {a b c}, T a b c → a ≠ b
  nb : ∀ {a b c}, T a b c → ¬(a < 3 ∧ b < 3) →
    ∃ d, T a b d ∧ area (pos a) (pos b) (pos c) * area (pos a) (pos b) (pos d) < 0
  apart : ∀ {a b c a' b' c' q}, T a b c → T a' b' c' → Inside (pos a) (pos b) (pos c) q →
    Inside (pos a') (pos b') (pos c') q → a' = a ∨ a' = b ∨ a' = c
  cover : ∀ {q}, Within (pos 0) (pos 1) (pos 2) q → ∃ a b c, T a b c ∧ Within (pos a) (pos b) (pos c) q
  used : ∀ {a}, a ∈ V → ∃ b c, T a b c

variable {pos : Nat → V2} {V : Finset Nat} {T : Nat → Nat → Nat → Prop}

theorem Tess.out (h : Tess pos V T) {a b c : Nat} (ht : T a b c) : T a c b := h.rot (h.rot (h.swap (h.rot (h.rot ht))) |> h.swap) |> h.swap

theorem Tess.mem2 (h : Tess pos V T) {a b c : Nat} (ht : T a b c) : b ∈ V := h.mem (h.rot ht)
theorem Tess.mem3 (h : Tess pos V T) {a b c : Nat} (ht : T a b c) : c ∈ V := h.mem (h.rot (h.rot ht))
theorem Tess.ne2 (h : Tess pos V T) {a b c : Nat} (ht : T a b c) : b ≠ c := h.ne (h.rot ht)
theorem Tess.ne3 (h : Tess pos V T) {a b c : Nat} (ht : T a b c) : a ≠ c := (h.ne (h.rot (h.rot ht))).symm

theorem Tess.area (h : Tess pos V T) (hs : Sites pos V) {a b c : Nat} (ht : T a b c) :
    area (pos a) (pos b) (pos c) ≠ 0 :=
  hs.noncol a (h.mem ht) b (h.mem2 ht) c (h.mem3 ht) (h.ne ht) (h.ne3 ht) (h.ne2 ht)

/-- Within a triangle and on the line of one of its sides. -/
theorem on_edge {a b c q : V2} (h0 : area a b c ≠ 0) (h : area a b q = 0) (hw : Within a b c q) :
    ∃ l, 0 ≤ l ∧ l ≤ 1 ∧ q = lin a b l := by
  obtain ⟨h1, h2, -⟩ := hw
  have p4 : 0 < area a b c * area a b c := mul_self_pos.2 h0
  have hsum : area q b c + area a q c + area a b q = area a b c := by unfold area; ring
  rw [h, add_zero] at hsum
  refine ⟨area a q c / area a b c, ?_, ?_, ?_⟩
  · rw [← mul_div_mul_left _ _ h0]
    exact div_nonneg h2 p4.le
  · rw [← mul_div_mul_left _ _ h0, div_le_one p4]
    rw [← hsum] at h1 ⊢
    nlinarith
  · have e1 : (q.x - a.x) * area a b c = area a q c * (b.x - a.x) := by
      have : (b.x - a.x) * (q.y - a.y) - (b.y - a.y) * (q.x - a.x) = 0 := h
      unfold area
      linear_combination (c.x - a.x) * this
    have e2 : (q.y - a.y) * area a b c = area a q c * (b.y - a.y) := by
      have : (b.x - a.x) * (q.y - a.y) - (b.y - a.y) * (q.x - a.x) = 0 := h
      unfold area
      linear_combination (c.y - a.y) * this
    unfold lin
    ext
    · simp only
      rw [div_mul_eq_mul_div, ← e1, mul_div_cancel_right₀ _ h0]; ring
    · simp only
      rw [div_mul_eq_mul_div, ← e2, mul_div_cancel_right₀ _ h0]; ring

/-! ### Cones -/

/-- The point `p` is in the open cone of the triangle `abc` at `a`. -/
def Cone (a b c p : V2) : Prop := 0 < area a b c * area a b p ∧ 0 < area a b c * area a p c

theorem pos_near {A B : ℝ} (h : 0 < A) : ∀ᶠ e in 𝓝[>] (0 : ℝ), 0 < (1 - e) * A + e * B := by
  refine nhdsWithin_le_nhds ?_
  have hc : Continuous fun e : ℝ => (1 - e) * A + e * B := by fun_prop
  exact continuousAt_const.eventually_lt hc.continuousAt (by simpa using h)

theorem near_pos : ∀ᶠ e in 𝓝[>] (0 : ℝ), 0 < e := eventually_mem_nhdsWithin

theorem near_lt_one : ∀ᶠ e in 𝓝[>] (0 : ℝ), e < 1 :=
  nhdsWithin_le_nhds (eventually_lt_nhds (by norm_num))

theorem cone_inside {a b c p : V2} (h : Cone a b c p) : ∀ᶠ e in 𝓝[>] (0 : ℝ), Inside a b c (lin a p e) := by
  obtain ⟨h1, h2⟩ := h
  have h0 : area a b c ≠ 0 := fun hh => by rw [hh] at h1; simp at h1
  have p4 : 0 < area a b c * area a b c := mul_self_pos.2 h0
  filter_upwards [near_pos, pos_near (B := area a b c * area p b c) p4] with e he h3
  refine ⟨?_, ?_, ?_⟩
  · rw [area_lin'']
    calc 0 < _ := h3
      _ = _ := by ring
  · rw [area_lin', show area a a c = 0 from by unfold area; ring, mul_zero, zero_add]
    calc 0 < e * (area a b c * area a p c) := mul_pos he h2
      _ = _ := by ring
  · rw [area_lin, area_self', mul_zero, zero_add]
    calc 0 < e * (area a b c * area a b p) := mul_pos he h1
      _ = _ := by ring

theorem inside_near {a b c q : V2} (p : V2) (h : Inside a b c q) : ∀ᶠ e in 𝓝[>] (0 : ℝ), Inside a b c (lin q p e) := by
  obtain ⟨h1, h2, h3⟩ := h
  filter_upwards [pos_near (B := area a b c * area p b c) h1, pos_near (B := area a b c * area a p c) h2,
    pos_near (B := area a b c * area a b p) h3] with e k1 k2 k3
  refine ⟨?_, ?_, ?_⟩
  · rw [area_lin'']
    calc 0 < _ := k1
      _ = _ := by ring
  · rw [area_lin']
    calc 0 < _ := k2
      _ = _ := by ring
  · rw [area_lin]
    calc 0 < _ := k3
      _ = _ := by ring

theorem cone_near {a b c q : V2} (p : V2) (h : Cone a b c q) : ∀ᶠ e in 𝓝[>] (0 : ℝ), Cone a b c (lin q p e) := by
  obtain ⟨h2, h3⟩ := h
  filter_upwards [pos_near (B := area a b c * area a b p) h2,
    pos_near (B := area a b c * area a p c) h3] with e k2 k3
  refine ⟨?_, ?_⟩
  · rw [area_lin]
    calc 0 < _ := k2
      _ = _ := by ring
  · rw [area_lin']
    calc 0 < _ := k3
      _ = _ := by ring

theorem cone_side {a b c : V2} (h : area a b c ≠ 0) {e : ℝ} (h0 : 0 < e) (h1 : e < 1) : Cone a b c (lin b c e) := by
  have p4 : 0 < area a b c * area a b c := mul_self_pos.2 h
  constructor
  · rw [area_lin, area_self, mul_zero, zero_add]
    calc 0 < e * (area a b c * area a b c) := mul_pos h0 p4
      _ = _ := by ring
  · rw [area_lin', show area a c c = 0 from area_self a c, mul_zero, add_zero]
    calc 0 < (1 - e) * (area a b c * area a b c) := mul_pos (by linarith) p4
      _ = _ := by ring

theorem cone_swap {a b c p : V2} (h : Cone a b c p) : Cone a c b p := by
  obtain ⟨h1, h2⟩ := h
  unfold Cone
  rw [area_other a b c, area_other a p c, area_other a b p]
  exact ⟨by linarith, by linarith⟩

/-- Two triangles at a vertex whose cones overlap. -/
theorem cone_apart (h : Tess pos V T) {a b c b' c' : Nat} {p : V2} (h1 : T a b c) (h2 : T a b' c')
    (k1 : Cone (pos a) (pos b) (pos c) p) (k2 : Cone (pos a) (pos b') (pos c') p) : b' = b ∨ b' = c := by
  obtain ⟨e, e1, e2⟩ := ((cone_inside k1).and (cone_inside k2)).exists
  rcases h.apart h1 (h.swap h2) e1 (inside_swap.1 e2) with hh | hh | hh
  · exact absurd hh (h.ne h2).symm
  · exact .inl hh
  · exact .inr hh

/-- An edge does not run through a cone. -/
theorem cone_edge (h : Tess pos V T) (hs : Sites pos V) {a b c x w : Nat} (h1 : T a x w) (h2 : T a b c) :
    ¬Cone (pos a) (pos b) (pos c) (pos x) := by
  intro hc
  obtain ⟨e, e0, e1, e2⟩ := (near_pos.and (near_lt_one.and (cone_near (pos w) hc))).exists
  rcases cone_apart h h2 h1 e2 (cone_side (h.area hs h1) e0 e1) with hh | hh
  · subst hh
    have := hc.1
    rw [area_self] at this
    simp at this
  · subst hh
    have := hc.2
    rw [area_self] at this
    simp at this

/-- Two triangles on the same side of a common edge. -/
theorem same_side (h : Tess pos V T) (hs : Sites pos V) {a b c d : Nat} (h1 : T a b c) (h2 : T a b d)
    (k : 0 < area (pos a) (pos b) (pos c) * area (pos a) (pos b) (pos d)) : c = d := by
  by_contra hcd
  have hcd' : area (pos a) (pos c) (pos d) ≠ 0 :=
    hs.noncol a (h.mem h1) c (h.mem3 h1) d (h.mem3 h2) (h.ne3 h1) (h.ne3 h2) hcd
  rcases lt_or_gt_of_ne (mul_ne_zero (h.area hs h1) hcd') with hh | hh
  · -- `d` is in the cone of `c`
    refine cone_edge h hs (h.out h2) h1 ⟨k, ?_⟩
    rw [area_other (pos a) (pos c) (pos d)]
    linarith
  · refine cone_edge h hs (h.out h1) h2 ⟨by linarith, ?_⟩
    have h3 : 0 < area (pos a) (pos c) (pos d) * area (pos a) (pos b) (pos d) :=
      prod_pos hh k
    linarith

/-- A vertex is in no triangle of which it is not a corner. -/
theorem vertex_free (h : Tess pos V T) (hs : Sites pos V) {a b c p : Nat} (ht : T a b c) (hp : p ∈ V) (ha : p ≠ a)
    (hb : p ≠ b) (hc : p ≠ c) : ¬Within (pos a) (pos b) (pos c) (pos p) := by
  rintro ⟨h1, h2, h3⟩
  have h0 := h.area hs ht
  have hin : Inside (pos a) (pos b) (pos c) (pos p) := by
    refine ⟨lt_of_le_of_ne h1 (mul_ne_zero h0 ?_).symm, lt_of_le_of_ne h2 (mul_ne_zero h0 ?_).symm,
      lt_of_le_of_ne h3 (mul_ne_zero h0 ?_).symm⟩
    · exact hs.noncol p hp b (h.mem2 ht) c (h.mem3 ht) hb hc (h.ne2 ht)
    · exact hs.noncol a (h.mem ht) p hp c (h.mem3 ht) ha.symm (h.ne3 ht) hc
    · exact hs.noncol a (h.mem ht) b (h.mem2 ht) p hp (h.ne ht) ha.symm hb.symm
  obtain ⟨d, e, hd⟩ := h.used hp
  have hk := cone_side (h.area hs hd) (e := 1 / 2) (by norm_num) (by norm_num)
  obtain ⟨x, x1, x2⟩ := ((cone_inside hk).and (inside_near (lin (pos d) (pos e) (1 / 2)) hin)).exists
  rcases h.apart ht hd x2 x1 with hh | hh | hh
  · exact ha hh
  · exact hb hh
  · exact hc hh

/-! ### The bounding vertices -/

/-- All vertices are on the same side of a side of the bounding triangle. -/
theorem bound_side (hs : Sites pos V) {x z : Nat} (hx : x < 3) (hz : z < 3) (hxz : x ≠ z) {p q : Nat} (hp : p ∈ V)
    (hq : q ∈ V) (hpx : p ≠ x) (hpz : p ≠ z) (hqx : q ≠ x) (hqz : q ≠ z) :
    0 < area (pos x) (pos z) (pos p) * area (pos x) (pos z) (pos q) := by
  have key : ∀ r ∈ V, r ≠ x → r ≠ z → 0 < area (pos 0) (pos 1) (pos 2) * area (pos x) (pos z) (pos r) ∧
      ((x = 0 ∧ z = 1) ∨ (x = 1 ∧ z = 2) ∨ (x = 2 ∧ z = 0)) ∨
      0 < -area (pos 0) (pos 1) (pos 2) * area (pos x) (pos z) (pos r) ∧
      ¬((x = 0 ∧ z = 1) ∨ (x = 1 ∧ z = 2) ∨ (x = 2 ∧ z = 0)) := by
    intro r hr hrx hrz
    have h0 : 0 < area (pos 0) (pos 1) (pos 2) * area (pos 0) (pos 1) (pos 2) :=
      mul_self_pos.2 (hs.noncol 0 (hs.base 0 (by omega)) 1 (hs.base 1 (by omega)) 2 (hs.base 2 (by omega)) (by omega)
        (by omega) (by omega))
    have r1 : ∀ a b c : V2, area b c a = area a b c := fun a b c => area_rot a b c
    by_cases hr3 : 3 ≤ r
    · obtain ⟨i1, i2, i3⟩ := hs.inside r hr hr3
      have j1 : area (pos 1) (pos 2) (pos r) = area (pos r) (pos 1) (pos 2) := area_rot _ _ _
      have j2 : area (pos 2) (pos 0) (pos r) = area (pos 0) (pos r) (pos 2) := by unfold area; ring
      interval_cases x <;> interval_cases z <;> first | (exact absurd rfl hxz) | skip
      · left; exact ⟨i3, by simp⟩
      · right; rw [area_swap (pos 2) (pos 0), j2]; exact ⟨by linarith, by simp⟩
      · right; rw [area_swap (pos 0) (pos 1)]; exact ⟨by linarith, by simp⟩
      · left; rw [j1]; exact ⟨i1, by simp⟩
      · left; rw [j2]; exact ⟨i2, by simp⟩
      · right; rw [area_swap (pos 1) (pos 2), j1]; exact ⟨by linarith, by simp⟩
    · have hr3' : r < 3 := by omega
      have j1 : area (pos 1) (pos 2) (pos 0) = area (pos 0) (pos 1) (pos 2) := area_rot _ _ _
      have j2 : area (pos 2) (pos 0) (pos 1) = area (pos 0) (pos 1) (pos 2) := by unfold area; ring
      interval_cases x <;> interval_cases z <;> first | (exact absurd rfl hxz) | skip
      · have : r = 2 := by omega
        subst this; left; exact ⟨h0, by simp⟩
      · have : r = 1 := by omega
        subst this; right; rw [area_swap (pos 2) (pos 0), j2]; exact ⟨by linarith, by simp⟩
      · have : r = 2 := by omega
        subst this; right; rw [area_swap (pos 0) (pos 1)]; exact ⟨by linarith, by simp⟩
      · have : r = 0 := by omega
        subst this; left; rw [j1]; exact ⟨h0, by simp⟩
      · have : r = 1 := by omega
        subst this; left; rw [j2]; exact ⟨h0, by simp⟩
      · have : r = 0 := by omega
        subst this; right; rw [area_swap (pos 1) (pos 2), j1]; exact ⟨by linarith, by simp⟩
  rcases key p hp hpx hpz with ⟨h1, h2⟩ | ⟨h1, h2⟩ <;> rcases key q hq hqx hqz with ⟨k1, k2⟩ | ⟨k1, k2⟩
  · exact prod_pos h1 k1
  · exact absurd h2 k2
  · exact absurd k2 h2
  · exact prod_pos h1 k1

/-! ### The walk -/

theorem lin_continuous (u w : V2) : Continuous fun t => (lin u w t).x := by unfold lin; fun_prop

/-- A walk along the segment from `u` to `w` through triangles that satisfy `P`, starting at the parameter `s`: if it
passes through no vertex and every triangle left through a side has a neighbour there that satisfies `P`, then it
arrives. -/
theorem walk_to (hs : Sites pos V) {P : Nat → Nat → Nat → Prop} (rot : ∀ {a b c}, P a b c → P b c a)
    (tri : ∀ {a b c}, P a b c → a ∈ V ∧ a ≠ b) {u w : V2} {s : ℝ} (h1 : s ≤ 1)
    (start : ∃ a b c, P a b c ∧ Within (pos a) (pos b) (pos c) (lin u w s))
    (avoid : ∀ t, s ≤ t → t < 1 → ∀ p ∈ V, lin u w t ≠ pos p)
    (exit : ∀ {a b c t}, P a b c → s ≤ t → t < 1 → area (pos a) (pos b) (lin u w t) = 0 →
      Within (pos a) (pos b) (pos c) (lin u w t) → area (pos a) (pos b) (pos c) * area (pos a) (pos b) w < 0 →
      ∃ d, P a b d ∧ area (pos a) (pos b) (pos c) * area (pos a) (pos b) (pos d) < 0) :
    ∃ a b c, P a b c ∧ Within (pos a) (pos b) (pos c) w := by
  have hmem : ∀ {a b c}, P a b c → a ∈ V ∧ b ∈ V ∧ c ∈ V ∧ area (pos a) (pos b) (pos c) ≠ 0 := by
    intro a b c h
    have h1 := tri h
    have h2 := tri (rot h)
    have h3 := tri (rot (rot h))
    exact ⟨h1.1, h2.1, h3.1, hs.noncol a h1.1 b h2.1 c h3.1 h1.2 h3.2.symm h2.2⟩
  obtain ⟨A, hA⟩ : ∃ A : Set ℝ, A = {t | t ∈ Set.Icc s 1 ∧ ∃ a b c, P a b c ∧
    Within (pos a) (pos b) (pos c) (lin u w t)} := ⟨_, rfl⟩
  have hclosed : IsClosed A := by
    have e : A = ⋃ a ∈ V, ⋃ b ∈ V, ⋃ c ∈ V, {t | t ∈ Set.Icc s 1 ∧ P a b c ∧
        Within (pos a) (pos b) (pos c) (lin u w t)} := by
      ext t
      rw [hA]
      simp only [Set.mem_setOf_eq, Set.mem_iUnion]
      constructor
      · rintro ⟨h, a, b, c, h1, h2⟩
        obtain ⟨k1, k2, k3, -⟩ := hmem h1
        exact ⟨a, k1, b, k2, c, k3, h, h1, h2⟩
      · rintro ⟨a, -, b, -, c, -, h, h1, h2⟩
        exact ⟨h, a, b, c, h1, h2⟩
    rw [e]
    refine isClosed_biUnion_finset fun a _ => isClosed_biUnion_finset fun b _ => isClosed_biUnion_finset fun c _ => ?_
    refine IsClosed.inter isClosed_Icc ?_
    by_cases hp : P a b c
    · have e2 : {t | P a b c ∧ Within (pos a) (pos b) (pos c) (lin u w t)} =
          {t | 0 ≤ area (pos a) (pos b) (pos c) * area (lin u w t) (pos b) (pos c)} ∩
          ({t | 0 ≤ area (pos a) (pos b) (pos c) * area (pos a) (lin u w t) (pos c)} ∩
          {t | 0 ≤ area (pos a) (pos b) (pos c) * area (pos a) (pos b) (lin u w t)}) := by
        ext t
        simp only [Set.mem_setOf_eq, Set.mem_inter_iff, hp, true_and]
        rfl
      show IsClosed {t | P a b c ∧ Within (pos a) (pos b) (pos c) (lin u w t)}
      rw [e2]
      refine IsClosed.inter ?_ (IsClosed.inter ?_ ?_)
      · simp only [area_lin'']
        exact isClosed_le continuous_const (by fun_prop)
      · simp only [area_lin']
        exact isClosed_le continuous_const (by fun_prop)
      · simp only [area_lin]
        exact isClosed_le continuous_const (by fun_prop)
    · have e2 : {t | P a b c ∧ Within (pos a) (pos b) (pos c) (lin u w t)} = ∅ := by
        ext t
        simp [hp]
      show IsClosed {t | P a b c ∧ Within (pos a) (pos b) (pos c) (lin u w t)}
      rw [e2]
      exact isClosed_empty
  have hne : A.Nonempty := by
    obtain ⟨a, b, c, k1, k2⟩ := start
    exact ⟨s, by rw [hA]; exact ⟨⟨le_refl _, h1⟩, a, b, c, k1, k2⟩⟩
  have hbdd : BddAbove A := ⟨1, fun t ht => by rw [hA] at ht; exact ht.1.2⟩
  have hmax := hclosed.csSup_mem hne hbdd
  obtain ⟨t, ht⟩ : ∃ t, t = sSup A := ⟨_, rfl⟩
  rw [← ht] at hmax
  have hle : ∀ t' ∈ A, t' ≤ t := fun t' h => ht ▸ le_csSup hbdd h
  rw [hA] at hmax
  obtain ⟨⟨hst, ht1⟩, a, b, c, hp, hw⟩ := hmax
  rcases eq_or_lt_of_le ht1 with rfl | hlt
  · rw [lin_one] at hw
    exact ⟨a, b, c, hp, hw⟩
  by_cases hww : Within (pos a) (pos b) (pos c) w
  · exact ⟨a, b, c, hp, hww⟩
  exfalso
  -- a side on which the point is, with `w` beyond it
  have hrot : ∀ {a b c : V2} {q : V2}, Within a b c q → Within b c a q := fun h => within_rot.1 h
  have main : ∀ {a b c : Nat}, P a b c → Within (pos a) (pos b) (pos c) (lin u w t) →
      area (pos a) (pos b) (pos c) * area (pos a) (pos b) w < 0 → area (pos a) (pos b) (lin u w t) = 0 → False := by
    intro a b c hp hw hb hz
    obtain ⟨d, hd, hcd⟩ := exit hp hst hlt hz hw hb
    obtain ⟨ha, hb', hc, h0⟩ := hmem hp
    obtain ⟨-, -, hdV, hd0⟩ := hmem hd
    obtain ⟨l, l0, l1, hl⟩ := on_edge h0 hz hw
    have la : l ≠ 0 := by
      rintro rfl
      rw [lin_zero] at hl
      exact avoid t hst hlt a ha hl
    have lb : l ≠ 1 := by
      rintro rfl
      rw [lin_one] at hl
      exact avoid t hst hlt b hb' hl
    have l0' : 0 < l := lt_of_le_of_ne l0 la.symm
    have l1' : l < 1 := lt_of_le_of_ne l1 lb
    have p4 : 0 < area (pos a) (pos b) (pos d) * area (pos a) (pos b) (pos d) := mul_self_pos.2 hd0
    have q1 : 0 < area (pos a) (pos b) (pos d) * area (lin u w t) (pos b) (pos d) := by
      rw [hl, area_lin'', show area (pos b) (pos b) (pos d) = 0 from by unfold area; ring, mul_zero, add_zero]
      calc 0 < (1 - l) * (area (pos a) (pos b) (pos d) * area (pos a) (pos b) (pos d)) := mul_pos (by linarith) p4
        _ = _ := by ring
    have q2 : 0 < area (pos a) (pos b) (pos d) * area (pos a) (lin u w t) (pos d) := by
      rw [hl, area_lin', show area (pos a) (pos a) (pos d) = 0 from by unfold area; ring, mul_zero, zero_add]
      calc 0 < l * (area (pos a) (pos b) (pos d) * area (pos a) (pos b) (pos d)) := mul_pos l0' p4
        _ = _ := by ring
    have q3 : 0 < area (pos a) (pos b) (pos d) * area (pos a) (pos b) w := by
      have hc0 : area (pos a) (pos b) (pos c) ≠ 0 := h0
      have := prod_pos (x := -area (pos a) (pos b) (pos c)) (y := area (pos a) (pos b) (pos d))
        (z := area (pos a) (pos b) w) (by linarith) (by linarith)
      exact this
    obtain ⟨e, e0, e1, e2, e3⟩ := (near_pos.and (near_lt_one.and ((pos_near (B := area (pos a) (pos b) (pos d) *
      area w (pos b) (pos d)) q1).and (pos_near (B := area (pos a) (pos b) (pos d) * area (pos a) w (pos d)) q2)))).exists
    have hstep : ∀ e, lin u w (t + e * (1 - t)) = lin (lin u w t) w e := by
      intro e
      unfold lin
      ext <;> simp only <;> ring
    have hin : t + e * (1 - t) ∈ A := by
      rw [hA]
      refine ⟨⟨by nlinarith, by nlinarith⟩, a, b, d, hd, ?_⟩
      rw [hstep]
      refine ⟨?_, ?_, ?_⟩
      · rw [area_lin'']
        calc 0 ≤ _ := e2.le
          _ = _ := by ring
      · rw [area_lin']
        calc 0 ≤ _ := e3.le
          _ = _ := by ring
      · rw [area_lin, hz, mul_zero, zero_add]
        calc 0 ≤ e * (area (pos a) (pos b) (pos d) * area (pos a) (pos b) w) := mul_nonneg e0.le q3.le
          _ = _ := by ring
    have := hle _ hin
    nlinarith
  obtain ⟨ha, hb, hc, h0⟩ := hmem hp
  have hw' := hw
  obtain ⟨w1, w2, w3⟩ := hw'
  have r1 : ∀ a b c : V2, area a b c = area b c a := by intro a b c; unfold area; ring
  have r2 : ∀ a b c : V2, area a b c = area c a b := by intro a b c; unfold area; ring
  have m3 : area (pos a) (pos b) (pos c) * area (pos a) (pos b) w < 0 → area (pos a) (pos b) (lin u w t) ≠ 0 :=
    fun h1 h2 => main hp hw h1 h2
  have m1 : area (pos a) (pos b) (pos c) * area w (pos b) (pos c) < 0 → area (lin u w t) (pos b) (pos c) ≠ 0 := by
    intro h1 h2
    refine main (rot hp) (hrot hw) ?_ ?_
    · rw [← r1 (pos a), ← r1 w]; exact h1
    · rw [← r1]; exact h2
  have m2 : area (pos a) (pos b) (pos c) * area (pos a) w (pos c) < 0 → area (pos a) (lin u w t) (pos c) ≠ 0 := by
    intro h1 h2
    refine main (rot (rot hp)) (hrot (hrot hw)) ?_ ?_
    · rw [← r2 (pos a), ← r2 (pos a) w]; exact h1
    · rw [← r2]; exact h2
  -- no side is left at once
  have g : ∀ X Y : ℝ, 0 ≤ X → (Y < 0 → X ≠ 0) → ∀ᶠ e in 𝓝[>] (0 : ℝ), 0 ≤ (1 - e) * X + e * Y := by
    intro X Y hX hXY
    rcases eq_or_lt_of_le hX with rfl | hX
    · have hY : 0 ≤ Y := by
        by_contra hh
        exact hXY (by linarith) rfl
      filter_upwards [near_pos] with e he
      simpa using mul_nonneg he.le hY
    · filter_upwards [pos_near (B := Y) hX] with e he
      exact he.le
  obtain ⟨e, e0, e1, k1, k2, k3⟩ := (near_pos.and (near_lt_one.and ((g _ _ w1 (fun h => mul_ne_zero h0 (m1 h))).and
    ((g _ _ w2 (fun h => mul_ne_zero h0 (m2 h))).and (g _ _ w3 (fun h => mul_ne_zero h0 (m3 h))))))).exists
  have hstep : ∀ e, lin u w (t + e * (1 - t)) = lin (lin u w t) w e := by
    intro e
    unfold lin
    ext <;> simp only <;> ring
  have hin : t + e * (1 - t) ∈ A := by
    rw [hA]
    refine ⟨⟨by nlinarith, by nlinarith⟩, a, b, c, hp, ?_⟩
    rw [hstep]
    refine ⟨?_, ?_, ?_⟩
    · rw [area_lin'']
      calc 0 ≤ _ := k1
        _ = _ := by ring
    · rw [area_lin']
      calc 0 ≤ _ := k2
        _ = _ := by ring
    · rw [area_lin]
      calc 0 ≤ _ := k3
        _ = _ := by ring
  have := hle _ hin
  nlinarith

/-! ### Leaving a vertex -/

theorem not_within_near {a b c q : V2} (p : V2) (h : ¬Within a b c q) :
    ∀ᶠ e in 𝓝[>] (0 : ℝ), ¬Within a b c (lin q p e) := by
  by_cases h1 : area a b c * area q b c < 0
  · filter_upwards [pos_near (A := -(area a b c * area q b c)) (B := -(area a b c * area p b c)) (by linarith)] with e he hw
    have := hw.1
    rw [area_lin''] at this
    linarith
  by_cases h2 : area a b c * area a q c < 0
  · filter_upwards [pos_near (A := -(area a b c * area a q c)) (B := -(area a b c * area a p c)) (by linarith)] with e he hw
    have := hw.2.1
    rw [area_lin'] at this
    linarith
  by_cases h3 : area a b c * area a b q < 0
  · filter_upwards [pos_near (A := -(area a b c * area a b q)) (B := -(area a b c * area a b p)) (by linarith)] with e he hw
    have := hw.2.2
    rw [area_lin] at this
    linarith
  · exact absurd ⟨not_lt.1 h1, not_lt.1 h2, not_lt.1 h3⟩ h

theorem within_lin {a b c q p : V2} (h1 : Within a b c q) (h2 : Within a b c p) {e : ℝ} (e0 : 0 ≤ e) (e1 : e ≤ 1) :
    Within a b c (lin q p e) := by
  obtain ⟨k1, k2, k3⟩ := h1
  obtain ⟨l1, l2, l3⟩ := h2
  have f0 : 0 ≤ 1 - e := by linarith
  refine ⟨?_, ?_, ?_⟩
  · rw [area_lin'']
    calc 0 ≤ (1 - e) * (area a b c * area q b c) + e * (area a b c * area p b c) :=
          add_nonneg (mul_nonneg f0 k1) (mul_nonneg e0 l1)
      _ = _ := by ring
  · rw [area_lin']
    calc 0 ≤ (1 - e) * (area a b c * area a q c) + e * (area a b c * area a p c) :=
          add_nonneg (mul_nonneg f0 k2) (mul_nonneg e0 l2)
      _ = _ := by ring
  · rw [area_lin]
    calc 0 ≤ (1 - e) * (area a b c * area a b q) + e * (area a b c * area a b p) :=
          add_nonneg (mul_nonneg f0 k3) (mul_nonneg e0 l3)
      _ = _ := by ring

/-- The triangle at `a` in the direction of `p`. -/
theorem dir (h : Tess pos V T) (hs : Sites pos V) {a p : Nat} (ha : a ∈ V) (hp : p ∈ V) (ha3 : 3 ≤ a) (hp3 : 3 ≤ p)
    (hne : a ≠ p) : ∃ b c, T a b c ∧ (b = p ∨ Cone (pos a) (pos b) (pos c) (pos p)) := by
  by_contra hcon
  push Not at hcon
  have key : ∀ x ∈ V, ∀ y ∈ V, ∀ z ∈ V, ∀ᶠ e in 𝓝[>] (0 : ℝ), T x y z → ¬Within (pos x) (pos y) (pos z) (lin (pos a) (pos p) e) := by
    -- at `a`
    have corner : ∀ y z, T a y z → ∀ e : ℝ, 0 < e → ¬Within (pos a) (pos y) (pos z) (lin (pos a) (pos p) e) := by
      rintro y z ht e he ⟨-, w2, w3⟩
      have hy := (hcon y z ht).1
      have hz := (hcon z y (h.out ht)).1
      have h0 := h.area hs ht
      rw [area_lin', show area (pos a) (pos a) (pos z) = 0 from by unfold area; ring, mul_zero, zero_add] at w2
      rw [area_lin, area_self', mul_zero, zero_add] at w3
      refine (hcon y z ht).2 ⟨?_, ?_⟩
      · refine lt_of_le_of_ne ?_ (mul_ne_zero h0 (hs.noncol a ha y (h.mem2 ht) p hp (h.ne ht) hne hy)).symm
        exact nonneg_of_mul_nonneg_right (by linarith : 0 ≤ e * (area (pos a) (pos y) (pos z) * area (pos a) (pos y) (pos p))) he
      · refine lt_of_le_of_ne ?_ (mul_ne_zero h0 (hs.noncol a ha p hp z (h.mem3 ht) hne (h.ne3 ht) (Ne.symm hz))).symm
        exact nonneg_of_mul_nonneg_right (by linarith : 0 ≤ e * (area (pos a) (pos y) (pos z) * area (pos a) (pos p) (pos z))) he
    intro x hx y hy z hz
    by_cases ht : T x y z
    · by_cases hax : a = x
      · subst hax
        filter_upwards [near_pos] with e he _
        exact corner _ _ ht e he
      by_cases hay : a = y
      · subst hay
        filter_upwards [near_pos] with e he _ hw
        exact corner _ _ (h.rot ht) e he (within_rot.1 hw)
      by_cases haz : a = z
      · subst haz
        filter_upwards [near_pos] with e he _ hw
        exact corner _ _ (h.rot (h.rot ht)) e he (within_rot.1 (within_rot.1 hw))
      filter_upwards [not_within_near (pos p) (vertex_free h hs ht ha hax hay haz)] with e he _
      exact he
    · exact Filter.Eventually.of_forall fun e hh => absurd hh ht
  have key2 : ∀ᶠ e in 𝓝[>] (0 : ℝ), ∀ x ∈ V, ∀ y ∈ V, ∀ z ∈ V, T x y z →
      ¬Within (pos x) (pos y) (pos z) (lin (pos a) (pos p) e) := by
    rw [Filter.eventually_all_finset]
    intro x hx
    rw [Filter.eventually_all_finset]
    intro y hy
    rw [Filter.eventually_all_finset]
    intro z hz
    exact key x hx y hy z hz
  obtain ⟨e, e0, e1, he⟩ := (near_pos.and (near_lt_one.and key2)).exists
  have ia := hs.inside a ha ha3
  have ip := hs.inside p hp hp3
  obtain ⟨x, y, z, ht, hw⟩ := h.cover (within_lin ⟨ia.1.le, ia.2.1.le, ia.2.2.le⟩ ⟨ip.1.le, ip.2.1.le, ip.2.2.le⟩ e0.le e1.le)
  exact he x (h.mem ht) y (h.mem2 ht) z (h.mem3 ht) ht hw

/-- A point in a triangle from which the way to `w` passes through no vertex. -/
theorem aim (V : Finset Nat) {a b c : V2} (h0 : area a b c ≠ 0) (w : V2) :
    ∃ q, Inside a b c q ∧ ∀ t, t < 1 → ∀ p ∈ V, pos p ≠ w → lin q w t ≠ pos p := by
  have p4 : 0 < area a b c * area a b c := mul_self_pos.2 h0
  have hc : Inside a b c ⟨(a.x + b.x + c.x) / 3, (a.y + b.y + c.y) / 3⟩ := by
    refine ⟨?_, ?_, ?_⟩
    · rw [show area ⟨(a.x + b.x + c.x) / 3, (a.y + b.y + c.y) / 3⟩ b c = area a b c / 3 from by unfold area; ring]
      linarith
    · rw [show area a ⟨(a.x + b.x + c.x) / 3, (a.y + b.y + c.y) / 3⟩ c = area a b c / 3 from by unfold area; ring]
      linarith
    · rw [show area a b ⟨(a.x + b.x + c.x) / 3, (a.y + b.y + c.y) / 3⟩ = area a b c / 3 from by unfold area; ring]
      linarith
  obtain ⟨g, hg⟩ : ∃ g : V2, g = ⟨(a.x + b.x + c.x) / 3, (a.y + b.y + c.y) / 3⟩ := ⟨_, rfl⟩
  rw [← hg] at hc
  have hoff : ∀ᶠ s in 𝓝[>] (0 : ℝ), ∀ p ∈ V, pos p ≠ w → area w (pos p) (move g s) ≠ 0 := by
    rw [Filter.eventually_all_finset]
    intro p _
    by_cases hpw : pos p = w
    · exact Filter.Eventually.of_forall fun s hh => absurd hpw hh
    · have hd : ¬((pos p).x - w.x = 0 ∧ (pos p).y - w.y = 0) := fun ⟨hx, hy⟩ =>
        hpw (by ext <;> linarith)
      filter_upwards [move_off _ _ g hd] with s hs _
      exact hs
  obtain ⟨s, s1, s2⟩ := ((move_inside hc).and hoff).exists
  refine ⟨_, s1, fun t ht p hp hpw heq => s2 p hp hpw ?_⟩
  have := area_lin w (pos p) (move g s) w t
  rw [heq, area_self, area_self', mul_zero, add_zero] at this
  rcases mul_eq_zero.1 this.symm with hh | hh
  · linarith
  · exact hh

end Mdso.Tri
