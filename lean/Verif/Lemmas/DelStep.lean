import Verif.Lemmas.DelWalk

/-!
# Inserting a vertex keeps the circles empty

The argument about the meshes before and after the insertion of a vertex `v`, without reference to the sequence of flips.
-/

set_option autoImplicit false

namespace Mdso.Tri

open Mdso.Geom Mdso.Tri.Spec Filter Topology

/-- Every triangle with two inner vertices and a bounding vertex has all inner vertices on the far side of the line
through the two. -/
def Hull (pos : Nat → V2) (V : Finset Nat) (T : Nat → Nat → Nat → Prop) : Prop :=
  ∀ {a b x p : Nat}, T a b x → 3 ≤ a → 3 ≤ b → x < 3 → p ∈ V → 3 ≤ p →
    area (pos a) (pos b) (pos x) * area (pos a) (pos b) (pos p) ≤ 0

/-- No inner vertex is inside the circle of a triangle of inner vertices. -/
def Empty (pos : Nat → V2) (V : Finset Nat) (T : Nat → Nat → Nat → Prop) : Prop :=
  ∀ {a b c p : Nat}, T a b c → 3 ≤ a → 3 ≤ b → 3 ≤ c → p ∈ V → 3 ≤ p → 0 ≤ pow (pos a) (pos b) (pos c) (pos p)

/-- What the insertion of `v` does: `T` are the triangles before, `T'` those after. -/
structure Step (pos : Nat → V2) (V : Finset Nat) (v : Nat) (T T' : Nat → Nat → Nat → Prop) : Prop where
  old : ∀ {a b c}, T' a b c → a ≠ v → b ≠ v → c ≠ v → T a b c
  star : ∀ {a b}, T' a b v → ∃ c, T a b c ∧ ¬T' a b c ∧
    0 < area (pos a) (pos b) (pos c) * area (pos a) (pos b) (pos v)
  gone0 : ∀ {a b c}, T a b c → ¬T' a b c → 3 ≤ a → 3 ≤ b → 3 ≤ c → pow (pos a) (pos b) (pos c) (pos v) ≤ 0
  gone1 : ∀ {a b x}, T a b x → ¬T' a b x → 3 ≤ a → 3 ≤ b → x < 3 →
    0 < area (pos a) (pos b) (pos x) * area (pos a) (pos b) (pos v)
  legal0 : ∀ {a b c}, T' a b v → T' a b c → c ≠ v → 3 ≤ a → 3 ≤ b → 3 ≤ c → 0 ≤ pow (pos a) (pos b) (pos c) (pos v)
  legal1 : ∀ {a b c}, T' a b v → T' a b c → c ≠ v → 3 ≤ a → b < 3 →
    area (pos a) (pos c) (pos v) * area (pos a) (pos c) (pos b) ≤ 0

section

variable {pos : Nat → V2} {V : Finset Nat} {v : Nat} {T T' : Nat → Nat → Nat → Prop}

theorem Sites.sub (hs : Sites pos (insert v V)) (hv : 3 ≤ v) : Sites pos V := by
  refine ⟨fun a ha b hb c hc => hs.noncol a (Finset.mem_insert_of_mem ha) b (Finset.mem_insert_of_mem hb) c
    (Finset.mem_insert_of_mem hc), fun w hw => ?_, fun w hw => hs.inside w (Finset.mem_insert_of_mem hw)⟩
  rcases Finset.mem_insert.1 (hs.base w hw) with h | h
  · omega
  · exact h

/-- The triangles left from before have `v` on the far side of their inner edge. -/
theorem hull_old (hs : Sites pos (insert v V)) (hv : 3 ≤ v) (hvV : v ∉ V) (h : Tess pos V T)
    (h' : Tess pos (insert v V) T') (st : Step pos V v T T') (hull : Hull pos V T) {a0 b0 x0 : Nat} (ht : T' a0 b0 x0)
    (ha0 : 3 ≤ a0) (hb0 : 3 ≤ b0) (hx0 : x0 < 3) (na : a0 ≠ v) (nb : b0 ≠ v) :
    area (pos a0) (pos b0) (pos x0) * area (pos a0) (pos b0) (pos v) ≤ 0 := by
  by_contra hcon
  push Not at hcon
  have nx : x0 ≠ v := by omega
  have ht0 : T a0 b0 x0 := st.old ht na nb nx
  have hvM : v ∈ insert v V := Finset.mem_insert_self _ _
  have haV : a0 ∈ V := h.mem ht0
  have hbV : b0 ∈ V := h.mem2 ht0
  obtain ⟨m, hm⟩ : ∃ m, m = lin (pos a0) (pos b0) (1 / 2) := ⟨_, rfl⟩
  have h0 := h'.area hs ht
  have p4 : 0 < area (pos a0) (pos b0) (pos x0) * area (pos a0) (pos b0) (pos x0) := mul_self_pos.2 h0
  -- points near `m` are in the triangle
  have hm1 : 0 < area (pos a0) (pos b0) (pos x0) * area m (pos b0) (pos x0) := by
    rw [hm, area_lin'', show area (pos b0) (pos b0) (pos x0) = 0 from by unfold area; ring]
    nlinarith
  have hm2 : 0 < area (pos a0) (pos b0) (pos x0) * area (pos a0) m (pos x0) := by
    rw [hm, area_lin', show area (pos a0) (pos a0) (pos x0) = 0 from by unfold area; ring]
    nlinarith
  have hm3 : area (pos a0) (pos b0) m = 0 := by
    rw [hm, area_lin, area_self', area_self]; ring
  have hnear : ∀ᶠ e in 𝓝[>] (0 : ℝ), Inside (pos a0) (pos b0) (pos x0) (lin m (pos v) e) := by
    filter_upwards [near_pos, pos_near (B := area (pos a0) (pos b0) (pos x0) * area (pos v) (pos b0) (pos x0)) hm1,
      pos_near (B := area (pos a0) (pos b0) (pos x0) * area (pos a0) (pos v) (pos x0)) hm2] with e he k1 k2
    refine ⟨?_, ?_, ?_⟩
    · rw [area_lin'']
      calc 0 < _ := k1
        _ = _ := by ring
    · rw [area_lin']
      calc 0 < _ := k2
        _ = _ := by ring
    · rw [area_lin, hm3, mul_zero, zero_add]
      calc 0 < e * (area (pos a0) (pos b0) (pos x0) * area (pos a0) (pos b0) (pos v)) := mul_pos he hcon
        _ = _ := by ring
  obtain ⟨s, hs0, hs1, hsin⟩ := (near_pos.and (near_lt_one.and hnear)).exists
  have hbeyond : ∀ t, 0 < t → 0 < area (pos a0) (pos b0) (pos x0) * area (pos a0) (pos b0) (lin m (pos v) t) := by
    intro t h0
    rw [area_lin, hm3, mul_zero, zero_add]
    calc 0 < t * (area (pos a0) (pos b0) (pos x0) * area (pos a0) (pos b0) (pos v)) := mul_pos h0 hcon
      _ = _ := by ring
  have hself : ∀ q, area (pos a0) (pos a0) q = 0 := fun q => by unfold area; ring
  -- the sides of the bounding triangle, seen from the segment
  have hstrict : ∀ x z, x < 3 → z < 3 → x ≠ z → ∀ p ∈ insert v V, p ≠ x → p ≠ z → ∀ t, 0 ≤ t → t ≤ 1 →
      0 < area (pos x) (pos z) (pos p) * area (pos x) (pos z) (lin m (pos v) t) := by
    intro x z hx hz hxz p hp hpx hpz t ht0 ht1
    have k1 := bound_side hs hx hz hxz hp (Finset.mem_insert_of_mem haV) hpx hpz (by omega) (by omega)
    have k2 := bound_side hs hx hz hxz hp (Finset.mem_insert_of_mem hbV) hpx hpz (by omega) (by omega)
    have k3 := bound_side hs hx hz hxz hp hvM hpx hpz (by omega) (by omega)
    rw [area_lin, hm, area_lin]
    have : area (pos x) (pos z) (pos p) * ((1 - t) * ((1 - 1 / 2) * area (pos x) (pos z) (pos a0) + 1 / 2 *
      area (pos x) (pos z) (pos b0)) + t * area (pos x) (pos z) (pos v)) =
      (1 - t) * (1 / 2 * (area (pos x) (pos z) (pos p) * area (pos x) (pos z) (pos a0)) + 1 / 2 *
        (area (pos x) (pos z) (pos p) * area (pos x) (pos z) (pos b0))) +
        t * (area (pos x) (pos z) (pos p) * area (pos x) (pos z) (pos v)) := by ring
    rw [this]
    have k4 : 0 < 1 / 2 * (area (pos x) (pos z) (pos p) * area (pos x) (pos z) (pos a0)) + 1 / 2 *
        (area (pos x) (pos z) (pos p) * area (pos x) (pos z) (pos b0)) := by linarith
    rcases eq_or_lt_of_le ht0 with rfl | ht0
    · linarith
    · have := mul_pos ht0 k3
      have := mul_nonneg (show (0 : ℝ) ≤ 1 - t by linarith) k4.le
      linarith
  have avoid : ∀ t, s ≤ t → t < 1 → ∀ p ∈ insert v V, lin m (pos v) t ≠ pos p := by
    intro t hst ht1 p hp heq
    have hb := hbeyond t (by linarith)
    rcases Finset.mem_insert.1 hp with rfl | hpV
    · -- `v` itself is reached only at the end
      have e1 := area_lin (pos a0) (pos b0) m (pos p) t
      rw [heq, hm3, mul_zero, zero_add] at e1
      have : (1 - t) * area (pos a0) (pos b0) (pos p) = 0 := by linarith
      rcases mul_eq_zero.1 this with hh | hh
      · linarith
      · rw [hh] at hcon; simp at hcon
    · by_cases hp3 : 3 ≤ p
      · have := hull ht0 ha0 hb0 hx0 hpV hp3
        rw [heq] at hb
        linarith
      · -- a bounding vertex
        obtain ⟨z, hz, hzp⟩ : ∃ z, z < 3 ∧ z ≠ p := by
          by_cases hp0 : p = 0
          · exact ⟨1, by omega, by omega⟩
          · exact ⟨0, by omega, by omega⟩
        have := hstrict p z (by omega) hz hzp.symm v hvM (by omega) (by omega) t (by linarith) ht1.le
        rw [heq, area_self'] at this
        simp at this
  have key := walk_to hs (P := fun a b c => T' a b c ∧ a ≠ v ∧ b ≠ v ∧ c ≠ v ∧ (a < 3 ∨ b < 3 ∨ c < 3))
    (u := m) (w := pos v) (s := s) (fun ⟨k1, k2, k3, k4, k5⟩ => ⟨h'.rot k1, k3, k4, k2, by tauto⟩)
    (fun ⟨k1, _⟩ => ⟨h'.mem k1, h'.ne k1⟩) hs1.le
    ⟨a0, b0, x0, ⟨ht, na, nb, nx, .inr (.inr hx0)⟩, hsin.1.le, hsin.2.1.le, hsin.2.2.le⟩ avoid (by
    rintro a b c t ⟨k1, k2, k3, k4, k5⟩ hst ht1 hz hw hb
    have ht0' : 0 < t := by linarith
    have hT : T a b c := st.old k1 k2 k3 k4
    have harea := h'.area hs k1
    obtain ⟨l, l0, l1, hl⟩ := on_edge harea hz hw
    have hq := hbeyond t ht0'
    -- the edge between an inner and a bounding vertex
    have mixed : ∀ {a b l}, T' a b c → a ≠ v → b ≠ v → 3 ≤ a → b < 3 → 0 ≤ l → l ≤ 1 → lin m (pos v) t = lin (pos a) (pos b) l →
        area (pos a) (pos b) (lin m (pos v) t) = 0 →
        area (pos a) (pos b) (pos c) * area (pos a) (pos b) (pos v) < 0 →
        ∃ d, (T' a b d ∧ a ≠ v ∧ b ≠ v ∧ d ≠ v ∧ (a < 3 ∨ b < 3 ∨ d < 3)) ∧
          area (pos a) (pos b) (pos c) * area (pos a) (pos b) (pos d) < 0 := by
      intro a b l k1 k2 k3 ha hb3 l0 l1 hl hz hb
      have hT : T a b c := st.old k1 k2 k3 k4
      obtain ⟨d, hd, hcd⟩ := h'.nb k1 (by omega)
      by_cases hdv : d = v
      · exfalso
        subst hdv
        have hleg := st.legal1 hd k1 k4 ha hb3
        have hacb : area (pos a) (pos c) (pos b) ≠ 0 := h'.area hs (h'.out k1)
        have l0' : 0 < l := by
          refine lt_of_le_of_ne l0 ?_
          rintro rfl
          rw [lin_zero] at hl
          exact avoid t hst ht1 a (h'.mem k1) hl
        -- the point is on the side of `b` of the line `ac`
        have hqs : 0 < area (pos a) (pos c) (pos b) * area (pos a) (pos c) (lin m (pos d) t) := by
          rw [hl, area_lin, area_self', mul_zero, zero_add]
          calc 0 < l * (area (pos a) (pos c) (pos b) * area (pos a) (pos c) (pos b)) :=
                mul_pos l0' (mul_self_pos.2 hacb)
            _ = _ := by ring
        rw [area_lin] at hqs
        have hsum : area (pos a) (pos c) (pos b) * ((1 - t) * area (pos a) (pos c) m + t * area (pos a) (pos c) (pos d)) =
            (1 - t) * (area (pos a) (pos c) (pos b) * area (pos a) (pos c) m) +
            t * (area (pos a) (pos c) (pos d) * area (pos a) (pos c) (pos b)) := by ring
        rw [hsum] at hqs
        have h2 : t * (area (pos a) (pos c) (pos d) * area (pos a) (pos c) (pos b)) ≤ 0 :=
          mul_nonpos_of_nonneg_of_nonpos ht0'.le hleg
        have h3 : 0 < area (pos a) (pos c) (pos b) * area (pos a) (pos c) m := by
          by_contra hh
          push Not at hh
          have := mul_nonpos_of_nonneg_of_nonpos (show (0 : ℝ) ≤ 1 - t by linarith) hh
          linarith
        by_cases hc3 : 3 ≤ c
        · have q1 := hull (h.out hT) ha hc3 hb3 haV ha0
          have q2 := hull (h.out hT) ha hc3 hb3 hbV hb0
          rw [hm, area_lin] at h3
          nlinarith
        · -- `m` is in the interior of a triangle with two bounding vertices
          have hc3' : c < 3 := by omega
          have i1 : 0 < area (pos a) (pos b) (pos c) * area (pos a) m (pos c) := by
            rw [area_other (pos a) (pos b) (pos c), area_other (pos a) m (pos c)] at h3
            linarith
          have i2 : 0 < area (pos a) (pos b) (pos c) * area (pos a) (pos b) m := by
            rw [area_lin] at hz
            have e1 : area (pos a) (pos b) (pos c) * ((1 - t) * area (pos a) (pos b) m + t * area (pos a) (pos b) (pos d)) =
              0 := by rw [hz, mul_zero]
            have e2 : (1 - t) * (area (pos a) (pos b) (pos c) * area (pos a) (pos b) m) =
                -(t * (area (pos a) (pos b) (pos c) * area (pos a) (pos b) (pos d))) := by linarith
            have e3 : 0 < (1 - t) * (area (pos a) (pos b) (pos c) * area (pos a) (pos b) m) := by
              rw [e2]
              have := mul_neg_of_pos_of_neg ht0' hb
              linarith
            exact (pos_iff_pos_of_mul_pos e3).1 (by linarith)
          have i3 : 0 < area (pos a) (pos b) (pos c) * area m (pos b) (pos c) := by
            have := hstrict b c hb3 hc3' (h'.ne2 k1) a (h'.mem k1) (h'.ne k1) (h'.ne3 k1) 0 le_rfl (by norm_num)
            rw [lin_zero] at this
            rw [show area (pos a) (pos b) (pos c) = area (pos b) (pos c) (pos a) from by unfold area; ring,
              show area m (pos b) (pos c) = area (pos b) (pos c) m from by unfold area; ring]
            exact this
          obtain ⟨e, e1, e2⟩ := (hnear.and (inside_near (pos d) (show Inside (pos a) (pos b) (pos c) m from
            ⟨i3, i1, i2⟩))).exists
          have z1 := h'.apart k1 ht e2 e1
          have z2 := h'.apart k1 (h'.rot ht) e2 (inside_rot.1 e1)
          have := h'.ne ht
          omega
      · exact ⟨d, ⟨hd, k2, k3, hdv, .inr (.inl hb3)⟩, hcd⟩
    by_cases ha : 3 ≤ a
    · by_cases hb3 : 3 ≤ b
      · exfalso
        have q1 := hull ht0 ha0 hb0 hx0 (h.mem hT) ha
        have q2 := hull ht0 ha0 hb0 hx0 (h.mem2 hT) hb3
        rw [hl, area_lin] at hq
        nlinarith
      · exact mixed k1 k2 k3 ha (by omega) l0 l1 hl hz hb
    · by_cases hb3 : 3 ≤ b
      · have hl' : lin m (pos v) t = lin (pos b) (pos a) (1 - l) := by
          rw [hl]; unfold lin; ext <;> simp only <;> ring
        obtain ⟨d, ⟨d1, d2, d3, d4, d5⟩, d6⟩ := mixed (h'.swap k1) k3 k2 hb3 (by omega) (by linarith) (by linarith) hl'
          (by rw [area_swap, hz, neg_zero]) (by rw [area_swap (pos a), area_swap (pos a) (pos b) (pos v)]; linarith)
        refine ⟨d, ⟨h'.swap d1, d3, d2, d4, by tauto⟩, ?_⟩
        rw [area_swap (pos a), area_swap (pos a) (pos b) (pos d)] at d6
        linarith
      · exfalso
        have := bound_side hs (show a < 3 by omega) (show b < 3 by omega) (h'.ne k1) (h'.mem3 k1) hvM
          (h'.ne3 k1).symm (h'.ne2 k1).symm (by omega) (by omega)
        linarith)
  obtain ⟨a, b, c, ⟨k1, k2, k3, k4, -⟩, hw⟩ := key
  exact vertex_free h' hs k1 hvM k2.symm k3.symm k4.symm hw

/-- Nothing is between `v` and a bounding vertex that is next to it at `a`. -/
theorem wedge (hs : Sites pos (insert v V)) (hv : 3 ≤ v) (hvV : v ∉ V) (h : Tess pos V T)
    (h' : Tess pos (insert v V) T') (st : Step pos V v T T') (hull : Hull pos V T) {a x p : Nat} (ht : T' a x v)
    (ha : 3 ≤ a) (hx : x < 3) (hp : p ∈ V) (hp3 : 3 ≤ p) : ¬Cone (pos a) (pos v) (pos x) (pos p) := by
  intro hc
  have hs0 : Sites pos V := hs.sub hv
  have hav : a ≠ v := h'.ne3 ht
  have haV : a ∈ V := (Finset.mem_insert.1 (h'.mem ht)).resolve_left hav
  have hxV : x ∈ V := hs0.base x hx
  have hap : a ≠ p := by
    rintro rfl
    have := hc.1
    rw [area_self'] at this
    simp at this
  obtain ⟨y0, hy0, -, -⟩ := st.star ht
  -- areas at `a`, with the sign of the triangle
  obtain ⟨S, hS⟩ : ∃ S, S = area (pos a) (pos v) (pos x) := ⟨_, rfl⟩
  have hS0 : S ≠ 0 := by
    rw [hS]; exact h'.area hs (h'.out ht)
  obtain ⟨br, hbr⟩ : ∃ br : Nat → Nat → ℝ, ∀ y z, br y z = S * area (pos a) (pos y) (pos z) := ⟨_, fun _ _ => rfl⟩
  have hflip : ∀ y z, br y z = -br z y := by
    intro y z; rw [hbr, hbr, area_other (pos a) (pos z) (pos y)]; ring
  have hpl : ∀ y z u w, br y z * br u w - br y u * br z w + br y w * br z u = 0 := by
    intro y z u w
    have := plucker (pos a) (pos y) (pos z) (pos u) (pos w)
    rw [hbr, hbr, hbr, hbr, hbr, hbr]
    linear_combination S * S * this
  have hvx : 0 < br v x := by rw [hbr, ← hS]; exact mul_self_pos.2 hS0
  have hnz : ∀ y ∈ insert v V, ∀ z ∈ insert v V, a ≠ y → a ≠ z → y ≠ z → br y z ≠ 0 := by
    intro y hy z hz h1 h2 h3
    rw [hbr]
    exact mul_ne_zero hS0 (hs.noncol a (h'.mem ht) y hy z hz h1 h2 h3)
  have hcone : ∀ y, Cone (pos a) (pos v) (pos x) (pos y) ↔ 0 < br v y ∧ 0 < br y x := by
    intro y; rw [hbr, hbr, hS]; rfl
  have hcone' : ∀ y z w, 0 < br y z → 0 < br y w → 0 < br w z → Cone (pos a) (pos y) (pos z) (pos w) := by
    intro y z w h1 h2 h3
    rw [hbr] at h1 h2 h3
    exact ⟨prod_pos h1 h2, prod_pos h1 h3⟩
  -- `x` is not between the ends of an old triangle at `a`
  have hxout : ∀ y z, T a y z → 0 < br y z → 0 < br y x → 3 ≤ z → 0 < br z x := by
    intro y z h1 h2 h3 h4
    by_contra hh
    push Not at hh
    have hlt : br z x < 0 := lt_of_le_of_ne hh
      (hnz z (Finset.mem_insert_of_mem (h.mem3 h1)) x (Finset.mem_insert_of_mem hxV) (h.ne3 h1) (by omega) (by omega))
    exact cone_edge h hs0 hy0 h1 (hcone' y z x h2 h3 (by rw [hflip]; linarith))
  obtain ⟨B, hB⟩ : ∃ B : Finset Nat, ∀ b, b ∈ B ↔ b ∈ V ∧ 3 ≤ b ∧ (∃ w, T a b w) ∧ 0 < br v b ∧ 0 < br b x := by
    classical
    exact ⟨V.filter fun b => 3 ≤ b ∧ (∃ w, T a b w) ∧ 0 < br v b ∧ 0 < br b x, fun b => by simp⟩
  have hne : B.Nonempty := by
    obtain ⟨hc1, hc2⟩ := (hcone p).1 hc
    obtain ⟨b, c, hbc, hcase⟩ := dir h hs0 haV hp ha hp3 hap
    rcases hcase with rfl | hcase
    · exact ⟨b, (hB b).2 ⟨hp, hp3, ⟨c, hbc⟩, hc1, hc2⟩⟩
    · -- the triangle has no bounding vertex
      have hpb : p ≠ b := by
        rintro rfl
        have := hcase.1
        rw [area_self] at this
        simp at this
      have hpc : p ≠ c := by
        rintro rfl
        have := hcase.2
        rw [area_self] at this
        simp at this
      have both : 3 ≤ b ∧ 3 ≤ c := by
        by_cases hb3 : 3 ≤ b
        · by_cases hc3 : 3 ≤ c
          · exact ⟨hb3, hc3⟩
          · have := hull hbc ha hb3 (by omega) hp hp3
            have := hcase.1
            linarith
        · exfalso
          by_cases hc3 : 3 ≤ c
          · have h1 := hull (h.out hbc) ha hc3 (by omega) hp hp3
            have h2 := (cone_swap hcase).1
            linarith
          · have h1 := bound_side hs0 (show b < 3 by omega) (show c < 3 by omega) (h.ne2 hbc) haV hp (by omega) (by omega)
              hpb hpc
            refine vertex_free h hs0 hbc hp hap.symm hpb hpc ⟨?_, hcase.2.le, hcase.1.le⟩
            rw [show area (pos a) (pos b) (pos c) = area (pos b) (pos c) (pos a) from by unfold area; ring,
              show area (pos p) (pos b) (pos c) = area (pos b) (pos c) (pos p) from by unfold area; ring]
            exact h1.le
      have main : ∀ b c, T a b c → 3 ≤ c → 0 < br b c → 0 < br b p → 0 < br p c → B.Nonempty := by
        intro b c hbc hc3 h1 h2 h3
        have hcx : 0 < br c x := by
          by_contra hh
          push Not at hh
          have hlt : br c x < 0 := lt_of_le_of_ne hh
            (hnz c (Finset.mem_insert_of_mem (h.mem3 hbc)) x (Finset.mem_insert_of_mem hxV) (h.ne3 hbc) (by omega) (by omega))
          have e := hpl b p x c
          have hxc : 0 < br x c := by rw [hflip]; linarith
          have : 0 < br b x := by
            by_contra h9
            push Not at h9
            have e1 := mul_pos h2 hxc
            have e2 := mul_pos h1 hc2
            have e3 := mul_nonpos_of_nonpos_of_nonneg h9 h3.le
            linarith
          have := hxout b c hbc h1 this hc3
          linarith
        have e := hpl v p c x
        have hvc : 0 < br v c := by
          by_contra h9
          push Not at h9
          have e1 := mul_pos hc1 hcx
          have e2 := mul_pos hvx h3
          have e3 := mul_nonpos_of_nonpos_of_nonneg h9 hc2.le
          linarith
        exact ⟨c, (hB c).2 ⟨h.mem3 hbc, hc3, ⟨b, h.out hbc⟩, hvc, hcx⟩⟩
      obtain ⟨k1, k2⟩ := hcase
      have k3 : 0 < br b c * br b p := by
        rw [hbr, hbr]
        calc 0 < (S * S) * (area (pos a) (pos b) (pos c) * area (pos a) (pos b) (pos p)) := mul_pos (mul_self_pos.2 hS0) k1
          _ = _ := by ring
      have k4 : 0 < br b c * br p c := by
        rw [hbr, hbr]
        calc 0 < (S * S) * (area (pos a) (pos b) (pos c) * area (pos a) (pos p) (pos c)) := mul_pos (mul_self_pos.2 hS0) k2
          _ = _ := by ring
      rcases lt_or_gt_of_ne (show br b c ≠ 0 from fun hh => by rw [hh] at k3; simp at k3) with hh | hh
      · refine main c b (h.out hbc) both.1 (by rw [hflip]; linarith) ?_ ?_
        · rw [hflip]
          have := neg_of_mul_pos_right k4 hh.le
          linarith
        · rw [hflip]
          have := neg_of_mul_pos_right k3 hh.le
          linarith
      · exact main b c hbc both.2 hh (pos_of_mul_pos_right k3 hh.le) (pos_of_mul_pos_right k4 hh.le)
  obtain ⟨b, hbB, hmax⟩ := Finset.exists_max_image B (fun b => br v b / br b x) hne
  obtain ⟨hbV, hb3, ⟨w, hw⟩, hvb, hbx⟩ := (hB b).1 hbB
  obtain ⟨d, hd, hbd⟩ : ∃ d, T a b d ∧ 0 < br b d := by
    have hz := hnz b (Finset.mem_insert_of_mem hbV) w (Finset.mem_insert_of_mem (h.mem3 hw)) (h.ne hw) (h.ne3 hw) (h.ne2 hw)
    rcases lt_or_gt_of_ne hz with hh | hh
    · obtain ⟨d, d1, d2⟩ := h.nb hw (by omega)
      refine ⟨d, d1, ?_⟩
      have : br b w * br b d < 0 := by
        rw [hbr, hbr]
        have := mul_neg_of_pos_of_neg (mul_self_pos.2 hS0) d2
        linarith
      exact pos_of_mul_neg_right this hh.le
    · exact ⟨w, hw, hh⟩
  by_cases hd3 : 3 ≤ d
  · have hdx := hxout b d hd hbd hbx hd3
    have e := hpl v b d x
    have e1 := mul_pos hvx hbd
    have e2 := mul_pos hvb hdx
    have hvd : 0 < br v d := by
      by_contra h9
      push Not at h9
      have e3 := mul_nonpos_of_nonpos_of_nonneg h9 hbx.le
      linarith
    have := hmax d ((hB d).2 ⟨h.mem3 hd, hd3, ⟨b, h.out hd⟩, hvd, hdx⟩)
    rw [div_le_div_iff₀ hdx hbx] at this
    linarith
  · have hkeep : T' a b d := by
      by_contra hh
      have := st.gone1 hd hh ha hb3 (by omega)
      have h1 : 0 < br b d * br b v := by
        rw [hbr, hbr]
        calc 0 < (S * S) * (area (pos a) (pos b) (pos d) * area (pos a) (pos b) (pos v)) := mul_pos (mul_self_pos.2 hS0) this
          _ = _ := by ring
      have h2 : 0 < br b v := pos_of_mul_pos_right h1 hbd.le
      rw [hflip] at h2
      linarith
    exact cone_edge h' hs hkeep (h'.out ht) ((hcone b).2 ⟨hvb, hbx⟩)

/-- A new triangle with a bounding vertex. -/
theorem hull_star (hs : Sites pos (insert v V)) (hv : 3 ≤ v) (hvV : v ∉ V) (h : Tess pos V T)
    (h' : Tess pos (insert v V) T') (st : Step pos V v T T') (hull : Hull pos V T) {a x p : Nat} (ht : T' a x v)
    (ha : 3 ≤ a) (hx : x < 3) (hp : p ∈ V) (hp3 : 3 ≤ p) :
    area (pos a) (pos v) (pos x) * area (pos a) (pos v) (pos p) ≤ 0 := by
  by_contra hcon
  push Not at hcon
  have hav : a ≠ v := h'.ne3 ht
  have hap : a ≠ p := by
    rintro rfl
    rw [area_self'] at hcon
    simp at hcon
  have hpM : p ∈ insert v V := Finset.mem_insert_of_mem hp
  obtain ⟨S, hS⟩ : ∃ S, S = area (pos a) (pos v) (pos x) := ⟨_, rfl⟩
  have hS0 : S ≠ 0 := by
    rw [hS]; exact h'.area hs (h'.out ht)
  have hpx : S * area (pos a) (pos p) (pos x) < 0 := by
    have hz : S * area (pos a) (pos p) (pos x) ≠ 0 :=
      mul_ne_zero hS0 (hs.noncol a (h'.mem ht) p hpM x (h'.mem2 ht) hap (by omega) (by omega))
    refine lt_of_le_of_ne ?_ hz
    by_contra hh
    push Not at hh
    exact wedge hs hv hvV h h' st hull ht ha hx hp hp3 ⟨hcon, hS ▸ hh⟩
  obtain ⟨w, hw, hvw⟩ := h'.nb ht (by omega)
  have hwv : w ≠ v := by
    rintro rfl
    nlinarith [mul_self_nonneg (area (pos a) (pos x) (pos w))]
  have hleg := st.legal1 ht hw hwv ha hx
  rw [area_other (pos a) (pos v) (pos x), ← hS] at hvw
  rw [← hS] at hcon
  have e0 := plucker (pos a) (pos v) (pos x) (pos p) (pos w)
  rw [← hS] at e0
  rw [area_other (pos a) (pos x) (pos w), area_other (pos a) (pos v) (pos w)] at hleg
  have exw : 0 < S * area (pos a) (pos x) (pos w) := by linarith
  have evw : S * area (pos a) (pos v) (pos w) ≤ 0 := by
    by_contra hh
    push Not at hh
    have := prod_pos exw hh
    linarith
  have exp : 0 < S * area (pos a) (pos x) (pos p) := by
    rw [area_other (pos a) (pos p) (pos x)]; linarith
  have epw : 0 < S * area (pos a) (pos p) (pos w) := by
    have e1 := mul_pos hcon exw
    have e2 := mul_nonpos_of_nonpos_of_nonneg evw exp.le
    have e3 : (S * S) * (S * area (pos a) (pos p) (pos w)) =
        S * area (pos a) (pos v) (pos p) * (S * area (pos a) (pos x) (pos w)) -
        S * area (pos a) (pos v) (pos w) * (S * area (pos a) (pos x) (pos p)) := by linear_combination S * S * e0
    exact (pos_iff_pos_of_mul_pos (show 0 < (S * S) * (S * area (pos a) (pos p) (pos w)) by linarith)).1 (mul_self_pos.2 hS0)
  by_cases hw3 : 3 ≤ w
  · have := hull (st.old (h'.out hw) hav hwv (by omega)) ha hw3 hx hp hp3
    rw [area_other (pos a) (pos x) (pos w), area_other (pos a) (pos p) (pos w)] at this
    have := prod_pos exw epw
    linarith
  · refine vertex_free h' hs hw hpM hap.symm (by omega) (by omega) ⟨?_, (prod_pos exw epw).le, (prod_pos exw exp).le⟩
    have h1 := bound_side hs hx (show w < 3 by omega) (h'.ne2 hw) (h'.mem ht) hpM (by omega) (by omega) (by omega) (by omega)
    rw [show area (pos a) (pos x) (pos w) = area (pos x) (pos w) (pos a) from by unfold area; ring,
      show area (pos p) (pos x) (pos w) = area (pos x) (pos w) (pos p) from by unfold area; ring]
    exact h1.le

theorem hull_step (hs : Sites pos (insert v V)) (hv : 3 ≤ v) (hvV : v ∉ V) (h : Tess pos V T)
    (h' : Tess pos (insert v V) T') (st : Step pos V v T T') (hull : Hull pos V T) : Hull pos (insert v V) T' := by
  intro a b x p ht ha hb hx hp hp3
  have star : ∀ a, T' a x v → 3 ≤ a →
      area (pos a) (pos v) (pos x) * area (pos a) (pos v) (pos p) ≤ 0 := by
    intro a ht ha
    rcases Finset.mem_insert.1 hp with rfl | hpV
    · rw [area_self]; simp
    · exact hull_star hs hv hvV h h' st hull ht ha hx hpV hp3
  by_cases hbv : b = v
  · subst hbv
    exact star a (h'.out ht) ha
  by_cases hav : a = v
  · subst hav
    have := star b (h'.rot ht) hb
    rw [area_swap (pos a), area_swap (pos a) (pos b) (pos p)] at this
    linarith
  rcases Finset.mem_insert.1 hp with rfl | hpV
  · exact hull_old hs hv hvV h h' st hull ht ha hb hx hav hbv
  · exact hull (st.old ht hav hbv (by omega)) ha hb hx hpV hp3

/-- An old triangle of inner vertices that is left has `v` outside of its circle. -/
theorem empty_old (hs : Sites pos (insert v V)) (hv : 3 ≤ v) (h : Tess pos V T)
    (h' : Tess pos (insert v V) T') (st : Step pos V v T T') (hull' : Hull pos (insert v V) T') (emp : Empty pos V T)
    {a0 b0 c0 : Nat} (ht : T' a0 b0 c0) (ha0 : 3 ≤ a0) (hb0 : 3 ≤ b0) (hc0 : 3 ≤ c0) (na : a0 ≠ v) (nb : b0 ≠ v)
    (nc : c0 ≠ v) : 0 ≤ pow (pos a0) (pos b0) (pos c0) (pos v) := by
  by_contra hcon
  push Not at hcon
  have hvM : v ∈ insert v V := Finset.mem_insert_self _ _
  obtain ⟨q, hq, hav⟩ := aim (pos := pos) (insert v V) (h'.area hs ht) (pos v)
  have key := walk_to hs (P := fun a b c => T' a b c ∧ (a ≠ v ∧ b ≠ v ∧ c ≠ v) ∧ (3 ≤ a ∧ 3 ≤ b ∧ 3 ≤ c) ∧
      pow (pos a) (pos b) (pos c) (pos v) < 0)
    (u := q) (w := pos v) (s := 0) (fun ⟨k1, k2, k3, k4⟩ => ⟨h'.rot k1, by tauto, by tauto, by rw [pow_rot]; exact k4⟩)
    (fun ⟨k1, _⟩ => ⟨h'.mem k1, h'.ne k1⟩) (by norm_num)
    ⟨a0, b0, c0, ⟨ht, ⟨na, nb, nc⟩, ⟨ha0, hb0, hc0⟩, hcon⟩, by
      rw [lin_zero]; exact ⟨hq.1.le, hq.2.1.le, hq.2.2.le⟩⟩ (by
    intro t _ ht1 p hp heq
    by_cases hpv : pos p = pos v
    · have e : ∀ a b : V2, (1 - t) * area a b q = (1 - t) * area a b (pos v) := by
        intro a b
        have := area_lin a b q (pos v) t
        rw [heq, hpv] at this
        linarith
      have e' : ∀ a b : V2, area a b q = area a b (pos v) := fun a b => mul_left_cancel₀ (by linarith) (e a b)
      refine vertex_free h' hs ht hvM na.symm nb.symm nc.symm ⟨?_, ?_, ?_⟩
      · rw [show area (pos v) (pos b0) (pos c0) = area (pos b0) (pos c0) (pos v) from by unfold area; ring, ← e',
          show area (pos b0) (pos c0) q = area q (pos b0) (pos c0) from by unfold area; ring]
        exact hq.1.le
      · rw [show area (pos a0) (pos v) (pos c0) = area (pos c0) (pos a0) (pos v) from by unfold area; ring, ← e',
          show area (pos c0) (pos a0) q = area (pos a0) q (pos c0) from by unfold area; ring]
        exact hq.2.1.le
      · rw [← e']; exact hq.2.2.le
    · exact hav t ht1 p hp hpv heq) (by
    rintro a b c t ⟨k1, ⟨n1, n2, n3⟩, ⟨r1, r2, r3⟩, k2⟩ _ _ _ _ hb
    obtain ⟨d, hd, hcd⟩ := h'.nb k1 (by omega)
    refine ⟨d, ?_, hcd⟩
    have hac := h'.area hs k1
    have had := h'.area hs hd
    have hdv : 0 < area (pos a) (pos b) (pos d) * area (pos a) (pos b) (pos v) := by
      have h1 : 0 < (area (pos a) (pos b) (pos c) * area (pos a) (pos b) (pos v)) *
        (area (pos a) (pos b) (pos c) * area (pos a) (pos b) (pos d)) := mul_pos_of_neg_of_neg hb hcd
      have h2 : (area (pos a) (pos b) (pos c) * area (pos a) (pos b) (pos v)) *
        (area (pos a) (pos b) (pos c) * area (pos a) (pos b) (pos d)) =
        (area (pos a) (pos b) (pos c) * area (pos a) (pos b) (pos c)) *
        (area (pos a) (pos b) (pos d) * area (pos a) (pos b) (pos v)) := by ring
      rw [h2] at h1
      exact (pos_iff_pos_of_mul_pos h1).1 (mul_self_pos.2 hac)
    have hdne : d ≠ v := by
      rintro rfl
      have := st.legal0 hd k1 n3 r1 r2 r3
      linarith
    have hd3 : 3 ≤ d := by
      by_contra hh
      have := hull' hd r1 r2 (by omega) hvM hv
      linarith
    have hT : T a b c := st.old k1 n1 n2 n3
    have hTd : T a b d := st.old hd n1 n2 hdne
    refine ⟨hd, ⟨n1, n2, hdne⟩, ⟨r1, r2, hd3⟩, ?_⟩
    have := pow_towards hac had (emp hT r1 r2 r3 (h.mem3 hTd) hd3) hdv.le
    linarith)
  obtain ⟨a, b, c, ⟨k1, ⟨n1, n2, n3⟩, -⟩, hw⟩ := key
  exact vertex_free h' hs k1 hvM n1.symm n2.symm n3.symm hw

/-- A new triangle of inner vertices. -/
theorem empty_star (hs : Sites pos (insert v V)) (h : Tess pos V T) (hv : 3 ≤ v)
    (h' : Tess pos (insert v V) T') (st : Step pos V v T T') (hull : Hull pos V T) (hull' : Hull pos (insert v V) T')
    (emp : Empty pos V T) {a b p : Nat} (ht : T' a b v) (ha : 3 ≤ a) (hb : 3 ≤ b) (hp : p ∈ V) (hp3 : 3 ≤ p) :
    0 ≤ pow (pos a) (pos b) (pos v) (pos p) := by
  have hav := h'.ne3 ht
  have hbv := h'.ne2 ht
  have hv0 := h'.area hs ht
  have hs0 := hs.sub hv
  rcases le_total (area (pos a) (pos b) (pos v) * area (pos a) (pos b) (pos p)) 0 with hside | hside
  · obtain ⟨w, hw, hvw⟩ := h'.nb ht (by omega)
    have hwv : w ≠ v := by
      rintro rfl
      nlinarith [mul_self_nonneg (area (pos a) (pos b) (pos w))]
    by_cases hw3 : 3 ≤ w
    · exact pow_outer hv0 (h'.area hs hw) (st.legal0 ht hw hwv ha hb hw3) hside
        (emp (st.old hw hav hbv hwv) ha hb hw3 hp hp3)
    · -- on the hull: only the two ends are on this side
      have h1 := hull' hw ha hb (by omega) (Finset.mem_insert_of_mem hp) hp3
      have h2 : area (pos a) (pos b) (pos p) = 0 := by
        by_contra hne
        have g1 : area (pos a) (pos b) (pos v) * area (pos a) (pos b) (pos p) < 0 :=
          lt_of_le_of_ne hside (mul_ne_zero hv0 hne)
        have g2 : area (pos a) (pos b) (pos w) * area (pos a) (pos b) (pos p) < 0 :=
          lt_of_le_of_ne h1 (mul_ne_zero (h'.area hs hw) hne)
        have := mul_pos_of_neg_of_neg g1 g2
        nlinarith [mul_self_pos.2 hne]
      have hpe : p = a ∨ p = b := by
        by_contra hh
        push Not at hh
        exact hs.noncol a (h'.mem ht) b (h'.mem2 ht) p (Finset.mem_insert_of_mem hp) (h'.ne ht) hh.1.symm hh.2.symm h2
      obtain ⟨_, _, _, -, z1, z2, -⟩ := pow_affine hv0
      rcases hpe with rfl | rfl
      · exact z1.ge
      · exact z2.ge
  · obtain ⟨c, hc, hnc, hside2⟩ := st.star ht
    by_cases hc3 : 3 ≤ c
    · exact pow_inner hv0 (h.area hs0 hc) (st.gone0 hc hnc ha hb hc3) hside (emp hc ha hb hc3 hp hp3)
    · have h1 := hull hc ha hb (by omega) hp hp3
      have h2 : area (pos a) (pos b) (pos p) = 0 := by
        by_contra hne
        have g1 : 0 < area (pos a) (pos b) (pos v) * area (pos a) (pos b) (pos p) :=
          lt_of_le_of_ne hside (mul_ne_zero hv0 hne).symm
        have g2 := prod_pos (show 0 < area (pos a) (pos b) (pos v) * area (pos a) (pos b) (pos c) by linarith) g1
        linarith
      have hpe : p = a ∨ p = b := by
        by_contra hh
        push Not at hh
        exact hs.noncol a (h'.mem ht) b (h'.mem2 ht) p (Finset.mem_insert_of_mem hp) (h'.ne ht) hh.1.symm hh.2.symm h2
      obtain ⟨_, _, _, -, z1, z2, -⟩ := pow_affine hv0
      rcases hpe with rfl | rfl
      · exact z1.ge
      · exact z2.ge

theorem empty_step (hs : Sites pos (insert v V)) (hv : 3 ≤ v) (hvV : v ∉ V) (h : Tess pos V T)
    (h' : Tess pos (insert v V) T') (st : Step pos V v T T') (hull : Hull pos V T) (emp : Empty pos V T) :
    Empty pos (insert v V) T' := by
  have hull' : Hull pos (insert v V) T' := hull_step hs hv hvV h h' st hull
  intro a b c p ht ha hb hc hp hp3
  have star : ∀ a b, T' a b v → 3 ≤ a → 3 ≤ b → 0 ≤ pow (pos a) (pos b) (pos v) (pos p) := by
    intro a b ht ha hb
    rcases Finset.mem_insert.1 hp with rfl | hpV
    · exact (pow_third (h'.area hs ht)).ge
    · exact empty_star hs h hv h' st hull hull' emp ht ha hb hpV hp3
  by_cases hcv : c = v
  · subst hcv
    exact star a b ht ha hb
  by_cases hav : a = v
  · subst hav
    have := star b c (h'.rot ht) hb hc
    rwa [pow_rot] at this
  by_cases hbv : b = v
  · subst hbv
    have := star c a (h'.rot (h'.rot ht)) hc ha
    rwa [pow_rot, pow_rot] at this
  rcases Finset.mem_insert.1 hp with rfl | hpV
  · exact empty_old hs hv h h' st hull' emp ht ha hb hc hav hbv hcv
  · exact emp (st.old ht hav hbv hcv) ha hb hc hpV hp3

end

end Mdso.Tri
