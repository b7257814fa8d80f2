import Verif.Lemmas.TriConstruct

/-!
# Some sequence of coins ends the lookup of a point
-/

set_option autoImplicit false

namespace Mdso.Tri

open Mdso.Geom Mdso.Tri.Spec Topology

/-- Progress along the line from `s` to `q`: negative before `q`. -/
def along (s q p : V2) : ℝ := (p.x - q.x) * (q.x - s.x) + (p.y - q.y) * (q.y - s.y)

/-- Where the line from `s` to `q` crosses the line through `a` and `b`. -/
noncomputable def crossing (s q a b : V2) : ℝ :=
  (area s q b * along s q a - area s q a * along s q b) / (area s q b - area s q a)

theorem crossing_swap (s q a b : V2) : crossing s q a b = crossing s q b a := by
  unfold crossing
  rw [← neg_div_neg_eq]
  congr 1 <;> ring

/-- If the line crosses `ab` before `q`, and `q` is on the inner side of `ab` and of the other side `ac` crossed, then `q`
is inside the triangle. -/
theorem inside_of_crossed {s q a b c : V2} (h1 : area s q a * area s q b < 0) (h2 : area s q a * area s q c < 0)
    (g1 : 0 < area a b c * area a b q) (g2 : 0 < area a c b * area a c q) : Inside a b c q := by
  have key := area_affine a b c s q q
  rw [area_self] at key
  have hA : area a b c ≠ 0 := by rintro h; rw [h] at g1; simp at g1
  have e1 : area a c b = -area a b c := by unfold area; ring
  have e2 : area a q c = -area a c q := by unfold area; ring
  rw [e1] at g2
  refine ⟨?_, by rw [e2]; linarith, g1⟩
  -- `0 = σa·area q b c + σb·area a q c + σc·area a b q`, and the last two terms have the sign opposite to `σa`
  have hσ : area s q a ≠ 0 := by rintro h; rw [h] at h1; simp at h1
  have hpos : 0 < area s q a * area s q a := mul_self_pos.2 hσ
  have k : area s q a * area s q a * (area a b c * area q b c) =
      -(area s q a * area s q b) * (-(area a b c) * area a c q) + -(area s q a * area s q c) * (area a b c * area a b q) := by
    have k2 : area q b c * area s q a = area s q b * area a c q - area a b q * area s q c := by
      rw [e2] at key; linarith
    linear_combination (area s q a * area a b c) * k2
  have hp : 0 < area s q a * area s q a * (area a b c * area q b c) := by
    rw [k]
    exact add_pos (mul_pos (by linarith) g2) (mul_pos (by linarith) g1)
  exact (mul_pos_iff_of_pos_left hpos).1 hp

theorem order_aux {W Q x y K : ℝ} (h1 : W = Q + x * K) (h2 : 0 = Q + y * K) (hx : x < 0) (hW : W < 0) (hQ : 0 < Q) :
    x < y ∧ y < 0 := by
  have hxK : x * K < 0 := by linarith
  have hK : 0 < K := pos_of_mul_neg_right hxK hx.le
  refine ⟨?_, ?_⟩
  · have : x * K < y * K := by linarith
    exact lt_of_mul_lt_mul_right this hK.le
  · have : y * K < 0 := by linarith
    exact neg_of_mul_neg_left this hK.le

/-- The crossing moves towards `q` from `ab` to `ac` if `q` is behind `ac`. -/
theorem crossing_lt {s q a b c : V2} (hs : 0 < sqNorm (q - s)) (h1 : area s q a * area s q b < 0)
    (h2 : area s q a * area s q c < 0) (h3 : crossing s q a b < 0) (g : area a c b * area a c q < 0) :
    crossing s q a b < crossing s q a c ∧ crossing s q a c < 0 := by
  obtain ⟨n, hn⟩ : ∃ n, n = sqNorm (q - s) := ⟨_, rfl⟩
  rw [← hn] at hs
  obtain ⟨K1, hK1⟩ : ∃ K, K = (c.x - a.x) * (q.y - s.y) - (c.y - a.y) * (q.x - s.x) := ⟨_, rfl⟩
  obtain ⟨K2, hK2⟩ : ∃ K, K = (c.x - a.x) * (q.x - s.x) + (c.y - a.y) * (q.y - s.y) := ⟨_, rfl⟩
  have id : ∀ p, n * area a c p = n * area a c q + along s q p * K1 + area s q p * K2 := by
    intro p
    rw [hn, hK1, hK2]
    unfold area along sqNorm
    simp only [sub_x, sub_y]
    ring
  have ia := id a
  have ib := id b
  have ic := id c
  rw [area_self', mul_zero] at ia
  rw [area_self, mul_zero] at ic
  have dab : area s q b - area s q a ≠ 0 := by
    intro h
    have : area s q b = area s q a := by linarith
    rw [this] at h1
    nlinarith [mul_self_nonneg (area s q a)]
  have dac : area s q c - area s q a ≠ 0 := by
    intro h
    have : area s q c = area s q a := by linarith
    rw [this] at h2
    nlinarith [mul_self_nonneg (area s q a)]
  have cab : crossing s q a b * (area s q b - area s q a) = area s q b * along s q a - area s q a * along s q b :=
    div_mul_cancel₀ _ dab
  have cac : crossing s q a c * (area s q c - area s q a) = area s q c * along s q a - area s q a * along s q c :=
    div_mul_cancel₀ _ dac
  -- the fraction of `b` at the crossing of `ab`
  obtain ⟨w, hw⟩ : ∃ w, w = -area s q a / (area s q b - area s q a) := ⟨_, rfl⟩
  have hw' : w * (area s q b - area s q a) = -area s q a := by rw [hw]; exact div_mul_cancel₀ _ dab
  have hwp : 0 < w := by
    have h : 0 < (area s q b - area s q a) * (area s q b - area s q a) := mul_self_pos.2 dab
    have h' : w * ((area s q b - area s q a) * (area s q b - area s q a)) =
        -(area s q a * area s q b) + area s q a * area s q a := by
      linear_combination (area s q b - area s q a) * hw'
    have h'' : 0 < w * ((area s q b - area s q a) * (area s q b - area s q a)) := by
      rw [h']
      nlinarith [mul_self_nonneg (area s q a)]
    exact (mul_pos_iff_of_pos_right h).1 h''
  have eb : w * (n * area a c b) = n * area a c q + crossing s q a b * K1 := by
    apply mul_right_cancel₀ dab
    linear_combination (n * area a c b) * hw' - K1 * cab - area s q a * ib + area s q b * ia
  have ec : 0 = n * area a c q + crossing s q a c * K1 := by
    apply mul_right_cancel₀ dac
    linear_combination -K1 * cac - area s q a * ic + area s q c * ia
  rcases lt_or_gt_of_ne (show area a c q ≠ 0 by rintro h; rw [h] at g; simp at g) with hq | hq
  · have hb : 0 < area a c b := pos_of_mul_neg_left g hq.le
    refine order_aux (W := -(w * (n * area a c b))) (Q := -(n * area a c q)) (K := -K1) (by linarith) (by linarith) h3 ?_ ?_
    · have := mul_pos hwp (mul_pos hs hb)
      linarith
    · have := mul_neg_of_pos_of_neg hs hq
      linarith
  · have hb : area a c b < 0 := neg_of_mul_neg_left g hq.le
    exact order_aux eb ec h3 (mul_neg_of_pos_of_neg hwp (mul_neg_of_pos_of_neg hs hb)) (mul_pos hs hq)

theorem walk_congr (m : Mesh) (q : Query) {coin coin' : Nat → Bool} : ∀ (fuel e : Nat),
    (∀ i < fuel, coin i = coin' i) → walk m q coin fuel e = walk m q coin' fuel e := by
  intro fuel
  induction fuel with
  | zero => intro e _; rfl
  | succ fuel ih =>
    intro e h
    unfold walk
    rw [h fuel (by omega)]
    have : ∀ e, walk m q coin fuel e = walk m q coin' fuel e := fun e => ih e (fun i hi => h i (by omega))
    simp only [this]

/-- A point among the triangles of a mesh: on no line through two vertices, and on the inner side of the outline. -/
structure Among (pos : Nat → V2) (V : Finset Nat) (q : V2) : Prop where
  generic : Generic pos V q
  inner : ∀ a b c, a < 3 → b < 3 → a ≠ b → c ∈ V → c ≠ a → c ≠ b →
    0 < area (pos a) (pos b) (pos c) * area (pos a) (pos b) q

theorem nextTri_side {pos : Nat → V2} {m : Mesh} {V AE AT : Finset Nat} (h : Inv m V AE AT) (hs : Sides pos m AE)
    {q : V2} (hq : Among pos V q) (eps : ℝ) {e : Nat} (he : e ∈ AE) :
    ∃ t ∈ AT, nextTri m (queryAt pos eps q) e = .ok t ∧ e ∈ sides m t ∧ ∀ c fa fb, At m t e c fa fb →
      0 < area (pos (m.ev e 0)) (pos (m.ev e 1)) (pos c) * area (pos (m.ev e 0)) (pos (m.ev e 1)) q := by
  have hslot : ∀ s t, m.et e s = some t → t ∈ AT ∧ e ∈ sides m t := fun s t hh =>
    ⟨(h.slot e he s t hh).1, mem_sides.2 (h.slot e he s t hh).2⟩
  have hV : ∀ t ∈ AT, ∀ c fa fb, At m t e c fa fb → c ∈ V := by
    intro t ht c fa fb a
    obtain ⟨i, hi⟩ := (a.corner c).2 (.inr (.inr rfl))
    exact hi ▸ h.cornerV ht i
  have hout : ∀ s, m.et e s = none → ∀ t ∈ AT, ∀ c fa fb, At m t e c fa fb →
      0 < area (pos (m.ev e 0)) (pos (m.ev e 1)) (pos c) * area (pos (m.ev e 0)) (pos (m.ev e 1)) q := by
    intro s hs t ht c fa fb a
    obtain ⟨b0, b1⟩ := h.bound e he s hs
    exact hq.inner _ _ _ b0 b1 (h.ends e he) (hV t ht c fa fb a) a.ca a.cb
  have hgen : area (pos (m.ev e 0)) (pos (m.ev e 1)) q ≠ 0 :=
    hq.generic _ (h.endV e he 0) _ (h.endV e he 1) (h.ends e he)
  unfold nextTri
  cases h0 : m.et e 0 with
  | none =>
    rw [if_pos rfl]
    cases h1 : m.et e 1 with
    | none => exact absurd (h0.trans h1.symm) (h.two e he)
    | some t1 => exact ⟨t1, (hslot 1 _ h1).1, rfl, (hslot 1 _ h1).2, hout 0 h0 t1 (hslot 1 _ h1).1⟩
  | some t0 =>
    rw [if_neg (by simp)]
    cases h1 : m.et e 1 with
    | none =>
      rw [if_pos rfl]
      exact ⟨t0, (hslot 0 _ h0).1, rfl, (hslot 0 _ h0).2, hout 1 h1 t0 (hslot 0 _ h0).1⟩
    | some t1 =>
      rw [if_neg (by simp)]
      obtain ⟨c, fa, fb, a⟩ := tri_at h (hslot 0 _ h0).1 (mem_sides.1 (hslot 0 _ h0).2)
      obtain ⟨d, ga, gb, a'⟩ := tri_at h (hslot 1 _ h1).1 (mem_sides.1 (hslot 1 _ h1).2)
      have hcd := hs e he t0 t1 c d h0 h1 ((a.corner c).2 (.inr (.inr rfl))) ((a'.corner d).2 (.inr (.inr rfl))) a.ca a.cb
        a'.ca a'.cb
      simp only [deref, bind, Except.bind, a.third]
      by_cases hss : (queryAt pos eps q).sameSide (m.ev e 0) (m.ev e 1) c = true
      · rw [if_pos hss]
        refine ⟨t0, (hslot 0 _ h0).1, rfl, (hslot 0 _ h0).2, ?_⟩
        intro c' fa' fb' a2
        have hcc : c' = c := by
          have := a2.third
          rw [a.third] at this
          exact (Except.ok.inj this).symm
        subst hcc
        have : 0 ≤ area (pos (m.ev e 0)) (pos (m.ev e 1)) (pos c') * area (pos (m.ev e 0)) (pos (m.ev e 1)) q := by
          simpa [queryAt, isSameSide, cross_area] using hss
        refine lt_of_le_of_ne this (Ne.symm (mul_ne_zero ?_ hgen))
        rintro hh
        rw [hh] at hcd
        simp at hcd
      · rw [if_neg hss]
        refine ⟨t1, (hslot 1 _ h1).1, rfl, (hslot 1 _ h1).2, ?_⟩
        intro c' fa' fb' a2
        have hcc : c' = d := by
          have := a2.third
          rw [a'.third] at this
          exact (Except.ok.inj this).symm
        subst hcc
        have hn : area (pos (m.ev e 0)) (pos (m.ev e 1)) (pos c) * area (pos (m.ev e 0)) (pos (m.ev e 1)) q < 0 := by
          simpa [queryAt, isSameSide, cross_area] using hss
        exact side_third hcd hn
where
  side_third {x y z : ℝ} (h1 : x * y < 0) (h2 : x * z < 0) : 0 < y * z := by
    have h3 : 0 < (x * y) * (x * z) := mul_pos_of_neg_of_neg h1 h2
    have h4 : (x * y) * (x * z) = (x * x) * (y * z) := by ring
    rw [h4] at h3
    by_contra hh
    push Not at hh
    nlinarith [mul_self_nonneg x]

/-- The walk may cross a side if the point is strictly behind it. -/
theorem way_iff {pos : Nat → V2} {m : Mesh} {V AE AT : Finset Nat} (h : Inv m V AE AT) {q : V2} (eps : ℝ) {t x : Nat}
    (ht : t ∈ AT) (hx : x ∈ sides m t) {a c b : Nat} (hends : ∀ v, (∃ s, m.ev x s = v) ↔ v = a ∨ v = c)
    (hb : ∃ i, m.tv t i = b) (hba : b ≠ a) (hbc : b ≠ c) :
    ∃ w, isPossibleWay m (queryAt pos eps q) t x = .ok w ∧
      (w = false → 0 ≤ area (pos a) (pos c) (pos b) * area (pos a) (pos c) q) ∧
      (w = true → area (pos a) (pos c) (pos b) * area (pos a) (pos c) q < 0) := by
  obtain ⟨b', fa, fb, hat⟩ := tri_at h ht (mem_sides.1 hx)
  have hbb : b' = b := by
    rcases (hat.corner b).1 hb with hh | hh | hh
    · rcases (hends b).1 ⟨0, hh.symm⟩ with h2 | h2
      · exact absurd h2 hba
      · exact absurd h2 hbc
    · rcases (hends b).1 ⟨1, hh.symm⟩ with h2 | h2
      · exact absurd h2 hba
      · exact absurd h2 hbc
    · exact hh.symm
  subst hbb
  refine ⟨_, by unfold isPossibleWay; rw [hat.third]; rfl, ?_⟩
  have hxE : x ∈ AE := by
    obtain ⟨i, rfl⟩ := mem_sides.1 hx
    exact (h.side t ht i).1
  have hne := h.ends x hxE
  have h0 := (hends (m.ev x 0)).1 ⟨0, rfl⟩
  have h1 := (hends (m.ev x 1)).1 ⟨1, rfl⟩
  have hcase : (m.ev x 0 = a ∧ m.ev x 1 = c) ∨ (m.ev x 0 = c ∧ m.ev x 1 = a) := by
    rcases h0 with h0 | h0 <;> rcases h1 with h1 | h1
    · exact absurd (h0.trans h1.symm) hne
    · exact .inl ⟨h0, h1⟩
    · exact .inr ⟨h0, h1⟩
    · exact absurd (h0.trans h1.symm) hne
  have hval : (queryAt pos eps q).sameSide (m.ev x 0) (m.ev x 1) b' = true ↔
      0 ≤ area (pos a) (pos c) (pos b') * area (pos a) (pos c) q := by
    rcases hcase with ⟨e0, e1⟩ | ⟨e0, e1⟩
    · rw [e0, e1]
      simp [queryAt, isSameSide, cross_area]
    · rw [e0, e1]
      simp only [queryAt, isSameSide, cross_area, decide_eq_true_eq, ge_iff_le]
      rw [area_swap (pos a) (pos c) (pos b'), area_swap (pos a) (pos c) q, neg_mul_neg]
  constructor
  · intro hw
    exact hval.1 (by simpa using hw)
  · intro hw
    by_contra hh
    push Not at hh
    rw [hval.2 hh] at hw
    simp at hw

/-- The edge `e` is crossed by the line from `s` to `q` before `q`. -/
def Crossed (pos : Nat → V2) (m : Mesh) (s q : V2) (e : Nat) : Prop :=
  area s q (pos (m.ev e 0)) * area s q (pos (m.ev e 1)) < 0 ∧ crossing s q (pos (m.ev e 0)) (pos (m.ev e 1)) < 0

theorem crossed_of {pos : Nat → V2} {m : Mesh} {s q : V2} {x a c : Nat}
    (hcase : (m.ev x 0 = a ∧ m.ev x 1 = c) ∨ (m.ev x 0 = c ∧ m.ev x 1 = a))
    (h1 : area s q (pos a) * area s q (pos c) < 0) (h2 : crossing s q (pos a) (pos c) < 0) :
    Crossed pos m s q x ∧ crossing s q (pos (m.ev x 0)) (pos (m.ev x 1)) = crossing s q (pos a) (pos c) := by
  unfold Crossed
  rcases hcase with ⟨e0, e1⟩ | ⟨e0, e1⟩
  · rw [e0, e1]; exact ⟨⟨h1, h2⟩, rfl⟩
  · rw [e0, e1, crossing_swap s q (pos c) (pos a)]
    exact ⟨⟨by rw [mul_comm]; exact h1, h2⟩, rfl⟩

theorem nextEdge_coin (e x0 x1 x : Nat) (w0 w1 : Bool) (h : (x = x0 ∧ w0 = true) ∨ (x = x1 ∧ w1 = true)) :
    ∃ coin, nextEdge e x0 x1 w0 w1 coin = x := by
  rcases h with ⟨rfl, rfl⟩ | ⟨rfl, rfl⟩
  · refine ⟨true, ?_⟩
    unfold nextEdge
    cases w1 <;> simp
  · refine ⟨false, ?_⟩
    unfold nextEdge
    cases w0 <;> simp

/-- One round along the line. -/
theorem step_line {pos : Nat → V2} {m : Mesh} {V AE AT : Finset Nat} (h : Inv m V AE AT) (hS : Sides pos m AE)
    {s q : V2} (hq : Among pos V q) (eps : ℝ) (hsq : 0 < sqNorm (q - s)) (hline : ∀ v ∈ V, area s q (pos v) ≠ 0)
    {e : Nat} (he : e ∈ AE) (hc : Crossed pos m s q e) :
    ∃ t ∈ AT, nextTri m (queryAt pos eps q) e = .ok t ∧ e ∈ sides m t ∧ (doesContain m (queryAt pos eps q) t = true ∨
      ∃ x ∈ sides m t, x ≠ e ∧ isPossibleWay m (queryAt pos eps q) t x = .ok true ∧ Crossed pos m s q x ∧
        crossing s q (pos (m.ev e 0)) (pos (m.ev e 1)) < crossing s q (pos (m.ev x 0)) (pos (m.ev x 1))) := by
  obtain ⟨t, ht, hn, hes, hside⟩ := nextTri_side h hS hq eps he
  refine ⟨t, ht, hn, hes, ?_⟩
  obtain ⟨c, fa, fb, hat⟩ := tri_at h ht (mem_sides.1 hes)
  have g1 := hside c fa fb hat
  obtain ⟨hcr, hneg⟩ := hc
  have hcV : c ∈ V := by
    obtain ⟨i, hi⟩ := (hat.corner c).2 (.inr (.inr rfl))
    exact hi ▸ h.cornerV ht i
  have haV := h.endV e he 0
  have hbV := h.endV e he 1
  have hab := h.ends e he
  have hcorner : ∀ p, Inside (pos (m.ev e 0)) (pos (m.ev e 1)) (pos c) p →
      p = q → doesContain m (queryAt pos eps q) t = true := by
    intro p hp hpq
    subst hpq
    have hin : InT pos m t p := (inside_corner pos (h.inj t ht) hat.corner p).2 hp
    unfold doesContain
    rw [Bool.or_eq_true]
    right
    simp only [queryAt, decide_eq_true_eq]
    obtain ⟨i1, i2, i3⟩ := hin
    refine ⟨?_, ?_, ?_⟩ <;> unfold isSameSide <;> simp only [cross_area]
    · linarith
    · rw [show area (pos (m.tv t 0)) (pos (m.tv t 2)) p = -area (pos (m.tv t 0)) p (pos (m.tv t 2)) from by
        unfold area; ring, show area (pos (m.tv t 0)) (pos (m.tv t 2)) (pos (m.tv t 1)) =
        -area (pos (m.tv t 0)) (pos (m.tv t 1)) (pos (m.tv t 2)) from by unfold area; ring]
      linarith
    · rw [show area (pos (m.tv t 1)) (pos (m.tv t 2)) p = area p (pos (m.tv t 1)) (pos (m.tv t 2)) from by
        unfold area; ring, show area (pos (m.tv t 1)) (pos (m.tv t 2)) (pos (m.tv t 0)) =
        area (pos (m.tv t 0)) (pos (m.tv t 1)) (pos (m.tv t 2)) from by unfold area; ring]
      linarith
  have ends2 : ∀ {x a c : Nat}, x ∈ sides m t → (∀ v, (∃ s, m.ev x s = v) ↔ v = a ∨ v = c) →
      (m.ev x 0 = a ∧ m.ev x 1 = c) ∨ (m.ev x 0 = c ∧ m.ev x 1 = a) := by
    intro x a c hx hends
    have hxE : x ∈ AE := by
      obtain ⟨i, rfl⟩ := mem_sides.1 hx
      exact (h.side t ht i).1
    have hne := h.ends x hxE
    have h0 := (hends (m.ev x 0)).1 ⟨0, rfl⟩
    have h1 := (hends (m.ev x 1)).1 ⟨1, rfl⟩
    rcases h0 with h0 | h0 <;> rcases h1 with h1 | h1
    · exact absurd (h0.trans h1.symm) hne
    · exact .inl ⟨h0, h1⟩
    · exact .inr ⟨h0, h1⟩
    · exact absurd (h0.trans h1.symm) hne
  by_cases hsc : area s q (pos (m.ev e 0)) * area s q (pos c) < 0
  · -- leave through the side at the first end
    have hfa : fa ∈ sides m t := (hat.sides fa).2 (.inr (.inl rfl))
    obtain ⟨w, hw, w1, w2⟩ := way_iff (pos := pos) (q := q) h eps ht hfa hat.endA
      ((hat.corner (m.ev e 1)).2 (.inr (.inl rfl))) hab.symm hat.cb.symm
    cases w with
    | false =>
      left
      have g2 : 0 < area (pos (m.ev e 0)) (pos c) (pos (m.ev e 1)) * area (pos (m.ev e 0)) (pos c) q := by
        refine lt_of_le_of_ne (w1 rfl) (Ne.symm (mul_ne_zero ?_ (hq.generic _ haV c hcV hat.ca.symm)))
        intro hh
        have : area (pos (m.ev e 0)) (pos (m.ev e 1)) (pos c) = 0 := by rw [area_swap'] at hh; linarith
        rw [this] at g1
        simp at g1
      exact hcorner q (inside_of_crossed hcr hsc g1 g2) rfl
    | true =>
      right
      obtain ⟨l1, l2⟩ := crossing_lt hsq hcr hsc hneg (w2 rfl)
      obtain ⟨k1, k2⟩ := crossed_of (ends2 hfa hat.endA) hsc l2
      refine ⟨fa, hfa, hat.fae, hw, k1, ?_⟩
      rw [k2]
      exact l1
  · have hsc' : area s q (pos (m.ev e 1)) * area s q (pos c) < 0 := by
      have h2 : 0 < area s q (pos (m.ev e 0)) * area s q (pos c) :=
        lt_of_le_of_ne (not_lt.1 hsc) (Ne.symm (mul_ne_zero (hline _ haV) (hline c hcV)))
      have h3 : (area s q (pos (m.ev e 0)) * area s q (pos (m.ev e 1))) * (area s q (pos (m.ev e 0)) * area s q (pos c)) < 0 :=
        mul_neg_of_neg_of_pos hcr h2
      have h4 : (area s q (pos (m.ev e 0)) * area s q (pos (m.ev e 1))) * (area s q (pos (m.ev e 0)) * area s q (pos c)) =
          (area s q (pos (m.ev e 0)) * area s q (pos (m.ev e 0))) * (area s q (pos (m.ev e 1)) * area s q (pos c)) := by ring
      rw [h4] at h3
      by_contra hh
      push Not at hh
      have := mul_nonneg (mul_self_nonneg (area s q (pos (m.ev e 0)))) hh
      linarith
    have hfb : fb ∈ sides m t := (hat.sides fb).2 (.inr (.inr rfl))
    obtain ⟨w, hw, w1, w2⟩ := way_iff (pos := pos) (q := q) h eps ht hfb hat.endB
      ((hat.corner (m.ev e 0)).2 (.inl rfl)) hab hat.ca.symm
    have ebE := ends2 hfb hat.endB
    have hcr' : area s q (pos (m.ev e 1)) * area s q (pos (m.ev e 0)) < 0 := by rw [mul_comm]; exact hcr
    have g1' : 0 < area (pos (m.ev e 1)) (pos (m.ev e 0)) (pos c) * area (pos (m.ev e 1)) (pos (m.ev e 0)) q := by
      rw [area_swap (pos (m.ev e 0)) (pos (m.ev e 1)) (pos c), area_swap (pos (m.ev e 0)) (pos (m.ev e 1)) q, neg_mul_neg]
      exact g1
    cases w with
    | false =>
      left
      have g2 : 0 < area (pos (m.ev e 1)) (pos c) (pos (m.ev e 0)) * area (pos (m.ev e 1)) (pos c) q := by
        refine lt_of_le_of_ne (w1 rfl) (Ne.symm (mul_ne_zero ?_ (hq.generic _ hbV c hcV hat.cb.symm)))
        intro hh
        have : area (pos (m.ev e 0)) (pos (m.ev e 1)) (pos c) = 0 := by rw [area_rot] at hh; exact hh
        rw [this] at g1
        simp at g1
      exact hcorner q (inside_swap.1 (inside_of_crossed hcr' hsc' g1' g2)) rfl
    | true =>
      right
      rw [crossing_swap] at hneg
      obtain ⟨l1, l2⟩ := crossing_lt hsq hcr' hsc' hneg (w2 rfl)
      obtain ⟨k1, k2⟩ := crossed_of ebE hsc' l2
      refine ⟨fb, hfb, hat.fbe, hw, k1, ?_⟩
      rw [k2, crossing_swap s q (pos (m.ev e 0)) (pos (m.ev e 1))]
      exact l1

open Classical in
/-- The edges still ahead. -/
noncomputable def ahead (pos : Nat → V2) (m : Mesh) (AE : Finset Nat) (s q : V2) (e : Nat) : Finset Nat :=
  AE.filter fun f => crossing s q (pos (m.ev e 0)) (pos (m.ev e 1)) < crossing s q (pos (m.ev f 0)) (pos (m.ev f 1))

/-- Following the line. -/
theorem walk_line {pos : Nat → V2} {m : Mesh} {V AE AT : Finset Nat} (h : Inv m V AE AT) (hS : Sides pos m AE)
    {s q : V2} (hq : Among pos V q) (eps : ℝ) (hsq : 0 < sqNorm (q - s)) (hline : ∀ v ∈ V, area s q (pos v) ≠ 0) :
    ∀ (fuel e : Nat), e ∈ AE → Crossed pos m s q e → (ahead pos m AE s q e).card < fuel →
      ∃ coin t, walk m (queryAt pos eps q) coin fuel e = .ok (some t) := by
  classical
  intro fuel
  induction fuel with
  | zero => intro e _ _ hlt; omega
  | succ fuel ih =>
    intro e he hc hlt
    obtain ⟨t, ht, hn, hes, hor⟩ := step_line h hS hq eps hsq hline he hc
    obtain ⟨x0, x1, hf, hx0, hx1⟩ := filter_sides h ht hes
    obtain ⟨w0, hw0⟩ := isPossibleWay_ok h (queryAt pos eps q) ht hx0
    obtain ⟨w1, hw1⟩ := isPossibleWay_ok h (queryAt pos eps q) ht hx1
    by_cases hcont : doesContain m (queryAt pos eps q) t = true
    · refine ⟨fun _ => true, t, ?_⟩
      unfold walk
      simp only [hn, bind, Except.bind, hf, hw0, hw1]
      rw [if_pos hcont]
    · rcases hor with hor | ⟨x, hx, hxe, hway, hxc, hxlt⟩
      · exact absurd hor hcont
      · have hxE : x ∈ AE := by
          obtain ⟨i, rfl⟩ := mem_sides.1 hx
          exact (h.side t ht i).1
        have hsub : (ahead pos m AE s q x).card < (ahead pos m AE s q e).card := by
          apply Finset.card_lt_card
          rw [Finset.ssubset_iff_of_subset]
          · exact ⟨x, Finset.mem_filter.2 ⟨hxE, hxlt⟩, fun hh => lt_irrefl _ (Finset.mem_filter.1 hh).2⟩
          · intro f hf
            obtain ⟨f1, f2⟩ := Finset.mem_filter.1 hf
            exact Finset.mem_filter.2 ⟨f1, hxlt.trans f2⟩
        obtain ⟨coin, t', hwalk⟩ := ih x hxE hxc (by omega)
        have hx01 : (x = x0 ∧ w0 = true) ∨ (x = x1 ∧ w1 = true) := by
          have hmem : x ∈ (sides m t).filter (fun x => x != e) := by
            rw [List.mem_filter, bne_iff_ne]
            exact ⟨hx, hxe⟩
          rw [hf] at hmem
          simp only [List.mem_cons, List.not_mem_nil, or_false] at hmem
          rcases hmem with rfl | rfl
          · rw [hway] at hw0
            exact .inl ⟨rfl, (Except.ok.inj hw0).symm⟩
          · rw [hway] at hw1
            exact .inr ⟨rfl, (Except.ok.inj hw1).symm⟩
        obtain ⟨b, hb⟩ := nextEdge_coin e x0 x1 x w0 w1 hx01
        refine ⟨Function.update coin fuel b, t', ?_⟩
        unfold walk
        simp only [hn, bind, Except.bind, hf, hw0, hw1]
        rw [if_neg hcont, Function.update_self, hb]
        rw [walk_congr m (queryAt pos eps q) (coin' := coin) fuel x]
        · exact hwalk
        · intro i hi
          rw [Function.update_of_ne (by omega)]

/-- From every edge, some sequence of coins ends the walk after at most as many rounds as there are edges. -/
theorem walk_ends {pos : Nat → V2} {m : Mesh} {V AE AT : Finset Nat} (h : Inv m V AE AT) (hS : Sides pos m AE)
    {q : V2} (hq : Among pos V q) (eps : ℝ) {e : Nat} (he : e ∈ AE) {fuel : Nat} (hfuel : AE.card ≤ fuel) :
    ∃ coin t, walk m (queryAt pos eps q) coin fuel e = .ok (some t) := by
  classical
  obtain ⟨a, ha⟩ : ∃ a, a = pos (m.ev e 0) := ⟨_, rfl⟩
  obtain ⟨b, hb⟩ : ∃ b, b = pos (m.ev e 1) := ⟨_, rfl⟩
  have haV := h.endV e he 0
  have hbV := h.endV e he 1
  have hab := h.ends e he
  have hgab : area a b q ≠ 0 := by rw [ha, hb]; exact hq.generic _ haV _ hbV hab
  -- a point of the edge near its first end
  obtain ⟨pt, hpt⟩ : ∃ pt : ℝ → V2, pt = fun μ => a + μ • (b - a) := ⟨_, rfl⟩
  have harea : ∀ μ v, area (pt μ) q v = (1 - μ) * area a q v + μ * area b q v := by
    intro μ v
    rw [hpt]
    unfold area
    simp only [add_x, add_y, smul_x, smul_y, sub_x, sub_y]
    ring
  have hev : ∀ v ∈ V, ∀ᶠ μ in 𝓝[>] (0 : ℝ), area (pt μ) q (pos v) ≠ 0 := by
    intro v hv
    by_cases hva : v = m.ev e 0
    · have hpos : ∀ᶠ μ in 𝓝[>] (0 : ℝ), 0 < μ := eventually_mem_nhdsWithin
      filter_upwards [hpos] with μ hμ
      rw [harea, hva, ← ha, area_self', mul_zero, zero_add]
      refine mul_ne_zero hμ.ne' ?_
      rw [show area b q a = area a b q from by unfold area; ring]
      exact hgab
    · refine nhdsWithin_le_nhds ?_
      have hcont : Continuous fun μ => area (pt μ) q (pos v) := by
        simp only [harea]
        fun_prop
      have h0 : area (pt 0) q (pos v) ≠ 0 := by
        rw [harea, sub_zero, one_mul, zero_mul, add_zero, area_swap']
        rw [neg_ne_zero, ha]
        exact hq.generic _ haV _ hv (Ne.symm hva)
      exact hcont.continuousAt.eventually_ne h0
  have hall : ∀ᶠ μ in 𝓝[>] (0 : ℝ), ∀ v ∈ V, area (pt μ) q (pos v) ≠ 0 := by
    rw [Filter.eventually_all_finset]
    exact hev
  have hsmall : ∀ᶠ μ in 𝓝[>] (0 : ℝ), 0 < μ ∧ μ < 1 := by
    have := Ioo_mem_nhdsGT (show (0 : ℝ) < 1 by norm_num)
    filter_upwards [this] with μ hμ
    exact hμ
  obtain ⟨μ, hline, hμ0, hμ1⟩ := (hall.and hsmall).exists
  obtain ⟨s, hs⟩ : ∃ s, s = pt μ := ⟨_, rfl⟩
  have hsa : area s q a = μ * area a b q := by
    rw [hs, harea, area_self', mul_zero, zero_add, show area b q a = area a b q from by unfold area; ring]
  have hsb : area s q b = -((1 - μ) * area a b q) := by
    rw [hs, harea, area_self', mul_zero, add_zero, show area a q b = -area a b q from by unfold area; ring]
    ring
  have hsq : 0 < sqNorm (q - s) := by
    have hns : 0 ≤ sqNorm (q - s) := by
      unfold sqNorm
      exact add_nonneg (mul_self_nonneg _) (mul_self_nonneg _)
    refine lt_of_le_of_ne hns ?_
    intro hh
    unfold sqNorm at hh
    have hx : (q - s).x = 0 := by nlinarith [mul_self_nonneg (q - s).x, mul_self_nonneg (q - s).y]
    have hy : (q - s).y = 0 := by nlinarith [mul_self_nonneg (q - s).x, mul_self_nonneg (q - s).y]
    have hz : area s q a = 0 := by
      rw [sub_x] at hx
      rw [sub_y] at hy
      unfold area
      rw [hx, hy]
      ring
    rw [hsa] at hz
    exact (mul_ne_zero hμ0.ne' hgab) hz
  have hcross : Crossed pos m s q e := by
    unfold Crossed
    rw [← ha, ← hb]
    refine ⟨?_, ?_⟩
    · rw [hsa, hsb]
      have h1 : 0 < area a b q * area a b q := mul_self_pos.2 hgab
      have h2 : 0 < μ * (1 - μ) := mul_pos hμ0 (by linarith)
      have h3 := mul_pos h1 h2
      linarith
    · have hd : area s q b - area s q a = -area a b q := by rw [hsa, hsb]; ring
      have hval : crossing s q a b = -sqNorm (q - s) := by
        unfold crossing
        rw [hd, hsa, hsb, div_eq_iff (neg_ne_zero.2 hgab)]
        have : (1 - μ) * along s q a + μ * along s q b = -sqNorm (q - s) := by
          rw [hs, hpt]
          unfold along sqNorm
          simp only [add_x, add_y, smul_x, smul_y, sub_x, sub_y]
          ring
        linear_combination -(area a b q) * this
      rw [hval]
      linarith
  refine walk_line h hS hq eps hsq (fun v hv => by rw [hs]; exact hline v hv) fuel e he hcross (lt_of_lt_of_le ?_ hfuel)
  apply Finset.card_lt_card
  rw [Finset.ssubset_iff_of_subset]
  · exact ⟨e, he, fun hh => lt_irrefl _ (Finset.mem_filter.1 hh).2⟩
  · exact Finset.filter_subset _ _

/-- A point inside the bounding triangle. -/
theorem among_of {points : List V2} {order : List Nat} (hD : 0 < maxDim points) (ho : Shuffle points.length order)
    {V : Finset Nat} (hV : ∀ v ∈ V, v < 3 + points.length) {q : V2}
    (hq : Inside (position points order 0) (position points order 1) (position points order 2) q)
    (hgen : Generic (position points order) V q) : Among (position points order) V q := by
  refine ⟨hgen, ?_⟩
  obtain ⟨p, hp⟩ : ∃ p, p = position points order := ⟨_, rfl⟩
  rw [← hp] at hq ⊢
  have hne : points ≠ [] := by
    rintro rfl
    simp [maxDim, lowest, highest] at hD
  obtain ⟨p0, hp0⟩ := List.exists_mem_of_ne_nil points hne
  have e0 : p 0 = boundingPos points 0 := by rw [hp, position_bound points order (by omega)]
  have e1 : p 1 = boundingPos points 1 := by rw [hp, position_bound points order (by omega)]
  have e2 : p 2 = boundingPos points 2 := by rw [hp, position_bound points order (by omega)]
  have hA : 0 < area (p 0) (p 1) (p 2) := by
    rw [e0, e1, e2]
    exact (inside_bounding hD hp0).1
  rw [inside_pos hA] at hq
  obtain ⟨q1, q2, q3⟩ := hq
  have hin : ∀ c, 3 ≤ c → c < 3 + points.length →
      0 < area (p 0) (p 1) (p c) ∧ 0 < area (p 1) (p 2) (p c) ∧ 0 < area (p 2) (p 0) (p c) := by
    intro c h3 hc
    rw [e0, e1, e2, hp]
    exact (inside_bounding hD (position_mem ho h3 hc)).2
  have h12 : 0 < area (p 1) (p 2) (p 0) := by rw [area_rot]; exact hA
  have h20 : 0 < area (p 2) (p 0) (p 1) := by rw [← area_rot]; exact hA
  intro a b c ha hb hab hc hca hcb
  have k01 : c ≠ 0 → c ≠ 1 → 0 < area (p 0) (p 1) (p c) := by
    intro h0 h1
    by_cases h3 : 3 ≤ c
    · exact (hin c h3 (hV c hc)).1
    · have : c = 2 := by omega
      rw [this]; exact hA
  have k12 : c ≠ 1 → c ≠ 2 → 0 < area (p 1) (p 2) (p c) := by
    intro h0 h1
    by_cases h3 : 3 ≤ c
    · exact (hin c h3 (hV c hc)).2.1
    · have : c = 0 := by omega
      rw [this]; exact h12
  have k20 : c ≠ 2 → c ≠ 0 → 0 < area (p 2) (p 0) (p c) := by
    intro h0 h1
    by_cases h3 : 3 ≤ c
    · exact (hin c h3 (hV c hc)).2.2
    · have : c = 1 := by omega
      rw [this]; exact h20
  have ha3 : a = 0 ∨ a = 1 ∨ a = 2 := by omega
  have hb3 : b = 0 ∨ b = 1 ∨ b = 2 := by omega
  have hswap : ∀ x y z w : V2, 0 < area x y z → 0 < area x y w → 0 < area y x z * area y x w := by
    intro x y z w h1 h2
    rw [area_swap x y z, area_swap x y w, neg_mul_neg]
    exact mul_pos h1 h2
  rcases ha3 with rfl | rfl | rfl <;> rcases hb3 with rfl | rfl | rfl
  · exact absurd rfl hab
  · exact mul_pos (k01 hca hcb) q3
  · exact hswap _ _ _ _ (k20 hcb hca) q2
  · exact hswap _ _ _ _ (k01 hcb hca) q3
  · exact absurd rfl hab
  · exact mul_pos (k12 hca hcb) q1
  · exact mul_pos (k20 hca hcb) q2
  · exact hswap _ _ _ _ (k12 hcb hca) q1
  · exact absurd rfl hab

/-- Some sequence of coins ends the lookup. -/
theorem enclosing_ends {pos : Nat → V2} {m : Mesh} {V AE AT : Finset Nat} (h : Inv m V AE AT) (hS : Sides pos m AE)
    (hO : Outer m AE) {q : V2} (hq : Among pos V q) (eps : ℝ) (env : Env) (henv : Lawful env) {fuel : Nat}
    (hfuel : AE.card ≤ fuel) : ∃ coin, enclosingTriangle env m (queryAt pos eps q) coin fuel ≠ .ok none := by
  have hE : env.first (m.vE 0) ∈ AE := by
    have hmem : env.first (m.vE 0) ∈ m.vE 0 := by
      apply henv
      refine ⟨0, (h.vE 0 0).2 ⟨(hO 0 (by omega)).1, 0, ?_⟩⟩
      rw [(hO 0 (by omega)).2.1]
      rfl
    exact ((h.vE _ _).1 hmem).1
  obtain ⟨coin, t, hw⟩ := walk_ends h hS hq eps hE hfuel
  refine ⟨coin, ?_⟩
  unfold enclosingTriangle
  simp only
  split
  · split
    · simp
    · split
      · simp
      · rw [hw]
        simp
  · simp

theorem addPoint_congr {env env' : Env} (p : Preds) (m : Mesh) (v fuel : Nat) (h1 : env.first = env'.first)
    (h2 : env.coin v = env'.coin v) : addPoint env p m v fuel = addPoint env' p m v fuel := by
  unfold addPoint enclosingTriangle
  rw [h1, h2]

theorem insertAll_congr {env env' : Env} (p : Preds) (fuel : Nat) (all : List Nat) (h1 : env.first = env'.first) :
    ∀ (order : List Nat) (i : Nat) (s : State), (∀ v, 3 + i ≤ v → env.coin v = env'.coin v) →
      insertAll env p fuel all order i s = insertAll env' p fuel all order i s := by
  intro order
  induction order with
  | nil => intro i s _; rfl
  | cons k order ih =>
    intro i s h2
    unfold insertAll
    rw [addPoint_congr p s.mesh (3 + i) fuel h1 (h2 _ (le_refl _))]
    have : ∀ s, insertAll env p fuel all order (i + 1) s = insertAll env' p fuel all order (i + 1) s :=
      fun s => ih (i + 1) s (fun v hv => h2 v (by omega))
    simp only [this]

/-- Some sequence of coins ends the insertion of points in general position. -/
theorem insertAll_ends {s : Settings} {points : List V2} {order0 : List Nat} (hG : GeneralPosition s points)
    (ho : Shuffle points.length order0) (env : Env) (henv : Lawful env) (fuel : Nat)
    (hfuel : 6 * points.length + 16 ≤ fuel) (all : List Nat) (p : Preds)
    (hp : p = predsAt (position points order0) (s.epsPointIsOnSegment * maxDim points)
      (s.epsSamePoints * maxDim points)) :
    ∀ (order : List Nat) (i : Nat) (st : State), i + order.length = points.length → st.verts = List.range' 3 i →
      Built (Geo (position points order0) (3 + points.length)) st.verts st.mesh →
      ∃ coin st', insertAll ⟨env.first, coin⟩ p fuel all order i st = .ok (some st') := by
  have hN := general_noncol hG ho
  have hA := general_apart hG ho
  have hK := keeps_geo _ _ _ _ hN hA
  rw [← hp] at hA hK
  intro order
  induction order with
  | nil => exact fun i st _ _ _ => ⟨env.coin, st, rfl⟩
  | cons k order ih =>
    intro i st hi hv hb
    simp only [List.length_cons] at hi
    obtain ⟨AE, AT, h1, h2, h3, h4, h5⟩ := hb
    have hmem : ∀ w, w ∈ vset st.verts ↔ w < 3 + i := by
      intro w
      rw [mem_vset, hv, List.mem_range'_1]
      omega
    have hlen : st.verts.length = i := by rw [hv]; simp
    have hvn : 3 + i ∉ vset st.verts := by rw [hmem]; omega
    have hin : Inside (position points order0 0) (position points order0 1) (position points order0 2)
        (position points order0 (3 + i)) := by
      obtain ⟨b0, b1, b2, b3⟩ := inside_bounding hG.dim (position_mem ho (v := 3 + i) (by omega) (by omega))
      rw [position_bound points order0 (by omega : 0 < 3), position_bound points order0 (by omega : 1 < 3),
        position_bound points order0 (by omega : 2 < 3), inside_pos b0]
      exact ⟨b2, b3, b1⟩
    have hamong := among_of hG.dim ho (V := vset st.verts) (fun v hv => by rw [hmem] at hv; omega) hin (by
      intro a ha b hb hab
      rw [hmem] at ha hb
      exact hN a b (3 + i) (by omega) (by omega) (by omega) hab (by omega) (by omega))
    obtain ⟨coin, hcoin⟩ := enclosing_ends h1 h2.sides h3 hamong (s.epsPointIsOnSegment * maxDim points) env henv
      (fuel := fuel) (by rw [h4, hlen]; omega)
    obtain ⟨env1, henv1⟩ : ∃ env1 : Env, env1 = ⟨env.first, fun _ => coin⟩ := ⟨_, rfl⟩
    have hlaw1 : Lawful env1 := by rw [henv1]; exact henv
    have hcoin1 : enclosingTriangle env1 st.mesh (p.query (3 + i)) (env1.coin (3 + i)) fuel ≠ .ok none := by
      rw [henv1, hp]
      exact hcoin
    rcases addPoint_spec hK h1 h2 h3 hvn (by omega) env1 hlaw1 fuel with ⟨-, h | ⟨e, he, h⟩⟩ | ⟨r, hr, hnone, hcase⟩
    · rw [hA.bound (3 + i) (by omega) (by omega)] at h
      cases h
    · have ha := (hmem _).1 (h1.endV e he 0)
      have hb := (hmem _).1 (h1.endV e he 1)
      rw [hA.onEdge (3 + i) _ _ (by omega) (by omega) (by omega) (by omega) ha.ne hb.ne (h1.ends e he)] at h
      cases h
    · cases r with
      | none => exact absurd rfl (hnone (by rw [h4, hlen]; omega) hcoin1)
      | some x =>
        obtain ⟨w, m⟩ := x
        rcases hcase w m rfl with ⟨c1, c2, c3, c4⟩ | ⟨rfl, c2⟩
        · have hw := (hmem w).1 c3
          rw [hA.equal (3 + i) w (by omega) (by omega) (by omega) hw.ne] at c4
          cases c4
        · obtain ⟨coin', st', g⟩ := ih (i + 1) ⟨st.verts ++ [3 + i], m, st.inv.set k (i + 3)⟩ (by omega)
            (by rw [hv, List.range'_concat]; simp) (c2.built h4 h5)
          refine ⟨Function.update coin' (3 + i) coin, st', ?_⟩
          unfold insertAll
          rw [addPoint_congr (env' := env1) p st.mesh (3 + i) fuel (by rw [henv1]) (by
            rw [henv1]; simp only [Function.update_self]), hr]
          simp only [if_true]
          rw [← g]
          apply insertAll_congr
          · rfl
          · intro v hv
            show Function.update coin' (3 + i) coin v = coin' v
            rw [Function.update_of_ne (by omega)]

/-- Some sequence of coins ends the constructor. -/
theorem triangulate_ends {s : Settings} {points : List V2} {order : List Nat} (hG : GeneralPosition s points)
    (ho : Shuffle points.length order) (env : Env) (henv : Lawful env) (fuel : Nat)
    (hfuel : 6 * points.length + 16 ≤ fuel) :
    ∃ coin t l, triangulate ⟨env.first, coin⟩ s points order fuel = .ok (some (t, l)) := by
  have hlen : order.length = points.length := by rw [ho.length_eq]; simp
  obtain ⟨coin, st, h⟩ := insertAll_ends hG ho env henv fuel hfuel order _ rfl order 0
    ⟨[], initial, List.replicate order.length 0⟩ (by omega) rfl (initial_built (geo_initial _ (by omega)))
  have henv' : Lawful ⟨env.first, coin⟩ := henv
  obtain ⟨r, hr, -, -⟩ := triangulate_general henv' ho hG fuel
  cases r with
  | some r => exact ⟨coin, r.1, r.2, hr⟩
  | none =>
    unfold triangulate construct at hr
    rw [h] at hr
    simp only at hr
    split at hr
    · cases hr
    · cases hr

end Mdso.Tri
