import Verif.Lemmas.DelMid

/-!
# The loop over the edges that may be illegal
-/

set_option autoImplicit false

namespace Mdso.Tri

open Mdso.Geom Mdso.Tri.Spec

theorem convex_iff {a b c d : V2} : isABCDConvex a b c d ↔ 0 ≤ area a b c * area a b d ∧ 0 ≤ area b c a * area b c d ∧
    0 ≤ area c d a * area c d b ∧ 0 ≤ area d a b * area d a c := Iff.rfl

theorem convex_ends {a b c d : V2} (h : isABCDConvex a c b d) : isABCDConvex b c a d := by
  rw [convex_iff] at h ⊢
  obtain ⟨h1, h2, h3, h4⟩ := h
  refine ⟨?_, ?_, ?_, ?_⟩
  · rw [area_swap c b, area_swap c b, neg_mul_neg]; exact h2
  · rw [area_swap a c, area_swap a c, neg_mul_neg]; exact h1
  · rw [area_swap d a, area_swap d a, neg_mul_neg, mul_comm]; exact h4
  · rw [area_swap b d, area_swap b d, neg_mul_neg, mul_comm]; exact h3

theorem convex_thirds {a b c d : V2} (h : isABCDConvex a c b d) : isABCDConvex a d b c := by
  rw [convex_iff] at h ⊢
  obtain ⟨h1, h2, h3, h4⟩ := h
  refine ⟨?_, ?_, ?_, ?_⟩
  · rw [area_swap d a, area_swap d a, neg_mul_neg, mul_comm]; exact h4
  · rw [area_swap b d, area_swap b d, neg_mul_neg]; exact h3
  · rw [area_swap c b, area_swap c b, neg_mul_neg]; exact h2
  · rw [area_swap a c, area_swap a c, neg_mul_neg, mul_comm]; exact h1

/-- Around an edge to a bounding vertex `y`, two triangles that make an angle below a half turn at `x` make a convex
quadrilateral. -/
theorem bound_convex {pos : Nat → V2} {V : Finset Nat} (hs : Sites pos V) {x y v w : Nat} (hx : x ∈ V) (hv : v ∈ V)
    (hw : w ∈ V) (hx3 : 3 ≤ x) (hy3 : y < 3) (hv3 : 3 ≤ v) (hwy : w ≠ y)
    (hsep : area (pos x) (pos y) (pos v) * area (pos x) (pos y) (pos w) < 0)
    (hpos : 0 < area (pos x) (pos w) (pos v) * area (pos x) (pos w) (pos y)) :
    isABCDConvex (pos x) (pos v) (pos y) (pos w) := by
  obtain ⟨z, hz3, hzy, hzw⟩ : ∃ z, z < 3 ∧ y ≠ z ∧ w ≠ z := by
    by_cases h0 : y ≠ 0 ∧ w ≠ 0
    · exact ⟨0, by omega, h0.1, h0.2⟩
    · by_cases h1 : y ≠ 1 ∧ w ≠ 1
      · exact ⟨1, by omega, h1.1, h1.2⟩
      · exact ⟨2, by omega, by omega, by omega⟩
  have zv := bound_side hs hy3 hz3 hzy hx hv (by omega) (by omega) (by omega) (by omega)
  have zw := bound_side hs hy3 hz3 hzy hx hw (by omega) (by omega) hwy hzw
  have pl := plucker (pos y) (pos z) (pos x) (pos v) (pos w)
  obtain ⟨A, hA⟩ : ∃ A, A = area (pos x) (pos y) (pos v) := ⟨_, rfl⟩
  obtain ⟨B, hB⟩ : ∃ B, B = area (pos x) (pos y) (pos w) := ⟨_, rfl⟩
  obtain ⟨C, hC⟩ : ∃ C, C = area (pos x) (pos w) (pos v) := ⟨_, rfl⟩
  obtain ⟨D, hD⟩ : ∃ D, D = area (pos y) (pos v) (pos w) := ⟨_, rfl⟩
  obtain ⟨zX, hzX⟩ : ∃ D, D = area (pos y) (pos z) (pos x) := ⟨_, rfl⟩
  obtain ⟨zV, hzV⟩ : ∃ D, D = area (pos y) (pos z) (pos v) := ⟨_, rfl⟩
  obtain ⟨zW, hzW⟩ : ∃ D, D = area (pos y) (pos z) (pos w) := ⟨_, rfl⟩
  have e1 : area (pos y) (pos x) (pos v) = -A := by rw [hA, area_swap]
  have e2 : area (pos y) (pos x) (pos w) = -B := by rw [hB, area_swap]
  have e3 : area (pos x) (pos w) (pos y) = -B := by rw [hB, area_swap']
  rw [e1, e2, ← hD, ← hzX, ← hzV, ← hzW] at pl
  rw [← hzX, ← hzV] at zv
  rw [← hzX, ← hzW] at zw
  rw [← hA, ← hB] at hsep
  rw [e3, ← hC] at hpos
  have hzX0 : 0 < zX * zX := mul_self_pos.2 fun hh => by rw [hh] at zv; simp at zv
  have hB0 : 0 < B * B := mul_self_pos.2 fun hh => by rw [hh] at hsep; simp at hsep
  have hA0 : 0 < A * A := mul_self_pos.2 fun hh => by rw [hh] at hsep; simp at hsep
  have hAC : 0 < A * C := by
    have : 0 < (A * B) * (C * B) := mul_pos_of_neg_of_neg hsep (by linarith)
    have h2 : (A * B) * (C * B) = (B * B) * (A * C) := by ring
    rw [h2] at this
    exact (mul_pos_iff_of_pos_left hB0).1 this
  have hAD : 0 < A * D := by
    have : 0 < (zX * zX) * (A * D) := by
      have h2 : (zX * zX) * (A * D) = (zX * zW) * (A * A) - (zX * zV) * (A * B) := by
        linear_combination (zX * A) * pl
      rw [h2]
      have := mul_pos zw hA0
      have := mul_neg_of_pos_of_neg zv hsep
      linarith
    exact (mul_pos_iff_of_pos_left hzX0).1 this
  have hBD : B * D < 0 := by
    have : 0 < (zX * zX) * -(B * D) := by
      have h2 : (zX * zX) * -(B * D) = (zX * zV) * (B * B) - (zX * zW) * (A * B) := by
        linear_combination -(zX * B) * pl
      rw [h2]
      have := mul_pos zv hB0
      have := mul_neg_of_pos_of_neg zw hsep
      linarith
    have := (mul_pos_iff_of_pos_left hzX0).1 this
    linarith
  rw [convex_iff]
  refine ⟨?_, ?_, ?_, ?_⟩
  · rw [show area (pos x) (pos v) (pos y) = -A from by rw [hA, area_swap'],
      show area (pos x) (pos v) (pos w) = -C from by rw [hC, area_swap']]
    linarith
  · rw [show area (pos v) (pos y) (pos x) = -A from by rw [hA, area_out],
      show area (pos v) (pos y) (pos w) = -D from by rw [hD, area_swap]]
    linarith
  · rw [show area (pos y) (pos w) (pos x) = B from by rw [hB, area_rot],
      show area (pos y) (pos w) (pos v) = -D from by rw [hD, area_swap']]
    linarith
  · rw [show area (pos w) (pos x) (pos v) = -C from by rw [hC, area_swap],
      show area (pos w) (pos x) (pos y) = B from by rw [hB]; unfold area; ring]
    linarith

/-- What an edge found legal means for the vertices `v` and `w` beside it. -/
theorem leg_of {pos : Nat → V2} {V : Finset Nat} (hs : Sites pos V) {a b v w : Nat} (ha : a ∈ V) (hb : b ∈ V)
    (hv : v ∈ V) (hw : w ∈ V) (hv3 : 3 ≤ v) (hwa : w ≠ a) (hwb : w ≠ b)
    (hsep : area (pos a) (pos b) (pos v) * area (pos a) (pos b) (pos w) < 0)
    (hleg : (3 ≤ a → 3 ≤ b → 3 ≤ w → ¬isABCDConvex (pos a) (pos v) (pos b) (pos w) ∨
      0 ≤ pow (pos a) (pos b) (pos w) (pos v)))
    (hbd : (a < 3 ∨ b < 3) → ¬(a < 3 ∧ b < 3) → ¬isABCDConvex (pos a) (pos v) (pos b) (pos w)) : Leg pos v a b w := by
  refine ⟨fun h1 h2 h3 => ?_, fun h1 h2 => ?_, fun h1 h2 => ?_⟩
  · rcases hleg h1 h2 h3 with h | h
    · by_contra hh
      push Not at hh
      exact h (convex_thirds (convex_of_pow (by rw [mul_comm]; exact hsep) hh.le))
    · exact h
  · by_contra hh
    push Not at hh
    exact hbd (.inr h2) (by omega) (bound_convex hs ha hv hw h1 h2 hv3 hwb hsep hh)
  · by_contra hh
    push Not at hh
    refine hbd (.inl h2) (by omega) (convex_ends (bound_convex hs hb hv hw h1 h2 hv3 hwa ?_ hh))
    rw [area_swap (pos a), area_swap (pos a), neg_mul_neg]
    exact hsep

/-- The result of `isEdgeLegal` for an edge with two triangles. -/
theorem legal_eq {p : Preds} {m : Mesh} {e t0 t1 c d fa0 fb0 fa1 fb1 : Nat} (h0 : m.et e 0 = some t0)
    (h1 : m.et e 1 = some t1) (a0 : At m t0 e c fa0 fb0) (a1 : At m t1 e d fa1 fb1) :
    isEdgeLegal p m e = .ok (decide ((m.ev e 0 < 3 ∧ m.ev e 1 < 3) ∨ ((c < 3 ∨ d < 3) ∧ 3 ≤ m.ev e 0 ∧ 3 ≤ m.ev e 1) ∨
      p.convex (m.ev e 0) c (m.ev e 1) d = false ∨
      (3 ≤ m.ev e 0 ∧ 3 ≤ m.ev e 1 ∧ p.delaunay (m.ev e 0) (m.ev e 1) c d = true))) := by
  unfold isEdgeLegal
  simp only [h0, h1, deref, bind, Except.bind, a0.third, a1.third, isBound]
  by_cases ha : m.ev e 0 < 3 <;> by_cases hb : m.ev e 1 < 3 <;> by_cases hc : c < 3 <;> by_cases hd : d < 3 <;>
    cases p.convex (m.ev e 0) c (m.ev e 1) d <;> cases p.delaunay (m.ev e 0) (m.ev e 1) c d <;>
    simp [ha, hb, hc, hd, not_le.2, not_lt.1] <;> omega

/-- The ends of an edge in the queue. -/
def Pending (m : Mesh) (q : List Nat) (a b : Nat) : Prop := ∃ f ∈ q, ∀ x, (∃ s, m.ev f s = x) ↔ x = a ∨ x = b

theorem ends_pair {m : Mesh} {e a b : Nat} (hne : m.ev e 0 ≠ m.ev e 1) (h : ∀ x, (∃ s, m.ev e s = x) ↔ x = a ∨ x = b) :
    (a = m.ev e 0 ∧ b = m.ev e 1) ∨ (a = m.ev e 1 ∧ b = m.ev e 0) := by
  have k0 := (h (m.ev e 0)).1 ⟨0, rfl⟩
  have k1 := (h (m.ev e 1)).1 ⟨1, rfl⟩
  grind

/-- The vertex `v` is beside an edge in the queue. -/
theorem queue_third {m : Mesh} {AE : Finset Nat} {e t0 t1 c d fa0 fb0 fa1 fb1 v : Nat} {q : List Nat}
    (h0 : m.et e 0 = some t0) (h1 : m.et e 1 = some t1) (a0 : At m t0 e c fa0 fb0)
    (a1 : At m t1 e d fa1 fb1) (hq : Queue m AE v (e :: q)) : v ≠ m.ev e 0 ∧ v ≠ m.ev e 1 ∧ (v = c ∨ v = d) := by
  have hop : opposite m v e 0 = true ∨ opposite m v e 1 = true := by
    have := hq.2 e
    by_contra hh
    rw [not_or, Bool.not_eq_true, Bool.not_eq_true] at hh
    rw [hh.1, hh.2] at this
    simp at this
  have key : ∀ s t x fa fb, m.et e s = some t → At m t e x fa fb → opposite m v e s = true →
      v ≠ m.ev e 0 ∧ v ≠ m.ev e 1 ∧ v = x := by
    intro s t x fa fb hs hat ho
    obtain ⟨t', ht', hc, hn⟩ := opposite_iff.1 ho
    rw [hs] at ht'
    cases ht'
    have hva : v ≠ m.ev e 0 := fun hh => hn ⟨0, hh.symm⟩
    have hvb : v ≠ m.ev e 1 := fun hh => hn ⟨1, hh.symm⟩
    rcases (hat.corner v).1 hc with hh | hh | hh
    · exact absurd hh hva
    · exact absurd hh hvb
    · exact ⟨hva, hvb, hh⟩
  rcases hop with ho | ho
  · obtain ⟨k1, k2, k3⟩ := key 0 t0 c fa0 fb0 h0 a0 ho
    exact ⟨k1, k2, .inl k3⟩
  · obtain ⟨k1, k2, k3⟩ := key 1 t1 d fa1 fb1 h1 a1 ho
    exact ⟨k1, k2, .inr k3⟩

section

variable {pos : Nat → V2} {M : Nat} {e1 e2 : ℝ}

/-- An edge found legal needs no flip. -/
theorem pop_legal (hN : NonCol pos M) (hin : ∀ v, 3 ≤ v → v < M → Inside (pos 0) (pos 1) (pos 2) (pos v))
    {m : Mesh} {V AE AT : Finset Nat} {v : Nat} (h3 : 3 ≤ v) (h : Inv m V AE AT) (hg : Geo pos M V m AE AT) {e : Nat}
    (he : e ∈ AE) (hl : isEdgeLegal (predsAt pos e1 e2) m e = .ok true) {a b w : Nat} (hTv : Cell m a b v)
    (hTw : Cell m a b w) (hwv : w ≠ v) (hends : ∀ x, (∃ s, m.ev e s = x) ↔ x = a ∨ x = b) : Leg pos v a b w := by
  have hs := sites_of hN hg hin
  have hT := tess_of hN h hg
  have hab := h.ends e he
  -- in the order of the edge
  have key : Cell m (m.ev e 0) (m.ev e 1) v → Cell m (m.ev e 0) (m.ev e 1) w → Leg pos v (m.ev e 0) (m.ev e 1) w := by
    intro hTv hTw
    by_cases hb : m.ev e 0 < 3 ∧ m.ev e 1 < 3
    · exact ⟨fun _ _ => by omega, fun _ => by omega, fun _ => by omega⟩
    have hsome : ∀ s, ∃ t, m.et e s = some t := by
      intro s
      cases hs : m.et e s with
      | some t => exact ⟨t, rfl⟩
      | none => exact absurd (h.bound e he s hs) hb
    obtain ⟨t0, h0⟩ := hsome 0
    obtain ⟨t1, h1⟩ := hsome 1
    obtain ⟨ht0, k0⟩ := h.slot e he 0 t0 h0
    obtain ⟨ht1, k1⟩ := h.slot e he 1 t1 h1
    obtain ⟨c, fa0, fb0, a0⟩ := tri_at h ht0 k0
    obtain ⟨d, fa1, fb1, a1⟩ := tri_at h ht1 k1
    have hsep := hg.sides e he t0 t1 c d h0 h1 ((a0.corner c).2 (by simp)) ((a1.corner d).2 (by simp)) a0.ca a0.cb a1.ca a1.cb
    have hc : Cell m (m.ev e 0) (m.ev e 1) c := (cell_iff h).2 ⟨hab, a0.ca.symm, a0.cb.symm, t0, ht0, a0.corner⟩
    have hd : Cell m (m.ev e 0) (m.ev e 1) d := (cell_iff h).2 ⟨hab, a1.ca.symm, a1.cb.symm, t1, ht1, a1.corner⟩
    have hcd : ∀ u, Cell m (m.ev e 0) (m.ev e 1) u → u = c ∨ u = d := by
      intro u hu
      have hu0 := hT.area hs hu
      have hc0 := hT.area hs hc
      rcases lt_or_gt_of_ne (mul_ne_zero hc0 hu0) with hh | hh
      · right
        have : 0 < area (pos (m.ev e 0)) (pos (m.ev e 1)) (pos d) * area (pos (m.ev e 0)) (pos (m.ev e 1)) (pos u) := by
          have h5 := mul_pos_of_neg_of_neg hsep hh
          have h6 : 0 < area (pos (m.ev e 0)) (pos (m.ev e 1)) (pos c) * area (pos (m.ev e 0)) (pos (m.ev e 1)) (pos c) :=
            mul_self_pos.2 hc0
          refine (mul_pos_iff_of_pos_left h6).1 ?_
          calc 0 < _ := h5
            _ = _ := by ring
        exact (same_side hT hs hd hu this).symm
      · left
        exact (same_side hT hs hc hu hh).symm
    rw [legal_eq h0 h1 a0 a1] at hl
    simp only [Except.ok.injEq, decide_eq_true_eq] at hl
    simp only [predsAt, decide_eq_false_iff_not, decide_eq_true_eq] at hl
    rcases hcd v hTv with hv | hv <;> rcases hcd w hTw with hw | hw
    · exact absurd (hw.trans hv.symm) hwv
    · subst hv hw
      refine leg_of hs (hT.mem hTv) (hT.mem2 hTv) (hT.mem3 hTv) (hT.mem3 hTw) h3 a1.ca a1.cb hsep ?_ ?_
      · intro k1 k2 k3
        rcases hl with hl | hl | hl | hl
        · omega
        · omega
        · exact .inl hl
        · exact .inr (pow_both hsep ((delaunay_iff (hT.area hs hTv)).1 hl.2.2))
      · intro k1 k2
        rcases hl with hl | hl | hl | hl
        · exact absurd hl k2
        · omega
        · exact hl
        · omega
    · subst hv hw
      have hsep' := hsep
      rw [mul_comm] at hsep'
      refine leg_of hs (hT.mem hTv) (hT.mem2 hTv) (hT.mem3 hTv) (hT.mem3 hTw) h3 a0.ca a0.cb hsep' ?_ ?_
      · intro k1 k2 k3
        rcases hl with hl | hl | hl | hl
        · omega
        · omega
        · exact .inl fun hh => hl (convex_thirds hh)
        · exact .inr ((delaunay_iff (hT.area hs hTw)).1 hl.2.2)
      · intro k1 k2
        rcases hl with hl | hl | hl | hl
        · exact absurd hl k2
        · omega
        · exact fun hh => hl (convex_thirds hh)
        · omega
    · exact absurd (hw.trans hv.symm) hwv
  rcases ends_pair hab hends with ⟨rfl, rfl⟩ | ⟨rfl, rfl⟩
  · exact key hTv hTw
  · exact (key (hT.swap hTv) (hT.swap hTw)).symm

/-- One round of the loop with a flip. -/
theorem legalize_flip {p : Preds} {m : Mesh} {v e t0 t1 c d fa0 fb0 fa1 fb1 fuel : Nat} {q : List Nat}
    (h0 : m.et e 0 = some t0) (h1 : m.et e 1 = some t1) (a0 : At m t0 e c fa0 fb0) (a1 : At m t1 e d fa1 fb1)
    (hb : isEdgeLegal p m e = .ok false) :
    legalize p v (fuel + 1) (e :: q) m = legalize p v fuel
      (q ++ (sides m (if isCorner m v t0 then t1 else t0)).filter fun x => x != e) (flip m e t0 t1 c d) := by
  have hperf : performFlip m e = .ok (flip m e t0 t1 c d) := by
    unfold performFlip
    rw [h0, h1]
    simp only [deref, bind, Except.bind, a0.third, a1.third]
  conv_lhs => unfold legalize
  simp only [hb, bind, Except.bind]
  rw [if_neg (by simp), h0]
  simp only [deref]
  rw [h1]
  simp only [hperf]
  by_cases hc0 : isCorner m v t0 = true
  · simp only [if_pos hc0]
  · simp only [if_neg hc0]

theorem is_swap {x y z a b c : Nat} : Is x y z a b c ↔ Is x y z b a c := by
  unfold Is
  rw [or_left_comm, or_left_comm (a := y = a), or_left_comm (a := z = a)]

/-- A flip keeps the invariant of the loop. -/
theorem flip_mid (hN : NonCol pos M) (hin : ∀ v, 3 ≤ v → v < M → Inside (pos 0) (pos 1) (pos 2) (pos v))
    {V : Finset Nat} {v : Nat} (hvV : v ∉ V) {T0 : Nat → Nat → Nat → Prop} (hT0 : Tess pos V T0)
    {e : Nat} {q : List Nat} {m : Mesh} {AE AT : Finset Nat} (h : Inv m (insert v V) AE AT)
    (hg : Geo pos M (insert v V) m AE AT) (hq : Queue m AE v (e :: q))
    (hm : Mid pos v T0 (Cell m) (Pending m (e :: q))) {t0 t1 c d fa0 fb0 fa1 fb1 : Nat} (he : e ∈ AE)
    (h0 : m.et e 0 = some t0) (h1 : m.et e 1 = some t1) (a0 : At m t0 e c fa0 fb0) (a1 : At m t1 e d fa1 fb1)
    (hconv' : isABCDConvex (pos (m.ev e 0)) (pos c) (pos (m.ev e 1)) (pos d)) (hcd : c ≠ d)
    (hb : isEdgeLegal (predsAt pos e1 e2) m e = .ok false) {m' : Mesh}
    (hfl : Flipped m m' AE e t0 t1 c d fa0 fb0 fa1 fb1) :
    Mid pos v T0 (Cell m') (Pending m'
      (q ++ (sides m (if isCorner m v t0 then t1 else t0)).filter fun x => x != e)) := by
  obtain ⟨ht0, -⟩ := h.slot e he 0 t0 h0
  obtain ⟨ht1, -⟩ := h.slot e he 1 t1 h1
  have hT := tess_of hN h hg
  have hab := h.ends e he
  have hc : Cell m (m.ev e 0) (m.ev e 1) c := (cell_iff h).2 ⟨hab, a0.ca.symm, a0.cb.symm, t0, ht0, a0.corner⟩
  have hd : Cell m (m.ev e 0) (m.ev e 1) d := (cell_iff h).2 ⟨hab, a1.ca.symm, a1.cb.symm, t1, ht1, a1.corner⟩
  have hs := sites_of hN hg hin
  have hsep := hg.sides e he t0 t1 c d h0 h1 ((a0.corner c).2 (by simp)) ((a1.corner d).2 (by simp)) a0.ca a0.cb
    a1.ca a1.cb
  obtain ⟨hva, hvb, hvcd⟩ := queue_third h0 h1 a0 a1 hq
  rw [legal_eq h0 h1 a0 a1] at hb
  simp only [Except.ok.injEq, decide_eq_false_iff_not] at hb
  simp only [predsAt, decide_eq_false_iff_not, decide_eq_true_eq, not_or] at hb
  obtain ⟨-, b2, -, b4⟩ := hb
  -- the strict inequalities
  obtain ⟨v1, v2, v3, v4⟩ := convex_iff.1 hconv'
  have hA := h.endV e he 0
  have hB := h.endV e he 1
  have hC := hT.mem3 hc
  have hD := hT.mem3 hd
  have hca := a0.ca
  have hcb := a0.cb
  have hda := a1.ca
  have hdb := a1.cb
  have strict : ∀ {x y : ℝ}, x ≠ 0 → y ≠ 0 → 0 ≤ x * y → 0 < x * y := fun hx hy hh =>
    lt_of_le_of_ne hh (mul_ne_zero hx hy).symm
  have p1 := strict (hs.noncol _ hA _ hC _ hB hca.symm hab hcb) (hs.noncol _ hA _ hC _ hD hca.symm hda.symm hcd) v1
  have p2 := strict (hs.noncol _ hC _ hB _ hA hcb hca hab.symm) (hs.noncol _ hC _ hB _ hD hcb hcd hdb.symm) v2
  have p3 := strict (hs.noncol _ hB _ hD _ hA hdb.symm hab.symm hda) (hs.noncol _ hB _ hD _ hC hdb.symm hcb.symm hcd.symm) v3
  have p4 := strict (hs.noncol _ hD _ hA _ hC hda hcd.symm hca.symm) (hs.noncol _ hD _ hA _ hB hda hdb hab) v4
  -- the queue
  have hcorner0 : isCorner m v t0 = true ↔ v = c := by
    rw [isCorner_iff, a0.corner]
    exact ⟨fun hh => (hh.resolve_left hva).resolve_left hvb, fun hh => .inr (.inr hh)⟩
  have hsidemem : ∀ f x, f ∈ sides m (if isCorner m v t0 then t1 else t0) → f ≠ e → f ∈ AE →
      (∀ y, (∃ s, m.ev f s = y) ↔ y = x ∨ y = (if isCorner m v t0 then d else c)) →
      Pending m'
        (q ++ (sides m (if isCorner m v t0 then t1 else t0)).filter fun x => x != e)
        (if isCorner m v t0 then d else c) x ∧
      Pending m'
        (q ++ (sides m (if isCorner m v t0 then t1 else t0)).filter fun x => x != e)
        x (if isCorner m v t0 then d else c) := by
    intro f x hf hfe hfA hends
    have hm : f ∈ q ++ (sides m (if isCorner m v t0 then t1 else t0)).filter fun x => x != e := by
      rw [List.mem_append, List.mem_filter]
      exact .inr ⟨hf, by simpa using hfe⟩
    have hev := hfl.ev f (h.eLt f hfA).ne
    exact ⟨⟨f, hm, by rw [hev]; intro y; rw [hends, or_comm]⟩, ⟨f, hm, by rw [hev]; exact hends⟩⟩
  have hsideAE : ∀ t ∈ AT, ∀ f ∈ sides m t, f ∈ AE := by
    intro t ht f hf
    obtain ⟨i, rfl⟩ := mem_sides.1 hf
    exact (h.side t ht i).1
  have hkeep : ∀ x y, Pending m (e :: q) x y →
      ¬((x = m.ev e 0 ∧ y = m.ev e 1) ∨ (x = m.ev e 1 ∧ y = m.ev e 0)) →
      Pending m'
        (q ++ (sides m (if isCorner m v t0 then t1 else t0)).filter fun x => x != e) x y := by
    rintro x y ⟨f, hf, hends⟩ hne
    rcases List.mem_cons.1 hf with rfl | hf
    · exact absurd (ends_pair hab hends) hne
    · have hfA := hq.1 f (List.mem_cons_of_mem _ hf)
      exact ⟨f, List.mem_append_left _ hf, by rw [hfl.ev f (h.eLt f hfA).ne]; exact hends⟩
  rcases hvcd with hv | hv
  · have hif : (if isCorner m v t0 then t1 else t0) = t1 := if_pos (hcorner0.2 hv)
    have hif' : (if isCorner m v t0 then d else c) = d := if_pos (hcorner0.2 hv)
    rw [hif, hif'] at hsidemem
    rw [hif] at hkeep ⊢
    subst hv
    refine mid_flip hT0 hvV hT hm hd hva.symm hvb.symm hcd.symm (fun x y z => cell_flip hN h hg he h0 h1 a0 a1 hcd hfl)
      ?_ ?_ ?_ ?_ hkeep ?_ ?_
    · rw [mul_comm]; exact p4
    · rw [area_swap (pos (m.ev e 1)) (pos d), area_swap (pos (m.ev e 1)) (pos d), neg_mul_neg]; exact p3
    · intro k1 k2 k3
      by_contra hh
      push Not at hh
      exact b4 ⟨k1, k2, (delaunay_iff (hT.area hs hc)).2 (pow_both (by rw [mul_comm]; exact hsep) hh.le)⟩
    · rintro ⟨k1, k2, k3⟩
      exact b2 ⟨.inr k3, k1, k2⟩
    · exact hsidemem fa1 _ ((a1.sides fa1).2 (by simp)) a1.fae
        (hsideAE t1 ht1 _ ((a1.sides fa1).2 (by simp))) a1.endA
    · exact hsidemem fb1 _ ((a1.sides fb1).2 (by simp)) a1.fbe
        (hsideAE t1 ht1 _ ((a1.sides fb1).2 (by simp))) a1.endB
  · have hnc : ¬isCorner m v t0 = true := fun hh => hcd ((hcorner0.1 hh).symm.trans hv)
    have hif : (if isCorner m v t0 then t1 else t0) = t0 := if_neg hnc
    have hif' : (if isCorner m v t0 then d else c) = c := if_neg hnc
    rw [hif, hif'] at hsidemem
    rw [hif] at hkeep ⊢
    subst hv
    refine mid_flip hT0 hvV hT hm hc hva.symm hvb.symm hcd (fun x y z => ?_)
      ?_ ?_ ?_ ?_ hkeep ?_ ?_
    · rw [cell_flip hN h hg he h0 h1 a0 a1 hcd hfl, is_swap (a := v) (b := c), is_swap (a := v) (b := c),
        and_comm (a := ¬Is x y z (m.ev e 0) (m.ev e 1) v)]
    · rw [area_swap (pos (m.ev e 0)) (pos c), area_swap (pos (m.ev e 0)) (pos c), neg_mul_neg]; exact p1
    · exact p2
    · intro k1 k2 k3
      by_contra hh
      push Not at hh
      exact b4 ⟨k1, k2, (delaunay_iff (hT.area hs hc)).2 hh.le⟩
    · rintro ⟨k1, k2, k3⟩
      exact b2 ⟨.inl k3, k1, k2⟩
    · exact hsidemem fa0 _ ((a0.sides fa0).2 (by simp)) a0.fae
        (hsideAE t0 ht0 _ ((a0.sides fa0).2 (by simp))) a0.endA
    · exact hsidemem fb0 _ ((a0.sides fb0).2 (by simp)) a0.fbe
        (hsideAE t0 ht0 _ ((a0.sides fb0).2 (by simp))) a0.endB

/-- The loop, if it ends. -/
theorem legalize_del (hN : NonCol pos M) (hin : ∀ v, 3 ≤ v → v < M → Inside (pos 0) (pos 1) (pos 2) (pos v))
    {V : Finset Nat} {v : Nat} (h3 : 3 ≤ v) (hvV : v ∉ V) {T0 : Nat → Nat → Nat → Prop} (hT0 : Tess pos V T0) :
    ∀ (fuel : Nat) (q : List Nat) (m : Mesh) (AE AT : Finset Nat), Inv m (insert v V) AE AT →
      Geo pos M (insert v V) m AE AT → Queue m AE v q → Mid pos v T0 (Cell m) (Pending m q) →
      ∀ m', legalize (predsAt pos e1 e2) v fuel q m = .ok (some m') →
        ∃ AE' AT', Inv m' (insert v V) AE' AT' ∧ Geo pos M (insert v V) m' AE' AT' ∧ Step pos V v T0 (Cell m') := by
  intro fuel
  have hnil : ∀ (fuel : Nat) (m : Mesh) (AE AT : Finset Nat), Inv m (insert v V) AE AT →
      Geo pos M (insert v V) m AE AT → Mid pos v T0 (Cell m) (Pending m []) →
      ∀ m', legalize (predsAt pos e1 e2) v fuel [] m = .ok (some m') →
        ∃ AE' AT', Inv m' (insert v V) AE' AT' ∧ Geo pos M (insert v V) m' AE' AT' ∧ Step pos V v T0 (Cell m') := by
    intro fuel m AE AT h hg hm m' hr
    unfold legalize at hr
    cases hr
    exact ⟨AE, AT, h, hg, hm.step fun a b hh => by obtain ⟨f, hf, -⟩ := hh; simp at hf⟩
  induction fuel with
  | zero =>
    intro q m AE AT h hg hq hm m' hr
    cases q with
    | nil => exact hnil 0 m AE AT h hg hm m' hr
    | cons e q =>
      unfold legalize at hr
      cases hr
  | succ fuel ih =>
    intro q m AE AT h hg hq hm m' hr
    cases q with
    | nil => exact hnil _ m AE AT h hg hm m' hr
    | cons e q =>
      have he : e ∈ AE := hq.1 e List.mem_cons_self
      obtain ⟨b, hb, hfalse⟩ := legal_cases h (predsAt pos e1 e2) he
      cases b with
      | true =>
        have hq' : Queue m AE v q := by
          refine ⟨fun f hf => hq.1 f (List.mem_cons_of_mem _ hf), fun f => le_trans ?_ (hq.2 f)⟩
          exact List.count_le_count_cons
        refine ih q m AE AT h hg hq' (hm.pop ?_) m' ?_
        · rintro a b w hTv hTw hwv ⟨f, hf, hends⟩
          rcases List.mem_cons.1 hf with rfl | hf
          · exact .inr (pop_legal hN hin h3 h hg he hb hTv hTw hwv hends)
          · exact .inl ⟨f, hf, hends⟩
        · unfold legalize at hr
          rw [hb] at hr
          exact hr
      | false =>
        obtain ⟨hnb, t0, t1, c, d, fa0, fb0, fa1, fb1, h0, h1, a0, a1, hconv⟩ := hfalse rfl
        have hconv' : isABCDConvex (pos (m.ev e 0)) (pos c) (pos (m.ev e 1)) (pos d) := by simpa [predsAt] using hconv
        obtain ⟨hcd, hgeo⟩ := geo_flip hN h hg he h0 h1 a0 a1 hconv'
        have hfl := flip_flipped h he h0 h1 a0 a1
        obtain ⟨hq', -⟩ := flip_step h he h0 h1 a0 a1 hcd hfl hq
        rw [legalize_flip h0 h1 a0 a1 hb] at hr
        exact ih _ _ _ _ (Flipped.inv h he h0 h1 a0 a1 hcd hfl) (hgeo _ hfl) hq'
          (flip_mid hN hin hvV hT0 h hg hq hm he h0 h1 a0 a1 hconv' hcd hb hfl) m' hr

end

end Mdso.Tri
