import Verif.Lemmas.TriLegalize

/-!
# Inserting a point keeps the mesh consistent
-/

set_option autoImplicit false

namespace Mdso.Tri

/-- The three outer edges stay in use, with nothing behind them. -/
def Outer (m : Mesh) (AE : Finset Nat) : Prop :=
  ∀ f, f < 3 → f ∈ AE ∧ m.ev f = initial.ev f ∧ m.et f 1 = none

/-- A property `Good` of meshes that is kept by the three operations on the mesh, for vertices that satisfy `adm`. -/
structure Keeps (p : Preds) (adm : Nat → Prop) (Good : Finset Nat → Mesh → Finset Nat → Finset Nat → Prop) : Prop where
  flip : ∀ V m AE AT e t0 t1 c d fa0 fb0 fa1 fb1, Inv m V AE AT → Good V m AE AT → e ∈ AE → m.et e 0 = some t0 →
    m.et e 1 = some t1 → At m t0 e c fa0 fb0 → At m t1 e d fa1 fb1 → p.convex (m.ev e 0) c (m.ev e 1) d = true →
    ¬(m.ev e 0 < 3 ∧ m.ev e 1 < 3) → isEdgeLegal p m e = .ok false →
    c ≠ d ∧ ∀ m', Flipped m m' AE e t0 t1 c d fa0 fb0 fa1 fb1 →
      Good V m' ((AE \ {e}) ∪ {m.ne}) ((AT \ {t0, t1}) ∪ {m.nt, m.nt + 1})
  tri : ∀ V m AE AT t v x0 x1 x2 m', Inv m V AE AT → Good V m AE AT → v ∉ V → adm v → t ∈ AT → Canon m t x0 x1 x2 →
    (∀ i, p.equal (m.tv t i) v = false) →
    (∀ x ∈ sides m t, (p.query v).onEdge (m.ev x 0) (m.ev x 1) = false) → doesContain m (p.query v) t = true →
    DividedT m m' AE t v x0 x1 x2 →
    Good (insert v V) m' ((AE \ ∅) ∪ {m.ne, m.ne + 1, m.ne + 2}) ((AT \ {t}) ∪ {m.nt, m.nt + 1, m.nt + 2})
  edge : ∀ V m AE AT e t0 t1 v c d fa0 fb0 fa1 fb1 m', Inv m V AE AT → Good V m AE AT → v ∉ V → adm v → e ∈ AE →
    m.et e 0 = some t0 → m.et e 1 = some t1 → At m t0 e c fa0 fb0 → At m t1 e d fa1 fb1 →
    (p.query v).onEdge (m.ev e 0) (m.ev e 1) = true → DividedE m m' AE e t0 t1 v c d fa0 fb0 fa1 fb1 →
    Good (insert v V) m' ((AE \ {e}) ∪ {m.ne, m.ne + 1, m.ne + 2, m.ne + 3})
      ((AT \ {t0, t1}) ∪ {m.nt, m.nt + 1, m.nt + 2, m.nt + 3})

theorem filter_sides {m : Mesh} {V AE AT : Finset Nat} (h : Inv m V AE AT) {t e : Nat} (ht : t ∈ AT)
    (he : e ∈ sides m t) : ∃ x0 x1, (sides m t).filter (fun x => x != e) = [x0, x1] ∧ x0 ∈ sides m t ∧ x1 ∈ sides m t := by
  have hn := nodup_sides h ht
  unfold sides at he hn ⊢
  simp only [List.nodup_cons, List.mem_cons, List.not_mem_nil, or_false, not_or, not_false_eq_true, List.nodup_nil,
    and_true] at hn he
  obtain ⟨⟨h01, h02⟩, h12⟩ := hn
  rcases he with rfl | rfl | rfl
  · exact ⟨_, _, by simp [List.filter_cons, Ne.symm h01, Ne.symm h02]; exact ⟨rfl, rfl⟩, by simp, by simp⟩
  · exact ⟨_, _, by simp [List.filter_cons, h01, Ne.symm h12]; exact ⟨rfl, rfl⟩, by simp, by simp⟩
  · exact ⟨_, _, by simp [List.filter_cons, h02, h12]; exact ⟨rfl, rfl⟩, by simp, by simp⟩

theorem nextTri_spec {m : Mesh} {V AE AT : Finset Nat} (h : Inv m V AE AT) (q : Query) {e : Nat} (he : e ∈ AE) :
    ∃ t ∈ AT, nextTri m q e = .ok t ∧ e ∈ sides m t := by
  have hs : ∀ s t, m.et e s = some t → t ∈ AT ∧ e ∈ sides m t := fun s t hh =>
    ⟨(h.slot e he s t hh).1, mem_sides.2 (h.slot e he s t hh).2⟩
  unfold nextTri
  cases h0 : m.et e 0 with
  | none =>
    rw [if_pos rfl]
    cases h1 : m.et e 1 with
    | none => exact absurd (h0.trans h1.symm) (h.two e he)
    | some t1 => exact ⟨t1, (hs 1 _ h1).1, rfl, (hs 1 _ h1).2⟩
  | some t0 =>
    rw [if_neg (by simp)]
    cases h1 : m.et e 1 with
    | none =>
      rw [if_pos rfl]
      exact ⟨t0, (hs 0 _ h0).1, rfl, (hs 0 _ h0).2⟩
    | some t1 =>
      rw [if_neg (by simp)]
      obtain ⟨c, fa, fb, a⟩ := tri_at h (hs 0 _ h0).1 (mem_sides.1 (hs 0 _ h0).2)
      simp only [deref, bind, Except.bind, a.third]
      split
      · exact ⟨t0, (hs 0 _ h0).1, rfl, (hs 0 _ h0).2⟩
      · exact ⟨t1, (hs 1 _ h1).1, rfl, (hs 1 _ h1).2⟩

theorem isPossibleWay_ok {m : Mesh} {V AE AT : Finset Nat} (h : Inv m V AE AT) (q : Query) {t x : Nat} (ht : t ∈ AT)
    (hx : x ∈ sides m t) : ∃ b, isPossibleWay m q t x = .ok b := by
  obtain ⟨c, fa, fb, a⟩ := tri_at h ht (mem_sides.1 hx)
  exact ⟨_, by unfold isPossibleWay; rw [a.third]; rfl⟩

theorem walk_spec {m : Mesh} {V AE AT : Finset Nat} (h : Inv m V AE AT) (q : Query) (coin : Nat → Bool) :
    ∀ (fuel e : Nat), e ∈ AE → ∃ r, walk m q coin fuel e = .ok r ∧
      ∀ t, r = some t → t ∈ AT ∧ doesContain m q t = true := by
  intro fuel
  induction fuel with
  | zero => exact fun e _ => ⟨none, rfl, by simp⟩
  | succ fuel ih =>
    intro e he
    obtain ⟨t, ht, hn, hes⟩ := nextTri_spec h q he
    obtain ⟨x0, x1, hf, hx0, hx1⟩ := filter_sides h ht hes
    obtain ⟨w0, hw0⟩ := isPossibleWay_ok h q ht hx0
    obtain ⟨w1, hw1⟩ := isPossibleWay_ok h q ht hx1
    unfold walk
    simp only [hn, bind, Except.bind, hf, hw0, hw1]
    by_cases hc : doesContain m q t = true
    · rw [if_pos hc]
      exact ⟨some t, rfl, fun t' ht' => by cases ht'; exact ⟨ht, hc⟩⟩
    · rw [if_neg hc]
      apply ih
      have hside : ∀ x ∈ sides m t, x ∈ AE := by
        intro x hx
        obtain ⟨i, rfl⟩ := mem_sides.1 hx
        exact (h.side t ht i).1
      unfold nextEdge
      split
      · split
        · exact hside _ hx0
        · exact hside _ hx1
      · split
        · exact hside _ hx0
        · split
          · exact hside _ hx1
          · exact he

theorem enclosing_spec {m : Mesh} {V AE AT : Finset Nat} (h : Inv m V AE AT) (ho : Outer m AE) (env : Env)
    (henv : ∀ S : Finset Nat, S.Nonempty → env.first S ∈ S) (q : Query) (coin : Nat → Bool) (fuel : Nat) :
    ∃ r, enclosingTriangle env m q coin fuel = .ok r ∧ (q.inBound = false → r = some none) ∧
      (q.inBound = true → ∀ o, r = some o → ∃ t ∈ AT, o = some t ∧ doesContain m q t = true) := by
  unfold enclosingTriangle
  by_cases hb : q.inBound = true
  · rw [if_pos hb]
    have hE : env.first (m.vE 0) ∈ AE := by
      have hmem : env.first (m.vE 0) ∈ m.vE 0 := by
        apply henv
        refine ⟨0, (h.vE 0 0).2 ⟨(ho 0 (by omega)).1, 0, ?_⟩⟩
        rw [(ho 0 (by omega)).2.1]
        rfl
      exact ((h.vE _ _).1 hmem).1
    have hslot : ∀ s, containsOpt m q (m.et (env.first (m.vE 0)) s) = true →
        ∃ t ∈ AT, m.et (env.first (m.vE 0)) s = some t ∧ doesContain m q t = true := by
      intro s hs
      cases hh : m.et (env.first (m.vE 0)) s with
      | none => rw [hh] at hs; simp [containsOpt] at hs
      | some t =>
        rw [hh] at hs
        exact ⟨t, (h.slot _ hE s t hh).1, rfl, hs⟩
    simp only
    by_cases h0 : containsOpt m q (m.et (env.first (m.vE 0)) 0) = true
    · rw [if_pos h0]
      exact ⟨_, rfl, by simp [hb], fun _ o ho' => by cases ho'; exact hslot 0 h0⟩
    · rw [if_neg h0]
      by_cases h1 : containsOpt m q (m.et (env.first (m.vE 0)) 1) = true
      · rw [if_pos h1]
        exact ⟨_, rfl, by simp [hb], fun _ o ho' => by cases ho'; exact hslot 1 h1⟩
      · rw [if_neg h1]
        obtain ⟨r, hr, hw⟩ := walk_spec h q coin fuel _ hE
        rw [hr]
        cases r with
        | none => exact ⟨none, rfl, by simp [hb], by simp⟩
        | some t => exact ⟨_, rfl, by simp [hb], fun _ o ho' => by cases ho'; exact ⟨t, (hw t rfl).1, rfl, (hw t rfl).2⟩⟩
  · rw [if_neg hb]
    exact ⟨_, rfl, fun _ => rfl, fun hh => absurd hh hb⟩

/-- The queue after dividing a triangle. -/
theorem queue_tri {m m' : Mesh} {V AE AT : Finset Nat} (h : Inv m V AE AT) {t v x0 x1 x2 : Nat} (ht : t ∈ AT)
    (hv : v ∉ V) (hc : Canon m t x0 x1 x2) (hd : DividedT m m' AE t v x0 x1 x2) :
    Queue m' ((AE \ ∅) ∪ {m.ne, m.ne + 1, m.ne + 2}) v (sides m t) := by
  have hmem : ∀ x ∈ sides m t, x ∈ AE ∧ ∃ s, m.et x s = some t := by
    intro x hx
    obtain ⟨i, rfl⟩ := mem_sides.1 hx
    exact h.side t ht i
  refine ⟨fun f hf => by simp [(hmem f hf).1], fun f => ?_⟩
  by_cases hf : f ∈ sides m t
  · have h1 : (sides m t).count f ≤ 1 := List.nodup_iff_count_le_one.1 (nodup_sides h ht) f
    obtain ⟨hfA, s, hs⟩ := hmem f hf
    have hnew : opposite m' v f s = true := by
      rw [opposite_iff]
      have hend : ¬∃ j, m'.ev f j = v := by
        rw [hd.ev f (h.eLt f hfA)]
        rintro ⟨j, hj⟩
        exact hv (hj ▸ h.endV f hfA j)
      rcases (hc.sides f).1 hf with rfl | rfl | rfl
      · exact ⟨_, hd.etX0 s hs, ⟨2, by rw [hd.tv0]; rfl⟩, hend⟩
      · exact ⟨_, hd.etX1 s hs, ⟨2, by rw [hd.tv1]; rfl⟩, hend⟩
      · exact ⟨_, hd.etX2 s hs, ⟨2, by rw [hd.tv2]; rfl⟩, hend⟩
    refine le_trans h1 ?_
    fin_cases s
    · simp only [Fin.zero_eta] at hnew
      rw [hnew]; simp
    · simp only [Fin.mk_one] at hnew
      rw [hnew]; simp
  · rw [List.count_eq_zero_of_not_mem hf]
    exact Nat.zero_le _

/-- The queue after dividing an edge. -/
theorem queue_edge {m m' : Mesh} {V AE AT : Finset Nat} (h : Inv m V AE AT) {e t0 t1 v c d fa0 fb0 fa1 fb1 : Nat}
    (he : e ∈ AE) (hv : v ∉ V) (h0 : m.et e 0 = some t0) (h1 : m.et e 1 = some t1) (a0 : At m t0 e c fa0 fb0)
    (a1 : At m t1 e d fa1 fb1) (hd : DividedE m m' AE e t0 t1 v c d fa0 fb0 fa1 fb1) :
    Queue m' ((AE \ {e}) ∪ {m.ne, m.ne + 1, m.ne + 2, m.ne + 3}) v
      ((sides m t0).filter (fun x => x != e) ++ (sides m t1).filter (fun x => x != e)) := by
  obtain ⟨ht0, -⟩ := h.slot e he 0 t0 h0
  obtain ⟨ht1, -⟩ := h.slot e he 1 t1 h1
  have htt : t0 ≠ t1 := fun hh => h.two e he (by rw [h0, h1, hh])
  have hmem : ∀ t ∈ AT, ∀ x ∈ sides m t, x ∈ AE ∧ ∃ s, m.et x s = some t := by
    intro t ht x hx
    obtain ⟨i, rfl⟩ := mem_sides.1 hx
    exact h.side t ht i
  have hend : ∀ f ∈ AE, ¬∃ j, m'.ev f j = v := by
    intro f hfA
    rw [hd.ev f (h.eLt f hfA)]
    rintro ⟨j, hj⟩
    exact hv (hj ▸ h.endV f hfA j)
  have k0 : ∀ f ∈ (sides m t0).filter (fun x => x != e), f ∈ AE ∧ f ≠ e ∧ ∃ s, m.et f s = some t0 ∧
      opposite m' v f s = true := by
    intro f hf
    rw [List.mem_filter, bne_iff_ne] at hf
    obtain ⟨hfA, s, hs⟩ := hmem t0 ht0 f hf.1
    refine ⟨hfA, hf.2, s, hs, ?_⟩
    rw [opposite_iff]
    rcases (a0.sides f).1 hf.1 with rfl | rfl | rfl
    · exact absurd rfl hf.2
    · exact ⟨_, hd.etA0 s hs, ⟨1, by rw [hd.tv0]; rfl⟩, hend _ hfA⟩
    · exact ⟨_, hd.etB0 s hs, ⟨1, by rw [hd.tv1]; rfl⟩, hend _ hfA⟩
  have k1 : ∀ f ∈ (sides m t1).filter (fun x => x != e), f ∈ AE ∧ f ≠ e ∧ ∃ s, m.et f s = some t1 ∧
      opposite m' v f s = true := by
    intro f hf
    rw [List.mem_filter, bne_iff_ne] at hf
    obtain ⟨hfA, s, hs⟩ := hmem t1 ht1 f hf.1
    refine ⟨hfA, hf.2, s, hs, ?_⟩
    rw [opposite_iff]
    rcases (a1.sides f).1 hf.1 with rfl | rfl | rfl
    · exact absurd rfl hf.2
    · exact ⟨_, hd.etA1 s hs, ⟨1, by rw [hd.tv2]; rfl⟩, hend _ hfA⟩
    · exact ⟨_, hd.etB1 s hs, ⟨1, by rw [hd.tv3]; rfl⟩, hend _ hfA⟩
  refine ⟨?_, ?_⟩
  · intro f hf
    rw [List.mem_append] at hf
    rcases hf with hf | hf
    · simp [(k0 f hf).1, (k0 f hf).2.1]
    · simp [(k1 f hf).1, (k1 f hf).2.1]
  · intro f
    rw [List.count_append]
    have c0 := count_filter_sides h (e := e) ht0 f
    have c1 := count_filter_sides h (e := e) ht1 f
    by_cases hf0 : f ∈ (sides m t0).filter (fun x => x != e)
    · obtain ⟨-, -, s0, hs0, ho0⟩ := k0 f hf0
      by_cases hf1 : f ∈ (sides m t1).filter (fun x => x != e)
      · obtain ⟨-, -, s1, hs1, ho1⟩ := k1 f hf1
        have hss : s0 ≠ s1 := by
          rintro rfl
          rw [hs0] at hs1
          exact htt (Option.some.inj hs1)
        have hboth : opposite m' v f 0 = true ∧ opposite m' v f 1 = true := by
          fin_cases s0 <;> fin_cases s1 <;> simp_all
        rw [hboth.1, hboth.2]
        simp only [Bool.toNat_true]
        omega
      · rw [List.count_eq_zero_of_not_mem hf1]
        fin_cases s0
        · simp only [Fin.zero_eta] at ho0
          rw [ho0]; simp only [Bool.toNat_true]; omega
        · simp only [Fin.mk_one] at ho0
          rw [ho0]; simp only [Bool.toNat_true]; omega
    · rw [List.count_eq_zero_of_not_mem hf0]
      by_cases hf1 : f ∈ (sides m t1).filter (fun x => x != e)
      · obtain ⟨-, -, s1, hs1, ho1⟩ := k1 f hf1
        fin_cases s1
        · simp only [Fin.zero_eta] at ho1
          rw [ho1]; simp only [Bool.toNat_true]; omega
        · simp only [Fin.mk_one] at ho1
          rw [ho1]; simp only [Bool.toNat_true]; omega
      · rw [List.count_eq_zero_of_not_mem hf1]
        omega

theorem card_tri {m : Mesh} {V AE AT : Finset Nat} (h : Inv m V AE AT) {t : Nat} (ht : t ∈ AT) :
    ((AE \ ∅) ∪ {m.ne, m.ne + 1, m.ne + 2}).card = AE.card + 3 ∧
      ((AT \ {t}) ∪ {m.nt, m.nt + 1, m.nt + 2}).card = AT.card + 2 := by
  have hcard : ∀ n : Nat, ({n, n + 1, n + 2} : Finset Nat).card = 3 := by
    intro n
    rw [Finset.card_insert_of_notMem (by simp), Finset.card_pair (by omega)]
  constructor
  · rw [Finset.card_union_of_disjoint, Finset.sdiff_empty, hcard]
    rw [Finset.disjoint_right]
    intro x hx hh
    have := h.eLt _ (Finset.mem_sdiff.1 hh).1
    simp only [Finset.mem_insert, Finset.mem_singleton] at hx
    omega
  · rw [Finset.card_union_of_disjoint, Finset.card_sdiff_of_subset (by simpa using ht), hcard]
    · have : 0 < AT.card := Finset.card_pos.2 ⟨t, ht⟩
      simp only [Finset.card_singleton]
      omega
    · rw [Finset.disjoint_right]
      intro x hx hh
      have := h.tLt _ (Finset.mem_sdiff.1 hh).1
      simp only [Finset.mem_insert, Finset.mem_singleton] at hx
      omega

theorem card_edge {m : Mesh} {V AE AT : Finset Nat} (h : Inv m V AE AT) {e t0 t1 : Nat} (he : e ∈ AE) (ht0 : t0 ∈ AT)
    (ht1 : t1 ∈ AT) (htt : t0 ≠ t1) :
    ((AE \ {e}) ∪ {m.ne, m.ne + 1, m.ne + 2, m.ne + 3}).card = AE.card + 3 ∧
      ((AT \ {t0, t1}) ∪ {m.nt, m.nt + 1, m.nt + 2, m.nt + 3}).card = AT.card + 2 := by
  have hcard : ∀ n : Nat, ({n, n + 1, n + 2, n + 3} : Finset Nat).card = 4 := by
    intro n
    rw [Finset.card_insert_of_notMem (by simp), Finset.card_insert_of_notMem (by simp), Finset.card_pair (by omega)]
  constructor
  · rw [Finset.card_union_of_disjoint, Finset.card_sdiff_of_subset (by simpa using he), hcard]
    · have : 0 < AE.card := Finset.card_pos.2 ⟨e, he⟩
      simp only [Finset.card_singleton]
      omega
    · rw [Finset.disjoint_right]
      intro x hx hh
      have := h.eLt _ (Finset.mem_sdiff.1 hh).1
      simp only [Finset.mem_insert, Finset.mem_singleton] at hx
      omega
  · have hsub : ({t0, t1} : Finset Nat) ⊆ AT := by
      intro x hx
      simp only [Finset.mem_insert, Finset.mem_singleton] at hx
      rcases hx with rfl | rfl <;> assumption
    have h2 : ({t0, t1} : Finset Nat).card = 2 := Finset.card_pair htt
    have h4 := Finset.card_le_card hsub
    rw [Finset.card_union_of_disjoint, Finset.card_sdiff_of_subset hsub, h2, hcard]
    · omega
    · rw [Finset.disjoint_right]
      intro x hx hh
      have := h.tLt _ (Finset.mem_sdiff.1 hh).1
      simp only [Finset.mem_insert, Finset.mem_singleton] at hx
      omega

/-- Legalisation after a division. -/
theorem legalize_keeps {p : Preds} {adm : Nat → Prop} {Good : Finset Nat → Mesh → Finset Nat → Finset Nat → Prop}
    (hK : Keeps p adm Good) (V : Finset Nat) (v fuel : Nat) (q : List Nat) (m : Mesh) (AE AT : Finset Nat)
    (h : Inv m V AE AT) (hg : Good V m AE AT) (ho : Outer m AE) (hq : Queue m AE v q) :
    ∃ r, legalize p v fuel q m = .ok r ∧ (2 * AE.card + q.length ≤ fuel → r ≠ none) ∧
      ∀ m', r = some m' → ∃ AE' AT', Inv m' V AE' AT' ∧ Good V m' AE' AT' ∧ Outer m' AE' ∧ AE'.card = AE.card ∧
        AT'.card = AT.card := by
  obtain ⟨r, h1, h2, h3⟩ := legalize_spec p V v (fun m AE AT => Good V m AE AT ∧ Outer m AE) (by
    intro m AE AT e t0 t1 c d fa0 fb0 fa1 fb1 h hg he h0 h1 a0 a1 hc hb hl
    obtain ⟨hcd, hk⟩ := hK.flip V m AE AT e t0 t1 c d fa0 fb0 fa1 fb1 h hg.1 he h0 h1 a0 a1 hc hb hl
    refine ⟨hcd, fun m' hf => ⟨hk m' hf, fun f hf3 => ?_⟩⟩
    obtain ⟨g1, g2, g3⟩ := hg.2 f hf3
    have hfe : f ≠ e := by
      rintro rfl
      rw [h1] at g3
      cases g3
    refine ⟨by simp [g1, hfe], ?_, ?_⟩
    · rw [hf.ev f (h.eLt f g1).ne, g2]
    · rw [hf.et f g1 hfe 1 (by rw [g3]; simp) (by rw [g3]; simp), g3]) fuel q m AE AT h ⟨hg, ho⟩ hq
  refine ⟨r, h1, fun hh => h2 ?_, fun m' hm' => ?_⟩
  · have : (away m AE v).card ≤ AE.card := Finset.card_filter_le _ _
    omega
  · obtain ⟨AE', AT', k1, k2, k3, k4, -⟩ := h3 m' hm'
    exact ⟨AE', AT', k1, k2.1, k2.2, k3, k4⟩

/-- What holds after a new vertex has been inserted. -/
def Inserted (Good : Finset Nat → Mesh → Finset Nat → Finset Nat → Prop) (V AE AT : Finset Nat) (v : Nat)
    (m' : Mesh) : Prop :=
  ∃ AE' AT', Inv m' (insert v V) AE' AT' ∧ Good (insert v V) m' AE' AT' ∧ Outer m' AE' ∧ AE'.card = AE.card + 3 ∧
    AT'.card = AT.card + 2

theorem insertInto_spec {p : Preds} {adm : Nat → Prop} {Good : Finset Nat → Mesh → Finset Nat → Finset Nat → Prop}
    (hK : Keeps p adm Good) {m : Mesh} {V AE AT : Finset Nat} (h : Inv m V AE AT) (hg : Good V m AE AT)
    (ho : Outer m AE) {v t : Nat} (hv : v ∉ V) (hadm : adm v) (ht : t ∈ AT)
    (hcont : doesContain m (p.query v) t = true) (fuel : Nat) :
    (insertInto p m v t fuel = .error .ub ∧
      ∃ e ∈ AE, (p.query v).onEdge (m.ev e 0) (m.ev e 1) = true) ∨
    ∃ r, insertInto p m v t fuel = .ok r ∧ (2 * AE.card + 10 ≤ fuel → r ≠ none) ∧
      ∀ w m', r = some (w, m') → (w ≠ v ∧ m' = m ∧ w ∈ V ∧ p.equal w v = true) ∨
        (w = v ∧ Inserted Good V AE AT v m') := by
  have hcorner : ∀ i, m.tv t i ∈ V := by
    intro i
    obtain ⟨j, hj⟩ := h.opp t ht (i + 1)
    have hne : m.tv t i ≠ m.tv t (i + 1) := by
      intro hh
      have := h.inj t ht hh
      revert this
      clear * -
      revert i
      decide
    obtain ⟨s, hs⟩ := (hj (m.tv t i)).2 ⟨hne, i, rfl⟩
    rw [← hs]
    exact h.endV _ (h.side t ht j).1 s
  unfold insertInto
  cases hf : (corners m t).find? (fun w => p.equal w v) with
  | some w =>
    right
    refine ⟨_, rfl, by simp, ?_⟩
    intro w' m' hw
    cases hw
    obtain ⟨i, hi⟩ := mem_corners.1 (List.mem_of_find?_eq_some hf)
    have hwV : w ∈ V := hi ▸ hcorner i
    exact .inl ⟨fun hh => hv (hh ▸ hwV), rfl, hwV, by simpa using List.find?_some hf⟩
  | none =>
    simp only
    have hneq : ∀ i, p.equal (m.tv t i) v = false := by
      intro i
      have := List.find?_eq_none.1 hf (m.tv t i) (mem_corners.2 ⟨i, rfl⟩)
      simpa using this
    cases hs : (sides m t).reverse.find? (fun e => (p.query v).onEdge (m.ev e 0) (m.ev e 1)) with
    | some e =>
      have heS : e ∈ sides m t := by simpa using List.mem_of_find?_eq_some hs
      have hon : (p.query v).onEdge (m.ev e 0) (m.ev e 1) = true := by simpa using List.find?_some hs
      have he : e ∈ AE := by
        obtain ⟨i, rfl⟩ := mem_sides.1 heS
        exact (h.side t ht i).1
      cases h0 : m.et e 0 with
      | none =>
        left
        refine ⟨?_, e, he, hon⟩
        simp only [sidesAround, h0, deref, bind, Except.bind]
      | some t0 =>
        cases h1 : m.et e 1 with
        | none =>
          left
          refine ⟨?_, e, he, hon⟩
          simp only [sidesAround, h0, h1, deref, bind, Except.bind]
        | some t1 =>
          right
          obtain ⟨ht0, k0⟩ := h.slot e he 0 t0 h0
          obtain ⟨ht1, k1⟩ := h.slot e he 1 t1 h1
          have htt : t0 ≠ t1 := fun hh => h.two e he (by rw [h0, h1, hh])
          obtain ⟨c, fa0, fb0, a0⟩ := tri_at h ht0 k0
          obtain ⟨d, fa1, fb1, a1⟩ := tri_at h ht1 k1
          obtain ⟨m1, hm1, hd⟩ := divideEdge_divided h he h0 h1 a0 a1 (v := v)
          have hq := queue_edge h he hv h0 h1 a0 a1 hd
          have hinv := DividedE.inv h he hv h0 h1 a0 a1 hd
          have hgood := hK.edge V m AE AT e t0 t1 v c d fa0 fb0 fa1 fb1 m1 h hg hv hadm he h0 h1 a0 a1 hon hd
          have ho1 : Outer m1 ((AE \ {e}) ∪ {m.ne, m.ne + 1, m.ne + 2, m.ne + 3}) := by
            intro f hf3
            obtain ⟨g1, g2, g3⟩ := ho f hf3
            have hfe : f ≠ e := by
              rintro rfl
              rw [h1] at g3
              cases g3
            refine ⟨by simp [g1, hfe], ?_, ?_⟩
            · rw [hd.ev f (h.eLt f g1), g2]
            · rw [hd.et f g1 1 (by rw [g3]; simp) (by rw [g3]; simp), g3]
          obtain ⟨kc1, kc2⟩ := card_edge h he ht0 ht1 htt
          obtain ⟨r, q1, q2, q3⟩ := legalize_keeps hK (insert v V) v fuel _ m1 _ _ hinv hgood ho1 hq
          refine ⟨r.map fun m2 => (v, m2), ?_, ?_, ?_⟩
          · simp only [sidesAround, h0, h1, deref, bind, Except.bind, hm1, q1]
          · intro hfuel
            obtain ⟨x0, x1, l0, -⟩ := filter_sides h ht0 (mem_sides.2 k0)
            obtain ⟨y0, y1, l1, -⟩ := filter_sides h ht1 (mem_sides.2 k1)
            have := q2 (by rw [kc1, l0, l1]; simp only [List.length_append, List.length_cons, List.length_nil]; omega)
            simpa using this
          · intro w m' hw
            right
            cases r with
            | none => simp at hw
            | some m2 =>
              simp only [Option.map_some, Option.some.injEq, Prod.mk.injEq] at hw
              obtain ⟨rfl, rfl⟩ := hw
              obtain ⟨AE', AT', j1, j2, j3, j4, j5⟩ := q3 m2 rfl
              exact ⟨rfl, AE', AT', j1, j2, j3, j4.trans kc1, j5.trans kc2⟩
    | none =>
      right
      simp only
      rw [if_pos hcont]
      have hnon : ∀ x ∈ sides m t, (p.query v).onEdge (m.ev x 0) (m.ev x 1) = false := by
        intro x hx
        have := List.find?_eq_none.1 hs x (by simpa using hx)
        simpa using this
      obtain ⟨x0, x1, x2, hc⟩ := canon_of h ht
      obtain ⟨m1, hm1, hd⟩ := divideTriangle_divided h ht hc (v := v)
      have hq := queue_tri h ht hv hc hd
      have hinv := DividedT.inv h ht hv hc hd
      have hgood := hK.tri V m AE AT t v x0 x1 x2 m1 h hg hv hadm ht hc hneq hnon hcont hd
      have ho1 : Outer m1 ((AE \ ∅) ∪ {m.ne, m.ne + 1, m.ne + 2}) := by
        intro f hf3
        obtain ⟨g1, g2, g3⟩ := ho f hf3
        refine ⟨by simp [g1], ?_, ?_⟩
        · rw [hd.ev f (h.eLt f g1), g2]
        · rw [hd.et f g1 1 (by rw [g3]; simp), g3]
      obtain ⟨kc1, kc2⟩ := card_tri h ht
      obtain ⟨r, q1, q2, q3⟩ := legalize_keeps hK (insert v V) v fuel _ m1 _ _ hinv hgood ho1 hq
      refine ⟨r.map fun m2 => (v, m2), ?_, ?_, ?_⟩
      · simp only [hm1, bind, Except.bind, q1]
      · intro hfuel
        have := q2 (by rw [kc1]; simp only [sides, List.length_cons, List.length_nil]; omega)
        simpa using this
      · intro w m' hw
        right
        cases r with
        | none => simp at hw
        | some m2 =>
          simp only [Option.map_some, Option.some.injEq, Prod.mk.injEq] at hw
          obtain ⟨rfl, rfl⟩ := hw
          obtain ⟨AE', AT', j1, j2, j3, j4, j5⟩ := q3 m2 rfl
          exact ⟨rfl, AE', AT', j1, j2, j3, j4.trans kc1, j5.trans kc2⟩

/-- `addPoint` on a consistent mesh. -/
theorem addPoint_spec {p : Preds} {adm : Nat → Prop} {Good : Finset Nat → Mesh → Finset Nat → Finset Nat → Prop}
    (hK : Keeps p adm Good) {m : Mesh} {V AE AT : Finset Nat} (h : Inv m V AE AT) (hg : Good V m AE AT)
    (ho : Outer m AE) {v : Nat} (hv : v ∉ V) (hadm : adm v) (env : Env)
    (henv : ∀ S : Finset Nat, S.Nonempty → env.first S ∈ S) (fuel : Nat) :
    (addPoint env p m v fuel = .error .ub ∧ ((p.query v).inBound = false ∨
      ∃ e ∈ AE, (p.query v).onEdge (m.ev e 0) (m.ev e 1) = true)) ∨
    ∃ r, addPoint env p m v fuel = .ok r ∧
      (2 * AE.card + 10 ≤ fuel → enclosingTriangle env m (p.query v) (env.coin v) fuel ≠ .ok none → r ≠ none) ∧
      ∀ w m', r = some (w, m') → (w ≠ v ∧ m' = m ∧ w ∈ V ∧ p.equal w v = true) ∨
        (w = v ∧ Inserted Good V AE AT v m') := by
  obtain ⟨r, hr, hr0, hr1⟩ := enclosing_spec h ho env henv (p.query v) (env.coin v) fuel
  unfold addPoint
  rw [hr]
  cases r with
  | none => exact .inr ⟨none, rfl, by simp, by simp⟩
  | some o =>
    cases hb : (p.query v).inBound with
    | false =>
      have := hr0 hb
      cases this
      exact .inl ⟨rfl, .inl rfl⟩
    | true =>
      obtain ⟨t, ht, rfl, hc⟩ := hr1 hb o rfl
      rcases insertInto_spec hK h hg ho hv hadm ht hc fuel with ⟨h1, h2⟩ | ⟨r, h1, h2, h3⟩
      · exact .inl ⟨h1, .inr h2⟩
      · exact .inr ⟨r, h1, fun hh _ => h2 hh, h3⟩

end Mdso.Tri
