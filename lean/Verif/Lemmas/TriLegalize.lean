import Verif.Lemmas.TriFlip
import Verif.Lemmas.TriDivideEdge

/-!
# Legalisation keeps the mesh consistent and ends
-/

set_option autoImplicit false

namespace Mdso.Tri

/-- What holds of an edge found illegal. -/
theorem legal_cases {m : Mesh} {V AE AT : Finset Nat} (h : Inv m V AE AT) (p : Preds) {e : Nat} (he : e ∈ AE) :
    ∃ b, isEdgeLegal p m e = .ok b ∧ (b = false → ¬(m.ev e 0 < 3 ∧ m.ev e 1 < 3) ∧
      ∃ t0 t1 c d fa0 fb0 fa1 fb1, m.et e 0 = some t0 ∧ m.et e 1 = some t1 ∧ At m t0 e c fa0 fb0 ∧
        At m t1 e d fa1 fb1 ∧ p.convex (m.ev e 0) c (m.ev e 1) d = true) := by
  unfold isEdgeLegal
  simp only
  by_cases hb : (isBound (m.ev e 0) && isBound (m.ev e 1)) = true
  · rw [if_pos hb]
    exact ⟨true, rfl, by simp⟩
  · rw [if_neg hb]
    have hb' : ¬(m.ev e 0 < 3 ∧ m.ev e 1 < 3) := by simpa [isBound] using hb
    have hsome : ∀ s, ∃ t, m.et e s = some t := by
      intro s
      cases hs : m.et e s with
      | some t => exact ⟨t, rfl⟩
      | none => exact absurd (h.bound e he s hs) hb'
    obtain ⟨t0, h0⟩ := hsome 0
    obtain ⟨t1, h1⟩ := hsome 1
    obtain ⟨ht0, k0⟩ := h.slot e he 0 t0 h0
    obtain ⟨ht1, k1⟩ := h.slot e he 1 t1 h1
    obtain ⟨c, fa0, fb0, a0⟩ := tri_at h ht0 k0
    obtain ⟨d, fa1, fb1, a1⟩ := tri_at h ht1 k1
    rw [h0, h1]
    simp only [deref, bind, Except.bind, a0.third, a1.third]
    split
    · exact ⟨true, rfl, by simp⟩
    · split
      · refine ⟨_, rfl, fun hh => ⟨hb', t0, t1, c, d, fa0, fb0, fa1, fb1, rfl, rfl, a0, a1, ?_⟩⟩
        simpa using hh
      · refine ⟨_, rfl, fun hh => ⟨hb', t0, t1, c, d, fa0, fb0, fa1, fb1, rfl, rfl, a0, a1, ?_⟩⟩
        simp only [Bool.or_eq_false_iff, Bool.not_eq_false'] at hh
        exact hh.1

/-- Whether the triangle in the slot `s` of the edge `f` lies between the edge and the vertex `v`. -/
def opposite (m : Mesh) (v f : Nat) (s : Fin 2) : Bool := (m.et f s).any fun t => isCorner m v t && !isEnd m v f

theorem opposite_iff {m : Mesh} {v f : Nat} {s : Fin 2} :
    opposite m v f s = true ↔ ∃ t, m.et f s = some t ∧ (∃ i, m.tv t i = v) ∧ ¬∃ j, m.ev f j = v := by
  unfold opposite
  cases h : m.et f s with
  | none => simp
  | some t =>
    simp only [Option.any_some, Bool.and_eq_true, isCorner_iff, Bool.not_eq_true', Bool.eq_false_iff, ne_eq, isEnd_iff,
      Option.some.injEq, exists_eq_left']

/-- The invariant of the queue: edges in use, none of them more often than it has triangles towards `v`. -/
def Queue (m : Mesh) (AE : Finset Nat) (v : Nat) (q : List Nat) : Prop :=
  (∀ f ∈ q, f ∈ AE) ∧ ∀ f, q.count f ≤ (opposite m v f 0).toNat + (opposite m v f 1).toNat

theorem count_filter_sides {m : Mesh} {V AE AT : Finset Nat} (h : Inv m V AE AT) {t e : Nat} (ht : t ∈ AT) (f : Nat) :
    ((sides m t).filter fun x => x != e).count f ≤ 1 :=
  List.nodup_iff_count_le_one.1 ((nodup_sides h ht).filter _) f

/-- The edges not at `v`. -/
def away (m : Mesh) (AE : Finset Nat) (v : Nat) : Finset Nat := AE.filter fun f => isEnd m v f = false

/-- One flip. -/
theorem flip_step {m m' : Mesh} {V AE AT : Finset Nat} (h : Inv m V AE AT) {e t0 t1 c d fa0 fb0 fa1 fb1 v : Nat}
    {q : List Nat} (he : e ∈ AE) (h0 : m.et e 0 = some t0) (h1 : m.et e 1 = some t1) (a0 : At m t0 e c fa0 fb0)
    (a1 : At m t1 e d fa1 fb1) (hcd : c ≠ d) (hf : Flipped m m' AE e t0 t1 c d fa0 fb0 fa1 fb1)
    (hq : Queue m AE v (e :: q)) :
    Queue m' ((AE \ {e}) ∪ {m.ne}) v
      (q ++ (sides m (if isCorner m v t0 then t1 else t0)).filter fun x => x != e) ∧
    (away m' ((AE \ {e}) ∪ {m.ne}) v).card + 1 = (away m AE v).card := by
  obtain ⟨ht0, -⟩ := h.slot e he 0 t0 h0
  obtain ⟨ht1, -⟩ := h.slot e he 1 t1 h1
  have hmem : ∀ t ∈ AT, ∀ x ∈ sides m t, x ∈ AE ∧ ∃ s, m.et x s = some t := by
    intro t ht x hx
    obtain ⟨i, rfl⟩ := mem_sides.1 hx
    exact h.side t ht i
  have hel := h.eLt e he
  have hca := a0.ca
  have hcb := a0.cb
  have hda := a1.ca
  have hdb := a1.cb
  obtain ⟨hq1, hq2⟩ := hq
  have hevo : ∀ f ∈ AE, m'.ev f = m.ev f := fun f hf' => hf.ev f (h.eLt f hf').ne
  have hendo : ∀ f ∈ AE, isEnd m' v f = isEnd m v f := by
    intro f hf'
    unfold isEnd
    rw [hevo f hf']
  -- the vertex is on one side of the edge
  have hce : 1 ≤ (e :: q).count e := by simp
  have hop : opposite m v e 0 = true ∨ opposite m v e 1 = true := by
    have := hq2 e
    by_contra hh
    rw [not_or, Bool.not_eq_true, Bool.not_eq_true] at hh
    rw [hh.1, hh.2] at this
    simp at this
  have hnotend : ¬∃ j, m.ev e j = v := by
    rcases hop with hh | hh
    · obtain ⟨_, _, _, h3⟩ := opposite_iff.1 hh; exact h3
    · obtain ⟨_, _, _, h3⟩ := opposite_iff.1 hh; exact h3
  have hva : v ≠ m.ev e 0 := fun hh => hnotend ⟨0, hh.symm⟩
  have hvb : v ≠ m.ev e 1 := fun hh => hnotend ⟨1, hh.symm⟩
  have hop0 : opposite m v e 0 = true ↔ v = c := by
    rw [opposite_iff, h0]
    constructor
    · rintro ⟨t, ht, h3, -⟩
      cases ht
      rcases (a0.corner v).1 h3 with hh | hh | hh
      · exact absurd hh hva
      · exact absurd hh hvb
      · exact hh
    · intro hh
      exact ⟨t0, rfl, (a0.corner v).2 (.inr (.inr hh)), hnotend⟩
  have hop1 : opposite m v e 1 = true ↔ v = d := by
    rw [opposite_iff, h1]
    constructor
    · rintro ⟨t, ht, h3, -⟩
      cases ht
      rcases (a1.corner v).1 h3 with hh | hh | hh
      · exact absurd hh hva
      · exact absurd hh hvb
      · exact hh
    · intro hh
      exact ⟨t1, rfl, (a1.corner v).2 (.inr (.inr hh)), hnotend⟩
  have hvcd : v = c ∨ v = d := by
    rcases hop with hh | hh
    · exact .inl (hop0.1 hh)
    · exact .inr (hop1.1 hh)
  have htail : q.count e = 0 := by
    have h3 := hq2 e
    rw [List.count_cons_self] at h3
    have h4 : (opposite m v e 0).toNat + (opposite m v e 1).toNat ≤ 1 := by
      rcases Bool.eq_false_or_eq_true (opposite m v e 0) with h5 | h5 <;>
        rcases Bool.eq_false_or_eq_true (opposite m v e 1) with h6 | h6 <;> rw [h5, h6] <;> simp
      exact hcd ((hop0.1 h5).symm.trans (hop1.1 h6))
    omega
  have hcor : ∀ t, t < m.nt → isCorner m' v t = isCorner m v t := by
    intro t ht
    unfold isCorner
    rw [hf.tv t ht]
  have hcor0 : isCorner m' v m.nt = true := isCorner_iff.2 (by rw [hf.tv0, cons3_iff]; tauto)
  have hcor1 : isCorner m' v (m.nt + 1) = true := isCorner_iff.2 (by rw [hf.tv1, cons3_iff]; tauto)
  have hsideof : ∀ f ∈ AE, ∀ s t, m.et f s = some t → f ∈ sides m t := by
    intro f hf' s t hs
    exact mem_sides.2 (h.slot f hf' s t hs).2
  -- after the flip, the slots of the sides of the two old triangles lead to triangles at `v`
  have hnew : ∀ f ∈ AE, f ≠ e → ∀ s, (m.et f s = some t0 ∨ m.et f s = some t1) →
      ∃ n, m'.et f s = some n ∧ isCorner m' v n = true := by
    intro f hf' hfe s hs
    rcases hs with hs | hs
    · rcases (a0.sides f).1 (hsideof f hf' s _ hs) with rfl | rfl | rfl
      · exact absurd rfl hfe
      · exact ⟨_, hf.etA0 s hs, hcor0⟩
      · exact ⟨_, hf.etB0 s hs, hcor1⟩
    · rcases (a1.sides f).1 (hsideof f hf' s _ hs) with rfl | rfl | rfl
      · exact absurd rfl hfe
      · exact ⟨_, hf.etA1 s hs, hcor0⟩
      · exact ⟨_, hf.etB1 s hs, hcor1⟩
  have hmono : ∀ f ∈ AE, f ≠ e → ∀ s, opposite m v f s = true → opposite m' v f s = true := by
    intro f hf' hfe s hs
    obtain ⟨t, ht, hc, hn⟩ := opposite_iff.1 hs
    have hn' : ¬∃ j, m'.ev f j = v := by rw [hevo f hf']; exact hn
    by_cases hs01 : m.et f s = some t0 ∨ m.et f s = some t1
    · obtain ⟨n, h3, h4⟩ := hnew f hf' hfe s hs01
      exact opposite_iff.2 ⟨n, h3, isCorner_iff.1 h4, hn'⟩
    · rw [not_or] at hs01
      refine opposite_iff.2 ⟨t, by rw [hf.et f hf' hfe s hs01.1 hs01.2]; exact ht, ?_, hn'⟩
      rw [← isCorner_iff, hcor t (h.tLt t (h.slot f hf' s t ht).1), isCorner_iff]
      exact hc
  obtain ⟨op, hopdef⟩ : ∃ op, op = if isCorner m v t0 then t1 else t0 := ⟨_, rfl⟩
  rw [← hopdef]
  have hopm : op ∈ AT := by rw [hopdef]; split <;> assumption
  have hop01 : op = t0 ∨ op = t1 := by rw [hopdef]; split <;> simp
  have hopv : isCorner m v op = false := by
    rw [Bool.eq_false_iff]
    intro hh
    rw [hopdef] at hh
    split at hh
    · rename_i h3
      have h3' : v = c := by
        rcases (a0.corner v).1 (isCorner_iff.1 h3) with h4 | h4 | h4
        · exact absurd h4 hva
        · exact absurd h4 hvb
        · exact h4
      rcases (a1.corner v).1 (isCorner_iff.1 hh) with h4 | h4 | h4
      · exact hva h4
      · exact hvb h4
      · exact hcd (h3'.symm.trans h4)
    · rename_i h3
      exact h3 hh
  have hpush : ∀ f ∈ (sides m op).filter (fun x => x != e), f ∈ AE ∧ f ≠ e ∧ ∃ s, opposite m v f s = false ∧
      opposite m' v f s = true := by
    intro f hf'
    rw [List.mem_filter, bne_iff_ne] at hf'
    obtain ⟨hfs, hfe⟩ := hf'
    obtain ⟨hfA, s, hs⟩ := hmem op hopm f hfs
    refine ⟨hfA, hfe, s, ?_, ?_⟩
    · unfold opposite
      rw [hs]
      simp [hopv]
    · obtain ⟨n, h3, h4⟩ := hnew f hfA hfe s (by rcases hop01 with hh | hh <;> rw [hh] at hs <;> tauto)
      refine opposite_iff.2 ⟨n, h3, isCorner_iff.1 h4, ?_⟩
      rw [hevo f hfA]
      -- the ends of the side are corners of the triangle
      rintro ⟨j, hj⟩
      have : ∃ i, m.tv op i = v := by
        obtain ⟨x, -, -, hx, hev⟩ := tri_canon h hopm
        obtain ⟨i, rfl⟩ := (hx f).1 hfs
        exact ((hev i v).1 ⟨j, hj⟩).2
      rw [← isCorner_iff, hopv] at this
      exact absurd this (by simp)
  refine ⟨⟨?_, ?_⟩, ?_⟩
  · intro f hf'
    rw [List.mem_append] at hf'
    rw [Finset.mem_union, Finset.mem_sdiff, Finset.mem_singleton]
    rcases hf' with hf' | hf'
    · refine .inl ⟨hq1 f (List.mem_cons_of_mem _ hf'), ?_⟩
      rintro rfl
      exact absurd htail (List.count_pos_iff.2 hf').ne'
    · exact .inl ⟨(hpush f hf').1, (hpush f hf').2.1⟩
  · intro f
    rw [List.count_append]
    by_cases hfe : f = e
    · subst hfe
      rw [htail]
      have : ((sides m op).filter fun x => x != f).count f = 0 := by
        rw [List.count_eq_zero]
        simp
      omega
    · by_cases hfA : f ∈ AE
      · have h3 := hq2 f
        rw [List.count_cons_of_ne (Ne.symm hfe)] at h3
        have m0 := hmono f hfA hfe 0
        have m1 := hmono f hfA hfe 1
        have hle : ∀ x y : Bool, (x = true → y = true) → x.toNat ≤ y.toNat := by decide
        by_cases hp : f ∈ (sides m op).filter fun x => x != e
        · have h4 := count_filter_sides h (e := e) hopm f
          obtain ⟨-, -, s, h5, h6⟩ := hpush f hp
          have l0 := hle _ _ m0
          have l1 := hle _ _ m1
          fin_cases s
          · simp only [Fin.zero_eta] at h5 h6
            rw [h5] at h3
            rw [h6]
            simp only [Bool.toNat_false, Bool.toNat_true] at *
            omega
          · simp only [Fin.mk_one] at h5 h6
            rw [h5] at h3
            rw [h6]
            simp only [Bool.toNat_false, Bool.toNat_true] at *
            omega
        · rw [List.count_eq_zero_of_not_mem hp]
          have l0 := hle _ _ m0
          have l1 := hle _ _ m1
          omega
      · have h3 : q.count f = 0 := List.count_eq_zero_of_not_mem fun hh => hfA (hq1 f (List.mem_cons_of_mem _ hh))
        have h4 : ((sides m op).filter fun x => x != e).count f = 0 :=
          List.count_eq_zero_of_not_mem fun hh => hfA (hpush f hh).1
        omega
  · have heq : away m' ((AE \ {e}) ∪ {m.ne}) v = (away m AE v).erase e := by
      ext f
      unfold away
      rw [Finset.mem_filter, Finset.mem_erase, Finset.mem_filter, Finset.mem_union, Finset.mem_sdiff,
        Finset.mem_singleton, Finset.mem_singleton]
      constructor
      · rintro ⟨⟨h3, h4⟩ | h3, h5⟩
        · exact ⟨h4, h3, by rw [← hendo f h3]; exact h5⟩
        · exfalso
          rw [h3] at h5
          have : isEnd m' v m.ne = true := isEnd_iff.2 (by rw [hf.evN, cons2_iff]; exact hvcd)
          rw [this] at h5
          exact absurd h5 (by simp)
      · rintro ⟨h3, h4, h5⟩
        exact ⟨.inl ⟨h4, h3⟩, by rw [hendo f h4]; exact h5⟩
    rw [heq, Finset.card_erase_add_one]
    unfold away
    rw [Finset.mem_filter]
    refine ⟨he, ?_⟩
    rw [Bool.eq_false_iff]
    exact fun hh => hnotend (isEnd_iff.1 hh)

theorem card_flip {m : Mesh} {V AE AT : Finset Nat} (h : Inv m V AE AT) {e t0 t1 : Nat} (he : e ∈ AE) (ht0 : t0 ∈ AT)
    (ht1 : t1 ∈ AT) (htt : t0 ≠ t1) :
    ((AE \ {e}) ∪ {m.ne}).card = AE.card ∧ ((AT \ {t0, t1}) ∪ {m.nt, m.nt + 1}).card = AT.card := by
  constructor
  · rw [Finset.card_union_of_disjoint, Finset.card_sdiff_of_subset (by simpa using he)]
    · simp only [Finset.card_singleton]
      have : 0 < AE.card := Finset.card_pos.2 ⟨e, he⟩
      omega
    · rw [Finset.disjoint_singleton_right]
      intro hh
      exact absurd (h.eLt _ (Finset.mem_sdiff.1 hh).1) (lt_irrefl _)
  · have hsub : ({t0, t1} : Finset Nat) ⊆ AT := by
      intro x hx
      simp only [Finset.mem_insert, Finset.mem_singleton] at hx
      rcases hx with rfl | rfl <;> assumption
    have h2 : ({t0, t1} : Finset Nat).card = 2 := Finset.card_pair htt
    have h3 : ({m.nt, m.nt + 1} : Finset Nat).card = 2 := Finset.card_pair (by omega)
    have h4 := Finset.card_le_card hsub
    rw [Finset.card_union_of_disjoint, Finset.card_sdiff_of_subset hsub, h2, h3]
    · omega
    · rw [Finset.disjoint_right]
      intro x hx hh
      have := h.tLt _ (Finset.mem_sdiff.1 hh).1
      simp only [Finset.mem_insert, Finset.mem_singleton] at hx
      omega

/-- The loop of `addPoint` over the edges that may be illegal, for a property `Good` of meshes that is kept by the
flips and implies that no edge flipped has the same vertex on both sides. -/
theorem legalize_spec (p : Preds) (V : Finset Nat) (v : Nat) (Good : Mesh → Finset Nat → Finset Nat → Prop)
    (hG : ∀ m AE AT e t0 t1 c d fa0 fb0 fa1 fb1, Inv m V AE AT → Good m AE AT → e ∈ AE → m.et e 0 = some t0 →
      m.et e 1 = some t1 → At m t0 e c fa0 fb0 → At m t1 e d fa1 fb1 → p.convex (m.ev e 0) c (m.ev e 1) d = true →
      ¬(m.ev e 0 < 3 ∧ m.ev e 1 < 3) → isEdgeLegal p m e = .ok false →
      c ≠ d ∧ ∀ m', Flipped m m' AE e t0 t1 c d fa0 fb0 fa1 fb1 →
        Good m' ((AE \ {e}) ∪ {m.ne}) ((AT \ {t0, t1}) ∪ {m.nt, m.nt + 1})) :
    ∀ (fuel : Nat) (q : List Nat) (m : Mesh) (AE AT : Finset Nat), Inv m V AE AT → Good m AE AT → Queue m AE v q →
      ∃ r, legalize p v fuel q m = .ok r ∧ (2 * (away m AE v).card + q.length ≤ fuel → r ≠ none) ∧
        ∀ m', r = some m' → ∃ AE' AT', Inv m' V AE' AT' ∧ Good m' AE' AT' ∧ AE'.card = AE.card ∧ AT'.card = AT.card ∧
          ∀ f ∈ AE, m.ev f 0 < 3 → m.ev f 1 < 3 → f ∈ AE' ∧ m'.ev f = m.ev f := by
  intro fuel
  induction fuel with
  | zero =>
    intro q m AE AT h hg hq
    cases q with
    | nil =>
      exact ⟨some m, by unfold legalize; rfl, by simp, fun m' hm' => by
        cases hm'; exact ⟨AE, AT, h, hg, rfl, rfl, fun f hf _ _ => ⟨hf, rfl⟩⟩⟩
    | cons e q =>
      exact ⟨none, by unfold legalize; rfl, by simp, by simp⟩
  | succ fuel ih =>
    intro q m AE AT h hg hq
    cases q with
    | nil =>
      exact ⟨some m, by unfold legalize; rfl, by simp, fun m' hm' => by
        cases hm'; exact ⟨AE, AT, h, hg, rfl, rfl, fun f hf _ _ => ⟨hf, rfl⟩⟩⟩
    | cons e q =>
      have he : e ∈ AE := hq.1 e List.mem_cons_self
      obtain ⟨b, hb, hfalse⟩ := legal_cases h p he
      cases b with
      | true =>
        have hq' : Queue m AE v q := by
          refine ⟨fun f hf => hq.1 f (List.mem_cons_of_mem _ hf), fun f => le_trans ?_ (hq.2 f)⟩
          exact List.count_le_count_cons
        obtain ⟨r, h1, h2, h3⟩ := ih q m AE AT h hg hq'
        refine ⟨r, ?_, fun hh => h2 ?_, h3⟩
        · unfold legalize
          rw [hb]
          exact h1
        · simp only [List.length_cons] at hh
          omega
      | false =>
        obtain ⟨hnb, t0, t1, c, d, fa0, fb0, fa1, fb1, h0, h1, a0, a1, hconv⟩ := hfalse rfl
        obtain ⟨hcd, hgood⟩ := hG m AE AT e t0 t1 c d fa0 fb0 fa1 fb1 h hg he h0 h1 a0 a1 hconv hnb hb
        have hfl := flip_flipped h he h0 h1 a0 a1
        obtain ⟨ht0, -⟩ := h.slot e he 0 t0 h0
        obtain ⟨ht1, -⟩ := h.slot e he 1 t1 h1
        have htt : t0 ≠ t1 := fun hh => h.two e he (by rw [h0, h1, hh])
        obtain ⟨hq', haway⟩ := flip_step h he h0 h1 a0 a1 hcd hfl hq
        obtain ⟨r, g1, g2, g3⟩ := ih _ _ _ _ (Flipped.inv h he h0 h1 a0 a1 hcd hfl) (hgood _ hfl) hq'
        obtain ⟨k1, k2⟩ := card_flip h he ht0 ht1 htt
        refine ⟨r, ?_, fun hh => g2 ?_, ?_⟩
        · rw [← g1]
          have hperf : performFlip m e = .ok (flip m e t0 t1 c d) := by
            unfold performFlip
            rw [h0, h1]
            simp only [deref, bind, Except.bind, a0.third, a1.third]
          conv_lhs => unfold legalize
          simp only [hb, bind, Except.bind]
          rw [if_neg (by simp), h0]
          simp only [deref]
          rw [h1]
          simp only [hperf]
          by_cases hc0 : isCorner m v t0 = true
          · simp only [if_pos hc0]
          · simp only [if_neg hc0]
        · have hlen : ((sides m (if isCorner m v t0 = true then t1 else t0)).filter fun x => x != e).length ≤ 2 := by
            have hmm : e ∈ sides m (if isCorner m v t0 = true then t1 else t0) := by
              split
              · exact (a1.sides e).2 (.inl rfl)
              · exact (a0.sides e).2 (.inl rfl)
            have h3 : (sides m (if isCorner m v t0 = true then t1 else t0)).length = 3 := rfl
            have h4 := List.length_filter_lt_length_iff_exists (p := fun x => x != e)
              (l := sides m (if isCorner m v t0 = true then t1 else t0))
            have h5 := h4.2 ⟨e, hmm, by simp⟩
            omega
          simp only [List.length_cons, List.length_append] at hh ⊢
          omega
        · intro m' hm'
          obtain ⟨AE', AT', q1, q2, q3, q4, q5⟩ := g3 m' hm'
          refine ⟨AE', AT', q1, q2, q3.trans k1, q4.trans k2, ?_⟩
          intro f hf hf0 hf1
          have hfe : f ≠ e := by
            rintro rfl
            exact hnb ⟨hf0, hf1⟩
          have hev := hfl.ev f (h.eLt f hf).ne
          have := q5 f (by simp [hf, hfe]) (by rw [hev]; exact hf0) (by rw [hev]; exact hf1)
          exact ⟨this.1, this.2.trans hev⟩

end Mdso.Tri
