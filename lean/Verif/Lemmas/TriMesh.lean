import Verif.Model.Triangulation
import Mathlib.Data.Fintype.Card
import Mathlib.Data.Fintype.EquivFin
import Mathlib.Data.List.FinRange
import Mathlib.Tactic.FinCases
import Mathlib.Tactic.Tauto

/-!
# Consistent meshes
-/

set_option autoImplicit false

namespace Mdso.Tri

/-- The invariant of the mesh with vertices `V`, edges `AE` and triangles `AT` in use. -/
structure Inv (m : Mesh) (V AE AT : Finset Nat) : Prop where
  eLt : ∀ e ∈ AE, e < m.ne
  tLt : ∀ t ∈ AT, t < m.nt
  ends : ∀ e ∈ AE, m.ev e 0 ≠ m.ev e 1
  endV : ∀ e ∈ AE, ∀ s, m.ev e s ∈ V
  slot : ∀ e ∈ AE, ∀ s t, m.et e s = some t → t ∈ AT ∧ ∃ i, m.te t i = e
  two : ∀ e ∈ AE, m.et e 0 ≠ m.et e 1
  bound : ∀ e ∈ AE, ∀ s, m.et e s = none → m.ev e 0 < 3 ∧ m.ev e 1 < 3
  side : ∀ t ∈ AT, ∀ i, m.te t i ∈ AE ∧ ∃ s, m.et (m.te t i) s = some t
  inj : ∀ t ∈ AT, Function.Injective (m.tv t)
  opp : ∀ t ∈ AT, ∀ i, ∃ j, ∀ v, (∃ s, m.ev (m.te t j) s = v) ↔ v ≠ m.tv t i ∧ ∃ k, m.tv t k = v
  vE : ∀ v e, e ∈ m.vE v ↔ e ∈ AE ∧ ∃ s, m.ev e s = v
  vT : ∀ v t, t ∈ m.vT v ↔ t ∈ AT ∧ ∃ i, m.tv t i = v
  used : ∀ v ∈ V, ∃ t ∈ AT, ∃ i, m.tv t i = v

theorem find_unique {α : Type} {l : List α} {p : α → Bool} {x : α} (hx : x ∈ l) (hp : p x = true)
    (hu : ∀ y ∈ l, p y = true → y = x) : l.find? p = some x := by
  cases h : l.find? p with
  | none => exact absurd hp (by simpa using List.find?_eq_none.1 h x hx)
  | some y => rw [hu y (List.mem_of_find?_eq_some h) (List.find?_some h)]

theorem mem_sides {m : Mesh} {t x : Nat} : x ∈ sides m t ↔ ∃ i, m.te t i = x := by
  simp only [sides, List.mem_cons, List.not_mem_nil, or_false]
  constructor
  · rintro (h | h | h)
    · exact ⟨0, h.symm⟩
    · exact ⟨1, h.symm⟩
    · exact ⟨2, h.symm⟩
  · rintro ⟨i, h⟩
    fin_cases i
    · exact .inl h.symm
    · exact .inr (.inl h.symm)
    · exact .inr (.inr h.symm)

theorem mem_corners {m : Mesh} {t x : Nat} : x ∈ corners m t ↔ ∃ i, m.tv t i = x := by
  simp only [corners, List.mem_cons, List.not_mem_nil, or_false]
  constructor
  · rintro (h | h | h)
    · exact ⟨0, h.symm⟩
    · exact ⟨1, h.symm⟩
    · exact ⟨2, h.symm⟩
  · rintro ⟨i, h⟩
    fin_cases i
    · exact .inl h.symm
    · exact .inr (.inl h.symm)
    · exact .inr (.inr h.symm)

theorem ex_fin2 {p : Fin 2 → Prop} : (∃ s, p s) ↔ p 0 ∨ p 1 := by
  constructor
  · rintro ⟨s, h⟩
    fin_cases s
    · exact .inl h
    · exact .inr h
  · rintro (h | h)
    · exact ⟨_, h⟩
    · exact ⟨_, h⟩

theorem ex_fin3 {p : Fin 3 → Prop} : (∃ s, p s) ↔ p 0 ∨ p 1 ∨ p 2 := by
  constructor
  · rintro ⟨s, h⟩
    fin_cases s
    · exact .inl h
    · exact .inr (.inl h)
    · exact .inr (.inr h)
  · rintro (h | h | h)
    · exact ⟨_, h⟩
    · exact ⟨_, h⟩
    · exact ⟨_, h⟩

theorem isEnd_iff {m : Mesh} {v e : Nat} : isEnd m v e = true ↔ ∃ s, m.ev e s = v := by
  simp [isEnd, ex_fin2]

theorem isCorner_iff {m : Mesh} {v t : Nat} : isCorner m v t = true ↔ ∃ i, m.tv t i = v := by
  simp [isCorner, ex_fin3, or_assoc]

/-- The sides of a triangle, named by the vertices opposite to them. -/
theorem tri_canon {m : Mesh} {V AE AT : Finset Nat} (h : Inv m V AE AT) {t : Nat} (ht : t ∈ AT) :
    ∃ x : Fin 3 → Nat, Function.Injective x ∧ (sides m t).Perm [x 0, x 1, x 2] ∧
      (∀ y, y ∈ sides m t ↔ ∃ i, x i = y) ∧
      ∀ i v, (∃ s, m.ev (x i) s = v) ↔ v ≠ m.tv t i ∧ ∃ k, m.tv t k = v := by
  choose j hj using h.opp t ht
  have hinj : Function.Injective fun i => m.te t (j i) := by
    intro i i' hii
    simp only at hii
    by_contra hne
    have h1 := (hj i (m.tv t i')).2 ⟨fun hh => hne (h.inj t ht hh).symm, i', rfl⟩
    rw [hii] at h1
    exact ((hj i' _).1 h1).1 rfl
  have hjinj : Function.Injective j := fun i i' hii => hinj (by simp only [hii])
  have hjsurj : Function.Surjective j := Finite.injective_iff_surjective.1 hjinj
  refine ⟨fun i => m.te t (j i), hinj, ?_, ?_, hj⟩
  · let σ : Equiv.Perm (Fin 3) := Equiv.ofBijective j ⟨hjinj, hjsurj⟩
    have := Equiv.Perm.ofFn_comp_perm σ (m.te t)
    have h1 : List.ofFn (m.te t ∘ σ) = [m.te t (j 0), m.te t (j 1), m.te t (j 2)] := by
      simp [List.ofFn_succ, σ]
      exact ⟨rfl, rfl, rfl⟩
    have h2 : List.ofFn (m.te t) = sides m t := by simp [List.ofFn_succ, sides]
    rw [h1, h2] at this
    exact this.symm
  · intro y
    rw [mem_sides]
    constructor
    · rintro ⟨i, hi⟩
      obtain ⟨k, hk⟩ := hjsurj i
      exact ⟨k, by show m.te t (j k) = y; rw [hk]; exact hi⟩
    · rintro ⟨i, hi⟩
      exact ⟨_, hi⟩

theorem nodup_sides {m : Mesh} {V AE AT : Finset Nat} (h : Inv m V AE AT) {t : Nat} (ht : t ∈ AT) :
    (sides m t).Nodup := by
  obtain ⟨x, hx, hp, -⟩ := tri_canon h ht
  rw [hp.nodup_iff]
  have h01 : x 0 ≠ x 1 := fun hh => absurd (hx hh) (by decide)
  have h02 : x 0 ≠ x 2 := fun hh => absurd (hx hh) (by decide)
  have h12 : x 1 ≠ x 2 := fun hh => absurd (hx hh) (by decide)
  simp [h01, h02, h12]

/-- A triangle seen from its side `e` with the ends `a` and `b`: the third vertex `c`, the side `fa` with the ends `a`
and `c`, and the side `fb` with the ends `b` and `c`. -/
structure At (m : Mesh) (t e c fa fb : Nat) : Prop where
  third : findThirdVert m t e = .ok c
  ca : c ≠ m.ev e 0
  cb : c ≠ m.ev e 1
  corner : ∀ v, (∃ i, m.tv t i = v) ↔ v = m.ev e 0 ∨ v = m.ev e 1 ∨ v = c
  sides : ∀ x, x ∈ sides m t ↔ x = e ∨ x = fa ∨ x = fb
  fae : fa ≠ e
  fbe : fb ≠ e
  fab : fa ≠ fb
  endA : ∀ v, (∃ s, m.ev fa s = v) ↔ v = m.ev e 0 ∨ v = c
  endB : ∀ v, (∃ s, m.ev fb s = v) ↔ v = m.ev e 1 ∨ v = c

theorem tri_at {m : Mesh} {V AE AT : Finset Nat} (h : Inv m V AE AT) {t e : Nat} (ht : t ∈ AT)
    (he : ∃ i, m.te t i = e) : ∃ c fa fb, At m t e c fa fb := by
  obtain ⟨x, hx, hp, hs, hev⟩ := tri_canon h ht
  have heE : e ∈ AE := by obtain ⟨i, rfl⟩ := he; exact (h.side t ht i).1
  have hab := h.ends e heE
  obtain ⟨k, hk⟩ := (hs e).1 (mem_sides.2 he)
  -- the vertex opposite to `e`
  have hin := h.inj t ht
  have h0 := (hev k (m.ev e 0)).1 ⟨0, by rw [hk]⟩
  have h1 := (hev k (m.ev e 1)).1 ⟨1, by rw [hk]⟩
  obtain ⟨h0n, ka, hka⟩ := h0
  obtain ⟨h1n, kb, hkb⟩ := h1
  have hkka : ka ≠ k := by rintro rfl; exact h0n hka.symm
  have hkkb : kb ≠ k := by rintro rfl; exact h1n hkb.symm
  have hkakb : ka ≠ kb := by rintro rfl; exact hab (hka.symm.trans hkb)
  have hall : ∀ i : Fin 3, i = ka ∨ i = kb ∨ i = k := by
    intro i
    revert hkka hkkb hkakb
    clear * -
    revert i ka kb k
    decide
  have hc : ∀ v, (∃ i, m.tv t i = v) ↔ v = m.ev e 0 ∨ v = m.ev e 1 ∨ v = m.tv t k := by
    intro v
    constructor
    · rintro ⟨i, rfl⟩
      rcases hall i with rfl | rfl | rfl
      · exact .inl hka
      · exact .inr (.inl hkb)
      · exact .inr (.inr rfl)
    · rintro (rfl | rfl | rfl)
      · exact ⟨ka, hka⟩
      · exact ⟨kb, hkb⟩
      · exact ⟨k, rfl⟩
  refine ⟨m.tv t k, x kb, x ka, ?_, h0n.symm, h1n.symm, hc, ?_, ?_, ?_, ?_, ?_, ?_⟩
  · unfold findThirdVert
    rw [if_pos (mem_sides.2 he), find_unique (x := m.tv t k) (mem_corners.2 ⟨k, rfl⟩)]
    · simp [Ne.symm h0n, Ne.symm h1n]
    · intro y hy hyp
      simp only [Bool.and_eq_true, bne_iff_ne] at hyp
      rcases (hc y).1 (mem_corners.1 hy) with hh | hh | hh
      · exact absurd hh hyp.1
      · exact absurd hh hyp.2
      · exact hh
  · intro y
    rw [hs]
    constructor
    · rintro ⟨i, rfl⟩
      rcases hall i with rfl | rfl | rfl
      · exact .inr (.inr rfl)
      · exact .inr (.inl rfl)
      · exact .inl hk
    · rintro (rfl | rfl | rfl)
      · exact ⟨k, hk⟩
      · exact ⟨_, rfl⟩
      · exact ⟨_, rfl⟩
  · rw [← hk]; exact fun hh => hkkb (hx hh)
  · rw [← hk]; exact fun hh => hkka (hx hh)
  · exact fun hh => hkakb (hx hh).symm
  · intro v
    rw [hev, hc, hkb]
    constructor
    · rintro ⟨hn, hh | hh | hh⟩
      · exact .inl hh
      · exact absurd hh hn
      · exact .inr hh
    · rintro (hh | hh)
      · exact ⟨hh ▸ hab, .inl hh⟩
      · exact ⟨hh ▸ h1n.symm, .inr (.inr hh)⟩
  · intro v
    rw [hev, hc, hka]
    constructor
    · rintro ⟨hn, hh | hh | hh⟩
      · exact absurd hh hn
      · exact .inl hh
      · exact .inr hh
    · rintro (hh | hh)
      · exact ⟨hh ▸ hab.symm, .inr (.inl hh)⟩
      · exact ⟨hh ▸ h0n.symm, .inr (.inr hh)⟩

theorem externEdge_a {m : Mesh} {t e c fa fb : Nat} (h : At m t e c fa fb) (hab : m.ev e 0 ≠ m.ev e 1) :
    externEdge m e t (m.ev e 0) = .ok fa := by
  unfold externEdge
  rw [find_unique (x := fa) ((h.sides fa).2 (.inr (.inl rfl)))]
  · rfl
  · simp only [Bool.and_eq_true, bne_iff_ne, isEnd_iff]
    exact ⟨h.fae, (h.endA _).2 (.inl rfl)⟩
  · intro y hy hyp
    simp only [Bool.and_eq_true, bne_iff_ne, isEnd_iff] at hyp
    rcases (h.sides y).1 hy with hh | hh | hh
    · exact absurd hh hyp.1
    · exact hh
    · rw [hh] at hyp
      rcases (h.endB _).1 hyp.2 with h1 | h1
      · exact absurd h1 hab
      · exact absurd h1.symm h.ca

theorem externEdge_b {m : Mesh} {t e c fa fb : Nat} (h : At m t e c fa fb) (hab : m.ev e 0 ≠ m.ev e 1) :
    externEdge m e t (m.ev e 1) = .ok fb := by
  unfold externEdge
  rw [find_unique (x := fb) ((h.sides fb).2 (.inr (.inr rfl)))]
  · rfl
  · simp only [Bool.and_eq_true, bne_iff_ne, isEnd_iff]
    exact ⟨h.fbe, (h.endB _).2 (.inl rfl)⟩
  · intro y hy hyp
    simp only [Bool.and_eq_true, bne_iff_ne, isEnd_iff] at hyp
    rcases (h.sides y).1 hy with hh | hh | hh
    · exact absurd hh hyp.1
    · rw [hh] at hyp
      rcases (h.endA _).1 hyp.2 with h1 | h1
      · exact absurd h1.symm hab
      · exact absurd h1.symm h.cb
    · exact hh

/-- Replacing triangles `R` and edges `X` by new triangles `N` and new edges `Y`. -/
theorem Inv.replace {m m' : Mesh} {V AE AT V' X Y R N : Finset Nat} (h : Inv m V AE AT) (g : Nat → Nat → Nat)
    (hV : V ⊆ V') (hne : m.ne ≤ m'.ne) (hnt : m.nt ≤ m'.nt)
    (hYn : ∀ y ∈ Y, m.ne ≤ y ∧ y < m'.ne) (hNn : ∀ n ∈ N, m.nt ≤ n ∧ n < m'.nt)
    (hX : ∀ e ∈ X, ∀ t s, m.et e s = some t → t ∈ R)
    (hev : ∀ f ∈ AE, f ∉ X → m'.ev f = m.ev f)
    (htv : ∀ t ∈ AT, t ∉ R → m'.tv t = m.tv t) (hte : ∀ t ∈ AT, t ∉ R → m'.te t = m.te t)
    (het0 : ∀ f ∈ AE, f ∉ X → ∀ s, (∀ t ∈ R, m.et f s ≠ some t) → m'.et f s = m.et f s)
    (het1 : ∀ f ∈ AE, f ∉ X → ∀ s, ∀ t ∈ R, m.et f s = some t →
      m'.et f s = some (g f t) ∧ g f t ∈ N ∧ ∃ i, m'.te (g f t) i = f)
    (hg : ∀ f ∈ AE, f ∉ X → ∀ t ∈ R, ∀ t' ∈ R, m.et f 0 = some t → m.et f 1 = some t' → g f t ≠ g f t')
    (hY1 : ∀ y ∈ Y, m'.ev y 0 ≠ m'.ev y 1) (hY2 : ∀ y ∈ Y, ∀ s, m'.ev y s ∈ V')
    (hY3 : ∀ y ∈ Y, ∀ s, ∃ n ∈ N, m'.et y s = some n ∧ ∃ i, m'.te n i = y)
    (hY4 : ∀ y ∈ Y, m'.et y 0 ≠ m'.et y 1)
    (hN1 : ∀ n ∈ N, ∀ i, m'.te n i ∈ (AE \ X) ∪ Y ∧ ∃ s, m'.et (m'.te n i) s = some n)
    (hN2 : ∀ n ∈ N, Function.Injective (m'.tv n))
    (hN3 : ∀ n ∈ N, ∀ i, ∃ j, ∀ v, (∃ s, m'.ev (m'.te n j) s = v) ↔ v ≠ m'.tv n i ∧ ∃ k, m'.tv n k = v)
    (hvE : ∀ v e, e ∈ m'.vE v ↔ e ∈ (AE \ X) ∪ Y ∧ ∃ s, m'.ev e s = v)
    (hvT : ∀ v t, t ∈ m'.vT v ↔ t ∈ (AT \ R) ∪ N ∧ ∃ i, m'.tv t i = v)
    (hU : ∀ v ∈ V', ∃ t ∈ (AT \ R) ∪ N, ∃ i, m'.tv t i = v) :
    Inv m' V' ((AE \ X) ∪ Y) ((AT \ R) ∪ N) := by
  have hNR : ∀ n ∈ N, n ∉ AT := fun n hn ht => absurd (h.tLt n ht) (not_lt.2 (hNn n hn).1)
  have hsideX : ∀ t ∈ AT, t ∉ R → ∀ i, m.te t i ∉ X := by
    intro t ht htR i hx
    obtain ⟨s, hs⟩ := (h.side t ht i).2
    exact htR (hX _ hx t s hs)
  constructor
  · intro e he
    rcases Finset.mem_union.1 he with he | he
    · exact lt_of_lt_of_le (h.eLt e (Finset.mem_sdiff.1 he).1) hne
    · exact (hYn e he).2
  · intro t ht
    rcases Finset.mem_union.1 ht with ht | ht
    · exact lt_of_lt_of_le (h.tLt t (Finset.mem_sdiff.1 ht).1) hnt
    · exact (hNn t ht).2
  · intro e he
    rcases Finset.mem_union.1 he with he | he
    · obtain ⟨h1, h2⟩ := Finset.mem_sdiff.1 he
      rw [hev e h1 h2]; exact h.ends e h1
    · exact hY1 e he
  · intro e he s
    rcases Finset.mem_union.1 he with he | he
    · obtain ⟨h1, h2⟩ := Finset.mem_sdiff.1 he
      rw [hev e h1 h2]; exact hV (h.endV e h1 s)
    · exact hY2 e he s
  · intro e he s t hst
    rcases Finset.mem_union.1 he with he | he
    · obtain ⟨h1, h2⟩ := Finset.mem_sdiff.1 he
      by_cases hR : ∃ t' ∈ R, m.et e s = some t'
      · obtain ⟨t', ht', hs'⟩ := hR
        obtain ⟨h3, h4, h5⟩ := het1 e h1 h2 s t' ht' hs'
        rw [h3] at hst
        cases hst
        exact ⟨Finset.mem_union_right _ h4, h5⟩
      · have hR' : ∀ t' ∈ R, m.et e s ≠ some t' := fun t' ht' hh => hR ⟨t', ht', hh⟩
        rw [het0 e h1 h2 s hR'] at hst
        obtain ⟨h3, i, h4⟩ := h.slot e h1 s t hst
        have htR : t ∉ R := fun hh => hR' t hh hst
        exact ⟨Finset.mem_union_left _ (Finset.mem_sdiff.2 ⟨h3, htR⟩), i, by rw [hte t h3 htR]; exact h4⟩
    · obtain ⟨n, hn, h3, h4⟩ := hY3 e he s
      rw [h3] at hst
      cases hst
      exact ⟨Finset.mem_union_right _ hn, h4⟩
  · intro e he
    rcases Finset.mem_union.1 he with he | he
    · obtain ⟨h1, h2⟩ := Finset.mem_sdiff.1 he
      have key : ∀ s, (∃ t ∈ R, m.et e s = some t ∧ m'.et e s = some (g e t) ∧ g e t ∈ N) ∨
          (m'.et e s = m.et e s ∧ ∀ n ∈ N, m.et e s ≠ some n) := by
        intro s
        by_cases hR : ∃ t' ∈ R, m.et e s = some t'
        · obtain ⟨t', ht', hs'⟩ := hR
          obtain ⟨h3, h4, -⟩ := het1 e h1 h2 s t' ht' hs'
          exact .inl ⟨t', ht', hs', h3, h4⟩
        · exact .inr ⟨het0 e h1 h2 s (fun t' ht' hh => hR ⟨t', ht', hh⟩),
            fun n hn hh => hNR n hn (h.slot e h1 s n hh).1⟩
      rcases key 0 with ⟨t, ht, h3, h4, h5⟩ | ⟨h3, h4⟩ <;> rcases key 1 with ⟨t', ht', h3', h4', h5'⟩ | ⟨h3', h4'⟩
      · rw [h4, h4']
        exact fun hh => hg e h1 h2 t ht t' ht' h3 h3' (Option.some.inj hh)
      · rw [h4, h3']; exact fun hh => h4' _ h5 hh.symm
      · rw [h3, h4']; exact h4 _ h5'
      · rw [h3, h3']; exact h.two e h1
    · exact hY4 e he
  · intro e he s hs
    rcases Finset.mem_union.1 he with he | he
    · obtain ⟨h1, h2⟩ := Finset.mem_sdiff.1 he
      rw [hev e h1 h2]
      by_cases hR : ∃ t' ∈ R, m.et e s = some t'
      · obtain ⟨t', ht', hs'⟩ := hR
        rw [(het1 e h1 h2 s t' ht' hs').1] at hs
        cases hs
      · rw [het0 e h1 h2 s (fun t' ht' hh => hR ⟨t', ht', hh⟩)] at hs
        exact h.bound e h1 s hs
    · obtain ⟨n, hn, h3, -⟩ := hY3 e he s
      rw [h3] at hs
      cases hs
  · intro t ht i
    rcases Finset.mem_union.1 ht with ht | ht
    · obtain ⟨h1, h2⟩ := Finset.mem_sdiff.1 ht
      rw [hte t h1 h2]
      obtain ⟨h3, s, h4⟩ := h.side t h1 i
      refine ⟨Finset.mem_union_left _ (Finset.mem_sdiff.2 ⟨h3, hsideX t h1 h2 i⟩), s, ?_⟩
      rw [het0 _ h3 (hsideX t h1 h2 i) s]
      · exact h4
      · intro t' ht' hh
        rw [h4] at hh
        cases hh
        exact h2 ht'
    · exact hN1 t ht i
  · intro t ht
    rcases Finset.mem_union.1 ht with ht | ht
    · obtain ⟨h1, h2⟩ := Finset.mem_sdiff.1 ht
      rw [htv t h1 h2]; exact h.inj t h1
    · exact hN2 t ht
  · intro t ht i
    rcases Finset.mem_union.1 ht with ht | ht
    · obtain ⟨h1, h2⟩ := Finset.mem_sdiff.1 ht
      rw [htv t h1 h2, hte t h1 h2]
      obtain ⟨j, hj⟩ := h.opp t h1 i
      refine ⟨j, ?_⟩
      rw [hev _ (h.side t h1 j).1 (hsideX t h1 h2 j)]
      exact hj
    · exact hN3 t ht i
  · exact hvE
  · exact hvT
  · exact hU

end Mdso.Tri
