import Verif.Lemmas.DelStep
import Verif.Lemmas.TriPosition

/-!
# The triangles of a mesh as triples of vertices
-/

set_option autoImplicit false

namespace Mdso.Tri

open Mdso.Geom Mdso.Tri.Spec

/-- The vertices `a`, `b`, `c` are those of a triangle in use. -/
def Cell (m : Mesh) (a b c : Nat) : Prop :=
  a ≠ b ∧ a ≠ c ∧ b ≠ c ∧ ∃ t ∈ m.vT a, (∃ i, m.tv t i = b) ∧ ∃ i, m.tv t i = c

/-- The triples `x y z` and `a b c` are the same up to order. -/
def Is (x y z a b c : Nat) : Prop :=
  (x = a ∨ x = b ∨ x = c) ∧ (y = a ∨ y = b ∨ y = c) ∧ (z = a ∨ z = b ∨ z = c) ∧ x ≠ y ∧ x ≠ z ∧ y ≠ z

section

variable {pos : Nat → V2} {M : Nat} {m : Mesh} {V AE AT : Finset Nat}

theorem cell_iff (h : Inv m V AE AT) {a b c : Nat} : Cell m a b c ↔ a ≠ b ∧ a ≠ c ∧ b ≠ c ∧
    ∃ t ∈ AT, ∀ v, (∃ i, m.tv t i = v) ↔ v = a ∨ v = b ∨ v = c := by
  constructor
  · rintro ⟨h1, h2, h3, t, ht, hb, hc⟩
    obtain ⟨ht, ha⟩ := (h.vT a t).1 ht
    refine ⟨h1, h2, h3, t, ht, fun v => ?_⟩
    have h01 : m.tv t 0 ≠ m.tv t 1 := fun hh => absurd (h.inj t ht hh) (by decide)
    have h02 : m.tv t 0 ≠ m.tv t 2 := fun hh => absurd (h.inj t ht hh) (by decide)
    have h12 : m.tv t 1 ≠ m.tv t 2 := fun hh => absurd (h.inj t ht hh) (by decide)
    rw [ex_fin3] at ha hb hc ⊢
    grind
  · rintro ⟨h1, h2, h3, t, ht, hv⟩
    exact ⟨h1, h2, h3, t, (h.vT a t).2 ⟨ht, (hv a).2 (by simp)⟩, (hv b).2 (by simp), (hv c).2 (by simp)⟩

theorem exists_inside {a b c : V2} (h : area a b c ≠ 0) : ∃ q, Inside a b c q := by
  have p4 : 0 < area a b c * area a b c := mul_self_pos.2 h
  refine ⟨⟨(a.x + b.x + c.x) / 3, (a.y + b.y + c.y) / 3⟩, ?_, ?_, ?_⟩
  · rw [show area ⟨(a.x + b.x + c.x) / 3, (a.y + b.y + c.y) / 3⟩ b c = area a b c / 3 from by unfold area; simp only; ring]
    linarith
  · rw [show area a ⟨(a.x + b.x + c.x) / 3, (a.y + b.y + c.y) / 3⟩ c = area a b c / 3 from by unfold area; simp only; ring]
    linarith
  · rw [show area a b ⟨(a.x + b.x + c.x) / 3, (a.y + b.y + c.y) / 3⟩ = area a b c / 3 from by unfold area; simp only; ring]
    linarith

/-- Two triangles with the same vertices are the same. -/
theorem tri_unique (hN : NonCol pos M) (h : Inv m V AE AT) (hg : Geo pos M V m AE AT) {t t' a b c : Nat} (ht : t ∈ AT)
    (ht' : t' ∈ AT) (hab : a ≠ b) (hac : a ≠ c) (hbc : b ≠ c)
    (k : ∀ v, (∃ i, m.tv t i = v) ↔ v = a ∨ v = b ∨ v = c) (k' : ∀ v, (∃ i, m.tv t' i = v) ↔ v = a ∨ v = b ∨ v = c) :
    t = t' := by
  have hmem : ∀ v, (v = a ∨ v = b ∨ v = c) → v < M := by
    intro v hv
    obtain ⟨i, rfl⟩ := (k v).2 hv
    exact hg.lt _ (corner_mem h ht i)
  obtain ⟨q, hq⟩ := exists_inside (hN a b c (hmem a (by simp)) (hmem b (by simp)) (hmem c (by simp)) hab hac hbc)
  exact hg.apart hN q t ht t' ht' ((inside_corner pos (h.inj t ht) k q).2 hq) ((inside_corner pos (h.inj t' ht') k' q).2 hq)

theorem sites_of (hN : NonCol pos M) (hg : Geo pos M V m AE AT)
    (hin : ∀ v, 3 ≤ v → v < M → Inside (pos 0) (pos 1) (pos 2) (pos v)) : Sites pos V :=
  ⟨fun a ha b hb c hc => hN a b c (hg.lt a ha) (hg.lt b hb) (hg.lt c hc), hg.base, fun v hv h3 => hin v h3 (hg.lt v hv)⟩

theorem tess_of (hN : NonCol pos M) (h : Inv m V AE AT) (hg : Geo pos M V m AE AT) : Tess pos V (Cell m) where
  rot := by
    intro a b c ht
    rw [cell_iff h] at ht ⊢
    obtain ⟨h1, h2, h3, t, ht, hv⟩ := ht
    exact ⟨h3, h1.symm, h2.symm, t, ht, fun v => by rw [hv]; tauto⟩
  swap := by
    intro a b c ht
    rw [cell_iff h] at ht ⊢
    obtain ⟨h1, h2, h3, t, ht, hv⟩ := ht
    exact ⟨h1.symm, h3, h2, t, ht, fun v => by rw [hv]; tauto⟩
  mem := by
    intro a b c ht
    rw [cell_iff h] at ht
    obtain ⟨h1, h2, h3, t, ht, hv⟩ := ht
    obtain ⟨i, hi⟩ := (hv a).2 (by simp)
    exact hi ▸ corner_mem h ht i
  ne := fun ht => ht.1
  nb := by
    intro a b c ht hnb
    rw [cell_iff h] at ht
    obtain ⟨h1, h2, h3, t, ht, hv⟩ := ht
    obtain ⟨x, hx, hp, hs, hev⟩ := tri_canon h ht
    obtain ⟨k, rfl⟩ := (hv c).2 (by simp)
    have hends : ∀ v, (∃ s, m.ev (x k) s = v) ↔ v = a ∨ v = b := by
      intro v
      rw [hev, hv]
      constructor
      · tauto
      · rintro (rfl | rfl) <;> tauto
    have hxs : x k ∈ sides m t := (hs _).2 ⟨k, rfl⟩
    obtain ⟨i, hi⟩ := mem_sides.1 hxs
    obtain ⟨he, s, hst⟩ := h.side t ht i
    rw [hi] at he hst
    clear hs hp hev hx hi hxs
    generalize x k = e at he hst hends
    have hend0 : m.ev e 0 = a ∧ m.ev e 1 = b ∨ m.ev e 0 = b ∧ m.ev e 1 = a := by
      have k0 := (hends (m.ev e 0)).1 ⟨0, rfl⟩
      have k1 := (hends (m.ev e 1)).1 ⟨1, rfl⟩
      have := h.ends e he
      grind
    have hsome : ∀ s, ∃ t, m.et e s = some t := by
      intro s
      cases hs : m.et e s with
      | some t => exact ⟨t, rfl⟩
      | none =>
        exfalso
        have := h.bound e he s hs
        apply hnb
        rcases hend0 with ⟨e0, e1⟩ | ⟨e0, e1⟩ <;> rw [e0, e1] at this <;> tauto
    obtain ⟨t', ht'⟩ := hsome (1 - s)
    obtain ⟨ht'A, hside⟩ := h.slot e he _ t' ht'
    obtain ⟨d, fa, fb, hat⟩ := tri_at h ht'A hside
    have hda := hat.ca
    have hdb := hat.cb
    have hcorner : ∀ v, (∃ i, m.tv t' i = v) ↔ v = a ∨ v = b ∨ v = d := by
      intro v
      rw [hat.corner]
      rcases hend0 with ⟨e0, e1⟩ | ⟨e0, e1⟩ <;> rw [e0, e1] <;> tauto
    have hdd : a ≠ d ∧ b ≠ d := by
      rcases hend0 with ⟨e0, e1⟩ | ⟨e0, e1⟩ <;> rw [e0] at hda <;> rw [e1] at hdb
      · exact ⟨hda.symm, hdb.symm⟩
      · exact ⟨hdb.symm, hda.symm⟩
    refine ⟨d, (cell_iff h).2 ⟨h1, hdd.1, hdd.2, t', ht'A, hcorner⟩, ?_⟩
    have hcc : m.tv t k ≠ m.ev e 0 ∧ m.tv t k ≠ m.ev e 1 := by
      rcases hend0 with ⟨e0, e1⟩ | ⟨e0, e1⟩ <;> rw [e0, e1]
      · exact ⟨h2.symm, h3.symm⟩
      · exact ⟨h3.symm, h2.symm⟩
    have key : area (pos (m.ev e 0)) (pos (m.ev e 1)) (pos (m.tv t k)) *
        area (pos (m.ev e 0)) (pos (m.ev e 1)) (pos d) < 0 := by
      fin_cases s
      · exact hg.sides e he t t' _ d hst ht' ⟨k, rfl⟩ ((hcorner d).2 (by simp)) hcc.1 hcc.2 hda hdb
      · rw [mul_comm]
        exact hg.sides e he t' t d _ ht' hst ((hcorner d).2 (by simp)) ⟨k, rfl⟩ hda hdb hcc.1 hcc.2
    rcases hend0 with ⟨e0, e1⟩ | ⟨e0, e1⟩
    · rw [e0, e1] at key; exact key
    · rw [e0, e1, area_swap (pos a) (pos b), area_swap (pos a) (pos b), neg_mul_neg] at key; exact key
  apart := by
    intro a b c a' b' c' q ht ht' hq hq'
    rw [cell_iff h] at ht ht'
    obtain ⟨-, -, -, t, ht, hv⟩ := ht
    obtain ⟨-, -, -, t', ht', hv'⟩ := ht'
    have := hg.apart hN q t ht t' ht' ((inside_corner pos (h.inj t ht) hv q).2 hq)
      ((inside_corner pos (h.inj t' ht') hv' q).2 hq')
    subst this
    exact (hv a').1 ((hv' a').2 (by simp))
  cover := by
    intro q hq
    obtain ⟨t, ht, hw⟩ := hg.cover q hq
    have hij : ∀ i j, i ≠ j → m.tv t i ≠ m.tv t j := fun i j hh h' => hh (h.inj t ht h')
    refine ⟨m.tv t 0, m.tv t 1, m.tv t 2, (cell_iff h).2 ⟨hij 0 1 (by decide), hij 0 2 (by decide), hij 1 2 (by decide),
      t, ht, fun v => ?_⟩, hw⟩
    rw [ex_fin3, eq_comm, eq_comm (b := v), eq_comm (b := v)]
  used := by
    intro a ha
    obtain ⟨t, ht, i, hi⟩ := h.used a ha
    have h1 : m.tv t i ≠ m.tv t (i + 1) := fun hh => absurd (h.inj t ht hh) (by clear * -; revert i; decide)
    have h2 : m.tv t i ≠ m.tv t (i + 2) := fun hh => absurd (h.inj t ht hh) (by clear * -; revert i; decide)
    have h3 : m.tv t (i + 1) ≠ m.tv t (i + 2) := fun hh => absurd (h.inj t ht hh) (by clear * -; revert i; decide)
    rw [hi] at h1 h2
    exact ⟨_, _, h1, h2, h3, t, (h.vT a t).2 ⟨ht, i, hi⟩, ⟨_, rfl⟩, ⟨_, rfl⟩⟩

/-- The triples after a flip. -/
theorem cell_flip (hN : NonCol pos M) (h : Inv m V AE AT) (hg : Geo pos M V m AE AT)
    {e t0 t1 c d fa0 fb0 fa1 fb1 : Nat} {m' : Mesh} (he : e ∈ AE)
    (h0 : m.et e 0 = some t0) (h1 : m.et e 1 = some t1) (a0 : At m t0 e c fa0 fb0) (a1 : At m t1 e d fa1 fb1)
    (hcd : c ≠ d) (hf : Flipped m m' AE e t0 t1 c d fa0 fb0 fa1 fb1) {x y z : Nat} :
    Cell m' x y z ↔ (Cell m x y z ∧ ¬Is x y z (m.ev e 0) (m.ev e 1) c ∧ ¬Is x y z (m.ev e 0) (m.ev e 1) d) ∨
      Is x y z c d (m.ev e 0) ∨ Is x y z c d (m.ev e 1) := by
  have h' := Flipped.inv h he h0 h1 a0 a1 hcd hf
  obtain ⟨ht0, -⟩ := h.slot e he 0 t0 h0
  obtain ⟨ht1, -⟩ := h.slot e he 1 t1 h1
  have hab := h.ends e he
  have hca := a0.ca
  have hcb := a0.cb
  have hda := a1.ca
  have hdb := a1.cb
  rw [cell_iff h', cell_iff h]
  constructor
  · rintro ⟨n1, n2, n3, t, ht, hv⟩
    rcases Finset.mem_union.1 ht with ht | ht
    · obtain ⟨htA, hne⟩ := Finset.mem_sdiff.1 ht
      simp only [Finset.mem_insert, Finset.mem_singleton, not_or] at hne
      rw [hf.tv t (h.tLt t htA)] at hv
      refine .inl ⟨⟨n1, n2, n3, t, htA, hv⟩, ?_, ?_⟩
      · rintro ⟨j1, j2, j3, -⟩
        refine hne.1 (tri_unique hN h hg htA ht0 n1 n2 n3 hv fun w => ?_)
        rw [a0.corner]
        grind
      · rintro ⟨j1, j2, j3, -⟩
        refine hne.2 (tri_unique hN h hg htA ht1 n1 n2 n3 hv fun w => ?_)
        rw [a1.corner]
        grind
    · right
      simp only [Finset.mem_insert, Finset.mem_singleton] at ht
      rcases ht with rfl | rfl
      · left
        simp only [hf.tv0, cons3_iff] at hv
        exact ⟨(hv x).2 (by simp), (hv y).2 (by simp), (hv z).2 (by simp), n1, n2, n3⟩
      · right
        simp only [hf.tv1, cons3_iff] at hv
        exact ⟨(hv x).2 (by simp), (hv y).2 (by simp), (hv z).2 (by simp), n1, n2, n3⟩
  · rintro (⟨⟨n1, n2, n3, t, ht, hv⟩, i1, i2⟩ | ⟨j1, j2, j3, n1, n2, n3⟩ | ⟨j1, j2, j3, n1, n2, n3⟩)
    · refine ⟨n1, n2, n3, t, ?_, ?_⟩
      · rw [Finset.mem_union, Finset.mem_sdiff]
        refine .inl ⟨ht, ?_⟩
        simp only [Finset.mem_insert, Finset.mem_singleton, not_or]
        constructor
        · rintro rfl
          refine i1 ⟨(a0.corner x).1 ((hv x).2 (by simp)), (a0.corner y).1 ((hv y).2 (by simp)),
            (a0.corner z).1 ((hv z).2 (by simp)), n1, n2, n3⟩
        · rintro rfl
          refine i2 ⟨(a1.corner x).1 ((hv x).2 (by simp)), (a1.corner y).1 ((hv y).2 (by simp)),
            (a1.corner z).1 ((hv z).2 (by simp)), n1, n2, n3⟩
      · rw [hf.tv t (h.tLt t ht)]; exact hv
    · refine ⟨n1, n2, n3, m.nt, by simp, fun w => ?_⟩
      rw [hf.tv0, cons3_iff]
      grind
    · refine ⟨n1, n2, n3, m.nt + 1, by simp, fun w => ?_⟩
      rw [hf.tv1, cons3_iff]
      grind

/-- The triples after dividing a triangle. -/
theorem cell_divide (hN : NonCol pos M) (h : Inv m V AE AT) (hg : Geo pos M V m AE AT) {t v x0 x1 x2 : Nat} {m' : Mesh}
    (hvV : v ∉ V) (ht : t ∈ AT) (hc : Canon m t x0 x1 x2) (hd : DividedT m m' AE t v x0 x1 x2) {x y z : Nat} :
    Cell m' x y z ↔ (Cell m x y z ∧ ¬Is x y z (m.tv t 0) (m.tv t 1) (m.tv t 2)) ∨
      Is x y z (m.tv t 1) (m.tv t 2) v ∨ Is x y z (m.tv t 2) (m.tv t 0) v ∨ Is x y z (m.tv t 0) (m.tv t 1) v := by
  have h' := DividedT.inv h ht hvV hc hd
  have hij : ∀ i j, i ≠ j → m.tv t i ≠ m.tv t j := fun i j hh h' => hh (h.inj t ht h')
  have n01 := hij 0 1 (by decide)
  have n02 := hij 0 2 (by decide)
  have n12 := hij 1 2 (by decide)
  have hne : ∀ i, m.tv t i ≠ v := fun i hh => hvV (hh ▸ corner_mem h ht i)
  have m0 := hne 0
  have m1 := hne 1
  have m2 := hne 2
  rw [cell_iff h', cell_iff h]
  constructor
  · rintro ⟨n1, n2, n3, u, hu, hv⟩
    rcases Finset.mem_union.1 hu with hu | hu
    · obtain ⟨huA, hne⟩ := Finset.mem_sdiff.1 hu
      rw [Finset.mem_singleton] at hne
      rw [hd.tv u (h.tLt u huA)] at hv
      refine .inl ⟨⟨n1, n2, n3, u, huA, hv⟩, ?_⟩
      rintro ⟨j1, j2, j3, -⟩
      refine hne (tri_unique hN h hg huA ht n1 n2 n3 hv fun w => ?_)
      rw [ex_fin3]
      grind
    · right
      simp only [Finset.mem_insert, Finset.mem_singleton] at hu
      rcases hu with rfl | rfl | rfl
      · left
        simp only [hd.tv0, cons3_iff] at hv
        exact ⟨(hv x).2 (by simp), (hv y).2 (by simp), (hv z).2 (by simp), n1, n2, n3⟩
      · right; left
        simp only [hd.tv1, cons3_iff] at hv
        exact ⟨(hv x).2 (by simp), (hv y).2 (by simp), (hv z).2 (by simp), n1, n2, n3⟩
      · right; right
        simp only [hd.tv2, cons3_iff] at hv
        exact ⟨(hv x).2 (by simp), (hv y).2 (by simp), (hv z).2 (by simp), n1, n2, n3⟩
  · rintro (⟨⟨n1, n2, n3, u, hu, hv⟩, i1⟩ | ⟨j1, j2, j3, n1, n2, n3⟩ | ⟨j1, j2, j3, n1, n2, n3⟩ | ⟨j1, j2, j3, n1, n2, n3⟩)
    · refine ⟨n1, n2, n3, u, ?_, ?_⟩
      · rw [Finset.mem_union, Finset.mem_sdiff]
        refine .inl ⟨hu, ?_⟩
        rw [Finset.mem_singleton]
        rintro rfl
        have k : ∀ w, (∃ i, m.tv u i = w) → w = m.tv u 0 ∨ w = m.tv u 1 ∨ w = m.tv u 2 := by
          intro w
          rw [ex_fin3]
          rintro (hh | hh | hh) <;> simp [hh]
        exact i1 ⟨k x ((hv x).2 (by simp)), k y ((hv y).2 (by simp)), k z ((hv z).2 (by simp)), n1, n2, n3⟩
      · rw [hd.tv u (h.tLt u hu)]; exact hv
    · refine ⟨n1, n2, n3, m.nt, by simp, fun w => ?_⟩
      rw [hd.tv0, cons3_iff]
      grind
    · refine ⟨n1, n2, n3, m.nt + 1, by simp, fun w => ?_⟩
      rw [hd.tv1, cons3_iff]
      grind
    · refine ⟨n1, n2, n3, m.nt + 2, by simp, fun w => ?_⟩
      rw [hd.tv2, cons3_iff]
      grind

end

end Mdso.Tri
