import Verif.Lemmas.TriBuild
import Verif.Lemmas.TriPlane

/-!
# The triangles of the mesh tile the bounding triangle
-/

set_option autoImplicit false

namespace Mdso.Tri

open Mdso.Geom Mdso.Tri.Spec

/-- No three of the vertices below `M` are on a line. -/
def NonCol (pos : Nat → V2) (M : Nat) : Prop :=
  ∀ a b c, a < M → b < M → c < M → a ≠ b → a ≠ c → b ≠ c → area (pos a) (pos b) (pos c) ≠ 0

/-- The triangle `t` of the mesh contains `q` in its interior. -/
def InT (pos : Nat → V2) (m : Mesh) (t : Nat) (q : V2) : Prop :=
  Inside (pos (m.tv t 0)) (pos (m.tv t 1)) (pos (m.tv t 2)) q

/-- The closed triangle `t` of the mesh contains `q`. -/
def WithinT (pos : Nat → V2) (m : Mesh) (t : Nat) (q : V2) : Prop :=
  Within (pos (m.tv t 0)) (pos (m.tv t 1)) (pos (m.tv t 2)) q

/-- The point `q` is on no line through two of the vertices. -/
def Generic (pos : Nat → V2) (V : Finset Nat) (q : V2) : Prop :=
  ∀ a ∈ V, ∀ b ∈ V, a ≠ b → area (pos a) (pos b) q ≠ 0

/-- The two triangles at every edge are on different sides of it. -/
def Sides (pos : Nat → V2) (m : Mesh) (AE : Finset Nat) : Prop :=
  ∀ e ∈ AE, ∀ t0 t1 c d, m.et e 0 = some t0 → m.et e 1 = some t1 → (∃ i, m.tv t0 i = c) → (∃ i, m.tv t1 i = d) →
    c ≠ m.ev e 0 → c ≠ m.ev e 1 → d ≠ m.ev e 0 → d ≠ m.ev e 1 →
    area (pos (m.ev e 0)) (pos (m.ev e 1)) (pos c) * area (pos (m.ev e 0)) (pos (m.ev e 1)) (pos d) < 0

/-- Some `t` satisfies `P` if and only if `B` holds, and no two do. -/
def One (AT : Finset Nat) (P : Nat → Prop) (B : Prop) : Prop :=
  (B ↔ ∃ t ∈ AT, P t) ∧ ∀ t ∈ AT, ∀ t' ∈ AT, P t → P t' → t = t'

/-- The geometric invariant. -/
structure Geo (pos : Nat → V2) (M : Nat) (V : Finset Nat) (m : Mesh) (AE AT : Finset Nat) : Prop where
  lt : ∀ v ∈ V, v < M
  sides : Sides pos m AE
  base : ∀ v, v < 3 → v ∈ V
  one : ∀ q, Generic pos V q → One AT (fun t => InT pos m t q) (Inside (pos 0) (pos 1) (pos 2) q)
  cover : ∀ q, Within (pos 0) (pos 1) (pos 2) q → ∃ t ∈ AT, WithinT pos m t q

theorem fin3_cases {f : Fin 3 → Nat} (hf : Function.Injective f) {a b c : Nat}
    (h : ∀ v, (∃ i, f i = v) ↔ v = a ∨ v = b ∨ v = c) :
    (f 0 = a ∧ f 1 = b ∧ f 2 = c) ∨ (f 0 = a ∧ f 1 = c ∧ f 2 = b) ∨ (f 0 = b ∧ f 1 = a ∧ f 2 = c) ∨
    (f 0 = b ∧ f 1 = c ∧ f 2 = a) ∨ (f 0 = c ∧ f 1 = a ∧ f 2 = b) ∨ (f 0 = c ∧ f 1 = b ∧ f 2 = a) := by
  have h01 : f 0 ≠ f 1 := fun hh => absurd (hf hh) (by decide)
  have h02 : f 0 ≠ f 2 := fun hh => absurd (hf hh) (by decide)
  have h12 : f 1 ≠ f 2 := fun hh => absurd (hf hh) (by decide)
  have k0 := (h (f 0)).1 ⟨0, rfl⟩
  have k1 := (h (f 1)).1 ⟨1, rfl⟩
  have k2 := (h (f 2)).1 ⟨2, rfl⟩
  clear h
  grind

theorem inside_corner (pos : Nat → V2) {f : Fin 3 → Nat} (hf : Function.Injective f) {a b c : Nat}
    (h : ∀ v, (∃ i, f i = v) ↔ v = a ∨ v = b ∨ v = c) (q : V2) :
    Inside (pos (f 0)) (pos (f 1)) (pos (f 2)) q ↔ Inside (pos a) (pos b) (pos c) q := by
  rcases fin3_cases hf h with ⟨h0, h1, h2⟩ | ⟨h0, h1, h2⟩ | ⟨h0, h1, h2⟩ | ⟨h0, h1, h2⟩ | ⟨h0, h1, h2⟩ | ⟨h0, h1, h2⟩ <;>
    rw [h0, h1, h2]
  · rw [inside_swap, inside_rot, inside_rot]
  · exact inside_swap
  · exact inside_rot.symm
  · exact inside_rot
  · rw [inside_swap]; exact inside_rot.symm

theorem within_corner (pos : Nat → V2) {f : Fin 3 → Nat} (hf : Function.Injective f) {a b c : Nat}
    (h : ∀ v, (∃ i, f i = v) ↔ v = a ∨ v = b ∨ v = c) (q : V2) :
    Within (pos (f 0)) (pos (f 1)) (pos (f 2)) q ↔ Within (pos a) (pos b) (pos c) q := by
  rcases fin3_cases hf h with ⟨h0, h1, h2⟩ | ⟨h0, h1, h2⟩ | ⟨h0, h1, h2⟩ | ⟨h0, h1, h2⟩ | ⟨h0, h1, h2⟩ | ⟨h0, h1, h2⟩ <;>
    rw [h0, h1, h2]
  · rw [within_swap, within_rot, within_rot]
  · exact within_swap
  · exact within_rot.symm
  · exact within_rot
  · rw [within_swap]; exact within_rot.symm

theorem one_replace {AT R N : Finset Nat} {P P' : Nat → Prop} {B : Prop} (hR : R ⊆ AT)
    (hsame : ∀ t ∈ AT, t ∉ R → (P' t ↔ P t)) (hiff : (∃ t ∈ R, P t) ↔ ∃ n ∈ N, P' n)
    (huniq : ∀ n ∈ N, ∀ n' ∈ N, P' n → P' n' → n = n') (h : One AT P B) : One ((AT \ R) ∪ N) P' B := by
  obtain ⟨h1, h2⟩ := h
  have hold : ∀ t ∈ AT \ R, ∀ n ∈ N, P' t → P' n → False := by
    intro t ht n hn hpt hpn
    obtain ⟨ht1, ht2⟩ := Finset.mem_sdiff.1 ht
    obtain ⟨r, hr, hpr⟩ := hiff.2 ⟨n, hn, hpn⟩
    have := h2 t ht1 r (hR hr) ((hsame t ht1 ht2).1 hpt) hpr
    exact ht2 (this ▸ hr)
  refine ⟨h1.trans ⟨?_, ?_⟩, ?_⟩
  · rintro ⟨t, ht, hp⟩
    by_cases htR : t ∈ R
    · obtain ⟨n, hn, hpn⟩ := hiff.1 ⟨t, htR, hp⟩
      exact ⟨n, Finset.mem_union_right _ hn, hpn⟩
    · exact ⟨t, Finset.mem_union_left _ (Finset.mem_sdiff.2 ⟨ht, htR⟩), (hsame t ht htR).2 hp⟩
  · rintro ⟨t, ht, hp⟩
    rcases Finset.mem_union.1 ht with ht | ht
    · obtain ⟨ht1, ht2⟩ := Finset.mem_sdiff.1 ht
      exact ⟨t, ht1, (hsame t ht1 ht2).1 hp⟩
    · obtain ⟨r, hr, hpr⟩ := hiff.2 ⟨t, ht, hp⟩
      exact ⟨r, hR hr, hpr⟩
  · intro t ht t' ht' hp hp'
    rcases Finset.mem_union.1 ht with ht | ht <;> rcases Finset.mem_union.1 ht' with ht' | ht'
    · obtain ⟨a1, a2⟩ := Finset.mem_sdiff.1 ht
      obtain ⟨b1, b2⟩ := Finset.mem_sdiff.1 ht'
      exact h2 t a1 t' b1 ((hsame t a1 a2).1 hp) ((hsame t' b1 b2).1 hp')
    · exact absurd (hold t ht t' ht' hp hp') id
    · exact absurd (hold t' ht' t ht hp' hp) id
    · exact huniq t ht t' ht' hp hp'

theorem cover_replace {AT R N : Finset Nat} {P P' : Nat → Prop}
    (hsame : ∀ t ∈ AT, t ∉ R → P t → P' t) (hiff : (∃ t ∈ R, P t) → ∃ n ∈ N, P' n)
    (h : ∃ t ∈ AT, P t) : ∃ t ∈ (AT \ R) ∪ N, P' t := by
  obtain ⟨t, ht, hp⟩ := h
  by_cases htR : t ∈ R
  · obtain ⟨n, hn, hpn⟩ := hiff ⟨t, htR, hp⟩
    exact ⟨n, Finset.mem_union_right _ hn, hpn⟩
  · exact ⟨t, Finset.mem_union_left _ (Finset.mem_sdiff.2 ⟨ht, htR⟩), hsame t ht htR hp⟩

/-- Moving the third vertices of the triangles at an edge to other points on the same sides. -/
theorem sides_move {x x' y y' : ℝ} (h1 : 0 < x * x') (h2 : 0 < y * y') (h : x' * y' < 0) : x * y < 0 := by
  by_contra hh
  push Not at hh
  have h3 : 0 < (x * x') * (y * y') := mul_pos h1 h2
  have h4 : (x * x') * (y * y') = (x * y) * (x' * y') := by ring
  rw [h4] at h3
  nlinarith

theorem corner_mem {m : Mesh} {V AE AT : Finset Nat} (h : Inv m V AE AT) {t : Nat} (ht : t ∈ AT) (i : Fin 3) :
    m.tv t i ∈ V := by
  obtain ⟨j, hj⟩ := h.opp t ht (i + 1)
  have hne : m.tv t i ≠ m.tv t (i + 1) := by
    intro hh
    have := h.inj t ht hh
    revert this
    clear * -
    revert i
    decide
  obtain ⟨s, hs⟩ := (hj (m.tv t i)).2 ⟨hne, i, rfl⟩
  rw [← hs]
  exact h.endV _ (h.side t ht j).1 s

/-- The third vertices at an edge that stays after some of the triangles have been replaced: if every new third vertex
is on the side of an old one, the new triangles at the edge are still on different sides. -/
theorem sides_kept {pos : Nat → V2} {m m' : Mesh} {AE : Finset Nat} {e : Nat} (hs : Sides pos m AE) (he : e ∈ AE)
    (hev : m'.ev e = m.ev e)
    (key : ∀ s t' c', m'.et e s = some t' → (∃ i, m'.tv t' i = c') → c' ≠ m.ev e 0 → c' ≠ m.ev e 1 →
      ∃ t c, m.et e s = some t ∧ (∃ i, m.tv t i = c) ∧ c ≠ m.ev e 0 ∧ c ≠ m.ev e 1 ∧
        0 < area (pos (m.ev e 0)) (pos (m.ev e 1)) (pos c') * area (pos (m.ev e 0)) (pos (m.ev e 1)) (pos c)) :
    ∀ t0 t1 c d, m'.et e 0 = some t0 → m'.et e 1 = some t1 → (∃ i, m'.tv t0 i = c) → (∃ i, m'.tv t1 i = d) →
    c ≠ m'.ev e 0 → c ≠ m'.ev e 1 → d ≠ m'.ev e 0 → d ≠ m'.ev e 1 →
    area (pos (m'.ev e 0)) (pos (m'.ev e 1)) (pos c) * area (pos (m'.ev e 0)) (pos (m'.ev e 1)) (pos d) < 0 := by
  rw [hev]
  intro t0 t1 c d h0 h1 hc hd c0 c1 d0 d1
  obtain ⟨u0, c', k1, k2, k3, k4, k5⟩ := key 0 t0 c h0 hc c0 c1
  obtain ⟨u1, d', l1, l2, l3, l4, l5⟩ := key 1 t1 d h1 hd d0 d1
  exact sides_move k5 l5 (hs e he u0 u1 c' d' k1 l1 k2 l2 k3 k4 l3 l4)

theorem sq_pos_area {pos : Nat → V2} {M a b c : Nat} (h : NonCol pos M) (ha : a < M) (hb : b < M) (hc : c < M)
    (hab : a ≠ b) (hac : a ≠ c) (hbc : b ≠ c) :
    0 < area (pos a) (pos b) (pos c) * area (pos a) (pos b) (pos c) := by
  exact mul_self_pos.2 (h a b c ha hb hc hab hac hbc)

/-- The side of an edge is the same for both directions. -/
theorem side_of_ends {pos : Nat → V2} {f : Fin 2 → Nat} {a b : Nat} (h : ∀ v, (∃ s, f s = v) ↔ v = a ∨ v = b)
    (hf : f 0 ≠ f 1) {x y : V2} (hs : 0 < area (pos a) (pos b) x * area (pos a) (pos b) y) :
    0 < area (pos (f 0)) (pos (f 1)) x * area (pos (f 0)) (pos (f 1)) y := by
  have k0 := (h (f 0)).1 ⟨0, rfl⟩
  have k1 := (h (f 1)).1 ⟨1, rfl⟩
  rcases k0 with k0 | k0 <;> rcases k1 with k1 | k1
  · exact absurd (k0.trans k1.symm) hf
  · rw [k0, k1]; exact hs
  · rw [k0, k1, area_swap (pos a) (pos b) x, area_swap (pos a) (pos b) y]
    linarith
  · exact absurd (k0.trans k1.symm) hf

theorem geo_flip {pos : Nat → V2} {M : Nat} (hN : NonCol pos M) {V AE AT : Finset Nat} {m : Mesh}
    (h : Inv m V AE AT) (hg : Geo pos M V m AE AT) {e t0 t1 c d fa0 fb0 fa1 fb1 : Nat} (he : e ∈ AE)
    (h0 : m.et e 0 = some t0) (h1 : m.et e 1 = some t1) (a0 : At m t0 e c fa0 fb0) (a1 : At m t1 e d fa1 fb1)
    (hconv : isABCDConvex (pos (m.ev e 0)) (pos c) (pos (m.ev e 1)) (pos d)) :
    c ≠ d ∧ ∀ m', Flipped m m' AE e t0 t1 c d fa0 fb0 fa1 fb1 →
      Geo pos M V m' ((AE \ {e}) ∪ {m.ne}) ((AT \ {t0, t1}) ∪ {m.nt, m.nt + 1}) := by
  obtain ⟨ht0, -⟩ := h.slot e he 0 t0 h0
  obtain ⟨ht1, -⟩ := h.slot e he 1 t1 h1
  have hab := h.ends e he
  have hca := a0.ca
  have hcb := a0.cb
  have hda := a1.ca
  have hdb := a1.cb
  have hcc : ∃ i, m.tv t0 i = c := (a0.corner c).2 (.inr (.inr rfl))
  have hdd : ∃ i, m.tv t1 i = d := (a1.corner d).2 (.inr (.inr rfl))
  have hsep := hg.sides e he t0 t1 c d h0 h1 hcc hdd hca hcb hda hdb
  have hcd : c ≠ d := by
    rintro rfl
    nlinarith [mul_self_nonneg (area (pos (m.ev e 0)) (pos (m.ev e 1)) (pos c))]
  have haM := hg.lt _ (h.endV e he 0)
  have hbM := hg.lt _ (h.endV e he 1)
  have hcM : c < M := by obtain ⟨i, rfl⟩ := hcc; exact hg.lt _ (corner_mem h ht0 i)
  have hdM : d < M := by obtain ⟨i, rfl⟩ := hdd; exact hg.lt _ (corner_mem h ht1 i)
  obtain ⟨a, ha⟩ : ∃ a, a = m.ev e 0 := ⟨_, rfl⟩
  obtain ⟨b, hb⟩ : ∃ b, b = m.ev e 1 := ⟨_, rfl⟩
  rw [← ha] at hab hca hda hsep haM hconv
  rw [← hb] at hab hcb hdb hsep hbM hconv
  obtain ⟨v1, v2, v3, v4⟩ := hconv
  have p1 : 0 < area (pos a) (pos c) (pos b) * area (pos a) (pos c) (pos d) :=
    lt_of_le_of_ne v1 (mul_ne_zero (hN a c b haM hcM hbM hca.symm hab hcb) (hN a c d haM hcM hdM hca.symm hda.symm
      hcd)).symm
  have p2 : 0 < area (pos c) (pos b) (pos a) * area (pos c) (pos b) (pos d) :=
    lt_of_le_of_ne v2 (mul_ne_zero (hN c b a hcM hbM haM hcb hca hab.symm) (hN c b d hcM hbM hdM hcb hcd hdb.symm)).symm
  have p3 : 0 < area (pos b) (pos d) (pos a) * area (pos b) (pos d) (pos c) :=
    lt_of_le_of_ne v3 (mul_ne_zero (hN b d a hbM hdM haM hdb.symm hab.symm hda) (hN b d c hbM hdM hcM hdb.symm hcb.symm
      hcd.symm)).symm
  have p4 : 0 < area (pos d) (pos a) (pos c) * area (pos d) (pos a) (pos b) :=
    lt_of_le_of_ne v4 (mul_ne_zero (hN d a c hdM haM hcM hda hcd.symm hca.symm) (hN d a b hdM haM hbM hda hdb hab)).symm
  have hquad := quad_of hsep p1 p2 p3 p4
  have hnew : area (pos c) (pos d) (pos a) * area (pos c) (pos d) (pos b) < 0 := by
    rcases hquad with hq | hq
    · exact hq.separates
    · rw [mul_comm]; exact hq.separates
  have hflip : ∀ q, area (pos a) (pos b) q ≠ 0 → area (pos c) (pos d) q ≠ 0 →
      (Inside (pos a) (pos b) (pos c) q ∨ Inside (pos a) (pos b) (pos d) q ↔
        Inside (pos c) (pos d) (pos a) q ∨ Inside (pos c) (pos d) (pos b) q) := by
    intro q g1 g2
    rcases hquad with hq | hq
    · exact hq.flip g1 g2
    · rw [inside_swap (a := pos a) (b := pos b) (c := pos c), inside_swap (a := pos a) (b := pos b) (c := pos d),
        hq.flip (by rw [area_swap]; simpa using g1) g2]
      exact or_comm
  have hcover : ∀ q, Within (pos a) (pos b) (pos c) q ∨ Within (pos a) (pos b) (pos d) q →
      Within (pos c) (pos d) (pos a) q ∨ Within (pos c) (pos d) (pos b) q := by
    intro q g
    rcases hquad with hq | hq
    · exact hq.cover g
    · rw [within_swap (a := pos a) (b := pos b) (c := pos c), within_swap (a := pos a) (b := pos b) (c := pos d)] at g
      exact (hq.cover g).symm
  have hdisj : ∀ q, Inside (pos c) (pos d) (pos a) q → Inside (pos c) (pos d) (pos b) q → False := by
    intro q g1 g2
    rcases hquad with hq | hq
    · exact hq.disjoint g1 g2
    · exact hq.disjoint g2 g1
  refine ⟨hcd, fun m' hf => ?_⟩
  have htv0 : ∀ t ∈ AT, m'.tv t = m.tv t := fun t ht => hf.tv t (h.tLt t ht)
  have c0 : ∀ q, InT pos m t0 q ↔ Inside (pos a) (pos b) (pos c) q := by
    intro q
    exact inside_corner pos (h.inj t0 ht0) (by rw [ha, hb]; exact a0.corner) q
  have c1 : ∀ q, InT pos m t1 q ↔ Inside (pos a) (pos b) (pos d) q := by
    intro q
    exact inside_corner pos (h.inj t1 ht1) (by rw [ha, hb]; exact a1.corner) q
  have n0 : ∀ q, InT pos m' m.nt q ↔ Inside (pos c) (pos d) (pos a) q := by
    intro q; unfold InT; rw [hf.tv0, ← ha]; rfl
  have n1 : ∀ q, InT pos m' (m.nt + 1) q ↔ Inside (pos c) (pos d) (pos b) q := by
    intro q; unfold InT; rw [hf.tv1, ← hb]; rfl
  have w0 : ∀ q, WithinT pos m t0 q ↔ Within (pos a) (pos b) (pos c) q := by
    intro q
    exact within_corner pos (h.inj t0 ht0) (by rw [ha, hb]; exact a0.corner) q
  have w1 : ∀ q, WithinT pos m t1 q ↔ Within (pos a) (pos b) (pos d) q := by
    intro q
    exact within_corner pos (h.inj t1 ht1) (by rw [ha, hb]; exact a1.corner) q
  have z0 : ∀ q, WithinT pos m' m.nt q ↔ Within (pos c) (pos d) (pos a) q := by
    intro q; unfold WithinT; rw [hf.tv0, ← ha]; rfl
  have z1 : ∀ q, WithinT pos m' (m.nt + 1) q ↔ Within (pos c) (pos d) (pos b) q := by
    intro q; unfold WithinT; rw [hf.tv1, ← hb]; rfl
  have haV : a ∈ V := ha ▸ h.endV e he 0
  have hbV : b ∈ V := hb ▸ h.endV e he 1
  have hcV : c ∈ V := by obtain ⟨i, rfl⟩ := hcc; exact corner_mem h ht0 i
  have hdV : d ∈ V := by obtain ⟨i, rfl⟩ := hdd; exact corner_mem h ht1 i
  refine ⟨hg.lt, ?_, hg.base, ?_, ?_⟩
  · intro f hfm
    rcases Finset.mem_union.1 hfm with hfm | hfm
    · obtain ⟨hfA, hfe⟩ := Finset.mem_sdiff.1 hfm
      rw [Finset.mem_singleton] at hfe
      refine sides_kept hg.sides hfA (hf.ev f (h.eLt f hfA).ne) ?_
      intro s t' c' hs hc' k0 k1
      have hfends := h.ends f hfA
      by_cases hs0 : m.et f s = some t0
      · have hside : f ∈ sides m t0 := mem_sides.2 (h.slot f hfA s t0 hs0).2
        rcases (a0.sides f).1 hside with rfl | rfl | rfl
        · exact absurd rfl hfe
        · rw [hf.etA0 s hs0] at hs
          cases hs
          rw [hf.tv0, cons3_iff, ← ha] at hc'
          have hends := a0.endA
          rw [← ha] at hends
          have hc'd : c' = d := by
            have e1 := (hends c').not.1 (by rintro ⟨j, hj⟩; fin_cases j; exacts [k0 hj.symm, k1 hj.symm])
            tauto
          subst hc'd
          have hbn := (hends b).not.2 (by rintro (hh | hh); exacts [hab hh.symm, hcb hh.symm])
          refine ⟨t0, b, hs0, (a0.corner b).2 (.inr (.inl hb)), fun hh => hbn ⟨0, hh.symm⟩, fun hh => hbn ⟨1, hh.symm⟩, ?_⟩
          exact side_of_ends hends hfends (by rw [mul_comm]; exact p1)
        · rw [hf.etB0 s hs0] at hs
          cases hs
          rw [hf.tv1, cons3_iff, ← hb] at hc'
          have hends := a0.endB
          rw [← hb] at hends
          have hc'd : c' = d := by
            have e1 := (hends c').not.1 (by rintro ⟨j, hj⟩; fin_cases j; exacts [k0 hj.symm, k1 hj.symm])
            tauto
          subst hc'd
          have hbn := (hends a).not.2 (by rintro (hh | hh); exacts [hab hh, hca hh.symm])
          refine ⟨t0, a, hs0, (a0.corner a).2 (.inl ha), fun hh => hbn ⟨0, hh.symm⟩, fun hh => hbn ⟨1, hh.symm⟩, ?_⟩
          refine side_of_ends hends hfends ?_
          rw [area_swap (pos c) (pos b), area_swap (pos c) (pos b)]
          linarith
      · by_cases hs1 : m.et f s = some t1
        · have hside : f ∈ sides m t1 := mem_sides.2 (h.slot f hfA s t1 hs1).2
          rcases (a1.sides f).1 hside with rfl | rfl | rfl
          · exact absurd rfl hfe
          · rw [hf.etA1 s hs1] at hs
            cases hs
            rw [hf.tv0, cons3_iff, ← ha] at hc'
            have hends := a1.endA
            rw [← ha] at hends
            have hc'd : c' = c := by
              have e1 := (hends c').not.1 (by rintro ⟨j, hj⟩; fin_cases j; exacts [k0 hj.symm, k1 hj.symm])
              tauto
            subst hc'd
            have hbn := (hends b).not.2 (by rintro (hh | hh); exacts [hab hh.symm, hdb hh.symm])
            refine ⟨t1, b, hs1, (a1.corner b).2 (.inr (.inl hb)), fun hh => hbn ⟨0, hh.symm⟩, fun hh => hbn ⟨1, hh.symm⟩, ?_⟩
            refine side_of_ends hends hfends ?_
            rw [area_swap (pos d) (pos a), area_swap (pos d) (pos a)]
            linarith
          · rw [hf.etB1 s hs1] at hs
            cases hs
            rw [hf.tv1, cons3_iff, ← hb] at hc'
            have hends := a1.endB
            rw [← hb] at hends
            have hc'd : c' = c := by
              have e1 := (hends c').not.1 (by rintro ⟨j, hj⟩; fin_cases j; exacts [k0 hj.symm, k1 hj.symm])
              tauto
            subst hc'd
            have hbn := (hends a).not.2 (by rintro (hh | hh); exacts [hab hh, hda hh.symm])
            refine ⟨t1, a, hs1, (a1.corner a).2 (.inl ha), fun hh => hbn ⟨0, hh.symm⟩, fun hh => hbn ⟨1, hh.symm⟩, ?_⟩
            exact side_of_ends hends hfends (by rw [mul_comm]; exact p3)
        · have hs' : m.et f s = some t' := by rw [← hf.et f hfA hfe s hs0 hs1]; exact hs
          have htA := (h.slot f hfA s t' hs').1
          rw [htv0 t' htA] at hc'
          refine ⟨t', c', hs', hc', k0, k1, ?_⟩
          have hcM' : c' < M := by obtain ⟨i, rfl⟩ := hc'; exact hg.lt _ (corner_mem h htA i)
          exact sq_pos_area hN (hg.lt _ (h.endV f hfA 0)) (hg.lt _ (h.endV f hfA 1)) hcM' hfends k0.symm k1.symm
    · rw [Finset.mem_singleton] at hfm
      subst hfm
      intro u0 u1 c' d' hu0 hu1 hc' hd' k0 k1 k2 k3
      rw [hf.etN] at hu0 hu1
      simp only [Matrix.cons_val_zero, Option.some.injEq, Matrix.cons_val_one] at hu0 hu1
      subst u0 u1
      rw [hf.tv0, cons3_iff, ← ha] at hc'
      rw [hf.tv1, cons3_iff, ← hb] at hd'
      rw [hf.evN] at k0 k1 k2 k3 ⊢
      simp only [Matrix.cons_val_zero, Matrix.cons_val_one] at k0 k1 k2 k3 ⊢
      have e1 : c' = a := by tauto
      have e2 : d' = b := by tauto
      rw [e1, e2]
      exact hnew
  · intro q hq
    have g1 := hq a haV b hbV hab
    have g2 := hq c hcV d hdV hcd
    refine one_replace ?_ ?_ ?_ ?_ (hg.one q hq)
    · intro x hx
      simp only [Finset.mem_insert, Finset.mem_singleton] at hx
      rcases hx with rfl | rfl <;> assumption
    · intro t ht _
      unfold InT
      rw [htv0 t ht]
    · simp only [Finset.mem_insert, Finset.mem_singleton, exists_eq_or_imp, exists_eq_left]
      rw [c0, c1, n0, n1]
      exact hflip q g1 g2
    · simp only [Finset.mem_insert, Finset.mem_singleton, forall_eq_or_imp, forall_eq]
      rw [n0, n1]
      exact ⟨⟨fun _ _ => trivial, fun x y => absurd (hdisj q x y) id⟩, fun x y => absurd (hdisj q y x) id, fun _ _ => trivial⟩
  · intro q hq
    refine cover_replace ?_ ?_ (hg.cover q hq)
    · intro t ht _
      unfold WithinT
      rw [htv0 t ht]
      exact id
    · simp only [Finset.mem_insert, Finset.mem_singleton, exists_eq_or_imp, exists_eq_left]
      rw [w0, w1, z0, z1]
      exact hcover q

theorem geo_tri {pos : Nat → V2} {M : Nat} (hN : NonCol pos M) {V AE AT : Finset Nat} {m m' : Mesh}
    (h : Inv m V AE AT) (hg : Geo pos M V m AE AT) {t v x0 x1 x2 : Nat} (hvV : v ∉ V) (hvM : v < M) (ht : t ∈ AT)
    (hc : Canon m t x0 x1 x2) (hin : InT pos m t (pos v)) (hd : DividedT m m' AE t v x0 x1 x2) :
    Geo pos M (insert v V) m' ((AE \ ∅) ∪ {m.ne, m.ne + 1, m.ne + 2}) ((AT \ {t}) ∪ {m.nt, m.nt + 1, m.nt + 2}) := by
  have htv0 : ∀ t ∈ AT, m'.tv t = m.tv t := fun t ht => hd.tv t (h.tLt t ht)
  obtain ⟨a, ha⟩ : ∃ a, a = m.tv t 0 := ⟨_, rfl⟩
  obtain ⟨b, hb⟩ : ∃ b, b = m.tv t 1 := ⟨_, rfl⟩
  obtain ⟨c, hc'⟩ : ∃ c, c = m.tv t 2 := ⟨_, rfl⟩
  have haV : a ∈ V := ha ▸ corner_mem h ht 0
  have hbV : b ∈ V := hb ▸ corner_mem h ht 1
  have hcV : c ∈ V := hc' ▸ corner_mem h ht 2
  have hab : a ≠ b := by rw [ha, hb]; exact fun hh => absurd (h.inj t ht hh) (by decide)
  have hac : a ≠ c := by rw [ha, hc']; exact fun hh => absurd (h.inj t ht hh) (by decide)
  have hbc : b ≠ c := by rw [hb, hc']; exact fun hh => absurd (h.inj t ht hh) (by decide)
  have hva : v ≠ a := fun hh => hvV (hh ▸ haV)
  have hvb : v ≠ b := fun hh => hvV (hh ▸ hbV)
  have hvc : v ≠ c := fun hh => hvV (hh ▸ hcV)
  have hin' : Inside (pos a) (pos b) (pos c) (pos v) := by rw [ha, hb, hc']; exact hin
  have hin1 : Inside (pos b) (pos c) (pos a) (pos v) := inside_rot.1 hin'
  have hin2 : Inside (pos c) (pos a) (pos b) (pos v) := inside_rot.1 hin1
  have e0 : ∀ w, (∃ s, m.ev x0 s = w) ↔ w = b ∨ w = c := by rw [hb, hc']; exact hc.end0
  have e1 : ∀ w, (∃ s, m.ev x1 s = w) ↔ w = c ∨ w = a := by
    intro w; rw [ha, hc', hc.end1, or_comm]
  have e2 : ∀ w, (∃ s, m.ev x2 s = w) ↔ w = a ∨ w = b := by rw [ha, hb]; exact hc.end2
  have c0 : ∀ q, InT pos m t q ↔ Inside (pos a) (pos b) (pos c) q := by
    intro q; unfold InT; rw [ha, hb, hc']
  have n0 : ∀ q, InT pos m' m.nt q ↔ Inside (pos b) (pos c) (pos v) q := by
    intro q; unfold InT; rw [hd.tv0, ← hb, ← hc']; rfl
  have n1 : ∀ q, InT pos m' (m.nt + 1) q ↔ Inside (pos c) (pos a) (pos v) q := by
    intro q; unfold InT; rw [hd.tv1, ← ha, ← hc']; rfl
  have n2 : ∀ q, InT pos m' (m.nt + 2) q ↔ Inside (pos a) (pos b) (pos v) q := by
    intro q; unfold InT; rw [hd.tv2, ← hb, ← ha]; rfl
  have w0 : ∀ q, WithinT pos m t q ↔ Within (pos a) (pos b) (pos c) q := by
    intro q; unfold WithinT; rw [ha, hb, hc']
  have z0 : ∀ q, WithinT pos m' m.nt q ↔ Within (pos b) (pos c) (pos v) q := by
    intro q; unfold WithinT; rw [hd.tv0, ← hb, ← hc']; rfl
  have z1 : ∀ q, WithinT pos m' (m.nt + 1) q ↔ Within (pos c) (pos a) (pos v) q := by
    intro q; unfold WithinT; rw [hd.tv1, ← ha, ← hc']; rfl
  have z2 : ∀ q, WithinT pos m' (m.nt + 2) q ↔ Within (pos a) (pos b) (pos v) q := by
    intro q; unfold WithinT; rw [hd.tv2, ← hb, ← ha]; rfl
  refine ⟨?_, ?_, fun w hw => Finset.mem_insert_of_mem (hg.base w hw), ?_, ?_⟩
  · intro w hw
    rcases Finset.mem_insert.1 hw with rfl | hw
    · exact hvM
    · exact hg.lt w hw
  · intro f hfm
    rcases Finset.mem_union.1 hfm with hfm | hfm
    · have hfA := (Finset.mem_sdiff.1 hfm).1
      refine sides_kept hg.sides hfA (hd.ev f (h.eLt f hfA)) ?_
      intro s t' c' hs hc0 k0 k1
      have hfends := h.ends f hfA
      by_cases hs0 : m.et f s = some t
      · have hside : f ∈ sides m t := mem_sides.2 (h.slot f hfA s t hs0).2
        rcases (hc.sides f).1 hside with rfl | rfl | rfl
        · rw [hd.etX0 s hs0] at hs
          cases hs
          rw [hd.tv0, cons3_iff, ← hb, ← hc'] at hc0
          have hc'd : c' = v := by
            have e := (e0 c').not.1 (by rintro ⟨j, hj⟩; fin_cases j; exacts [k0 hj.symm, k1 hj.symm])
            tauto
          subst hc'd
          have hbn := (e0 a).not.2 (by rintro (hh | hh); exacts [hab hh, hac hh])
          exact ⟨t, a, hs0, ⟨0, ha.symm⟩, fun hh => hbn ⟨0, hh.symm⟩, fun hh => hbn ⟨1, hh.symm⟩,
            side_of_ends e0 hfends (divide_side hin1)⟩
        · rw [hd.etX1 s hs0] at hs
          cases hs
          rw [hd.tv1, cons3_iff, ← ha, ← hc'] at hc0
          have hc'd : c' = v := by
            have e := (e1 c').not.1 (by rintro ⟨j, hj⟩; fin_cases j; exacts [k0 hj.symm, k1 hj.symm])
            tauto
          subst hc'd
          have hbn := (e1 b).not.2 (by rintro (hh | hh); exacts [hbc hh, hab hh.symm])
          exact ⟨t, b, hs0, ⟨1, hb.symm⟩, fun hh => hbn ⟨0, hh.symm⟩, fun hh => hbn ⟨1, hh.symm⟩,
            side_of_ends e1 hfends (divide_side hin2)⟩
        · rw [hd.etX2 s hs0] at hs
          cases hs
          rw [hd.tv2, cons3_iff, ← ha, ← hb] at hc0
          have hc'd : c' = v := by
            have e := (e2 c').not.1 (by rintro ⟨j, hj⟩; fin_cases j; exacts [k0 hj.symm, k1 hj.symm])
            tauto
          subst hc'd
          have hbn := (e2 c).not.2 (by rintro (hh | hh); exacts [hac hh.symm, hbc hh.symm])
          exact ⟨t, c, hs0, ⟨2, hc'.symm⟩, fun hh => hbn ⟨0, hh.symm⟩, fun hh => hbn ⟨1, hh.symm⟩,
            side_of_ends e2 hfends (divide_side hin')⟩
      · have hs' : m.et f s = some t' := by rw [← hd.et f hfA s hs0]; exact hs
        have htA := (h.slot f hfA s t' hs').1
        rw [htv0 t' htA] at hc0
        refine ⟨t', c', hs', hc0, k0, k1, ?_⟩
        have hcM' : c' < M := by obtain ⟨i, rfl⟩ := hc0; exact hg.lt _ (corner_mem h htA i)
        exact sq_pos_area hN (hg.lt _ (h.endV f hfA 0)) (hg.lt _ (h.endV f hfA 1)) hcM' hfends k0.symm k1.symm
    · simp only [Finset.mem_insert, Finset.mem_singleton] at hfm
      intro u0 u1 c' d' hu0 hu1 hc0 hd' k0 k1 k2 k3
      rcases hfm with rfl | rfl | rfl
      · rw [hd.et0] at hu0 hu1
        simp only [Matrix.cons_val_zero, Option.some.injEq, Matrix.cons_val_one] at hu0 hu1
        subst u0 u1
        rw [hd.tv1, cons3_iff, ← ha, ← hc'] at hc0
        rw [hd.tv2, cons3_iff, ← ha, ← hb] at hd'
        rw [hd.ev0, ← ha] at k0 k1 k2 k3 ⊢
        simp only [Matrix.cons_val_zero, Matrix.cons_val_one] at k0 k1 k2 k3 ⊢
        have q1 : c' = c := by tauto
        have q2 : d' = b := by tauto
        rw [q1, q2, mul_comm]
        exact divide_sep hin1
      · rw [hd.et1] at hu0 hu1
        simp only [Matrix.cons_val_zero, Option.some.injEq, Matrix.cons_val_one] at hu0 hu1
        subst u0 u1
        rw [hd.tv2, cons3_iff, ← ha, ← hb] at hc0
        rw [hd.tv0, cons3_iff, ← hb, ← hc'] at hd'
        rw [hd.ev1, ← hb] at k0 k1 k2 k3 ⊢
        simp only [Matrix.cons_val_zero, Matrix.cons_val_one] at k0 k1 k2 k3 ⊢
        have q1 : c' = a := by tauto
        have q2 : d' = c := by tauto
        rw [q1, q2, mul_comm]
        exact divide_sep hin2
      · rw [hd.et2] at hu0 hu1
        simp only [Matrix.cons_val_zero, Option.some.injEq, Matrix.cons_val_one] at hu0 hu1
        subst u0 u1
        rw [hd.tv0, cons3_iff, ← hb, ← hc'] at hc0
        rw [hd.tv1, cons3_iff, ← ha, ← hc'] at hd'
        rw [hd.ev2, ← hc'] at k0 k1 k2 k3 ⊢
        simp only [Matrix.cons_val_zero, Matrix.cons_val_one] at k0 k1 k2 k3 ⊢
        have q1 : c' = b := by tauto
        have q2 : d' = a := by tauto
        rw [q1, q2, mul_comm]
        exact divide_sep hin'
  · intro q hq
    have hqV : Generic pos V q := fun x hx y hy => hq x (Finset.mem_insert_of_mem hx) y (Finset.mem_insert_of_mem hy)
    have gq : ∀ w ∈ V, w ≠ v → area q (pos v) (pos w) ≠ 0 := by
      intro w hw hwv
      have := hq v (Finset.mem_insert_self _ _) w (Finset.mem_insert_of_mem hw) (Ne.symm hwv)
      rwa [show area q (pos v) (pos w) = area (pos v) (pos w) q from by unfold area; ring]
    refine one_replace ?_ ?_ ?_ ?_ (hg.one q hqV)
    · simpa using ht
    · intro t ht _
      unfold InT
      rw [htv0 t ht]
    · simp only [Finset.mem_insert, Finset.mem_singleton, exists_eq_or_imp, exists_eq_left]
      rw [c0, n0, n1, n2]
      exact divide_iff hin' (gq a haV hva.symm) (gq b hbV hvb.symm) (gq c hcV hvc.symm)
    · have d01 : ¬(Inside (pos b) (pos c) (pos v) q ∧ Inside (pos c) (pos a) (pos v) q) :=
        fun hh => divide_apart hin1 hh.1 hh.2
      have d12 : ¬(Inside (pos c) (pos a) (pos v) q ∧ Inside (pos a) (pos b) (pos v) q) :=
        fun hh => divide_apart hin2 hh.1 hh.2
      have d20 : ¬(Inside (pos a) (pos b) (pos v) q ∧ Inside (pos b) (pos c) (pos v) q) :=
        fun hh => divide_apart hin' hh.1 hh.2
      simp only [Finset.mem_insert, Finset.mem_singleton, forall_eq_or_imp, forall_eq]
      rw [n0, n1, n2]
      grind
  · intro q hq
    refine cover_replace ?_ ?_ (hg.cover q hq)
    · intro t ht _
      unfold WithinT
      rw [htv0 t ht]
      exact id
    · simp only [Finset.mem_insert, Finset.mem_singleton, exists_eq_or_imp, exists_eq_left]
      rw [w0, z0, z1, z2]
      exact divide_covers hin'

/-- The test of a point in a triangle, for points no three of which are on a line. -/
theorem inside_of_test {a b c p : V2} (h : isInsideTriangle a b c p) (h0 : area a b c ≠ 0) (h1 : area a b p ≠ 0)
    (h2 : area a c p ≠ 0) (h3 : area b c p ≠ 0) : Inside a b c p := by
  obtain ⟨k1, k2, k3⟩ := h
  unfold isSameSide at k1 k2 k3
  simp only [cross_area] at k1 k2 k3
  have e1 : area a c b = -area a b c := by unfold area; ring
  have e2 : area b c a = area a b c := by unfold area; ring
  rw [e1] at k2
  rw [e2] at k3
  refine ⟨?_, ?_, ?_⟩
  · rw [show area p b c = area b c p from by unfold area; ring]
    exact lt_of_le_of_ne (by linarith) (mul_ne_zero h0 h3).symm
  · rw [show area a p c = -area a c p from by unfold area; ring]
    exact lt_of_le_of_ne (by linarith) (mul_ne_zero h0 (neg_ne_zero.2 h2)).symm
  · exact lt_of_le_of_ne (by linarith) (mul_ne_zero h0 h1).symm

theorem geo_initial (pos : Nat → V2) {M : Nat} (hM : 3 ≤ M) : Geo pos M (vset []) initial {0, 1, 2} {0} := by
  have hv : ∀ v, v ∈ vset [] ↔ v < 3 := by intro v; rw [mem_vset]; simp
  refine ⟨fun v h => lt_of_lt_of_le ((hv v).1 h) hM, ?_, fun v h => (hv v).2 h, ?_, ?_⟩
  · intro e _ t0 t1 c d _ h1
    exact absurd h1 (by simp [initial])
  · intro q _
    refine ⟨⟨fun h => ⟨0, by simp, h⟩, ?_⟩, ?_⟩
    · rintro ⟨t, ht, h⟩
      exact h
    · intro t ht t' ht' _ _
      rw [Finset.mem_singleton] at ht ht'
      rw [ht, ht']
  · intro q h
    exact ⟨0, by simp, h⟩

/-- The operations keep the geometric invariant. -/
theorem keeps_geo (pos : Nat → V2) (e1 e2 : ℝ) (N : Nat) (hN : NonCol pos (3 + N))
    (hA : Apart (predsAt pos e1 e2) N) : Keeps (predsAt pos e1 e2) (fun v => v < 3 + N) (Geo pos (3 + N)) := by
  constructor
  · intro V m AE AT e t0 t1 c d fa0 fb0 fa1 fb1 h hg he h0 h1 a0 a1 hconv _ _
    refine geo_flip hN h hg he h0 h1 a0 a1 ?_
    simpa [predsAt] using hconv
  · intro V m AE AT t v x0 x1 x2 m' h hg hv hadm ht hc _ hon hcont hd
    refine geo_tri hN h hg hv hadm ht hc ?_ hd
    have hin : isInsideTriangle (pos (m.tv t 0)) (pos (m.tv t 1)) (pos (m.tv t 2)) (pos v) := by
      unfold doesContain at hcont
      rw [Bool.or_eq_true] at hcont
      rcases hcont with hcont | hcont
      · rw [List.any_eq_true] at hcont
        obtain ⟨x, hx, hx'⟩ := hcont
        rw [hon x hx] at hx'
        cases hx'
      · simpa [predsAt, queryAt] using hcont
    have hne : ∀ i, m.tv t i ≠ v := fun i hh => hv (hh ▸ corner_mem h ht i)
    have hlt : ∀ i, m.tv t i < 3 + N := fun i => hg.lt _ (corner_mem h ht i)
    have hij : ∀ i j, i ≠ j → m.tv t i ≠ m.tv t j := fun i j hh h' => hh (h.inj t ht h')
    exact inside_of_test hin
      (hN _ _ _ (hlt 0) (hlt 1) (hlt 2) (hij 0 1 (by decide)) (hij 0 2 (by decide)) (hij 1 2 (by decide)))
      (hN _ _ _ (hlt 0) (hlt 1) hadm (hij 0 1 (by decide)) (hne 0) (hne 1))
      (hN _ _ _ (hlt 0) (hlt 2) hadm (hij 0 2 (by decide)) (hne 0) (hne 2))
      (hN _ _ _ (hlt 1) (hlt 2) hadm (hij 1 2 (by decide)) (hne 1) (hne 2))
  · intro V m AE AT e t0 t1 v c d fa0 fb0 fa1 fb1 m' h hg hv hadm he h0 h1 a0 a1 hon
    exfalso
    have hv3 : 3 ≤ v := by
      by_contra hh
      exact hv (hg.base v (by omega))
    have hne : ∀ s, m.ev e s ≠ v := fun s hh => hv (hh ▸ h.endV e he s)
    rw [hA.onEdge v _ _ hv3 hadm (hg.lt _ (h.endV e he 0)) (hg.lt _ (h.endV e he 1)) (hne 0) (hne 1) (h.ends e he)]
      at hon
    cases hon

end Mdso.Tri
