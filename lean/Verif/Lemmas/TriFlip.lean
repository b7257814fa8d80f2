import Verif.Lemmas.TriOps

/-!
# Flipping an edge keeps the mesh consistent
-/

set_option autoImplicit false

namespace Mdso.Tri

/-- The mesh after a flip, field by field. -/
structure Flipped (m m' : Mesh) (AE : Finset Nat) (e t0 t1 c d fa0 fb0 fa1 fb1 : Nat) : Prop where
  ne : m'.ne = m.ne + 1
  nt : m'.nt = m.nt + 2
  ev : ∀ f, f ≠ m.ne → m'.ev f = m.ev f
  evN : m'.ev m.ne = ![c, d]
  etN : m'.et m.ne = ![some m.nt, some (m.nt + 1)]
  tv : ∀ t, t < m.nt → m'.tv t = m.tv t
  tv0 : m'.tv m.nt = ![c, d, m.ev e 0]
  tv1 : m'.tv (m.nt + 1) = ![c, d, m.ev e 1]
  te : ∀ t, t < m.nt → m'.te t = m.te t
  te0 : m'.te m.nt = ![fa0, fa1, m.ne]
  te1 : m'.te (m.nt + 1) = ![fb0, fb1, m.ne]
  etA0 : ∀ s, m.et fa0 s = some t0 → m'.et fa0 s = some m.nt
  etB0 : ∀ s, m.et fb0 s = some t0 → m'.et fb0 s = some (m.nt + 1)
  etA1 : ∀ s, m.et fa1 s = some t1 → m'.et fa1 s = some m.nt
  etB1 : ∀ s, m.et fb1 s = some t1 → m'.et fb1 s = some (m.nt + 1)
  et : ∀ f ∈ AE, f ≠ e → ∀ s, m.et f s ≠ some t0 → m.et f s ≠ some t1 → m'.et f s = m.et f s
  vE : ∀ v f, f ∈ m'.vE v ↔ ((v = c ∨ v = d) ∧ f = m.ne) ∨
    (f ∈ m.vE v ∧ ¬((v = m.ev e 0 ∨ v = m.ev e 1) ∧ f = e))
  vT : ∀ v t, t ∈ m'.vT v ↔ ((v = c ∨ v = d ∨ v = m.ev e 0) ∧ t = m.nt) ∨
    ((v = c ∨ v = d ∨ v = m.ev e 1) ∧ t = m.nt + 1) ∨
    (t ∈ m.vT v ∧ ¬((v = m.ev e 0 ∨ v = m.ev e 1 ∨ v = c) ∧ t = t0) ∧
      ¬((v = m.ev e 0 ∨ v = m.ev e 1 ∨ v = d) ∧ t = t1))

/-- The edges at the vertices after a flip. -/
theorem flipSets_vE (m : Mesh) {e a b c d t0 t1 n i0 i1 : Nat} (hen : e ≠ n) (v f : Nat) :
    f ∈ (flipSets m e a b c d t0 t1 n i0 i1).vE v ↔
      ((v = c ∨ v = d) ∧ f = n) ∨ (f ∈ m.vE v ∧ ¬((v = a ∨ v = b) ∧ f = e)) := by
  unfold flipSets
  simp only [mem_insertE, mem_eraseE, insertT_vE, eraseT_vE]
  grind

/-- The triangles at the vertices after a flip. -/
theorem flipSets_vT (m : Mesh) {e a b c d t0 t1 n i0 i1 : Nat} (h00 : t0 ≠ i0) (h01 : t0 ≠ i1) (h10 : t1 ≠ i0)
    (h11 : t1 ≠ i1) (v t : Nat) : t ∈ (flipSets m e a b c d t0 t1 n i0 i1).vT v ↔
      ((v = c ∨ v = d ∨ v = a) ∧ t = i0) ∨ ((v = c ∨ v = d ∨ v = b) ∧ t = i1) ∨
      (t ∈ m.vT v ∧ ¬((v = a ∨ v = b ∨ v = c) ∧ t = t0) ∧ ¬((v = a ∨ v = b ∨ v = d) ∧ t = t1)) := by
  unfold flipSets
  simp only [mem_insertT, mem_eraseT, insertE_vT, eraseE_vT]
  grind

theorem flip_flipped {m : Mesh} {V AE AT : Finset Nat} (h : Inv m V AE AT) {e t0 t1 c d fa0 fb0 fa1 fb1 : Nat}
    (he : e ∈ AE) (h0 : m.et e 0 = some t0) (h1 : m.et e 1 = some t1) (a0 : At m t0 e c fa0 fb0)
    (a1 : At m t1 e d fa1 fb1) :
    Flipped m (flip m e t0 t1 c d) AE e t0 t1 c d fa0 fb0 fa1 fb1 := by
  obtain ⟨ht0, -⟩ := h.slot e he 0 t0 h0
  obtain ⟨ht1, -⟩ := h.slot e he 1 t1 h1
  have ht0l := h.tLt t0 ht0
  have ht1l := h.tLt t1 ht1
  have hel := h.eLt e he
  have hab := h.ends e he
  have htt : t0 ≠ t1 := fun hh => h.two e he (by rw [h0, h1, hh])
  have hmem : ∀ t ∈ AT, ∀ x ∈ sides m t, x ∈ AE ∧ ∃ s, m.et x s = some t := by
    intro t ht x hx
    obtain ⟨i, rfl⟩ := mem_sides.1 hx
    exact h.side t ht i
  obtain ⟨a, ha⟩ : ∃ a, m.ev e 0 = a := ⟨_, rfl⟩
  obtain ⟨b, hb⟩ : ∃ b, m.ev e 1 = b := ⟨_, rfl⟩
  have a0ca := a0.ca
  have a1ca := a1.ca
  have a0endA := a0.endA
  have a0endB := a0.endB
  have a1endA := a1.endA
  have a1endB := a1.endB
  rw [ha] at a0ca a1ca a0endA a1endA
  rw [hb] at a0endB a1endB
  rw [ha, hb] at hab
  obtain ⟨m1, hm1⟩ : ∃ x, x = newTri (newTri (newEdge m c d m.nt (m.nt + 1)) c d a 0 0 m.ne) c d b 0 0 m.ne := ⟨_, rfl⟩
  obtain ⟨m2, hm2⟩ : ∃ x, x = (sides m t0).foldl (flipSide e t0 a m.nt (m.nt + 1) 0) m1 := ⟨_, rfl⟩
  obtain ⟨m3, hm3⟩ : ∃ x, x = (sides m t1).foldl (flipSide e t1 a m.nt (m.nt + 1) 1) m2 := ⟨_, rfl⟩
  have hflip : flip m e t0 t1 c d = flipSets m3 e a b c d t0 t1 m.ne m.nt (m.nt + 1) := by
    rw [hm3, hm2, hm1, ← ha, ← hb]
    rfl
  obtain ⟨f2ne, f2nt, f2ev, f2tv, f2vE, f2vT⟩ := flipFold_fields e t0 a m.nt (m.nt + 1) 0 (sides m t0) m1
  obtain ⟨f3ne, f3nt, f3ev, f3tv, f3vE, f3vT⟩ := flipFold_fields e t1 a m.nt (m.nt + 1) 1 (sides m t1) m2
  rw [← hm2] at f2ne f2nt f2ev f2tv f2vE f2vT
  rw [← hm3] at f3ne f3nt f3ev f3tv f3vE f3vT
  have m1ev : ∀ f, f ≠ m.ne → m1.ev f = m.ev f := by
    intro f hf
    rw [hm1]
    show Function.update m.ev m.ne _ f = _
    rw [Function.update_of_ne hf]
  have m1et : ∀ f, f ≠ m.ne → m1.et f = m.et f := by
    intro f hf
    rw [hm1]
    show Function.update m.et m.ne _ f = _
    rw [Function.update_of_ne hf]
  have hend : ∀ x ∈ AE, isEnd m1 a x = isEnd m a x := by
    intro x hx
    unfold isEnd
    rw [m1ev x (h.eLt x hx).ne]
  have hend2 : ∀ x ∈ AE, isEnd m2 a x = isEnd m a x := by
    intro x hx
    rw [← hend x hx]
    unfold isEnd
    rw [f2ev]
  have hfa0 : fa0 ∈ AE ∧ ∃ s, m.et fa0 s = some t0 := hmem t0 ht0 _ ((a0.sides _).2 (.inr (.inl rfl)))
  have hfb0 : fb0 ∈ AE ∧ ∃ s, m.et fb0 s = some t0 := hmem t0 ht0 _ ((a0.sides _).2 (.inr (.inr rfl)))
  have hfa1 : fa1 ∈ AE ∧ ∃ s, m.et fa1 s = some t1 := hmem t1 ht1 _ ((a1.sides _).2 (.inr (.inl rfl)))
  have hfb1 : fb1 ∈ AE ∧ ∃ s, m.et fb1 s = some t1 := hmem t1 ht1 _ ((a1.sides _).2 (.inr (.inr rfl)))
  have ea0 : isEnd m a fa0 = true := isEnd_iff.2 ((a0endA _).2 (.inl rfl))
  have ea1 : isEnd m a fa1 = true := isEnd_iff.2 ((a1endA _).2 (.inl rfl))
  have eb0 : isEnd m a fb0 = false := by
    rw [Bool.eq_false_iff]
    intro hh
    rcases (a0endB _).1 (isEnd_iff.1 hh) with h2 | h2
    · exact hab h2
    · exact a0ca h2.symm
  have eb1 : isEnd m a fb1 = false := by
    rw [Bool.eq_false_iff]
    intro hh
    rcases (a1endB _).1 (isEnd_iff.1 hh) with h2 | h2
    · exact hab h2
    · exact a1ca h2.symm
  -- the entries of the two loops
  have hnd0 := nodup_sides h ht0
  have hnd1 := nodup_sides h ht1
  obtain ⟨L0, hL0⟩ : ∃ x, x = flipEntries m1 e t0 a m.nt (m.nt + 1) (sides m t0) := ⟨_, rfl⟩
  obtain ⟨L1, hL1⟩ : ∃ x, x = flipEntries m2 e t1 a m.nt (m.nt + 1) (sides m t1) := ⟨_, rfl⟩
  have hLmem : ∀ r, r ∈ L0 ++ L1 ↔ r = (fa0, t0, m.nt) ∨ r = (fb0, t0, m.nt + 1) ∨ r = (fa1, t1, m.nt) ∨
      r = (fb1, t1, m.nt + 1) := by
    intro r
    rw [List.mem_append, hL0, hL1]
    unfold flipEntries
    simp only [List.mem_map, List.mem_filter, a0.sides, a1.sides, bne_iff_ne]
    constructor
    · rintro (⟨x, ⟨hx, hxe⟩, rfl⟩ | ⟨x, ⟨hx, hxe⟩, rfl⟩)
      · rcases hx with rfl | rfl | rfl
        · exact absurd rfl hxe
        · left; rw [hend _ hfa0.1, ea0]; rfl
        · right; left; rw [hend _ hfb0.1, eb0]; rfl
      · rcases hx with rfl | rfl | rfl
        · exact absurd rfl hxe
        · right; right; left; rw [hend2 _ hfa1.1, ea1]; rfl
        · right; right; right; rw [hend2 _ hfb1.1, eb1]; rfl
    · rintro (rfl | rfl | rfl | rfl)
      · exact .inl ⟨fa0, ⟨.inr (.inl rfl), a0.fae⟩, by rw [hend _ hfa0.1, ea0]; rfl⟩
      · exact .inl ⟨fb0, ⟨.inr (.inr rfl), a0.fbe⟩, by rw [hend _ hfb0.1, eb0]; rfl⟩
      · exact .inr ⟨fa1, ⟨.inr (.inl rfl), a1.fae⟩, by rw [hend2 _ hfa1.1, ea1]; rfl⟩
      · exact .inr ⟨fb1, ⟨.inr (.inr rfl), a1.fbe⟩, by rw [hend2 _ hfb1.1, eb1]; rfl⟩
  have hLAE : ∀ r ∈ L0 ++ L1, r.1 ∈ AE ∧ ∃ s, m.et r.1 s = some r.2.1 := by
    intro r hr
    rcases (hLmem r).1 hr with rfl | rfl | rfl | rfl
    · exact hfa0
    · exact hfb0
    · exact hfa1
    · exact hfb1
  have m3et : m3.et = (replAll m1 (L0 ++ L1)).et := by
    rw [hm3, flipFold_et, ← hL1]
    have : (replAll m1 (L0 ++ L1)) = replAll (replAll m1 L0) L1 := by
      unfold replAll; rw [List.foldl_append]
    rw [this]
    apply replAll_et_congr
    rw [hm2, flipFold_et, hL0]
  have hLnd : ((L0 ++ L1).map fun r => (r.1, r.2.1)).Nodup := by
    rw [List.map_append]
    have hmap : ∀ (mm : Mesh) (t : Nat), (flipEntries mm e t a m.nt (m.nt + 1) (sides m t)).map
        (fun r => (r.1, r.2.1)) = ((sides m t).filter fun x => x != e).map fun x => (x, t) := by
      intro mm t; unfold flipEntries; rw [List.map_map]; rfl
    rw [hL0, hL1, hmap, hmap]
    apply List.Nodup.append
    · exact (hnd0.filter _).map fun x y hxy => (Prod.mk.inj hxy).1
    · exact (hnd1.filter _).map fun x y hxy => (Prod.mk.inj hxy).1
    · intro q hq hq'
      obtain ⟨x, -, rfl⟩ := List.mem_map.1 hq
      obtain ⟨y, -, hy⟩ := List.mem_map.1 hq'
      exact htt (Prod.mk.inj hy).2.symm
  have hne1 : ∀ r ∈ L0 ++ L1, m1.et r.1 = m.et r.1 := fun r hr => m1et _ (h.eLt _ (hLAE r hr).1).ne
  obtain ⟨hhit, hmiss⟩ := replAll_spec (L0 ++ L1) m1
    (fun r hr => by rw [hne1 r hr]; exact h.two _ (hLAE r hr).1)
    (fun r hr => by rw [hne1 r hr]; exact (hLAE r hr).2) hLnd
    (by
      intro r hr r' hr'
      rcases (hLmem r).1 hr with rfl | rfl | rfl | rfl <;> rcases (hLmem r').1 hr' with rfl | rfl | rfl | rfl <;>
        simp only [ne_eq] <;> omega)
  have hhit' : ∀ x t n, (x, t, n) ∈ L0 ++ L1 → ∀ s, m.et x s = some t → m3.et x s = some n := by
    intro x t n hr s hs
    rw [m3et]
    exact hhit (x, t, n) hr s (by rw [hne1 (x, t, n) hr]; exact hs)
  have hte2 : ∀ t k, ((t ≠ m.nt ∧ t ≠ m.nt + 1) ∨ k ≠ 0) → m2.te t k = m1.te t k :=
    fun t k hh => hm2 ▸ flipFold_te_other e t0 a m.nt (m.nt + 1) 0 (sides m t0) m1 t k hh
  have hte3 : ∀ t k, ((t ≠ m.nt ∧ t ≠ m.nt + 1) ∨ k ≠ 1) → m3.te t k = m2.te t k :=
    fun t k hh => hm3 ▸ flipFold_te_other e t1 a m.nt (m.nt + 1) 1 (sides m t1) m2 t k hh
  have hnn : m.nt ≠ m.nt + 1 := by omega
  have q00 : m2.te m.nt 0 = fa0 := by
    rw [hm2]
    apply flipFold_te e t0 a m.nt (m.nt + 1) 0 (sides m t0) m1 fa0 m.nt a0.fae
    · rw [hend _ hfa0.1, ea0]; rfl
    · exact .inl ((a0.sides _).2 (.inr (.inl rfl)))
    · intro y hy hye hyt
      rcases (a0.sides y).1 hy with rfl | rfl | rfl
      · exact absurd rfl hye
      · rfl
      · rw [hend _ hfb0.1, eb0] at hyt; exact absurd hyt.symm hnn
  have q10 : m2.te (m.nt + 1) 0 = fb0 := by
    rw [hm2]
    apply flipFold_te e t0 a m.nt (m.nt + 1) 0 (sides m t0) m1 fb0 (m.nt + 1) a0.fbe
    · rw [hend _ hfb0.1, eb0]; rfl
    · exact .inl ((a0.sides _).2 (.inr (.inr rfl)))
    · intro y hy hye hyt
      rcases (a0.sides y).1 hy with rfl | rfl | rfl
      · exact absurd rfl hye
      · rw [hend _ hfa0.1, ea0] at hyt; exact absurd hyt hnn
      · rfl
  have q01 : m3.te m.nt 1 = fa1 := by
    rw [hm3]
    apply flipFold_te e t1 a m.nt (m.nt + 1) 1 (sides m t1) m2 fa1 m.nt a1.fae
    · rw [hend2 _ hfa1.1, ea1]; rfl
    · exact .inl ((a1.sides _).2 (.inr (.inl rfl)))
    · intro y hy hye hyt
      rcases (a1.sides y).1 hy with rfl | rfl | rfl
      · exact absurd rfl hye
      · rfl
      · rw [hend2 _ hfb1.1, eb1] at hyt; exact absurd hyt.symm hnn
  have q11 : m3.te (m.nt + 1) 1 = fb1 := by
    rw [hm3]
    apply flipFold_te e t1 a m.nt (m.nt + 1) 1 (sides m t1) m2 fb1 (m.nt + 1) a1.fbe
    · rw [hend2 _ hfb1.1, eb1]; rfl
    · exact .inl ((a1.sides _).2 (.inr (.inr rfl)))
    · intro y hy hye hyt
      rcases (a1.sides y).1 hy with rfl | rfl | rfl
      · exact absurd rfl hye
      · rw [hend2 _ hfa1.1, ea1] at hyt; exact absurd hyt hnn
      · rfl
  have m1te0 : m1.te m.nt 2 = m.ne := by
    rw [hm1]
    show Function.update (Function.update m.te m.nt _) (m.nt + 1) _ m.nt 2 = _
    rw [Function.update_of_ne hnn, Function.update_self]; rfl
  have m1te1 : m1.te (m.nt + 1) 2 = m.ne := by
    rw [hm1]
    show Function.update (Function.update m.te m.nt _) (m.nt + 1) _ (m.nt + 1) 2 = _
    rw [Function.update_self]; rfl
  have m1tv : ∀ t, t < m.nt → m1.tv t = m.tv t := by
    intro t ht
    rw [hm1]
    show Function.update (Function.update m.tv m.nt _) (m.nt + 1) _ t = _
    rw [Function.update_of_ne (by omega), Function.update_of_ne (by omega)]
  have m1te : ∀ t, t < m.nt → m1.te t = m.te t := by
    intro t ht
    rw [hm1]
    show Function.update (Function.update m.te m.nt _) (m.nt + 1) _ t = _
    rw [Function.update_of_ne (by omega), Function.update_of_ne (by omega)]
  rw [hflip]
  obtain ⟨gne, gnt, gev, get, gtv, gte⟩ := flipSets_same m3 e a b c d t0 t1 m.ne m.nt (m.nt + 1)
  constructor
  · rw [gne, f3ne, f2ne, hm1]; rfl
  · rw [gnt, f3nt, f2nt, hm1]; rfl
  · intro f hf; rw [gev, f3ev, f2ev, m1ev f hf]
  · rw [gev, f3ev, f2ev, hm1]; exact Function.update_self _ _ _
  · rw [get, m3et]
    have : ∀ s, (replAll m1 (L0 ++ L1)).et m.ne s = m1.et m.ne s := by
      intro s
      apply hmiss
      intro r hr hh
      exact absurd hh (h.eLt _ (hLAE r hr).1).ne
    rw [funext this, hm1]
    exact Function.update_self _ _ _
  · intro t ht; rw [gtv, f3tv, f2tv, m1tv t ht]
  · rw [gtv, f3tv, f2tv]
    rw [hm1]
    show Function.update (Function.update m.tv m.nt _) (m.nt + 1) _ m.nt = _
    rw [Function.update_of_ne hnn, Function.update_self, ha]; rfl
  · rw [gtv, f3tv, f2tv]
    rw [hm1]
    show Function.update (Function.update m.tv m.nt _) (m.nt + 1) _ (m.nt + 1) = _
    rw [Function.update_self, hb]; rfl
  · intro t ht
    rw [gte]
    funext k
    rw [hte3 t k (.inl ⟨by omega, by omega⟩), hte2 t k (.inl ⟨by omega, by omega⟩), m1te t ht]
  · rw [gte]
    funext k
    fin_cases k
    · exact (hte3 m.nt 0 (.inr (by decide))).trans q00
    · exact q01
    · exact ((hte3 m.nt 2 (.inr (by decide))).trans (hte2 m.nt 2 (.inr (by decide)))).trans m1te0
  · rw [gte]
    funext k
    fin_cases k
    · exact (hte3 (m.nt + 1) 0 (.inr (by decide))).trans q10
    · exact q11
    · exact ((hte3 (m.nt + 1) 2 (.inr (by decide))).trans (hte2 (m.nt + 1) 2 (.inr (by decide)))).trans m1te1
  · intro s hs; rw [get]; exact hhit' _ _ _ ((hLmem _).2 (.inl rfl)) s hs
  · intro s hs; rw [get]; exact hhit' _ _ _ ((hLmem _).2 (.inr (.inl rfl))) s hs
  · intro s hs; rw [get]; exact hhit' _ _ _ ((hLmem _).2 (.inr (.inr (.inl rfl)))) s hs
  · intro s hs; rw [get]; exact hhit' _ _ _ ((hLmem _).2 (.inr (.inr (.inr rfl)))) s hs
  · intro f hf hfe s hs0 hs1
    rw [get, m3et, hmiss f s, m1et f (h.eLt f hf).ne]
    intro r hr hrf
    rw [m1et f (h.eLt f hf).ne]
    rcases (hLmem r).1 hr with rfl | rfl | rfl | rfl
    · exact hs0
    · exact hs0
    · exact hs1
    · exact hs1
  · intro v f
    have hm3E : m3.vE = m.vE := by rw [f3vE, f2vE, hm1]; rfl
    rw [flipSets_vE m3 (by omega), hm3E, ha, hb]
  · intro v t
    have hm3T : m3.vT = m.vT := by rw [f3vT, f2vT, hm1]; rfl
    rw [flipSets_vT m3 (by omega) (by omega) (by omega) (by omega), hm3T, ha, hb]

/-- Flipping an edge with different vertices on its two sides. -/
theorem Flipped.inv {m m' : Mesh} {V AE AT : Finset Nat} (h : Inv m V AE AT) {e t0 t1 c d fa0 fb0 fa1 fb1 : Nat}
    (he : e ∈ AE) (h0 : m.et e 0 = some t0) (h1 : m.et e 1 = some t1) (a0 : At m t0 e c fa0 fb0)
    (a1 : At m t1 e d fa1 fb1) (hcd : c ≠ d) (hf : Flipped m m' AE e t0 t1 c d fa0 fb0 fa1 fb1) :
    Inv m' V ((AE \ {e}) ∪ {m.ne}) ((AT \ {t0, t1}) ∪ {m.nt, m.nt + 1}) := by
  obtain ⟨ht0, -⟩ := h.slot e he 0 t0 h0
  obtain ⟨ht1, -⟩ := h.slot e he 1 t1 h1
  have ht0l := h.tLt t0 ht0
  have ht1l := h.tLt t1 ht1
  have hel := h.eLt e he
  have hab := h.ends e he
  have htt : t0 ≠ t1 := fun hh => h.two e he (by rw [h0, h1, hh])
  have hmem : ∀ t ∈ AT, ∀ x ∈ sides m t, x ∈ AE ∧ ∃ s, m.et x s = some t := by
    intro t ht x hx
    obtain ⟨i, rfl⟩ := mem_sides.1 hx
    exact h.side t ht i
  have hfa0 : fa0 ∈ AE ∧ ∃ s, m.et fa0 s = some t0 := hmem t0 ht0 _ ((a0.sides _).2 (.inr (.inl rfl)))
  have hfb0 : fb0 ∈ AE ∧ ∃ s, m.et fb0 s = some t0 := hmem t0 ht0 _ ((a0.sides _).2 (.inr (.inr rfl)))
  have hfa1 : fa1 ∈ AE ∧ ∃ s, m.et fa1 s = some t1 := hmem t1 ht1 _ ((a1.sides _).2 (.inr (.inl rfl)))
  have hfb1 : fb1 ∈ AE ∧ ∃ s, m.et fb1 s = some t1 := hmem t1 ht1 _ ((a1.sides _).2 (.inr (.inr rfl)))
  have hcA : c ∈ V := by
    obtain ⟨s, hs⟩ := (a0.endA c).2 (.inr rfl)
    exact hs ▸ h.endV fa0 hfa0.1 s
  have hdA : d ∈ V := by
    obtain ⟨s, hs⟩ := (a1.endA d).2 (.inr rfl)
    exact hs ▸ h.endV fa1 hfa1.1 s
  have hevo : ∀ f ∈ AE, m'.ev f = m.ev f := fun f hf' => hf.ev f (h.eLt f hf').ne
  -- the triangle at an edge given by an old one
  have hsideof : ∀ f ∈ AE, ∀ s t, m.et f s = some t → f ∈ sides m t := by
    intro f hf' s t hs
    exact mem_sides.2 (h.slot f hf' s t hs).2
  have eb0 : ¬ ∃ s, m.ev fb0 s = m.ev e 0 := by
    intro hh
    rcases (a0.endB _).1 hh with h2 | h2
    · exact hab h2
    · exact a0.ca h2.symm
  have eb1 : ¬ ∃ s, m.ev fb1 s = m.ev e 0 := by
    intro hh
    rcases (a1.endB _).1 hh with h2 | h2
    · exact hab h2
    · exact a1.ca h2.symm
  have ea0 : ∃ s, m.ev fa0 s = m.ev e 0 := (a0.endA _).2 (.inl rfl)
  have ea1 : ∃ s, m.ev fa1 s = m.ev e 0 := (a1.endA _).2 (.inl rfl)
  have hnoboth : ∀ f, f ≠ e → f ∈ sides m t0 → f ∈ sides m t1 → False := by
    intro f hfe hf0 hf1
    have k0 : (∃ s, m.ev f s = c) := by
      rcases (a0.sides f).1 hf0 with rfl | rfl | rfl
      · exact absurd rfl hfe
      · exact (a0.endA _).2 (.inr rfl)
      · exact (a0.endB _).2 (.inr rfl)
    rcases (a1.sides f).1 hf1 with rfl | rfl | rfl
    · exact hfe rfl
    · rcases (a1.endA _).1 k0 with hh | hh
      · exact a0.ca hh
      · exact hcd hh
    · rcases (a1.endB _).1 k0 with hh | hh
      · exact a0.cb hh
      · exact hcd hh
  classical
  refine Inv.replace h (fun f _ => if ∃ s, m.ev f s = m.ev e 0 then m.nt else m.nt + 1) (subset_refl V)
    (by rw [hf.ne]; omega) (by rw [hf.nt]; omega) ?_ ?_ ?_ ?_ ?_ ?_ ?_ ?_ ?_ ?_ ?_ ?_ ?_ ?_ ?_ ?_ ?_ ?_ ?_
  · intro y hy
    rw [Finset.mem_singleton.1 hy, hf.ne]
    omega
  · intro n hn
    rw [Finset.mem_insert, Finset.mem_singleton] at hn
    rw [hf.nt]
    omega
  · intro x hx t s hs
    rw [Finset.mem_singleton.1 hx] at hs
    rw [Finset.mem_insert, Finset.mem_singleton]
    fin_cases s
    · exact .inl (Option.some.inj (hs.symm.trans h0))
    · exact .inr (Option.some.inj (hs.symm.trans h1))
  · intro f hf' _
    exact hevo f hf'
  · intro t ht _
    exact hf.tv t (h.tLt t ht)
  · intro t ht _
    exact hf.te t (h.tLt t ht)
  · intro f hf' hfe s hs
    exact hf.et f hf' (by simpa using hfe) s (hs t0 (by simp)) (hs t1 (by simp))
  · intro f hf' hfe s t ht hs
    have hfe' : f ≠ e := by simpa using hfe
    rw [Finset.mem_insert, Finset.mem_singleton] at ht
    rcases ht with rfl | rfl
    · rcases (a0.sides f).1 (hsideof f hf' s _ hs) with rfl | rfl | rfl
      · exact absurd rfl hfe'
      · simp only [if_pos ea0]
        exact ⟨hf.etA0 s hs, by simp, 0, by rw [hf.te0]; rfl⟩
      · simp only [if_neg eb0]
        exact ⟨hf.etB0 s hs, by simp, 0, by rw [hf.te1]; rfl⟩
    · rcases (a1.sides f).1 (hsideof f hf' s _ hs) with rfl | rfl | rfl
      · exact absurd rfl hfe'
      · simp only [if_pos ea1]
        exact ⟨hf.etA1 s hs, by simp, 1, by rw [hf.te0]; rfl⟩
      · simp only [if_neg eb1]
        exact ⟨hf.etB1 s hs, by simp, 1, by rw [hf.te1]; rfl⟩
  · intro f hf' hfe t ht t' ht' hs hs'
    exfalso
    have hfe' : f ≠ e := by simpa using hfe
    have hne : t ≠ t' := fun hh => h.two f hf' (by rw [hs, hs', hh])
    have k0 := hsideof f hf' 0 t hs
    have k1 := hsideof f hf' 1 t' hs'
    rw [Finset.mem_insert, Finset.mem_singleton] at ht ht'
    rcases ht with rfl | rfl <;> rcases ht' with rfl | rfl
    · exact hne rfl
    · exact hnoboth f hfe' k0 k1
    · exact hnoboth f hfe' k1 k0
    · exact hne rfl
  · intro y hy
    rw [Finset.mem_singleton.1 hy, hf.evN]
    exact hcd
  · intro y hy s
    rw [Finset.mem_singleton.1 hy, hf.evN]
    fin_cases s
    · exact hcA
    · exact hdA
  · intro y hy s
    rw [Finset.mem_singleton.1 hy, hf.etN]
    fin_cases s
    · exact ⟨m.nt, by simp, rfl, 2, by rw [hf.te0]; rfl⟩
    · exact ⟨m.nt + 1, by simp, rfl, 2, by rw [hf.te1]; rfl⟩
  · intro y hy
    rw [Finset.mem_singleton.1 hy, hf.etN]
    simp
  · intro n hn i
    rw [Finset.mem_insert, Finset.mem_singleton] at hn
    have hin : ∀ f ∈ AE, f ≠ e → f ∈ (AE \ {e}) ∪ {m.ne} := by
      intro f hf' hfe
      simp [hf', hfe]
    rcases hn with rfl | rfl
    · rw [hf.te0]
      fin_cases i
      · exact ⟨hin _ hfa0.1 a0.fae, hfa0.2.imp fun s hs => hf.etA0 s hs⟩
      · exact ⟨hin _ hfa1.1 a1.fae, hfa1.2.imp fun s hs => hf.etA1 s hs⟩
      · exact ⟨by simp, 0, by show m'.et m.ne 0 = _; rw [hf.etN]; rfl⟩
    · rw [hf.te1]
      fin_cases i
      · exact ⟨hin _ hfb0.1 a0.fbe, hfb0.2.imp fun s hs => hf.etB0 s hs⟩
      · exact ⟨hin _ hfb1.1 a1.fbe, hfb1.2.imp fun s hs => hf.etB1 s hs⟩
      · exact ⟨by simp, 1, by show m'.et m.ne 1 = _; rw [hf.etN]; rfl⟩
  · intro n hn
    have h3 : ∀ x y z : Nat, x ≠ y → x ≠ z → y ≠ z → Function.Injective ![x, y, z] := by
      intro x y z h1 h2 h3
      clear * - h1 h2 h3
      intro i j hij
      fin_cases i <;> fin_cases j <;> simp_all
    rw [Finset.mem_insert, Finset.mem_singleton] at hn
    rcases hn with rfl | rfl
    · rw [hf.tv0]; exact h3 _ _ _ hcd a0.ca a1.ca
    · rw [hf.tv1]; exact h3 _ _ _ hcd a0.cb a1.cb
  · intro n hn i
    have hca := a0.ca
    have hcb := a0.cb
    have hda := a1.ca
    have hdb := a1.cb
    have evA0 : ∀ v, (∃ s, m'.ev fa0 s = v) ↔ v = m.ev e 0 ∨ v = c := by rw [hevo _ hfa0.1]; exact a0.endA
    have evA1 : ∀ v, (∃ s, m'.ev fa1 s = v) ↔ v = m.ev e 0 ∨ v = d := by rw [hevo _ hfa1.1]; exact a1.endA
    have evB0 : ∀ v, (∃ s, m'.ev fb0 s = v) ↔ v = m.ev e 1 ∨ v = c := by rw [hevo _ hfb0.1]; exact a0.endB
    have evB1 : ∀ v, (∃ s, m'.ev fb1 s = v) ↔ v = m.ev e 1 ∨ v = d := by rw [hevo _ hfb1.1]; exact a1.endB
    have evN : ∀ v, (∃ s, m'.ev m.ne s = v) ↔ v = c ∨ v = d := by
      intro v
      rw [ex_fin2, hf.evN]
      simp only [Matrix.cons_val_zero, Matrix.cons_val_one]
      tauto
    have hcor : ∀ x y z v : Nat, (∃ k, ![x, y, z] k = v) ↔ v = x ∨ v = y ∨ v = z := by
      intro x y z v
      rw [ex_fin3]
      simp only [Matrix.cons_val_zero, Matrix.cons_val_one, Matrix.cons_val]
      tauto
    rw [Finset.mem_insert, Finset.mem_singleton] at hn
    rcases hn with rfl | rfl
    · rw [hf.tv0, hf.te0]
      fin_cases i
      · refine ⟨1, fun v => ?_⟩
        rw [hcor]
        simp only [Matrix.cons_val_one, Matrix.cons_val_zero, Fin.zero_eta, evA1]
        constructor
        · rintro (rfl | rfl)
          · exact ⟨hca.symm, .inr (.inr rfl)⟩
          · exact ⟨hcd.symm, .inr (.inl rfl)⟩
        · rintro ⟨g1, g2 | g2 | g2⟩
          · exact absurd g2 g1
          · exact .inr g2
          · exact .inl g2
      · refine ⟨0, fun v => ?_⟩
        rw [hcor]
        simp only [Matrix.cons_val_one, Matrix.cons_val_zero, Fin.mk_one, evA0]
        constructor
        · rintro (rfl | rfl)
          · exact ⟨hda.symm, .inr (.inr rfl)⟩
          · exact ⟨hcd, .inl rfl⟩
        · rintro ⟨g1, g2 | g2 | g2⟩
          · exact .inr g2
          · exact absurd g2 g1
          · exact .inl g2
      · refine ⟨2, fun v => ?_⟩
        rw [hcor]
        simp only [Matrix.cons_val, Fin.reduceFinMk, evN]
        constructor
        · rintro (rfl | rfl)
          · exact ⟨hca, .inl rfl⟩
          · exact ⟨hda, .inr (.inl rfl)⟩
        · rintro ⟨g1, g2 | g2 | g2⟩
          · exact .inl g2
          · exact .inr g2
          · exact absurd g2 g1
    · rw [hf.tv1, hf.te1]
      fin_cases i
      · refine ⟨1, fun v => ?_⟩
        rw [hcor]
        simp only [Matrix.cons_val_one, Matrix.cons_val_zero, Fin.zero_eta, evB1]
        constructor
        · rintro (rfl | rfl)
          · exact ⟨hcb.symm, .inr (.inr rfl)⟩
          · exact ⟨hcd.symm, .inr (.inl rfl)⟩
        · rintro ⟨g1, g2 | g2 | g2⟩
          · exact absurd g2 g1
          · exact .inr g2
          · exact .inl g2
      · refine ⟨0, fun v => ?_⟩
        rw [hcor]
        simp only [Matrix.cons_val_one, Matrix.cons_val_zero, Fin.mk_one, evB0]
        constructor
        · rintro (rfl | rfl)
          · exact ⟨hdb.symm, .inr (.inr rfl)⟩
          · exact ⟨hcd, .inl rfl⟩
        · rintro ⟨g1, g2 | g2 | g2⟩
          · exact .inr g2
          · exact absurd g2 g1
          · exact .inl g2
      · refine ⟨2, fun v => ?_⟩
        rw [hcor]
        simp only [Matrix.cons_val, Fin.reduceFinMk, evN]
        constructor
        · rintro (rfl | rfl)
          · exact ⟨hcb, .inl rfl⟩
          · exact ⟨hdb, .inr (.inl rfl)⟩
        · rintro ⟨g1, g2 | g2 | g2⟩
          · exact .inl g2
          · exact .inr g2
          · exact absurd g2 g1
  · intro v f
    have hlt : f ∈ AE → f < m.ne := h.eLt f
    by_cases hfn : f = m.ne
    · have hN : (∃ s, m'.ev f s = v) ↔ v = c ∨ v = d := by
        rw [hfn, ex_fin2, hf.evN, eq_comm (b := v), eq_comm (b := v)]; rfl
      rw [hf.vE, h.vE, Finset.mem_union, Finset.mem_sdiff, Finset.mem_singleton, Finset.mem_singleton, hN]
      clear * - hlt hfn
      grind
    · have hE : (∃ s, m.ev e s = v) ↔ v = m.ev e 0 ∨ v = m.ev e 1 := by
        rw [ex_fin2, eq_comm (b := v), eq_comm (b := v)]
      rw [hf.vE, h.vE, hf.ev f hfn, Finset.mem_union, Finset.mem_sdiff, Finset.mem_singleton, Finset.mem_singleton]
      clear * - hE hfn
      constructor
      · rintro (h2 | ⟨⟨h2, h3⟩, h4⟩)
        · exact absurd h2.2 hfn
        · exact ⟨.inl ⟨h2, fun hh => h4 ⟨hE.1 (hh ▸ h3), hh⟩⟩, h3⟩
      · rintro ⟨h2 | h2, h3⟩
        · exact .inr ⟨⟨h2.1, h3⟩, fun h4 => h2.2 h4.2⟩
        · exact absurd h2 hfn
  · intro v t
    have hlt : t ∈ AT → t < m.nt := h.tLt t
    have hm : t ∈ AT \ {t0, t1} ∪ {m.nt, m.nt + 1} ↔ (t ∈ AT ∧ ¬(t = t0 ∨ t = t1)) ∨ t = m.nt ∨ t = m.nt + 1 := by
      simp only [Finset.mem_union, Finset.mem_sdiff, Finset.mem_insert, Finset.mem_singleton]
    rw [hf.vT, h.vT, hm]
    by_cases hn0 : t = m.nt
    · have hN : (∃ i, m'.tv t i = v) ↔ v = c ∨ v = d ∨ v = m.ev e 0 := by
        rw [hn0, ex_fin3, hf.tv0, eq_comm (b := v), eq_comm (b := v), eq_comm (b := v)]; rfl
      rw [hN]
      clear * - hlt hn0
      grind
    · by_cases hn1 : t = m.nt + 1
      · have hN : (∃ i, m'.tv t i = v) ↔ v = c ∨ v = d ∨ v = m.ev e 1 := by
          rw [hn1, ex_fin3, hf.tv1, eq_comm (b := v), eq_comm (b := v), eq_comm (b := v)]; rfl
        rw [hN]
        clear * - hlt hn1
        grind
      · have hc0 := a0.corner v
        have hc1 := a1.corner v
        have htv : t ∈ AT → m'.tv t = m.tv t := fun hh => hf.tv t (hlt hh)
        clear * - hc0 hc1 htv hn0 hn1
        constructor
        · rintro (h2 | h2 | ⟨⟨h2, h3⟩, h4, h5⟩)
          · exact absurd h2.2 hn0
          · exact absurd h2.2 hn1
          · refine ⟨.inl ⟨h2, ?_⟩, by rw [htv h2]; exact h3⟩
            rintro (hh | hh)
            · exact h4 ⟨hc0.1 (hh ▸ h3), hh⟩
            · exact h5 ⟨hc1.1 (hh ▸ h3), hh⟩
        · rintro ⟨h2 | h2 | h2, h3⟩
          · rw [htv h2.1] at h3
            exact .inr (.inr ⟨⟨h2.1, h3⟩, fun h4 => h2.2 (.inl h4.2), fun h4 => h2.2 (.inr h4.2)⟩)
          · exact absurd h2 hn0
          · exact absurd h2 hn1
  · intro v hv
    have hn : ∀ w, (w = c ∨ w = d ∨ w = m.ev e 0 → ∃ i, m'.tv m.nt i = w) ∧
        (w = c ∨ w = d ∨ w = m.ev e 1 → ∃ i, m'.tv (m.nt + 1) i = w) := by
      intro w
      rw [ex_fin3, hf.tv0, ex_fin3, hf.tv1]
      constructor
      · rintro (hh | hh | hh)
        · exact .inl hh.symm
        · exact .inr (.inl hh.symm)
        · exact .inr (.inr hh.symm)
      · rintro (hh | hh | hh)
        · exact .inl hh.symm
        · exact .inr (.inl hh.symm)
        · exact .inr (.inr hh.symm)
    obtain ⟨t, ht, hi⟩ := h.used v hv
    by_cases k : t = t0 ∨ t = t1
    · have hc : v = m.ev e 0 ∨ v = m.ev e 1 ∨ v = c ∨ v = d := by
        rcases k with rfl | rfl
        · rcases (a0.corner v).1 hi with hh | hh | hh
          · exact .inl hh
          · exact .inr (.inl hh)
          · exact .inr (.inr (.inl hh))
        · rcases (a1.corner v).1 hi with hh | hh | hh
          · exact .inl hh
          · exact .inr (.inl hh)
          · exact .inr (.inr (.inr hh))
      by_cases hb : v = m.ev e 1
      · exact ⟨m.nt + 1, by simp, (hn v).2 (.inr (.inr hb))⟩
      · refine ⟨m.nt, by simp, (hn v).1 ?_⟩
        clear * - hc hb
        grind
    · rw [not_or] at k
      refine ⟨t, by simp [ht, k.1, k.2], ?_⟩
      rw [hf.tv t (h.tLt t ht)]
      exact hi

end Mdso.Tri
