import Verif.Lemmas.TriMesh

/-!
# The updates of the mesh, field by field
-/

set_option autoImplicit false

namespace Mdso.Tri

section Sets
variable (m : Mesh) (v e w f t : Nat)

theorem mem_insertE : f ∈ (insertE m v e).vE w ↔ (w = v ∧ f = e) ∨ f ∈ m.vE w := by
  unfold insertE
  by_cases h : w = v
  · subst h; simp
  · simp [h]

theorem mem_eraseE : f ∈ (eraseE m v e).vE w ↔ ¬(w = v ∧ f = e) ∧ f ∈ m.vE w := by
  unfold eraseE
  by_cases h : w = v
  · subst h; simp
  · simp [h]

theorem mem_insertT : f ∈ (insertT m v t).vT w ↔ (w = v ∧ f = t) ∨ f ∈ m.vT w := by
  unfold insertT
  by_cases h : w = v
  · subst h; simp
  · simp [h]

theorem mem_eraseT : f ∈ (eraseT m v t).vT w ↔ ¬(w = v ∧ f = t) ∧ f ∈ m.vT w := by
  unfold eraseT
  by_cases h : w = v
  · subst h; simp
  · simp [h]

theorem insertE_vT : (insertE m v e).vT = m.vT := rfl
theorem eraseE_vT : (eraseE m v e).vT = m.vT := rfl
theorem insertT_vE : (insertT m v t).vE = m.vE := rfl
theorem eraseT_vE : (eraseT m v t).vE = m.vE := rfl

end Sets

/-- The two meshes differ only in the sets at the vertices. -/
structure SameButSets (m m' : Mesh) : Prop where
  ne : m'.ne = m.ne
  nt : m'.nt = m.nt
  ev : m'.ev = m.ev
  et : m'.et = m.et
  tv : m'.tv = m.tv
  te : m'.te = m.te

theorem SameButSets.refl (m : Mesh) : SameButSets m m := ⟨rfl, rfl, rfl, rfl, rfl, rfl⟩

section SameButSets
variable {m m' : Mesh} (h : SameButSets m m') (v x : Nat)
include h

theorem SameButSets.insertE : SameButSets m (insertE m' v x) := ⟨h.ne, h.nt, h.ev, h.et, h.tv, h.te⟩
theorem SameButSets.eraseE : SameButSets m (eraseE m' v x) := ⟨h.ne, h.nt, h.ev, h.et, h.tv, h.te⟩
theorem SameButSets.insertT : SameButSets m (insertT m' v x) := ⟨h.ne, h.nt, h.ev, h.et, h.tv, h.te⟩
theorem SameButSets.eraseT : SameButSets m (eraseT m' v x) := ⟨h.ne, h.nt, h.ev, h.et, h.tv, h.te⟩

end SameButSets

theorem flipSets_same (m : Mesh) (e a b c d t0 t1 n i0 i1 : Nat) :
    SameButSets m (flipSets m e a b c d t0 t1 n i0 i1) := by
  unfold flipSets
  repeat' first | apply SameButSets.insertE | apply SameButSets.eraseE | apply SameButSets.insertT |
    apply SameButSets.eraseT | exact SameButSets.refl m

theorem divideTriangleSets_same (m : Mesh) (t v a b c e0 e1 e2 t0 t1 t2 : Nat) :
    SameButSets m (divideTriangleSets m t v a b c e0 e1 e2 t0 t1 t2) := by
  unfold divideTriangleSets
  repeat' first | apply SameButSets.insertE | apply SameButSets.eraseE | apply SameButSets.insertT |
    apply SameButSets.eraseT | exact SameButSets.refl m

theorem divideEdgeSets_same (m : Mesh) (e v a b c d t0 t1 t00 t01 t10 t11 i0 i1 p0 p1 : Nat) :
    SameButSets m (divideEdgeSets m e v a b c d t0 t1 t00 t01 t10 t11 i0 i1 p0 p1) := by
  unfold divideEdgeSets
  repeat' first | apply SameButSets.insertE | apply SameButSets.eraseE | apply SameButSets.insertT |
    apply SameButSets.eraseT | exact SameButSets.refl m

/-- A sequence of replacements of triangles at edges. -/
def replAll (m : Mesh) (l : List (Nat × Nat × Nat)) : Mesh := l.foldl (fun m r => replaceTri m r.1 r.2.1 r.2.2) m

theorem replaceTri_other (m : Mesh) {x y old new : Nat} (h : y ≠ x) : (replaceTri m x old new).et y = m.et y := by
  unfold replaceTri; simp [h]

theorem replaceTri_hit {m : Mesh} {x old new : Nat} (h2 : m.et x 0 ≠ m.et x 1) {s : Fin 2}
    (hs : m.et x s = some old) : (replaceTri m x old new).et x s = some new := by
  unfold replaceTri
  simp only [Function.update_self]
  fin_cases s
  · simp only [Fin.zero_eta] at hs
    simp [hs]
  · simp only [Fin.mk_one] at hs
    have : m.et x 0 ≠ some old := fun hh => h2 (hh.trans hs.symm)
    simp [this]

theorem replaceTri_miss {m : Mesh} {x old new : Nat} (h1 : ∃ s, m.et x s = some old) {s : Fin 2}
    (hs : m.et x s ≠ some old) : (replaceTri m x old new).et x s = m.et x s := by
  unfold replaceTri
  simp only [Function.update_self]
  fin_cases s
  · simp only [Fin.zero_eta] at hs
    simp [hs]
  · simp only [Fin.mk_one] at hs
    have : m.et x 0 = some old := by
      rcases ex_fin2.1 h1 with h | h
      · exact h
      · exact absurd h hs
    simp [this]

/-- What a sequence of replacements does to the triangles at the edges. -/
theorem replAll_spec (l : List (Nat × Nat × Nat)) : ∀ (m : Mesh),
    (∀ r ∈ l, m.et r.1 0 ≠ m.et r.1 1) → (∀ r ∈ l, ∃ s, m.et r.1 s = some r.2.1) →
    (l.map fun r => (r.1, r.2.1)).Nodup → (∀ r ∈ l, ∀ r' ∈ l, r.2.2 ≠ r'.2.1) →
    (∀ r ∈ l, ∀ s, m.et r.1 s = some r.2.1 → (replAll m l).et r.1 s = some r.2.2) ∧
    (∀ y s, (∀ r ∈ l, r.1 = y → m.et y s ≠ some r.2.1) → (replAll m l).et y s = m.et y s) := by
  induction l with
  | nil => intro m _ _ _ _; exact ⟨by simp, fun _ _ _ => rfl⟩
  | cons r l ih =>
    intro m h2 h1 hnd hfr
    set m1 := replaceTri m r.1 r.2.1 r.2.2 with hm1
    have hr2 := h2 r List.mem_cons_self
    have hr1 := h1 r List.mem_cons_self
    simp only [List.map_cons, List.nodup_cons] at hnd
    have hpair : ∀ q ∈ l, q.1 = r.1 → q.2.1 ≠ r.2.1 := by
      intro q hq h3 h4
      apply hnd.1
      rw [← h3, ← h4]
      exact List.mem_map.2 ⟨q, hq, rfl⟩
    -- the old triangles of the other entries are still there
    have hkeep : ∀ q ∈ l, ∀ s, m1.et q.1 s = some q.2.1 ↔ m.et q.1 s = some q.2.1 := by
      intro q hq s
      by_cases hx : q.1 = r.1
      · rw [hx]
        by_cases hs : m.et r.1 s = some r.2.1
        · rw [hm1, replaceTri_hit hr2 hs, hs]
          constructor
          · intro hh
            exact absurd (Option.some.inj hh) (hfr r List.mem_cons_self q (List.mem_cons_of_mem _ hq))
          · intro hh
            exact absurd (Option.some.inj hh).symm (hpair q hq hx)
        · rw [hm1, replaceTri_miss hr1 hs]
      · rw [hm1, replaceTri_other _ hx]
    obtain ⟨ih1, ih2⟩ := ih m1 (by
      intro q hq
      by_cases hx : q.1 = r.1
      · obtain ⟨s, hs⟩ := (h1 q (List.mem_cons_of_mem _ hq))
        have hqs := (hkeep q hq s).2 hs
        have huniq : ∀ s', m1.et q.1 s' = some q.2.1 → s' = s := by
          intro s' hs'
          have := (hkeep q hq s').1 hs'
          by_contra hne
          apply h2 q (List.mem_cons_of_mem _ hq)
          have : m.et q.1 s' = m.et q.1 s := this.trans hs.symm
          revert this hne
          clear * -
          fin_cases s <;> fin_cases s' <;> simp_all
        intro hh
        have h01 : m1.et q.1 0 = some q.2.1 ∧ m1.et q.1 1 = some q.2.1 := by
          revert hqs
          clear * - hh
          fin_cases s
          · intro h; exact ⟨h, hh ▸ h⟩
          · intro h; exact ⟨hh ▸ h, h⟩
        have := (huniq 0 h01.1).trans (huniq 1 h01.2).symm
        exact absurd this (by decide)
      · rw [hm1, replaceTri_other _ hx]; exact h2 q (List.mem_cons_of_mem _ hq))
      (fun q hq => by
        obtain ⟨s, hs⟩ := h1 q (List.mem_cons_of_mem _ hq)
        exact ⟨s, (hkeep q hq s).2 hs⟩) hnd.2
      (fun q hq q' hq' => hfr q (List.mem_cons_of_mem _ hq) q' (List.mem_cons_of_mem _ hq'))
    have hunf : replAll m (r :: l) = replAll m1 l := rfl
    rw [hunf]
    constructor
    · intro q hq s hs
      rcases List.mem_cons.1 hq with rfl | hq
      · rw [ih2 q.1 s]
        · exact replaceTri_hit hr2 hs
        · intro q' hq' hx hh
          rw [hm1, replaceTri_hit hr2 hs] at hh
          exact hfr q List.mem_cons_self q' (List.mem_cons_of_mem _ hq') (Option.some.inj hh)
      · exact ih1 q hq s ((hkeep q hq s).2 hs)
    · intro y s hy
      have hys : m1.et y s = m.et y s := by
        by_cases hx : y = r.1
        · rw [hx, hm1]
          exact replaceTri_miss hr1 (hx ▸ hy r List.mem_cons_self hx.symm)
        · rw [hm1, replaceTri_other _ hx]
      rw [ih2 y s, hys]
      intro q hq hx
      rw [hys]
      exact hy q (List.mem_cons_of_mem _ hq) hx

theorem replAll_fields (l : List (Nat × Nat × Nat)) : ∀ (m : Mesh),
    (replAll m l).ne = m.ne ∧ (replAll m l).nt = m.nt ∧ (replAll m l).ev = m.ev ∧ (replAll m l).tv = m.tv ∧
    (replAll m l).te = m.te ∧ (replAll m l).vE = m.vE ∧ (replAll m l).vT = m.vT := by
  induction l with
  | nil => intro m; exact ⟨rfl, rfl, rfl, rfl, rfl, rfl, rfl⟩
  | cons r l ih => intro m; exact ih _

/-- The entries of the loop in `performFlip` over one old triangle. -/
def flipEntries (m : Mesh) (e old a i0 i1 : Nat) (l : List Nat) : List (Nat × Nat × Nat) :=
  (l.filter fun x => x != e).map fun x => (x, old, if isEnd m a x then i0 else i1)

theorem flipFold_fields (e old a i0 i1 : Nat) (j : Fin 3) (l : List Nat) : ∀ (m : Mesh),
    (l.foldl (flipSide e old a i0 i1 j) m).ne = m.ne ∧ (l.foldl (flipSide e old a i0 i1 j) m).nt = m.nt ∧
    (l.foldl (flipSide e old a i0 i1 j) m).ev = m.ev ∧ (l.foldl (flipSide e old a i0 i1 j) m).tv = m.tv ∧
    (l.foldl (flipSide e old a i0 i1 j) m).vE = m.vE ∧ (l.foldl (flipSide e old a i0 i1 j) m).vT = m.vT := by
  induction l with
  | nil => intro m; exact ⟨rfl, rfl, rfl, rfl, rfl, rfl⟩
  | cons x l ih =>
    intro m
    have hstep : ∀ y, (flipSide e old a i0 i1 j m y).ne = m.ne ∧ (flipSide e old a i0 i1 j m y).nt = m.nt ∧
        (flipSide e old a i0 i1 j m y).ev = m.ev ∧ (flipSide e old a i0 i1 j m y).tv = m.tv ∧
        (flipSide e old a i0 i1 j m y).vE = m.vE ∧ (flipSide e old a i0 i1 j m y).vT = m.vT := by
      intro y
      unfold flipSide
      by_cases hy : y = e
      · rw [if_pos hy]; exact ⟨rfl, rfl, rfl, rfl, rfl, rfl⟩
      · rw [if_neg hy]; exact ⟨rfl, rfl, rfl, rfl, rfl, rfl⟩
    obtain ⟨h1, h2, h3, h4, h5, h6⟩ := hstep x
    obtain ⟨g1, g2, g3, g4, g5, g6⟩ := ih (flipSide e old a i0 i1 j m x)
    simp only [List.foldl_cons]
    exact ⟨g1.trans h1, g2.trans h2, g3.trans h3, g4.trans h4, g5.trans h5, g6.trans h6⟩

theorem replAll_et_congr (l : List (Nat × Nat × Nat)) : ∀ (m m' : Mesh), m.et = m'.et →
    (replAll m l).et = (replAll m' l).et := by
  induction l with
  | nil => intro m m' h; exact h
  | cons r l ih =>
    intro m m' h
    apply ih
    show (replaceTri m r.1 r.2.1 r.2.2).et = (replaceTri m' r.1 r.2.1 r.2.2).et
    unfold replaceTri
    simp only [h]

theorem flipFold_et (e old a i0 i1 : Nat) (j : Fin 3) (l : List Nat) : ∀ (m : Mesh),
    (l.foldl (flipSide e old a i0 i1 j) m).et = (replAll m (flipEntries m e old a i0 i1 l)).et := by
  induction l with
  | nil => intro m; rfl
  | cons x l ih =>
    intro m
    simp only [List.foldl_cons]
    rw [ih]
    have hev : (flipSide e old a i0 i1 j m x).ev = m.ev := (flipFold_fields e old a i0 i1 j [x] m).2.2.1
    have hent : flipEntries (flipSide e old a i0 i1 j m x) e old a i0 i1 l = flipEntries m e old a i0 i1 l := by
      unfold flipEntries isEnd
      rw [hev]
    rw [hent]
    by_cases hx : x = e
    · have h1 : flipSide e old a i0 i1 j m x = m := by unfold flipSide; rw [if_pos hx]
      have h2 : flipEntries m e old a i0 i1 (x :: l) = flipEntries m e old a i0 i1 l := by
        simp [flipEntries, hx]
      rw [h1, h2]
    · have h2 : flipEntries m e old a i0 i1 (x :: l) =
          (x, old, if isEnd m a x then i0 else i1) :: flipEntries m e old a i0 i1 l := by
        simp [flipEntries, hx]
      rw [h2]
      show _ = (replAll (replaceTri m x old (if isEnd m a x then i0 else i1)) _).et
      apply replAll_et_congr
      unfold flipSide
      rw [if_neg hx]

theorem flipFold_te_other (e old a i0 i1 : Nat) (j : Fin 3) (l : List Nat) : ∀ (m : Mesh) (t : Nat) (k : Fin 3),
    ((t ≠ i0 ∧ t ≠ i1) ∨ k ≠ j) → (l.foldl (flipSide e old a i0 i1 j) m).te t k = m.te t k := by
  induction l with
  | nil => intro m t k _; rfl
  | cons x l ih =>
    intro m t k h
    simp only [List.foldl_cons]
    rw [ih _ t k h]
    unfold flipSide
    by_cases hx : x = e
    · rw [if_pos hx]
    · rw [if_neg hx]
      show Function.update m.te _ (Function.update (m.te _) j x) t k = m.te t k
      by_cases ht : t = if isEnd m a x then i0 else i1
      · rw [← ht, Function.update_self]
        rcases h with h | h
        · exfalso
          split at ht
          · exact h.1 ht
          · exact h.2 ht
        · rw [Function.update_of_ne h]
      · rw [Function.update_of_ne ht]

theorem flipFold_te (e old a i0 i1 : Nat) (j : Fin 3) (l : List Nat) : ∀ (m : Mesh) (x t : Nat),
    x ≠ e → (if isEnd m a x then i0 else i1) = t → (x ∈ l ∨ m.te t j = x) →
    (∀ y ∈ l, y ≠ e → (if isEnd m a y then i0 else i1) = t → y = x) →
    (l.foldl (flipSide e old a i0 i1 j) m).te t j = x := by
  induction l with
  | nil =>
    intro m x t _ _ h _
    rcases h with h | h
    · exact absurd h List.not_mem_nil
    · exact h
  | cons y l ih =>
    intro m x t hxe hxt hx hu
    simp only [List.foldl_cons]
    have hev : (flipSide e old a i0 i1 j m y).ev = m.ev := (flipFold_fields e old a i0 i1 j [y] m).2.2.1
    have hend : ∀ z, isEnd (flipSide e old a i0 i1 j m y) a z = isEnd m a z := by
      intro z; unfold isEnd; rw [hev]
    apply ih _ x t hxe (by rw [hend]; exact hxt)
    · by_cases hye : y = e
      · have h1 : flipSide e old a i0 i1 j m y = m := by unfold flipSide; rw [if_pos hye]
        rw [h1]
        rcases hx with hx | hx
        · rcases List.mem_cons.1 hx with h | h
          · exact absurd (h.trans hye) hxe
          · exact .inl h
        · exact .inr hx
      · by_cases hyx : y = x
        · right
          unfold flipSide
          rw [if_neg hye]
          show Function.update m.te _ (Function.update (m.te _) j y) t j = x
          rw [hyx, hxt, Function.update_self, Function.update_self]
        · rcases hx with hx | hx
          · rcases List.mem_cons.1 hx with h | h
            · exact absurd h.symm hyx
            · exact .inl h
          · right
            unfold flipSide
            rw [if_neg hye]
            show Function.update m.te _ (Function.update (m.te _) j y) t j = x
            have : t ≠ if isEnd m a y then i0 else i1 := fun hh => hyx (hu y List.mem_cons_self hye hh.symm)
            rw [Function.update_of_ne this]
            exact hx
    · intro z hz hze hzt
      rw [hend] at hzt
      exact hu z (List.mem_cons_of_mem _ hz) hze hzt

end Mdso.Tri
