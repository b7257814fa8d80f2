import Verif.Lemmas.TriInsert
import Mathlib.Data.List.Range

/-!
# Inserting all points keeps the mesh consistent
-/

set_option autoImplicit false

namespace Mdso.Tri

/-- The vertices of the mesh. -/
def vset (verts : List Nat) : Finset Nat := {0, 1, 2} ∪ verts.toFinset

theorem mem_vset {verts : List Nat} {v : Nat} : v ∈ vset verts ↔ v < 3 ∨ v ∈ verts := by
  unfold vset
  simp only [Finset.mem_union, Finset.mem_insert, Finset.mem_singleton, List.mem_toFinset]
  constructor
  · rintro (h | h)
    · left; omega
    · exact .inr h
  · rintro (h | h)
    · left; omega
    · exact .inr h

theorem vset_append (verts : List Nat) (v : Nat) : vset (verts ++ [v]) = insert v (vset verts) := by
  ext x
  rw [Finset.mem_insert, mem_vset, mem_vset, List.mem_append, List.mem_singleton]
  tauto

/-- The mesh after `verts` have been inserted. -/
def Built (Good : Finset Nat → Mesh → Finset Nat → Finset Nat → Prop) (verts : List Nat) (m : Mesh) : Prop :=
  ∃ AE AT, Inv m (vset verts) AE AT ∧ Good (vset verts) m AE AT ∧ Outer m AE ∧ AE.card = 3 + 3 * verts.length ∧
    AT.card = 1 + 2 * verts.length

theorem initial_inv : Inv initial (vset []) {0, 1, 2} {0} := by
  have hv : ∀ v, v ∈ vset [] ↔ v < 3 := by intro v; rw [mem_vset]; simp
  have he : ∀ e ∈ ({0, 1, 2} : Finset Nat), e = 0 ∨ e = 1 ∨ e = 2 := by
    intro e he
    simpa using he
  constructor
  · intro e h
    rcases he e h with rfl | rfl | rfl <;> decide
  · intro t ht
    rw [Finset.mem_singleton] at ht
    subst ht
    decide
  · intro e h
    rcases he e h with rfl | rfl | rfl <;> decide
  · intro e h s
    rw [hv]
    rcases he e h with rfl | rfl | rfl <;> fin_cases s <;> decide
  · intro e h s t hs
    have h1 : s = 0 ∧ t = 0 := by
      fin_cases s
      · exact ⟨rfl, (Option.some.inj hs).symm⟩
      · exact absurd hs (by simp [initial])
    rw [h1.2]
    refine ⟨by simp, ?_⟩
    rcases he e h with rfl | rfl | rfl
    · exact ⟨0, rfl⟩
    · exact ⟨1, rfl⟩
    · exact ⟨2, rfl⟩
  · intro e _
    simp [initial]
  · intro e h s _
    rcases he e h with rfl | rfl | rfl <;> decide
  · intro t ht i
    rw [Finset.mem_singleton] at ht
    subst ht
    refine ⟨?_, 0, rfl⟩
    fin_cases i <;> decide
  · intro t _
    exact cons3_inj (by decide) (by decide) (by decide)
  · intro t ht i
    rw [Finset.mem_singleton] at ht
    subst ht
    refine opp_of (m := initial) (t := 0) (a := 0) (b := 1) (c := 2) (x := 0) (y := 1) (z := 2) rfl rfl (by decide)
      (by decide) (by decide) (p := (0, 1)) (q := (1, 2)) (r := (2, 0)) (fun v => cons2_iff _ _ _)
      (fun v => cons2_iff _ _ _) (fun v => cons2_iff _ _ _) ?_ ?_ ?_ i <;> simp
  · intro v e
    have hve : ∀ v, initial.vE v = if v = 0 then {0, 2} else if v = 1 then {0, 1} else if v = 2 then {1, 2} else ∅ :=
      fun _ => rfl
    have hev : ∀ e, initial.ev e = if e = 0 then ![0, 1] else if e = 1 then ![1, 2] else ![2, 0] := fun _ => rfl
    rw [hve]
    constructor
    · intro hh
      split at hh
      · subst v
        simp only [Finset.mem_insert, Finset.mem_singleton] at hh
        rcases hh with rfl | rfl
        · exact ⟨by simp, 0, rfl⟩
        · exact ⟨by simp, 1, rfl⟩
      · split at hh
        · subst v
          simp only [Finset.mem_insert, Finset.mem_singleton] at hh
          rcases hh with rfl | rfl
          · exact ⟨by simp, 1, rfl⟩
          · exact ⟨by simp, 0, rfl⟩
        · split at hh
          · subst v
            simp only [Finset.mem_insert, Finset.mem_singleton] at hh
            rcases hh with rfl | rfl
            · exact ⟨by simp, 1, rfl⟩
            · exact ⟨by simp, 0, rfl⟩
          · simp at hh
    · rintro ⟨h, s, rfl⟩
      rcases he e h with rfl | rfl | rfl <;> fin_cases s <;> simp [hev]
  · intro v t
    have hvt : ∀ v, initial.vT v = if v < 3 then {0} else ∅ := fun _ => rfl
    rw [hvt]
    constructor
    · intro hh
      split at hh
      · rename_i h3
        refine ⟨hh, ?_⟩
        show ∃ i, ![0, 1, 2] i = v
        rw [cons3_iff]
        omega
      · simp at hh
    · rintro ⟨h, hi⟩
      have h2 : ∃ i, ![0, 1, 2] i = v := hi
      rw [cons3_iff] at h2
      rw [if_pos (by omega)]
      exact h
  · intro v hh
    rw [hv] at hh
    refine ⟨0, by simp, ?_⟩
    show ∃ i, ![0, 1, 2] i = v
    rw [cons3_iff]
    omega

theorem initial_outer : Outer initial {0, 1, 2} := by
  intro f hf
  refine ⟨?_, rfl, rfl⟩
  simp only [Finset.mem_insert, Finset.mem_singleton]
  omega

theorem initial_built {Good : Finset Nat → Mesh → Finset Nat → Finset Nat → Prop}
    (h : Good (vset []) initial {0, 1, 2} {0}) : Built Good [] initial :=
  ⟨_, _, initial_inv, h, initial_outer, by decide, by decide⟩

theorem Inserted.built {Good : Finset Nat → Mesh → Finset Nat → Finset Nat → Prop} {verts : List Nat}
    {AE AT : Finset Nat} {v : Nat} {m' : Mesh} (h : Inserted Good (vset verts) AE AT v m')
    (h1 : AE.card = 3 + 3 * verts.length) (h2 : AT.card = 1 + 2 * verts.length) : Built Good (verts ++ [v]) m' := by
  obtain ⟨AE', AT', k1, k2, k3, k4, k5⟩ := h
  rw [← vset_append] at k1 k2
  refine ⟨AE', AT', k1, k2, k3, ?_, ?_⟩
  · rw [k4, h1, List.length_append, List.length_singleton]; omega
  · rw [k5, h2, List.length_append, List.length_singleton]; omega

/-- Inserting points, whatever the predicates say. -/
theorem insertAll_any {p : Preds} {N : Nat} {Good : Finset Nat → Mesh → Finset Nat → Finset Nat → Prop}
    (hK : Keeps p (fun v => v < 3 + N) Good) (env : Env) (henv : ∀ S : Finset Nat, S.Nonempty → env.first S ∈ S)
    (fuel : Nat) (all : List Nat) (hall : ∀ k ∈ all, k < N) (hN : all.length = N) :
    ∀ (order : List Nat) (i : Nat) (s : State), i + order.length = N → (∀ k ∈ order, k < N) → s.inv.length = N →
      s.verts.Nodup → (∀ v ∈ s.verts, 3 ≤ v ∧ v < 3 + i) → Built Good s.verts s.mesh →
      insertAll env p fuel all order i s = .error .ub ∨
      ∃ r, insertAll env p fuel all order i s = .ok r ∧ ∀ s', r = some s' → s'.verts.Nodup ∧
        (∀ v ∈ s'.verts, 3 ≤ v ∧ v < 3 + N) ∧ Built Good s'.verts s'.mesh := by
  intro order
  induction order with
  | nil =>
    intro i s hi _ _ hnd hlt hb
    right
    refine ⟨some s, rfl, ?_⟩
    intro s' hs'
    cases hs'
    simp only [List.length_nil, Nat.add_zero] at hi
    exact ⟨hnd, hi ▸ hlt, hb⟩
  | cons k order ih =>
    intro i s hi hk hinv hnd hlt hb
    simp only [List.length_cons] at hi
    obtain ⟨AE, AT, h1, h2, h3, h4, h5⟩ := hb
    have hvn : 3 + i ∉ vset s.verts := by
      rw [mem_vset]
      rintro (h | h)
      · omega
      · exact absurd (hlt _ h).2 (lt_irrefl _)
    unfold insertAll
    rcases addPoint_spec hK h1 h2 h3 hvn (by omega) env henv fuel with ⟨h, -⟩ | ⟨r, hr, -, hcase⟩
    · rw [h]; exact .inl rfl
    · rw [hr]
      cases r with
      | none => exact .inr ⟨none, rfl, by simp⟩
      | some x =>
        obtain ⟨w, m⟩ := x
        simp only
        rcases hcase w m rfl with ⟨c1, c2, c3, -⟩ | ⟨rfl, c2⟩
        · rw [if_neg c1]
          by_cases hw : w < 3
          · rw [if_pos hw]; exact .inl rfl
          · rw [if_neg hw]
            have hwv : w ∈ s.verts := by
              rcases mem_vset.1 c3 with h | h
              · exact absurd h hw
              · exact h
            have hw3 := hlt w hwv
            have hlen : w - 3 < all.length := by omega
            simp only [at', hlen, bind, Except.bind, dif_pos, List.getElem?_eq_getElem]
            have hj : all[w - 3] < s.inv.length := by
              rw [hinv]
              exact hall _ (List.getElem_mem _)
            simp only [List.getElem?_eq_getElem hj]
            refine ih (i + 1) ⟨s.verts, m, _⟩ (by omega) (fun k' hk' => hk k' (List.mem_cons_of_mem _ hk')) ?_ hnd ?_ ?_
            · simp [hinv]
            · intro v hv
              have := hlt v hv
              omega
            · rw [c2]
              exact ⟨AE, AT, h1, h2, h3, h4, h5⟩
        · rw [if_pos rfl]
          refine ih (i + 1) ⟨s.verts ++ [3 + i], m, _⟩ (by omega) (fun k' hk' => hk k' (List.mem_cons_of_mem _ hk')) ?_ ?_
            ?_ (c2.built h4 h5)
          · simp [hinv]
          · rw [List.nodup_append]
            refine ⟨hnd, by simp, ?_⟩
            intro a ha b hb hab
            rw [List.mem_singleton] at hb
            have := (hlt a ha).2
            omega
          · intro v hv
            rcases List.mem_append.1 hv with hv | hv
            · have := hlt v hv
              omega
            · rw [List.mem_singleton] at hv
              omega

/-- Predicates that put every point inside the bounding triangle, away from the other vertices and from the segments
between them. -/
structure Apart (p : Preds) (N : Nat) : Prop where
  bound : ∀ v, 3 ≤ v → v < 3 + N → (p.query v).inBound = true
  equal : ∀ v w, 3 ≤ v → v < 3 + N → w < 3 + N → w ≠ v → p.equal w v = false
  onEdge : ∀ v a b, 3 ≤ v → v < 3 + N → a < 3 + N → b < 3 + N → a ≠ v → b ≠ v → a ≠ b →
    (p.query v).onEdge a b = false

/-- A lookup that does not end, in the mesh of the first `k` points. -/
def Stuck (env : Env) (p : Preds) (Good : Finset Nat → Mesh → Finset Nat → Finset Nat → Prop) (N fuel : Nat) : Prop :=
  ∃ k m, k < N ∧ Built Good (List.range' 3 k) m ∧
    enclosingTriangle env m (p.query (3 + k)) (env.coin (3 + k)) fuel = .ok none

/-- Inserting points apart from each other. -/
theorem insertAll_apart {p : Preds} {N : Nat} {Good : Finset Nat → Mesh → Finset Nat → Finset Nat → Prop}
    (hK : Keeps p (fun v => v < 3 + N) Good) (hA : Apart p N) (env : Env)
    (henv : ∀ S : Finset Nat, S.Nonempty → env.first S ∈ S) (fuel : Nat) (all : List Nat) :
    ∀ (order : List Nat) (i : Nat) (s : State), i + order.length = N → s.verts = List.range' 3 i →
      Built Good s.verts s.mesh →
      ∃ r, insertAll env p fuel all order i s = .ok r ∧ (r = none → 6 * N + 16 ≤ fuel → Stuck env p Good N fuel) ∧
        ∀ s', r = some s' → s'.verts = List.range' 3 N ∧ Built Good s'.verts s'.mesh ∧
          s'.inv = (order.zipIdx i).foldl (fun inv k => inv.set k.1 (k.2 + 3)) s.inv := by
  intro order
  induction order with
  | nil =>
    intro i s hi hv hb
    refine ⟨some s, rfl, by simp, ?_⟩
    intro s' hs'
    cases hs'
    simp only [List.length_nil, Nat.add_zero] at hi
    exact ⟨hi ▸ hv, hb, rfl⟩
  | cons k order ih =>
    intro i s hi hv hb
    simp only [List.length_cons] at hi
    have hb' := hb
    obtain ⟨AE, AT, h1, h2, h3, h4, h5⟩ := hb
    have hmem : ∀ w, w ∈ vset s.verts ↔ w < 3 + i := by
      intro w
      rw [mem_vset, hv, List.mem_range'_1]
      omega
    have hlen : s.verts.length = i := by rw [hv]; simp
    have hvn : 3 + i ∉ vset s.verts := by rw [hmem]; omega
    unfold insertAll
    rcases addPoint_spec hK h1 h2 h3 hvn (by omega) env henv fuel with ⟨-, h | ⟨e, he, h⟩⟩ | ⟨r, hr, hnone, hcase⟩
    · rw [hA.bound (3 + i) (by omega) (by omega)] at h
      cases h
    · have ha := (hmem _).1 (h1.endV e he 0)
      have hb := (hmem _).1 (h1.endV e he 1)
      rw [hA.onEdge (3 + i) _ _ (by omega) (by omega) (by omega) (by omega) ha.ne hb.ne (h1.ends e he)] at h
      cases h
    · rw [hr]
      cases r with
      | none =>
        refine ⟨none, rfl, fun _ hfuel => ?_, by simp⟩
        by_contra hst
        refine hnone (by rw [h4, hlen]; omega) (fun hh => hst ?_) rfl
        exact ⟨i, s.mesh, by omega, hv ▸ hb', hh⟩
      | some x =>
        obtain ⟨w, m⟩ := x
        simp only
        rcases hcase w m rfl with ⟨c1, c2, c3, c4⟩ | ⟨rfl, c2⟩
        · have hw := (hmem w).1 c3
          rw [hA.equal (3 + i) w (by omega) (by omega) (by omega) hw.ne] at c4
          cases c4
        · rw [if_pos rfl]
          obtain ⟨r, g1, g2, g3⟩ := ih (i + 1) ⟨s.verts ++ [3 + i], m, s.inv.set k (i + 3)⟩ (by omega)
            (by rw [hv, List.range'_concat]; simp) (c2.built h4 h5)
          exact ⟨r, g1, g2, fun s' hs' => by
            obtain ⟨q1, q2, q3⟩ := g3 s' hs'
            exact ⟨q1, q2, by rw [q3, List.zipIdx_cons, List.foldl_cons]⟩⟩

end Mdso.Tri
