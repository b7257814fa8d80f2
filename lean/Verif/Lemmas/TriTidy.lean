import Verif.Lemmas.TriPosition
import Mathlib.Data.List.NodupEquivFin
import Mathlib.Data.List.Nodup

/-!
# The constructed triangulation
-/

set_option autoImplicit false

namespace Mdso.Tri

open Mdso.Geom Mdso.Tri.Spec

theorem mem_tidy_edges {s : State} {AE AT : Finset Nat} (h : Inv s.mesh (vset s.verts) AE AT) (e : Nat) :
    e ∈ (tidy s).allEdges ↔ e ∈ AE := by
  unfold tidy
  simp only [List.mem_filter, List.mem_range, List.any_eq_true, decide_eq_true_eq]
  constructor
  · rintro ⟨-, v, -, hv⟩
    exact ((h.vE v e).1 hv).1
  · intro he
    refine ⟨h.eLt e he, s.mesh.ev e 0, ?_, (h.vE _ e).2 ⟨he, 0, rfl⟩⟩
    have := mem_vset.1 (h.endV e he 0)
    simp only [List.mem_append, List.mem_cons, List.not_mem_nil, or_false]
    rcases this with h | h
    · left; omega
    · exact .inr h

theorem Inv.cornerV {m : Mesh} {V AE AT : Finset Nat} (h : Inv m V AE AT) {t : Nat} (ht : t ∈ AT) (i : Fin 3) :
    m.tv t i ∈ V := by
  have hne : ∃ j : Fin 3, j ≠ i := by
    fin_cases i
    · exact ⟨1, by decide⟩
    · exact ⟨0, by decide⟩
    · exact ⟨0, by decide⟩
  obtain ⟨j, hj⟩ := hne
  obtain ⟨k, hk⟩ := h.opp t ht j
  obtain ⟨s, hs⟩ := (hk (m.tv t i)).2 ⟨fun hh => hj (h.inj t ht hh).symm, i, rfl⟩
  rw [← hs]
  exact h.endV _ (h.side t ht k).1 s

theorem mem_tidy_triangles {s : State} {AE AT : Finset Nat} (h : Inv s.mesh (vset s.verts) AE AT) (k : Nat) :
    k ∈ (tidy s).allTriangles ↔ k ∈ AT := by
  unfold tidy
  simp only [List.mem_filter, List.mem_range, List.any_eq_true, decide_eq_true_eq]
  constructor
  · rintro ⟨-, v, -, hv⟩
    exact ((h.vT v k).1 hv).1
  · intro hk
    refine ⟨h.tLt k hk, s.mesh.tv k 0, ?_, (h.vT _ k).2 ⟨hk, 0, rfl⟩⟩
    have := mem_vset.1 (h.cornerV hk 0)
    simp only [List.mem_append, List.mem_cons, List.not_mem_nil, or_false]
    rcases this with h | h
    · left; omega
    · exact .inr h

theorem length_of_mem {l : List Nat} {S : Finset Nat} (hn : l.Nodup) (h : ∀ x, x ∈ l ↔ x ∈ S) : l.length = S.card := by
  rw [← List.toFinset_card_of_nodup hn]
  congr 1
  ext x
  rw [List.mem_toFinset, h]

/-- A mesh that satisfies the invariant is consistent. -/
theorem consistent_of_inv {s : State} {AE AT : Finset Nat} (h : Inv s.mesh (vset s.verts) AE AT)
    (hn : s.verts.Nodup) (h3 : ∀ v ∈ s.verts, 3 ≤ v) (c1 : AE.card = 3 + 3 * s.verts.length)
    (c2 : AT.card = 1 + 2 * s.verts.length) : Consistent (tidy s) := by
  have me := mem_tidy_edges h
  have mt := mem_tidy_triangles h
  have ne : (tidy s).allEdges.Nodup := List.nodup_range.filter _
  have nt : (tidy s).allTriangles.Nodup := List.nodup_range.filter _
  have mv : ∀ v, v ∈ vset s.verts ↔ v ∈ vertices (tidy s) := by
    intro v
    rw [mem_vset]
    show v < 3 ∨ v ∈ s.verts ↔ v ∈ [0, 1, 2] ++ s.verts
    simp only [List.mem_append, List.mem_cons, List.not_mem_nil, or_false]
    constructor
    · rintro (h | h)
      · left; omega
      · exact .inr h
    · rintro (h | h)
      · left; omega
      · exact .inr h
  constructor
  · refine ⟨?_, ne, nt⟩
    show ([0, 1, 2] ++ s.verts).Nodup
    rw [List.nodup_append]
    refine ⟨by decide, hn, ?_⟩
    intro a ha b hb hab
    have := h3 b hb
    simp only [List.mem_cons, List.not_mem_nil, or_false] at ha
    omega
  · exact ⟨(length_of_mem ne me).trans c1, (length_of_mem nt mt).trans c2⟩
  · intro e he
    exact ⟨h.ends e ((me e).1 he), fun i => (mv _).1 (h.endV e ((me e).1 he) i)⟩
  · intro e he i k hk
    obtain ⟨g1, g2⟩ := h.slot e ((me e).1 he) i k hk
    exact ⟨(mt k).2 g1, g2⟩
  · intro e he
    exact ⟨h.two e ((me e).1 he), h.bound e ((me e).1 he)⟩
  · intro k hk i j hij
    exact h.inj k ((mt k).1 hk) hij
  · intro k hk i
    obtain ⟨g1, g2⟩ := h.side k ((mt k).1 hk) i
    exact ⟨(me _).2 g1, g2⟩
  · intro k hk
    obtain ⟨x, hx, -, hy, ho⟩ := tri_canon h ((mt k).1 hk)
    constructor
    · intro i q
      obtain ⟨j, hj⟩ := (hy (s.mesh.te k i)).1 (mem_sides.2 ⟨i, rfl⟩)
      obtain ⟨-, j', hj'⟩ := (ho j (s.mesh.ev (s.mesh.te k i) q)).1 ⟨q, by rw [hj]⟩
      exact ⟨j', hj'.symm⟩
    · intro j j' hjj
      have hthird : ∃ i : Fin 3, i ≠ j ∧ i ≠ j' := by
        revert j j'
        decide
      obtain ⟨i, hi, hi'⟩ := hthird
      obtain ⟨q, hq⟩ := mem_sides.1 ((hy (x i)).2 ⟨i, rfl⟩)
      refine ⟨q, ?_, ?_⟩
      · have := (ho i (s.mesh.tv k j)).2 ⟨fun hh => hi (h.inj k ((mt k).1 hk) hh).symm, j, rfl⟩
        rw [← hq] at this
        exact this
      · have := (ho i (s.mesh.tv k j')).2 ⟨fun hh => hi' (h.inj k ((mt k).1 hk) hh).symm, j', rfl⟩
        rw [← hq] at this
        exact this
  · intro v _ e
    rw [me]
    exact h.vE v e
  · intro v _ k
    rw [mt]
    exact h.vT v k
  · intro v hv
    obtain ⟨k, hk, hi⟩ := h.used v ((mv v).2 hv)
    exact ⟨k, (mt k).2 hk, hi⟩

/-! ### `operator[]` -/

theorem get_fault (t : Triangulation) {i : Nat} (h : i < t.verts.length) : get t i = .error .ub ∨ ∃ v, get t i = .ok v := by
  unfold get
  rw [if_neg (by omega)]
  simp only [bind, Except.bind]
  unfold at'
  cases t.inv[i]? with
  | none => exact .inl rfl
  | some j =>
    simp only
    cases ([0, 1, 2] ++ t.verts)[j]? with
    | none => exact .inl rfl
    | some v => exact .inr ⟨v, rfl⟩

theorem vertexPtrs_fault (t : Triangulation) : ∀ n, n ≤ t.verts.length →
    vertexPtrs t n = .error .ub ∨ ∃ l, vertexPtrs t n = .ok l
  | 0, _ => .inr ⟨[], rfl⟩
  | n + 1, h => by
    rw [vertexPtrs]
    simp only [bind, Except.bind]
    rcases vertexPtrs_fault t n (by omega) with h1 | ⟨l, h1⟩
    · rw [h1]; exact .inl rfl
    · rw [h1]
      simp only
      rcases get_fault t (show n < t.verts.length by omega) with h2 | ⟨v, h2⟩
      · rw [h2]; exact .inl rfl
      · rw [h2]; exact .inr ⟨_, rfl⟩

theorem vertexPtrs_ok (t : Triangulation) (f : Nat → Nat) : ∀ n, (∀ i < n, get t i = .ok (f i)) →
    vertexPtrs t n = .ok ((List.range n).map f)
  | 0, _ => rfl
  | n + 1, h => by
    rw [vertexPtrs]
    simp only [bind, Except.bind]
    rw [vertexPtrs_ok t f n (fun i hi => h i (by omega))]
    simp only
    rw [h n (by omega), List.range_succ, List.map_append]
    rfl

/-- If no point has been merged, the vertices and `indicesInv` do not depend on the predicates. -/
theorem insertAll_full (env : Env) (p : Preds) (fuel : Nat) (all : List Nat) :
    ∀ (order : List Nat) (i : Nat) (s s' : State), insertAll env p fuel all order i s = .ok (some s') →
      s'.verts.length ≤ s.verts.length + order.length ∧
      (s'.verts.length = s.verts.length + order.length → s'.verts = s.verts ++ List.range' (3 + i) order.length ∧
        s'.inv = (order.zipIdx i).foldl (fun inv k => inv.set k.1 (k.2 + 3)) s.inv) := by
  intro order
  induction order with
  | nil =>
    intro i s s' h
    unfold insertAll at h
    cases h
    simp
  | cons k order ih =>
    intro i s s' h
    unfold insertAll at h
    split at h
    · cases h
    · cases h
    · rename_i w m _
      by_cases hw : w = 3 + i
      · rw [if_pos hw] at h
        obtain ⟨g1, g2⟩ := ih _ _ _ h
        simp only [List.length_append, List.length_cons, List.length_nil] at g1 g2 ⊢
        refine ⟨by omega, fun hl => ?_⟩
        obtain ⟨k1, k2⟩ := g2 (by omega)
        refine ⟨?_, ?_⟩
        · rw [k1, List.append_assoc, List.range'_succ]
          rfl
        · rw [k2, List.zipIdx_cons, List.foldl_cons]
      · rw [if_neg hw] at h
        by_cases h3 : w < 3
        · rw [if_pos h3] at h; cases h
        · rw [if_neg h3] at h
          simp only [bind, Except.bind] at h
          split at h
          · cases h
          · split at h
            · cases h
            · obtain ⟨g1, -⟩ := ih _ _ _ h
              simp only [List.length_cons] at g1 ⊢
              refine ⟨by omega, fun hl => by omega⟩

theorem foldl_set_length {α : Type} (f : α → Nat) (g : α → Nat) (l : List α) : ∀ inv : List Nat,
    (l.foldl (fun inv k => inv.set (f k) (g k)) inv).length = inv.length := by
  induction l with
  | nil => intro inv; rfl
  | cons x l ih => intro inv; rw [List.foldl_cons, ih, List.length_set]

theorem foldl_set_other {α : Type} (f : α → Nat) (g : α → Nat) (l : List α) (k : Nat) (h : ∀ x ∈ l, f x ≠ k) :
    ∀ inv : List Nat, (l.foldl (fun inv k => inv.set (f k) (g k)) inv)[k]? = inv[k]? := by
  induction l with
  | nil => intro inv; rfl
  | cons x l ih =>
    intro inv
    rw [List.foldl_cons, ih (fun y hy => h y (List.mem_cons_of_mem _ hy)),
      List.getElem?_set_ne (h x List.mem_cons_self)]

theorem zipIdx_fst_mem {l : List Nat} {i : Nat} {x : Nat × Nat} (h : x ∈ l.zipIdx i) : x.1 ∈ l := by
  have h1 : x.1 ∈ (l.zipIdx i).map Prod.fst := List.mem_map_of_mem h
  simpa using h1

/-- `indicesInv` after the loop. -/
theorem inv_spec : ∀ (order : List Nat) (i : Nat) (inv : List Nat), order.Nodup → (∀ k ∈ order, k < inv.length) →
    ∀ (j : Nat) (k : Nat), order[j]? = some k →
      ((order.zipIdx i).foldl (fun inv k => inv.set k.1 (k.2 + 3)) inv)[k]? = some (i + j + 3) := by
  intro order
  induction order with
  | nil => intro i inv _ _ j k h; simp at h
  | cons x order ih =>
    intro i inv hn hlt j k h
    rw [List.zipIdx_cons, List.foldl_cons]
    obtain ⟨hx, hn⟩ := List.nodup_cons.1 hn
    cases j with
    | zero =>
      simp only [List.getElem?_cons_zero, Option.some.injEq] at h
      subst h
      rw [foldl_set_other (fun y : Nat × Nat => y.1) (fun y => y.2 + 3)]
      · simp only
        rw [List.getElem?_set_self (hlt x List.mem_cons_self)]
      · intro y hy hyx
        exact hx (hyx ▸ zipIdx_fst_mem hy)
    | succ j =>
      rw [List.getElem?_cons_succ] at h
      have := ih (i + 1) (inv.set x (i + 3)) hn (by
        intro y hy
        rw [List.length_set]
        exact hlt y (List.mem_cons_of_mem _ hy)) j k h
      simp only
      rw [this]
      congr 1
      omega

/-- If no point has been merged, `operator[]` finds the vertex created for each point. -/
theorem get_full {t : Triangulation} {order : List Nat} {N : Nat} (ho : Shuffle N order)
    (hv : t.verts = List.range' 3 N)
    (hi : t.inv = (order.zipIdx 0).foldl (fun inv k => inv.set k.1 (k.2 + 3)) (List.replicate N 0)) :
    ∀ i < N, ∃ j, order[j]? = some i ∧ get t i = .ok (3 + j) := by
  intro i hiN
  have hlen : order.length = N := by rw [ho.length_eq]; simp
  have hnd : order.Nodup := ho.nodup_iff.2 List.nodup_range
  have hmem : ∀ k, k ∈ order ↔ k < N := by
    intro k
    rw [ho.mem_iff, List.mem_range]
  obtain ⟨j, hj⟩ := List.getElem?_of_mem ((hmem i).2 hiN)
  refine ⟨j, hj, ?_⟩
  have hjN : j < N := by
    have := (List.getElem?_eq_some_iff.1 hj).1
    omega
  have h1 := inv_spec order 0 (List.replicate N 0) hnd (by
    intro k hk
    rw [List.length_replicate]
    exact (hmem k).1 hk) j i hj
  have h2 : ([0, 1, 2] ++ t.verts)[j + 3]? = some (3 + j) := by
    rw [hv, List.getElem?_append_right (by simp)]
    simp only [List.length_cons, List.length_nil]
    have hh : j + 3 - (0 + 1 + 1 + 1) = j := by omega
    rw [hh, List.getElem?_range' hjN]
    simp
  unfold get
  have hl : t.verts.length = N := by rw [hv]; simp
  rw [hl, if_neg (by omega)]
  simp only [bind, Except.bind]
  unfold at'
  rw [hi, h1]
  simp only
  have h3 : 0 + j + 3 = j + 3 := by omega
  rw [h3, h2]

/-! ### Triangles lie in the bounding triangle -/

theorem within_convex {a b c p q r x : V2} (hA : area a b c ≠ 0) (ha : Within p q r a) (hb : Within p q r b)
    (hc : Within p q r c) (hx : Within a b c x) : Within p q r x := by
  obtain ⟨a1, a2, a3⟩ := ha
  obtain ⟨b1, b2, b3⟩ := hb
  obtain ⟨c1, c2, c3⟩ := hc
  obtain ⟨x1, x2, x3⟩ := hx
  have hA2 : 0 < area a b c * area a b c := mul_self_pos.2 hA
  refine ⟨?_, ?_, ?_⟩
  · have key : area a b c * area a b c * (area p q r * area x q r) =
        area p q r * area a q r * (area a b c * area x b c) + area p q r * area b q r * (area a b c * area a x c) +
        area p q r * area c q r * (area a b c * area a b x) := by unfold area; ring
    exact nonneg_of_mul_nonneg_right (key ▸ by positivity) hA2
  · have key : area a b c * area a b c * (area p q r * area p x r) =
        area p q r * area p a r * (area a b c * area x b c) + area p q r * area p b r * (area a b c * area a x c) +
        area p q r * area p c r * (area a b c * area a b x) := by unfold area; ring
    exact nonneg_of_mul_nonneg_right (key ▸ by positivity) hA2
  · have key : area a b c * area a b c * (area p q r * area p q x) =
        area p q r * area p q a * (area a b c * area x b c) + area p q r * area p q b * (area a b c * area a x c) +
        area p q r * area p q c * (area a b c * area a b x) := by unfold area; ring
    exact nonneg_of_mul_nonneg_right (key ▸ by positivity) hA2

theorem vertex_within {points : List V2} {order : List Nat} (hD : 0 < maxDim points)
    (ho : Shuffle points.length order) {v : Nat} (hv : v < 3 + points.length) :
    Within (position points order 0) (position points order 1) (position points order 2) (position points order v) := by
  by_cases h3 : v < 3
  · have hz : ∀ p q : V2, area p q p = 0 := by intro p q; unfold area; ring
    have hz2 : ∀ p q : V2, area p p q = 0 := by intro p q; unfold area; ring
    have hz3 : ∀ p q : V2, area q p p = 0 := by intro p q; unfold area; ring
    have hv3 : v = 0 ∨ v = 1 ∨ v = 2 := by omega
    rcases hv3 with rfl | rfl | rfl
    · refine ⟨mul_self_nonneg _, ?_, ?_⟩
      · rw [hz2, mul_zero]
      · rw [hz, mul_zero]
    · refine ⟨?_, mul_self_nonneg _, ?_⟩
      · rw [hz2, mul_zero]
      · rw [hz3, mul_zero]
    · refine ⟨?_, ?_, mul_self_nonneg _⟩
      · rw [hz, mul_zero]
      · rw [hz3, mul_zero]
  · obtain ⟨b0, b1, b2, b3⟩ := inside_bounding hD (position_mem ho (by omega : 3 ≤ v) hv)
    rw [position_bound points order (by omega : 0 < 3), position_bound points order (by omega : 1 < 3),
      position_bound points order (by omega : 2 < 3)]
    have e2 : ∀ a b c : V2, area a b c = area b c a := by intro a b c; unfold area; ring
    refine ⟨?_, ?_, ?_⟩
    · rw [e2 (position points order v)]; exact (mul_pos b0 b2).le
    · rw [← e2 (boundingPos points 2) (boundingPos points 0) (position points order v)]; exact (mul_pos b0 b3).le
    · exact (mul_pos b0 b1).le

theorem tiles_of_geo {s : State} {points : List V2} {order : List Nat} {AE AT : Finset Nat}
    (h : Inv s.mesh (vset s.verts) AE AT)
    (hD : 0 < maxDim points) (ho : Shuffle points.length order)
    (hN : NonCol (position points order) (3 + points.length))
    (hg : Geo (position points order) (3 + points.length) (vset s.verts) s.mesh AE AT) :
    Tiles (position points order) (tidy s) := by
  have mt := mem_tidy_triangles h
  constructor
  · intro q k hk hq
    have hk' := (mt k).1 hk
    have hlt : ∀ i, s.mesh.tv k i < 3 + points.length := fun i => hg.lt _ (h.cornerV hk' i)
    refine within_convex ?_ (vertex_within hD ho (hlt 0)) (vertex_within hD ho (hlt 1)) (vertex_within hD ho (hlt 2)) hq
    refine hN _ _ _ (hlt 0) (hlt 1) (hlt 2) ?_ ?_ ?_
    · exact fun hh => absurd (h.inj k hk' hh) (by decide)
    · exact fun hh => absurd (h.inj k hk' hh) (by decide)
    · exact fun hh => absurd (h.inj k hk' hh) (by decide)
  · intro q hq
    obtain ⟨k, hk, hw⟩ := hg.cover q hq
    exact ⟨k, (mt k).2 hk, hw⟩
  · intro q k hk k' hk' h1 h2
    exact hg.apart hN q k ((mt k).1 hk) k' ((mt k').1 hk') h1 h2

end Mdso.Tri
