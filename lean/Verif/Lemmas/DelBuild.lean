import Verif.Lemmas.DelLoop
import Verif.Lemmas.TriConstruct

/-!
# Inserting all points keeps the circles empty
-/

set_option autoImplicit false

namespace Mdso.Tri

open Mdso.Geom Mdso.Tri.Spec

/-- No vertex is inside the circle of a triangle, and the outline of the inner triangles is convex. -/
def Del (pos : Nat → V2) (V : Finset Nat) (m : Mesh) : Prop := Hull pos V (Cell m) ∧ Empty pos V (Cell m)

section

variable {pos : Nat → V2} {N : Nat} {e1 e2 : ℝ}

/-- The triangle found for a vertex contains it in its interior. -/
theorem inT_of_contains (hN : NonCol pos (3 + N)) {m : Mesh} {V AE AT : Finset Nat} (h : Inv m V AE AT)
    (hg : Geo pos (3 + N) V m AE AT) {v t : Nat} (hv : v ∉ V) (hlt : v < 3 + N) (ht : t ∈ AT)
    (hon : ∀ x ∈ sides m t, ((predsAt pos e1 e2).query v).onEdge (m.ev x 0) (m.ev x 1) = false)
    (hcont : doesContain m ((predsAt pos e1 e2).query v) t = true) : InT pos m t (pos v) := by
  have hin : isInsideTriangle (pos (m.tv t 0)) (pos (m.tv t 1)) (pos (m.tv t 2)) (pos v) := by
    unfold doesContain at hcont
    rw [Bool.or_eq_true] at hcont
    rcases hcont with hcont | hcont
    · rw [List.any_eq_true] at hcont
      obtain ⟨x, hx, hx'⟩ := hcont
      rw [hon x hx] at hx'
      cases hx'
    · simpa [predsAt, queryAt] using hcont
  have hne : ∀ i, m.tv t i ≠ v := fun i hh => hv (hh ▸ corner_mem h ht i)
  have hlt' : ∀ i, m.tv t i < 3 + N := fun i => hg.lt _ (corner_mem h ht i)
  have hij : ∀ i j, i ≠ j → m.tv t i ≠ m.tv t j := fun i j hh h' => hh (h.inj t ht h')
  exact inside_of_test hin
    (hN _ _ _ (hlt' 0) (hlt' 1) (hlt' 2) (hij 0 1 (by decide)) (hij 0 2 (by decide)) (hij 1 2 (by decide)))
    (hN _ _ _ (hlt' 0) (hlt' 1) hlt (hij 0 1 (by decide)) (hne 0) (hne 1))
    (hN _ _ _ (hlt' 0) (hlt' 2) hlt (hij 0 2 (by decide)) (hne 0) (hne 2))
    (hN _ _ _ (hlt' 1) (hlt' 2) hlt (hij 1 2 (by decide)) (hne 1) (hne 2))

/-- Inserting a vertex. -/
theorem addPoint_del (hN : NonCol pos (3 + N))
    (hin : ∀ v, 3 ≤ v → v < 3 + N → Inside (pos 0) (pos 1) (pos 2) (pos v)) (hA : Apart (predsAt pos e1 e2) N)
    {m : Mesh} {V AE AT : Finset Nat} (h : Inv m V AE AT) (hg : Geo pos (3 + N) V m AE AT) (ho : Outer m AE) {v : Nat}
    (hv : v ∉ V) (h3 : 3 ≤ v) (hlt : v < 3 + N) (env : Env) (henv : ∀ S : Finset Nat, S.Nonempty → env.first S ∈ S)
    (fuel : Nat) (hD : Del pos V m) {m' : Mesh}
    (hr : addPoint env (predsAt pos e1 e2) m v fuel = .ok (some (v, m'))) : Del pos (insert v V) m' := by
  obtain ⟨r, hr0, -, hr1⟩ := enclosing_spec h ho env henv ((predsAt pos e1 e2).query v) (env.coin v) fuel
  unfold addPoint at hr
  rw [hr0] at hr
  cases r with
  | none => cases hr
  | some o =>
    obtain ⟨t, ht, rfl, hcont⟩ := hr1 (hA.bound v h3 hlt) o rfl
    simp only at hr
    unfold insertInto at hr
    have hcorner : ∀ i, m.tv t i ∈ V := corner_mem h ht
    cases hf : (corners m t).find? (fun w => (predsAt pos e1 e2).equal w v) with
    | some w =>
      rw [hf] at hr
      cases hr
      obtain ⟨i, hi⟩ := mem_corners.1 (List.mem_of_find?_eq_some hf)
      exact absurd (hi ▸ hcorner i) hv
    | none =>
      rw [hf] at hr
      simp only at hr
      have hon : ∀ x ∈ sides m t, ((predsAt pos e1 e2).query v).onEdge (m.ev x 0) (m.ev x 1) = false := by
        intro x hx
        have hxA : x ∈ AE := by
          obtain ⟨i, rfl⟩ := mem_sides.1 hx
          exact (h.side t ht i).1
        have hne : ∀ s, m.ev x s ≠ v := fun s hh => hv (hh ▸ h.endV x hxA s)
        exact hA.onEdge v _ _ h3 hlt (hg.lt _ (h.endV x hxA 0)) (hg.lt _ (h.endV x hxA 1)) (hne 0) (hne 1) (h.ends x hxA)
      have hs : (sides m t).reverse.find? (fun e => ((predsAt pos e1 e2).query v).onEdge (m.ev e 0) (m.ev e 1)) = none := by
        rw [List.find?_eq_none]
        intro x hx
        rw [hon x (by simpa using hx)]
        simp
      rw [hs] at hr
      simp only at hr
      rw [if_pos hcont] at hr
      obtain ⟨x0, x1, x2, hc⟩ := canon_of h ht
      obtain ⟨m1, hm1, hd⟩ := divideTriangle_divided h ht hc (v := v)
      have hinT := inT_of_contains hN h hg hv hlt ht hon hcont
      have hq := queue_tri h ht hv hc hd
      have hinv := DividedT.inv h ht hv hc hd
      have hgeo := geo_tri hN h hg hv hlt ht hc hinT hd
      have hT := tess_of hN h hg
      have hij : ∀ i j, i ≠ j → m.tv t i ≠ m.tv t j := fun i j hh h' => hh (h.inj t ht h')
      have hcell : Cell m (m.tv t 0) (m.tv t 1) (m.tv t 2) :=
        ⟨hij 0 1 (by decide), hij 0 2 (by decide), hij 1 2 (by decide), t, (h.vT _ t).2 ⟨ht, 0, rfl⟩, ⟨1, rfl⟩, ⟨2, rfl⟩⟩
      have hmid : Mid pos v (Cell m) (Cell m1) (Pending m1 (sides m t)) := by
        refine mid_divide hT hv hcell hinT (fun x y z => cell_divide hN h hg hv ht hc hd) ?_
        have hp : ∀ f ∈ sides m t, ∀ x y, (∀ w, (∃ s, m.ev f s = w) ↔ w = x ∨ w = y) →
            Pending m1 (sides m t) x y ∧ Pending m1 (sides m t) y x := by
          intro f hf x y hends
          have hfA : f ∈ AE := by
            obtain ⟨i, rfl⟩ := mem_sides.1 hf
            exact (h.side t ht i).1
          have hev := hd.ev f (h.eLt f hfA)
          exact ⟨⟨f, hf, by rw [hev]; exact hends⟩, ⟨f, hf, by rw [hev]; intro w; rw [hends, or_comm]⟩⟩
        have q0 := hp x0 ((hc.sides x0).2 (by simp)) _ _ hc.end0
        have q1 := hp x1 ((hc.sides x1).2 (by simp)) _ _ hc.end1
        have q2 := hp x2 ((hc.sides x2).2 (by simp)) _ _ hc.end2
        rintro x y hxy (rfl | rfl | rfl) (rfl | rfl | rfl)
        · exact absurd rfl hxy
        · exact q2.1
        · exact q1.1
        · exact q2.2
        · exact absurd rfl hxy
        · exact q0.1
        · exact q1.2
        · exact q0.2
        · exact absurd rfl hxy
      simp only [hm1, bind, Except.bind] at hr
      cases hl : legalize (predsAt pos e1 e2) v fuel (sides m t) m1 with
      | error f => rw [hl] at hr; cases hr
      | ok r =>
        rw [hl] at hr
        cases r with
        | none => cases hr
        | some m2 =>
          simp only [Option.map_some, Except.ok.injEq, Option.some.injEq, Prod.mk.injEq, true_and] at hr
          subst hr
          obtain ⟨AE', AT', i1, i2, i3⟩ := legalize_del hN hin h3 hv hT fuel _ m1 _ _ hinv hgeo hq hmid m2 hl
          have hs := sites_of hN i2 hin
          have hT' := tess_of hN i1 i2
          exact ⟨hull_step hs h3 hv hT hT' i3 hD.1, empty_step hs h3 hv hT hT' i3 hD.1 hD.2⟩

/-- Inserting all points. -/
theorem insertAll_del (hN : NonCol pos (3 + N))
    (hin : ∀ v, 3 ≤ v → v < 3 + N → Inside (pos 0) (pos 1) (pos 2) (pos v)) (hA : Apart (predsAt pos e1 e2) N)
    (env : Env) (henv : ∀ S : Finset Nat, S.Nonempty → env.first S ∈ S) (fuel : Nat) (all : List Nat) :
    ∀ (order : List Nat) (i : Nat) (s : State), i + order.length = N → s.verts = List.range' 3 i →
      Built (Geo pos (3 + N)) s.verts s.mesh → Del pos (vset s.verts) s.mesh → ∀ s',
      insertAll env (predsAt pos e1 e2) fuel all order i s = .ok (some s') → Del pos (vset s'.verts) s'.mesh := by
  have hK := keeps_geo pos e1 e2 N hN hA
  intro order
  induction order with
  | nil =>
    intro i s _ _ _ hD s' hr
    unfold insertAll at hr
    cases hr
    exact hD
  | cons k order ih =>
    intro i s hi hv hb hD s' hr
    simp only [List.length_cons] at hi
    obtain ⟨AE, AT, h1, h2, h3, h4, h5⟩ := hb
    have hmem : ∀ w, w ∈ vset s.verts ↔ w < 3 + i := by
      intro w
      rw [mem_vset, hv, List.mem_range'_1]
      omega
    have hvn : 3 + i ∉ vset s.verts := by rw [hmem]; omega
    unfold insertAll at hr
    cases ha : addPoint env (predsAt pos e1 e2) s.mesh (3 + i) fuel with
    | error f => rw [ha] at hr; cases hr
    | ok o =>
      rw [ha] at hr
      cases o with
      | none => cases hr
      | some x =>
        obtain ⟨w, m⟩ := x
        simp only at hr
        rcases addPoint_spec hK h1 h2 h3 hvn (by omega) env henv fuel with ⟨h, -⟩ | ⟨r, hr', -, hcase⟩
        · rw [h] at ha; cases ha
        · rw [ha] at hr'
          cases hr'
          rcases hcase w m rfl with ⟨c1, c2, c3, c4⟩ | ⟨rfl, c2⟩
          · have hw := (hmem w).1 c3
            rw [hA.equal (3 + i) w (by omega) (by omega) (by omega) hw.ne] at c4
            cases c4
          · rw [if_pos rfl] at hr
            refine ih (i + 1) ⟨s.verts ++ [3 + i], m, s.inv.set k (i + 3)⟩ (by omega)
              (by rw [hv, List.range'_concat]; simp) (c2.built h4 h5) ?_ s' hr
            rw [vset_append]
            exact addPoint_del hN hin hA h1 h2 h3 hvn (by omega) (by omega) env henv fuel hD ha

end

theorem del_initial (pos : Nat → V2) : Del pos (vset []) initial := by
  have hv : ∀ v, v ∈ vset [] → v < 3 := by intro v; rw [mem_vset]; simp
  refine ⟨?_, ?_⟩
  · intro a b x p _ _ _ _ hp h3
    exact absurd (hv p hp) (by omega)
  · intro a b c p _ _ _ _ hp h3
    exact absurd (hv p hp) (by omega)

theorem inside_position {s : Settings} {points : List V2} {order : List Nat} (hG : GeneralPosition s points)
    (ho : Shuffle points.length order) (v : Nat) (h3 : 3 ≤ v) (hv : v < 3 + points.length) :
    Inside (position points order 0) (position points order 1) (position points order 2) (position points order v) := by
  obtain ⟨b0, b1, b2, b3⟩ := inside_bounding hG.dim (position_mem ho h3 hv)
  rw [position_bound points order (i := 0) (by omega), position_bound points order (i := 1) (by omega),
    position_bound points order (i := 2) (by omega), inside_pos b0]
  exact ⟨b2, b3, b1⟩

/-- The mesh of points in general position. -/
theorem triangulate_del {env : Env} (henv : Lawful env) {s : Settings} {points : List V2} {order : List Nat}
    (ho : Shuffle points.length order) (hG : GeneralPosition s points) {fuel : Nat} {t : Triangulation} {l : List Nat}
    (hr : triangulate env s points order fuel = .ok (some (t, l))) : Del (position points order) (vset t.verts) t.mesh := by
  have hN := general_noncol hG ho
  have hA := general_apart hG ho
  have hlen : order.length = points.length := by rw [ho.length_eq]; simp
  unfold triangulate construct at hr
  cases hi : insertAll env (predsAt (position points order) (s.epsPointIsOnSegment * maxDim points)
      (s.epsSamePoints * maxDim points)) fuel order order 0 ⟨[], initial, List.replicate order.length 0⟩ with
  | error f => rw [hi] at hr; cases hr
  | ok o =>
    rw [hi] at hr
    cases o with
    | none => cases hr
    | some st =>
      simp only at hr
      cases hp : vertexPtrs (tidy st) st.verts.length with
      | error f => rw [hp] at hr; cases hr
      | ok l' =>
        rw [hp] at hr
        cases hr
        exact insertAll_del hN (inside_position hG ho) hA env henv fuel order order 0 _ (by omega) rfl
          (initial_built (geo_initial _ (by omega))) (del_initial _) st hi

end Mdso.Tri
