import Verif.Lemmas.TriTidy

/-!
# The constructor
-/

set_option autoImplicit false

namespace Mdso.Tri

open Mdso.Geom Mdso.Tri.Spec

theorem keeps_true {p : Preds} (hp : ∀ a b c, p.convex a c b c = false) (adm : Nat → Prop) :
    Keeps p adm (fun _ _ _ _ => True) where
  flip := by
    intro V m AE AT e t0 t1 c d fa0 fb0 fa1 fb1 _ _ _ _ _ _ _ hc _ _
    refine ⟨?_, fun _ _ => trivial⟩
    rintro rfl
    rw [hp] at hc
    cases hc
  tri := by intros; trivial
  edge := by intros; trivial

/-- What the constructor returns, whatever the predicates say. -/
theorem construct_any {env : Env} (henv : Lawful env) {p : Preds} {order : List Nat} {fuel : Nat}
    (ho : Shuffle order.length order)
    (hp : ∀ a b c, p.convex a c b c = false) : construct env p order fuel = .error .ub ∨
      ∃ r, construct env p order fuel = .ok r ∧ ∀ t l, r = some (t, l) → Consistent t := by
  have hlt : ∀ k ∈ order, k < order.length := by
    intro k hk
    have := (ho.mem_iff (a := k)).1 hk
    rwa [List.mem_range] at this
  unfold construct
  rcases insertAll_any (keeps_true hp _) env henv fuel order hlt rfl order 0
    ⟨[], initial, List.replicate order.length 0⟩ (by omega) hlt (by simp) (by simp) (by simp)
    (initial_built trivial) with h | ⟨r, h, hr⟩
  · rw [h]; exact .inl rfl
  · rw [h]
    cases r with
    | none => exact .inr ⟨none, rfl, by simp⟩
    | some s =>
      obtain ⟨g1, g2, AE, AT, g3, -, -, g4, g5⟩ := hr s rfl
      simp only
      rcases vertexPtrs_fault (tidy s) s.verts.length (le_refl _) with hv | ⟨l, hv⟩
      · rw [hv]; exact .inl rfl
      · rw [hv]
        refine .inr ⟨_, rfl, ?_⟩
        intro t l' htl
        cases htl
        exact consistent_of_inv g3 g1 (fun v hv => (g2 v hv).1) g4 g5

/-- What the constructor returns if no point has been merged. -/
theorem construct_full {env : Env} {p : Preds} {order : List Nat} {fuel : Nat} {t : Triangulation} {l : List Nat}
    (h : construct env p order fuel = .ok (some (t, l))) (hl : t.verts.length = order.length) :
    t.verts = List.range' 3 order.length ∧
    t.inv = (order.zipIdx 0).foldl (fun inv k => inv.set k.1 (k.2 + 3)) (List.replicate order.length 0) := by
  unfold construct at h
  split at h
  · cases h
  · cases h
  · rename_i s hs
    split at h
    · cases h
    · cases h
      obtain ⟨-, g⟩ := insertAll_full env p fuel order order 0 _ _ hs
      have hl' : s.verts.length = order.length := hl
      obtain ⟨g1, g2⟩ := g (by simp [hl'])
      rw [List.nil_append] at g1
      exact ⟨g1, g2⟩

theorem position_of {points : List V2} {order : List Nat} {i j : Nat} (hj : order[j]? = some i) (hi : i < points.length) :
    points[i]? = some (position points order (3 + j)) := by
  unfold position
  have h : 3 + j - 3 = j := by omega
  rw [if_neg (by omega), h, hj]
  simp [List.getD, hi]

/-- What the constructor returns for points in general position. -/
theorem triangulate_general {env : Env} (henv : Lawful env) {s : Settings} {points : List V2} {order : List Nat}
    (ho : Shuffle points.length order) (hG : GeneralPosition s points) (fuel : Nat) :
    ∃ r, triangulate env s points order fuel = .ok r ∧
      (r = none → 6 * points.length + 16 ≤ fuel → Stuck env (predsAt (position points order)
        (s.epsPointIsOnSegment * maxDim points) (s.epsSamePoints * maxDim points))
        (Geo (position points order) (3 + points.length)) points.length fuel) ∧
      ∀ t l, r = some (t, l) → Consistent t ∧ Tiles (position points order) t ∧ t.verts.length = points.length ∧
        (∀ i < points.length, ∃ j, order[j]? = some i ∧ get t i = .ok (3 + j)) ∧
        (l.length = points.length ∧ ∀ i < points.length, get t i = .ok (l.getD i 0)) ∧
        ∃ AE AT, Inv t.mesh (vset t.verts) AE AT ∧ Geo (position points order) (3 + points.length) (vset t.verts) t.mesh AE AT ∧
          Outer t.mesh AE ∧ (∀ e, e ∈ t.allEdges ↔ e ∈ AE) ∧ (∀ k, k ∈ t.allTriangles ↔ k ∈ AT) ∧
          AE.card = t.allEdges.length := by
  have hlen : order.length = points.length := by rw [ho.length_eq]; simp
  have hN := general_noncol hG ho
  have hA := general_apart hG ho
  have hK := keeps_geo _ _ _ _ hN hA
  unfold triangulate construct
  obtain ⟨r, g1, g2, g3⟩ := insertAll_apart hK hA env henv fuel order order 0
    ⟨[], initial, List.replicate order.length 0⟩ (by omega) rfl (initial_built (geo_initial _ (by omega)))
  rw [g1]
  cases r with
  | none => exact ⟨none, rfl, fun _ => g2 rfl, by simp⟩
  | some st =>
    obtain ⟨k1, ⟨AE, AT, k2, k3, k7, k4, k5⟩, k6⟩ := g3 st rfl
    simp only
    rw [hlen] at k6
    have hg := get_full (t := tidy st) ho k1 k6
    choose! f hf hget using hg
    have hv : st.verts.length = points.length := by rw [k1]; simp
    have hp := vertexPtrs_ok (tidy st) (fun i => 3 + f i) st.verts.length (fun i hi => hget i (by omega))
    rw [hp]
    refine ⟨_, rfl, by simp, ?_⟩
    intro t l htl
    cases htl
    refine ⟨consistent_of_inv k2 ?_ ?_ k4 k5, tiles_of_geo k2 hG.dim ho hN k3, hv, fun i hi => ⟨f i, hf i hi, hget i hi⟩,
      ⟨?_, ?_⟩, AE, AT, k2, k3, k7, mem_tidy_edges k2, mem_tidy_triangles k2,
      (length_of_mem (List.nodup_range.filter _) (mem_tidy_edges k2)).symm⟩
    · rw [k1]; exact List.nodup_range'
    · intro v hv
      rw [k1, List.mem_range'_1] at hv
      exact hv.1
    · simp [hv]
    · intro i hi
      rw [hget i hi]
      congr 1
      rw [getD_lt (by simp [hv, hi])]
      simp

end Mdso.Tri
