import Verif.Lemmas.DelBuild
import Verif.Spec.Delaunay

/-!
# The triangles of inner vertices: circles, covering, uniqueness
-/

set_option autoImplicit false

namespace Mdso.Tri

open Mdso.Geom Mdso.Tri.Spec

/-! ### Circles -/

theorem circle_of {a b c : V2} (h : area a b c ≠ 0) :
    ∃ (o : V2) (d : ℝ), ∀ q, pow a b c q = sqNorm (q - o) - d := by
  obtain ⟨α, β, γ, h1, -⟩ := pow_affine h
  refine ⟨⟨α / 2, β / 2⟩, γ + (α / 2) ^ 2 + (β / 2) ^ 2, fun q => ?_⟩
  rw [h1]
  unfold sqNorm
  simp only [sub_x, sub_y]
  ring

theorem emptyCircle_of {points : List V2} {a b c : V2} (h : area a b c ≠ 0) (he : ∀ p ∈ points, 0 ≤ pow a b c p) :
    EmptyCircle points a b c := by
  obtain ⟨o, d, ho⟩ := circle_of h
  obtain ⟨-, -, -, -, z1, z2, z3⟩ := pow_affine h
  rw [ho] at z1 z2 z3
  refine ⟨o, d, by linarith, by linarith, by linarith, fun p hp => ?_⟩
  have := he p hp
  rw [ho] at this
  linarith

/-! ### Covering -/

section

variable {pos : Nat → V2} {V : Finset Nat} {T : Nat → Nat → Nat → Prop}

/-- If there are three inner vertices there is a triangle of inner vertices. -/
theorem inner_exists (h : Tess pos V T) (hs : Sites pos V) (hull : Hull pos V T) {a p r : Nat} (ha : a ∈ V) (hp : p ∈ V)
    (hr : r ∈ V) (ha3 : 3 ≤ a) (hp3 : 3 ≤ p) (hr3 : 3 ≤ r) (hap : a ≠ p) (har : a ≠ r) (hpr : p ≠ r) :
    ∃ x y z, T x y z ∧ 3 ≤ x ∧ 3 ≤ y ∧ 3 ≤ z := by
  obtain ⟨b, c, hbc, hcase⟩ := dir h hs ha hp ha3 hp3 hap
  rcases hcase with rfl | ⟨c1, c2⟩
  · by_cases hc : 3 ≤ c
    · exact ⟨_, _, _, hbc, ha3, hp3, hc⟩
    · obtain ⟨d, hd, hneg⟩ := h.nb hbc (by omega)
      by_cases hd3 : 3 ≤ d
      · exact ⟨_, _, _, hd, ha3, hp3, hd3⟩
      · exfalso
        have k1 := hull hbc ha3 hp3 (by omega) hr hr3
        have k2 := hull hd ha3 hp3 (by omega) hr hr3
        have hne : area (pos a) (pos b) (pos r) ≠ 0 := hs.noncol a ha b hp r hr hap har hpr
        have h2 : 0 < area (pos a) (pos b) (pos r) * area (pos a) (pos b) (pos r) := mul_self_pos.2 hne
        have h3 := mul_nonneg_of_nonpos_of_nonpos k1 k2
        have h4 : area (pos a) (pos b) (pos c) * area (pos a) (pos b) (pos r) *
            (area (pos a) (pos b) (pos d) * area (pos a) (pos b) (pos r)) =
            (area (pos a) (pos b) (pos c) * area (pos a) (pos b) (pos d)) *
            (area (pos a) (pos b) (pos r) * area (pos a) (pos b) (pos r)) := by ring
        rw [h4] at h3
        have := mul_neg_of_neg_of_pos hneg h2
        linarith
  · by_cases hb : 3 ≤ b
    · by_cases hc : 3 ≤ c
      · exact ⟨_, _, _, hbc, ha3, hb, hc⟩
      · exfalso
        have := hull hbc ha3 hb (by omega) hp hp3
        linarith
    · by_cases hc : 3 ≤ c
      · exfalso
        have k := hull (h.out hbc) ha3 hc (by omega) hp hp3
        rw [area_other (pos a) (pos b) (pos c), area_other (pos a) (pos p) (pos c)] at k
        linarith
      · exfalso
        have hbs := bound_side hs (show b < 3 by omega) (show c < 3 by omega) (h.ne2 hbc) ha hp (by omega) (by omega)
          (by omega) (by omega)
        have e1 : area (pos b) (pos c) (pos a) = area (pos a) (pos b) (pos c) := area_rot _ _ _
        have e2 : area (pos b) (pos c) (pos p) = area (pos p) (pos b) (pos c) := area_rot _ _ _
        rw [e1, e2] at hbs
        exact vertex_free h hs hbc hp hap.symm (by omega) (by omega) ⟨hbs.le, c2.le, c1.le⟩

/-- A point not beyond any line that has all inner vertices on one side is in a triangle of inner vertices. -/
theorem inner_cover (h : Tess pos V T) (hs : Sites pos V) (hull : Hull pos V T) {x y z : Nat} (h0 : T x y z) (hx : 3 ≤ x)
    (hy : 3 ≤ y) (hz : 3 ≤ z) {w : V2}
    (hw : ∀ α β γ : ℝ, (∀ p ∈ V, 3 ≤ p → 0 ≤ α * (pos p).x + β * (pos p).y + γ) → 0 ≤ α * w.x + β * w.y + γ) :
    ∃ a b c, T a b c ∧ 3 ≤ a ∧ 3 ≤ b ∧ 3 ≤ c ∧ Within (pos a) (pos b) (pos c) w := by
  obtain ⟨q, hq, hav⟩ := aim (pos := pos) V (h.area hs h0) w
  by_cases hqw : q = w
  · subst hqw
    exact ⟨x, y, z, h0, hx, hy, hz, hq.1.le, hq.2.1.le, hq.2.2.le⟩
  obtain ⟨a, b, c, ⟨k1, k2, k3, k4⟩, k5⟩ := walk_to hs (P := fun a b c => T a b c ∧ 3 ≤ a ∧ 3 ≤ b ∧ 3 ≤ c)
    (fun hh => ⟨h.rot hh.1, hh.2.2.1, hh.2.2.2, hh.2.1⟩) (fun hh => ⟨h.mem hh.1, h.ne hh.1⟩) (u := q) (w := w) (s := 0)
    (by norm_num) ⟨x, y, z, ⟨h0, hx, hy, hz⟩, by rw [lin_zero]; exact ⟨hq.1.le, hq.2.1.le, hq.2.2.le⟩⟩
    (fun t _ ht p hp heq => by
      by_cases hpw : pos p = w
      · rw [hpw] at heq
        apply hqw
        have e1 := congrArg V2.x heq
        have e2 := congrArg V2.y heq
        simp only [lin] at e1 e2
        have f1 : (1 - t) * (w.x - q.x) = 0 := by linarith
        have f2 : (1 - t) * (w.y - q.y) = 0 := by linarith
        rcases mul_eq_zero.1 f1 with g | g
        · linarith
        rcases mul_eq_zero.1 f2 with g' | g'
        · linarith
        ext <;> linarith
      · exact hav t ht p hp hpw heq)
    (by
      rintro a b c t ⟨k1, k2, k3, k4⟩ _ _ _ _ hneg
      obtain ⟨d, hd, hdn⟩ := h.nb k1 (by omega)
      by_cases hd3 : 3 ≤ d
      · exact ⟨d, ⟨hd, k2, k3, hd3⟩, hdn⟩
      · exfalso
        obtain ⟨S, hS⟩ : ∃ S, S = area (pos a) (pos b) (pos c) := ⟨_, rfl⟩
        have hlin : ∀ q : V2, S * area (pos a) (pos b) q =
            -S * ((pos b).y - (pos a).y) * q.x + S * ((pos b).x - (pos a).x) * q.y +
            (S * (((pos b).y - (pos a).y) * (pos a).x - ((pos b).x - (pos a).x) * (pos a).y)) := by
          intro q; unfold area; ring
        have := hw (-S * ((pos b).y - (pos a).y)) (S * ((pos b).x - (pos a).x))
          (S * (((pos b).y - (pos a).y) * (pos a).x - ((pos b).x - (pos a).x) * (pos a).y)) (by
            intro p hp hp3
            rw [← hlin]
            have k := hull hd k2 k3 (by omega) hp hp3
            by_contra hh
            push Not at hh
            rw [hS] at hh
            rcases lt_trichotomy (area (pos a) (pos b) (pos p)) 0 with g | g | g
            · have d0 : 0 ≤ area (pos a) (pos b) (pos d) := by nlinarith
              have c0 : 0 < area (pos a) (pos b) (pos c) := by nlinarith
              nlinarith
            · rw [g] at hh; simp at hh
            · have d0 : area (pos a) (pos b) (pos d) ≤ 0 := by nlinarith
              have c0 : area (pos a) (pos b) (pos c) < 0 := by nlinarith
              nlinarith)
        rw [← hlin, hS] at this
        linarith)
  exact ⟨a, b, c, k1, k2, k3, k4, k5⟩

end

/-! ### Affine functions on a triangle -/

theorem affine_bary (α β γ : ℝ) (a b c q : V2) :
    area a b c * (α * q.x + β * q.y + γ) = area q b c * (α * a.x + β * a.y + γ) +
      area a q c * (α * b.x + β * b.y + γ) + area a b q * (α * c.x + β * c.y + γ) := by
  unfold area; ring

theorem within_hull {a b c q : V2} (h : area a b c ≠ 0) (hw : Within a b c q) {α β γ : ℝ}
    (ha : 0 ≤ α * a.x + β * a.y + γ) (hb : 0 ≤ α * b.x + β * b.y + γ) (hc : 0 ≤ α * c.x + β * c.y + γ) :
    0 ≤ α * q.x + β * q.y + γ := by
  have p4 : 0 < area a b c * area a b c := mul_self_pos.2 h
  have e := affine_bary α β γ a b c q
  have k1 := mul_nonneg hw.1 ha
  have k2 := mul_nonneg hw.2.1 hb
  have k3 := mul_nonneg hw.2.2 hc
  refine nonneg_of_mul_nonneg_right (a := area a b c * area a b c) ?_ p4
  have : area a b c * area a b c * (α * q.x + β * q.y + γ) = area a b c * area q b c * (α * a.x + β * a.y + γ) +
      area a b c * area a q c * (α * b.x + β * b.y + γ) + area a b c * area a b q * (α * c.x + β * c.y + γ) := by
    linear_combination area a b c * e
  linarith

theorem inside_zero {a b c q : V2} (hw : Inside a b c q) {α β γ : ℝ}
    (ha : 0 ≤ α * a.x + β * a.y + γ) (hb : 0 ≤ α * b.x + β * b.y + γ) (hc : 0 ≤ α * c.x + β * c.y + γ)
    (hq : α * q.x + β * q.y + γ ≤ 0) :
    α * a.x + β * a.y + γ = 0 ∧ α * b.x + β * b.y + γ = 0 ∧ α * c.x + β * c.y + γ = 0 := by
  have e := affine_bary α β γ a b c q
  have p4 : 0 < area a b c * area a b c := mul_self_pos.2 (inside_area hw)
  have h0 := within_hull (inside_area hw) ⟨hw.1.le, hw.2.1.le, hw.2.2.le⟩ ha hb hc
  have k1 := mul_nonneg hw.1.le ha
  have k2 := mul_nonneg hw.2.1.le hb
  have k3 := mul_nonneg hw.2.2.le hc
  have : area a b c * area q b c * (α * a.x + β * a.y + γ) +
      area a b c * area a q c * (α * b.x + β * b.y + γ) + area a b c * area a b q * (α * c.x + β * c.y + γ) = 0 := by
    have hz : α * q.x + β * q.y + γ = 0 := le_antisymm hq h0
    rw [hz] at e
    linear_combination -(area a b c) * e
  refine ⟨?_, ?_, ?_⟩
  · exact (mul_eq_zero.1 (by linarith : area a b c * area q b c * (α * a.x + β * a.y + γ) = 0)).resolve_left hw.1.ne'
  · exact (mul_eq_zero.1 (by linarith : area a b c * area a q c * (α * b.x + β * b.y + γ) = 0)).resolve_left hw.2.1.ne'
  · exact (mul_eq_zero.1 (by linarith : area a b c * area a b q * (α * c.x + β * c.y + γ) = 0)).resolve_left hw.2.2.ne'

/-- The corners of a triangle with an empty circle are on the circle of a triangle with an empty circle that covers one of
its interior points. -/
theorem same_circle {a b c a' b' c' q : V2} (h : Inside a b c q) (h0' : area a' b' c' ≠ 0) (h' : Within a' b' c' q)
    (e1 : 0 ≤ pow a b c a') (e2 : 0 ≤ pow a b c b') (e3 : 0 ≤ pow a b c c') (f1 : 0 ≤ pow a' b' c' a)
    (f2 : 0 ≤ pow a' b' c' b) (f3 : 0 ≤ pow a' b' c' c) :
    pow a' b' c' a = 0 ∧ pow a' b' c' b = 0 ∧ pow a' b' c' c = 0 := by
  obtain ⟨α, β, γ, k0, k1, k2, k3⟩ := pow_affine (inside_area h)
  obtain ⟨α', β', γ', l0, l1, l2, l3⟩ := pow_affine h0'
  have hd : ∀ q, pow a' b' c' q - pow a b c q = (α - α') * q.x + (β - β') * q.y + (γ - γ') := by
    intro q; rw [k0, l0]; ring
  have hd' : ∀ q, pow a b c q - pow a' b' c' q = (α' - α) * q.x + (β' - β) * q.y + (γ' - γ) := by
    intro q; rw [k0, l0]; ring
  have hq := within_hull h0' h' (α := α' - α) (β := β' - β) (γ := γ' - γ) (by rw [← hd']; linarith)
    (by rw [← hd']; linarith) (by rw [← hd']; linarith)
  rw [← hd'] at hq
  have := inside_zero h (α := α - α') (β := β - β') (γ := γ - γ') (by rw [← hd]; linarith) (by rw [← hd]; linarith)
    (by rw [← hd]; linarith) (by rw [← hd]; linarith)
  rw [← hd, ← hd, ← hd] at this
  exact ⟨by linarith [this.1], by linarith [this.2.1], by linarith [this.2.2]⟩

/-! ### The constructed triangulation -/

section

variable {env : Env} {s : Settings} {points : List V2} {order : List Nat} {fuel : Nat} {t : Triangulation} {l : List Nat}

/-- What is known of the mesh. -/
theorem run_mesh (henv : Lawful env) (ho : Shuffle points.length order) (hG : GeneralPosition s points)
    (hr : triangulate env s points order fuel = .ok (some (t, l))) :
    Tess (position points order) (vset t.verts) (Cell t.mesh) ∧ Sites (position points order) (vset t.verts) ∧
    Del (position points order) (vset t.verts) t.mesh ∧
    (∀ v, v ∈ vset t.verts ↔ v < 3 + points.length) ∧
    (∀ a b c, Cell t.mesh a b c ∧ 3 ≤ a ∧ 3 ≤ b ∧ 3 ≤ c ↔ a ≠ b ∧ a ≠ c ∧ b ≠ c ∧
      ∃ n ∈ triangles t, ∀ v, (∃ i, t.mesh.tv n i = v) ↔ v = a ∨ v = b ∨ v = c) ∧
    (∀ n ∈ triangles t, ∀ i j, t.mesh.tv n i = t.mesh.tv n j → i = j) ∧
    ∀ i j, order[j]? = some i → get t i = .ok (3 + j) := by
  have hN := general_noncol hG ho
  have hD := triangulate_del henv ho hG hr
  have hlen : order.length = points.length := by rw [ho.length_eq]; simp
  obtain ⟨r, hr', -, g⟩ := triangulate_general henv ho hG fuel
  rw [hr'] at hr
  obtain ⟨-, -, g3, g4, -, AE, AT, k1, k2, k3, k4, k5, -⟩ := g t l (Except.ok.inj hr)
  rw [Except.ok.inj hr] at hr'
  obtain ⟨f1, -⟩ := construct_full hr' (by omega)
  refine ⟨tess_of hN k1 k2, sites_of hN k2 (inside_position hG ho), hD, fun v => ?_, fun a b c => ?_, ?_, ?_⟩
  · rw [mem_vset, f1, List.mem_range'_1]
    omega
  · rw [cell_iff k1]
    have hb : ∀ n, isIncidentToBoundary t.mesh n = false ↔ ∀ i, 3 ≤ t.mesh.tv n i := by
      intro n
      unfold isIncidentToBoundary isBound
      simp only [Bool.or_eq_false_iff, decide_eq_false_iff_not, not_lt]
      constructor
      · rintro ⟨⟨u0, u1⟩, u2⟩ i
        fin_cases i <;> assumption
      · intro u
        exact ⟨⟨u 0, u 1⟩, u 2⟩
    constructor
    · rintro ⟨⟨h1, h2, h3, n, hn, hv⟩, ha, hb', hc⟩
      refine ⟨h1, h2, h3, n, ?_, hv⟩
      unfold triangles
      rw [List.mem_filter, Bool.not_eq_true', hb]
      refine ⟨(k5 n).2 hn, fun i => ?_⟩
      rcases (hv _).1 ⟨i, rfl⟩ with h | h | h <;> rw [h] <;> assumption
    · rintro ⟨h1, h2, h3, n, hn, hv⟩
      unfold triangles at hn
      rw [List.mem_filter, Bool.not_eq_true', hb] at hn
      refine ⟨⟨h1, h2, h3, n, (k5 n).1 hn.1, hv⟩, ?_, ?_, ?_⟩
      · obtain ⟨i, rfl⟩ := (hv a).2 (by simp)
        exact hn.2 i
      · obtain ⟨i, rfl⟩ := (hv b).2 (by simp)
        exact hn.2 i
      · obtain ⟨i, rfl⟩ := (hv c).2 (by simp)
        exact hn.2 i
  · intro n hn i j hij
    exact k1.inj n ((k5 n).1 (List.mem_of_mem_filter hn)) hij
  · intro i j hij
    have hi : i < points.length := List.mem_range.1 (ho.mem_iff.1 (List.mem_of_getElem? hij))
    obtain ⟨j', hj', hg⟩ := g4 i hi
    have hnd : order.Nodup := ho.nodup_iff.2 List.nodup_range
    have h1 := List.getElem?_eq_some_iff.1 hij
    have h2 := List.getElem?_eq_some_iff.1 hj'
    obtain ⟨b1, e1⟩ := h1
    obtain ⟨b2, e2⟩ := h2
    have : j = j' := (hnd.getElem_inj_iff).1 (e1.trans e2.symm)
    rw [this]
    exact hg

/-- The vertices and the points. -/
theorem run_point (ho : Shuffle points.length order) {v : Nat} (h3 : 3 ≤ v) (hv : v < 3 + points.length) :
    ∃ i j, v = 3 + j ∧ order[j]? = some i ∧ points[i]? = some (position points order v) := by
  have hlen : order.length = points.length := by rw [ho.length_eq]; simp
  have hj : v - 3 < order.length := by omega
  have hi : order[v - 3] < points.length := List.mem_range.1 (ho.mem_iff.1 (List.getElem_mem hj))
  refine ⟨order[v - 3], v - 3, by omega, List.getElem?_eq_getElem hj, ?_⟩
  have := position_of (points := points) (List.getElem?_eq_getElem hj) hi
  rwa [show 3 + (v - 3) = v from by omega] at this

theorem run_vertex (ho : Shuffle points.length order) {i : Nat} {p : V2} (h : points[i]? = some p) :
    ∃ j, order[j]? = some i ∧ 3 + j < 3 + points.length ∧ position points order (3 + j) = p := by
  have hlen : order.length = points.length := by rw [ho.length_eq]; simp
  have hi : i < points.length := (List.getElem?_eq_some_iff.1 h).1
  obtain ⟨j, hj⟩ := List.mem_iff_getElem?.1 (ho.mem_iff.2 (List.mem_range.2 hi))
  refine ⟨j, hj, ?_, ?_⟩
  · have := (List.getElem?_eq_some_iff.1 hj).1
    omega
  · have := position_of hj hi
    rw [h] at this
    exact (Option.some.inj this).symm

/-- The triangles have empty circles. -/
theorem run_empty (henv : Lawful env) (ho : Shuffle points.length order) (hG : GeneralPosition s points)
    (hr : triangulate env s points order fuel = .ok (some (t, l))) {a b c : Nat} (h : Cell t.mesh a b c) (ha : 3 ≤ a)
    (hb : 3 ≤ b) (hc : 3 ≤ c) : ∀ p ∈ points, 0 ≤ pow (position points order a) (position points order b)
      (position points order c) p := by
  obtain ⟨h1, h2, h3, h4, -⟩ := run_mesh henv ho hG hr
  intro p hp
  obtain ⟨i, hi⟩ := List.mem_iff_getElem?.1 hp
  obtain ⟨j, -, hj, rfl⟩ := run_vertex ho hi
  exact h3.2 h ha hb hc ((h4 _).2 hj) (by omega)

/-- They cover the convex hull. -/
theorem run_cover (henv : Lawful env) (ho : Shuffle points.length order) (hG : GeneralPosition s points)
    (hr : triangulate env s points order fuel = .ok (some (t, l))) (hn : 3 ≤ points.length) {w : V2}
    (hw : InConvexHull points w) : ∃ a b c, Cell t.mesh a b c ∧ 3 ≤ a ∧ 3 ≤ b ∧ 3 ≤ c ∧
      Within (position points order a) (position points order b) (position points order c) w := by
  obtain ⟨h1, h2, h3, h4, -⟩ := run_mesh henv ho hG hr
  obtain ⟨x, y, z, k1, k2, k3, k4⟩ := inner_exists h1 h2 h3.1 (a := 3) (p := 4) (r := 5) ((h4 _).2 (by omega))
    ((h4 _).2 (by omega)) ((h4 _).2 (by omega)) (by omega) (by omega) (by omega) (by omega) (by omega) (by omega)
  refine inner_cover h1 h2 h3.1 k1 k2 k3 k4 fun α β γ hp => hw α β γ fun p hpp => ?_
  obtain ⟨i, hi⟩ := List.mem_iff_getElem?.1 hpp
  obtain ⟨j, -, hj, rfl⟩ := run_vertex ho hi
  exact hp _ ((h4 _).2 hj) (by omega)

/-- The points of a triangle. -/
theorem run_joined (henv : Lawful env) (ho : Shuffle points.length order) (hG : GeneralPosition s points)
    (hr : triangulate env s points order fuel = .ok (some (t, l))) {i j k : Nat} {p q r : V2} (hp : points[i]? = some p)
    (hq : points[j]? = some q) (hrr : points[k]? = some r) :
    Joined t i j k ∧ i ≠ j ∧ i ≠ k ∧ j ≠ k ↔ ∃ a b c, order[a]? = some i ∧ order[b]? = some j ∧ order[c]? = some k ∧
      position points order (3 + a) = p ∧ position points order (3 + b) = q ∧ position points order (3 + c) = r ∧
      Cell t.mesh (3 + a) (3 + b) (3 + c) := by
  obtain ⟨h1, h2, h3, h4, h5, -, h7⟩ := run_mesh henv ho hG hr
  obtain ⟨a, a1, a2, a3⟩ := run_vertex ho hp
  obtain ⟨b, b1, b2, b3⟩ := run_vertex ho hq
  obtain ⟨c, c1, c2, c3⟩ := run_vertex ho hrr
  constructor
  · rintro ⟨⟨a', b', c', g1, g2, g3, n, hn, hv⟩, n1, n2, n3⟩
    rw [h7 _ _ a1] at g1
    rw [h7 _ _ b1] at g2
    rw [h7 _ _ c1] at g3
    cases g1; cases g2; cases g3
    refine ⟨a, b, c, a1, b1, c1, a3, b3, c3, ((h5 _ _ _).2 ⟨?_, ?_, ?_, n, hn, hv⟩).1⟩
    · rintro hh
      have : a = b := by omega
      subst this
      rw [a1] at b1
      exact n1 (Option.some.inj b1)
    · rintro hh
      have : a = c := by omega
      subst this
      rw [a1] at c1
      exact n2 (Option.some.inj c1)
    · rintro hh
      have : b = c := by omega
      subst this
      rw [b1] at c1
      exact n3 (Option.some.inj c1)
  · rintro ⟨a', b', c', a1', b1', c1', -, -, -, hc⟩
    obtain ⟨m1, m2, m3, n, hn, hv⟩ := (h5 _ _ _).1 ⟨hc, by omega, by omega, by omega⟩
    refine ⟨⟨_, _, _, h7 _ _ a1', h7 _ _ b1', h7 _ _ c1', n, hn, hv⟩, ?_, ?_, ?_⟩
    · rintro rfl
      have hnd : order.Nodup := ho.nodup_iff.2 List.nodup_range
      obtain ⟨u1, e1⟩ := List.getElem?_eq_some_iff.1 a1'
      obtain ⟨u2, e2⟩ := List.getElem?_eq_some_iff.1 b1'
      have : a' = b' := (hnd.getElem_inj_iff).1 (e1.trans e2.symm)
      omega
    · rintro rfl
      have hnd : order.Nodup := ho.nodup_iff.2 List.nodup_range
      obtain ⟨u1, e1⟩ := List.getElem?_eq_some_iff.1 a1'
      obtain ⟨u2, e2⟩ := List.getElem?_eq_some_iff.1 c1'
      have : a' = c' := (hnd.getElem_inj_iff).1 (e1.trans e2.symm)
      omega
    · rintro rfl
      have hnd : order.Nodup := ho.nodup_iff.2 List.nodup_range
      obtain ⟨u1, e1⟩ := List.getElem?_eq_some_iff.1 b1'
      obtain ⟨u2, e2⟩ := List.getElem?_eq_some_iff.1 c1'
      have : b' = c' := (hnd.getElem_inj_iff).1 (e1.trans e2.symm)
      omega

end

end Mdso.Tri
