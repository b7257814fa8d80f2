import Verif.Spec.TriDraw
import Verif.Props.Triangulation

/-!
# Properties of the drawing of triangulations: C120–C124
-/

set_option autoImplicit false

namespace Mdso.Tri

open Mdso.Geom Mdso.Tri.Spec Mdso.Util

/-! ### Which edges are drawn -/

theorem mem_visited {order : Finset Nat → List Nat} (ho : Visits order) {t : Triangulation} (hc : Consistent t) (e : Nat) :
    e ∈ visited order t ↔ e ∈ edges t := by
  unfold visited edges
  rw [List.mem_filter, List.mem_filter, List.mem_flatMap]
  constructor
  · rintro ⟨⟨v, hv, he⟩, hb⟩
    refine ⟨((hc.vertexEdges v hv e).1 (((ho _).2 e).1 he)).1, ?_⟩
    simpa using hb
  · rintro ⟨he, hb⟩
    refine ⟨⟨t.mesh.ev e 0, (hc.ends e he).2 0, ((ho _).2 e).2 ((hc.vertexEdges _ ((hc.ends e he).2 0) e).2 ⟨he, 0, rfl⟩)⟩, ?_⟩
    simpa using hb

theorem mem_unseen (l seen : List Nat) (e : Nat) : e ∈ unseen l seen ↔ e ∈ l ∧ e ∉ seen := by
  induction l generalizing seen with
  | nil => simp [unseen]
  | cons a l ih =>
    unfold unseen
    by_cases ha : a ∈ seen
    · rw [if_pos ha, ih, List.mem_cons]
      constructor
      · rintro ⟨h1, h2⟩; exact ⟨Or.inr h1, h2⟩
      · rintro ⟨h1 | h1, h2⟩
        · subst h1; exact absurd ha h2
        · exact ⟨h1, h2⟩
    · rw [if_neg ha, List.mem_cons, ih, List.mem_cons, List.mem_cons]
      by_cases h : e = a
      · subst h; simp [ha]
      · simp [h]

theorem unseen_nodup (l seen : List Nat) : (unseen l seen).Nodup := by
  induction l generalizing seen with
  | nil => simp [unseen]
  | cons a l ih =>
    unfold unseen
    by_cases ha : a ∈ seen
    · rw [if_pos ha]; exact ih _
    · rw [if_neg ha, List.nodup_cons]
      exact ⟨fun h => ((mem_unseen _ _ _).1 h).2 List.mem_cons_self, ih _⟩

theorem edges_nodup {t : Triangulation} (hc : Consistent t) : (edges t).Nodup := hc.nodup.2.1.filter _

theorem unseen_perm {order : Finset Nat → List Nat} (ho : Visits order) {t : Triangulation} (hc : Consistent t) :
    (unseen (visited order t) []).Perm (edges t) := by
  rw [List.perm_ext_iff_of_nodup (unseen_nodup _ _) (edges_nodup hc)]
  intro e
  rw [mem_unseen, mem_visited ho hc]
  simp

theorem unseenCurved_eq (l : List Nat) : unseenCurved l [] = l := by
  induction l with
  | nil => rfl
  | cons a l ih => unfold unseenCurved; rw [if_neg (by simp), ih]

theorem scaledLines_ok {t : Triangulation} {pos : Nat → V2} {ul : V2} {sx sy : Option ℝ} {shift : Pixel} {es : List Nat} {ls : List Line}
    (h : scaledLines t pos ul sx sy shift es = .ok ls) : List.Forall₂ (fun e l => scaledLine t pos ul sx sy shift e = .ok l) es ls := by
  induction es generalizing ls with
  | nil => cases h; exact .nil
  | cons e es ih =>
    unfold scaledLines at h
    cases h1 : scaledLine t pos ul sx sy shift e with
    | error f => simp only [h1, bind, Except.bind] at h; cases h
    | ok l =>
      simp only [h1, bind, Except.bind] at h
      cases h2 : scaledLines t pos ul sx sy shift es with
      | error f => rw [h2] at h; cases h
      | ok rest =>
        rw [h2] at h
        cases h
        exact .cons h1 (ih h2)

theorem scaledLine_ok {t : Triangulation} {pos : Nat → V2} {ul : V2} {sx sy : Option ℝ} {shift : Pixel} {e : Nat} {l : Line}
    (h : scaledLine t pos ul sx sy shift e = .ok l) : toCvPoint (pos (t.mesh.ev e 0) - ul) sx sy shift = .ok l.a ∧
      toCvPoint (pos (t.mesh.ev e 1) - ul) sx sy shift = .ok l.b := by
  unfold scaledLine at h
  cases h1 : toCvPoint (pos (t.mesh.ev e 0) - ul) sx sy shift with
  | error f => simp only [h1, bind, Except.bind] at h; cases h
  | ok a =>
    simp only [h1, bind, Except.bind] at h
    cases h2 : toCvPoint (pos (t.mesh.ev e 1) - ul) sx sy shift with
    | error f => rw [h2] at h; cases h
    | ok b =>
      rw [h2] at h
      cases h
      exact ⟨rfl, rfl⟩

theorem scaledLines_some (t : Triangulation) (pos : Nat → V2) (ul : V2) (sx sy : ℝ) (shift : Pixel) (es : List Nat) :
    ∃ ls, scaledLines t pos ul (some sx) (some sy) shift es = .ok ls := by
  induction es with
  | nil => exact ⟨[], rfl⟩
  | cons e es ih =>
    obtain ⟨ls, h⟩ := ih
    unfold scaledLines
    rw [h]
    exact ⟨_, rfl⟩

theorem drawScaled_once {order : Finset Nat → List Nat} (ho : Visits order) {t : Triangulation} (hc : Consistent t) {pos : Nat → V2} {ul : V2}
    {sx sy : Option ℝ} {shift : Pixel} {lines : List Line} (h : drawScaled order t pos ul sx sy shift = .ok lines) :
    EachOnce t lines fun v p => toCvPoint (pos v - ul) sx sy shift = .ok p :=
  ⟨_, unseen_perm ho hc, (scaledLines_ok h).imp fun _ _ h => scaledLine_ok h⟩

theorem Spec.EachOnce.imp {t : Triangulation} {lines : List Line} {s s' : Nat → Pixel → Prop} (h : EachOnce t lines s)
    (hi : ∀ e ∈ edges t, ∀ i p, s (t.mesh.ev e i) p → s' (t.mesh.ev e i) p) : EachOnce t lines s' := by
  obtain ⟨es, h1, h2⟩ := h
  refine ⟨es, h1, ?_⟩
  rw [List.forall₂_iff_get] at h2 ⊢
  refine ⟨h2.1, fun i hi1 hi2 => ?_⟩
  have hm : es[i] ∈ edges t := h1.mem_iff.1 (List.getElem_mem hi1)
  exact ⟨hi _ hm 0 _ (h2.2 i hi1 hi2).1, hi _ hm 1 _ (h2.2 i hi1 hi2).2⟩

theorem count_visited {order : Finset Nat → List Nat} (ho : Visits order) {t : Triangulation} (hc : Consistent t) {e : Nat} (he : e ∈ edges t) :
    (visited order t).count e = 2 := by
  obtain ⟨hea, heb⟩ := List.mem_filter.1 he
  unfold visited
  rw [List.count_filter (by simpa using heb), List.count_flatMap]
  have key : ∀ v ∈ vertices t, (order (t.mesh.vE v)).count e = (if t.mesh.ev e 0 = v then 1 else 0) + if t.mesh.ev e 1 = v then 1 else 0 := by
    intro v hv
    have hm := ((ho (t.mesh.vE v)).2 e).trans (hc.vertexEdges v hv e)
    have hne := (hc.ends e hea).1
    by_cases h0 : t.mesh.ev e 0 = v
    · rw [if_pos h0, if_neg (by rw [← h0]; exact fun h => hne h.symm), List.count_eq_one_of_mem (ho _).1 (hm.2 ⟨hea, 0, h0⟩)]
    · by_cases h1 : t.mesh.ev e 1 = v
      · rw [if_neg h0, if_pos h1, List.count_eq_one_of_mem (ho _).1 (hm.2 ⟨hea, 1, h1⟩)]
      · rw [if_neg h0, if_neg h1, List.count_eq_zero_of_not_mem]
        intro hmem
        obtain ⟨-, s, hs⟩ := hm.1 hmem
        fin_cases s
        · exact h0 hs
        · exact h1 hs
  have hsum : ∀ (l : List Nat) (a b : Nat), (l.map fun v => (if a = v then 1 else 0) + if b = v then 1 else 0).sum = l.count a + l.count b := by
    intro l a b
    induction l with
    | nil => rfl
    | cons x l ih =>
      rw [List.map_cons, List.sum_cons, ih, List.count_cons, List.count_cons]
      simp only [beq_iff_eq, eq_comm (a := x)]
      omega
  have hmap : (([0, 1, 2] ++ t.verts).map (List.count e ∘ fun v => order (t.mesh.vE v))) =
      (vertices t).map fun v => (if t.mesh.ev e 0 = v then 1 else 0) + if t.mesh.ev e 1 = v then 1 else 0 :=
    List.map_congr_left fun v hv => key v hv
  rw [hmap, hsum, List.count_eq_one_of_mem hc.nodup.1 ((hc.ends e hea).2 0), List.count_eq_one_of_mem hc.nodup.1 ((hc.ends e hea).2 1)]

/-- C120: on a picture of a given size, and on a given picture, exactly one line is drawn for each edge between two points. -/
theorem C120_once {order : Finset Nat → List Nat} (ho : Visits order) {t : Triangulation} (hc : Consistent t) {points : List V2} {pos : Nat → V2}
    {p : ℝ} {w h : Nat} {lines : List Line} (hd : draw p order t points pos w h = .ok lines ∨ drawOn order t points pos = .ok lines) :
    EachOnce t lines fun _ _ => True := by
  rcases hd with hd | hd
  · exact (drawScaled_once ho hc hd).imp fun _ _ _ _ _ => trivial
  · exact (drawScaled_once ho hc hd).imp fun _ _ _ _ _ => trivial

/-- C120 is violated by the drawing with curves: exactly two curves are drawn for each edge. -/
theorem C120_curved_violated {order : Finset Nat → List Nat} (ho : Visits order) {t : Triangulation} (hc : Consistent t) (pos : Nat → V2)
    (unmap : V2 → V3) (map : V3 → V2) : ∃ es : List Nat, es.Perm (edges t ++ edges t) ∧
      drawCurved order t pos unmap map = es.map fun e => curve map (unmap (pos (t.mesh.ev e 0))) (unmap (pos (t.mesh.ev e 1))) := by
  refine ⟨visited order t, ?_, by unfold drawCurved; rw [unseenCurved_eq]⟩
  rw [List.perm_iff_count]
  intro e
  rw [List.count_append]
  by_cases he : e ∈ edges t
  · rw [count_visited ho hc he, List.count_eq_one_of_mem (edges_nodup hc) he]
  · rw [List.count_eq_zero_of_not_mem he, List.count_eq_zero_of_not_mem (by rwa [mem_visited ho hc])]

theorem mem_sphericalSides (l seen : List (Nat × Nat)) (e : Nat × Nat) : e ∈ sphericalSides l seen ↔ e ∈ l ∧ e ∉ seen := by
  induction l generalizing seen with
  | nil => simp [sphericalSides]
  | cons a l ih =>
    unfold sphericalSides
    by_cases ha : a ∈ seen
    · rw [if_pos ha, ih, List.mem_cons]
      constructor
      · rintro ⟨h1, h2⟩; exact ⟨Or.inr h1, h2⟩
      · rintro ⟨h1 | h1, h2⟩
        · subst h1; exact absurd ha h2
        · exact ⟨h1, h2⟩
    · rw [if_neg ha, List.mem_cons, ih, List.mem_cons, List.mem_cons]
      by_cases h : e = a
      · subst h; simp [ha]
      · simp [h]

theorem sphericalSides_nodup (l seen : List (Nat × Nat)) : (sphericalSides l seen).Nodup := by
  induction l generalizing seen with
  | nil => simp [sphericalSides]
  | cons a l ih =>
    unfold sphericalSides
    by_cases ha : a ∈ seen
    · rw [if_pos ha]; exact ih _
    · rw [if_neg ha, List.nodup_cons]
      exact ⟨fun h => ((mem_sphericalSides _ _ _).1 h).2 List.mem_cons_self, ih _⟩

/-- C120: the drawing of sectors has exactly one curve for each side, also for a side that several sectors share. -/
theorem C120_spherical (map : V3 → V2) (rays : List V3) (sectors : List SectorRays) : ∃ ps : List (Nat × Nat), ps.Nodup ∧
    (∀ p, p ∈ ps ↔ IsSide sectors p) ∧ sphericalDraw map rays sectors = ps.map fun p => curve map (rays.getD p.1 0) (rays.getD p.2 0) := by
  refine ⟨_, sphericalSides_nodup _ _, ?_, rfl⟩
  intro p
  rw [mem_sphericalSides]
  simp only [List.not_mem_nil, not_false_eq_true, and_true]
  unfold allSides
  rw [List.mem_flatMap]
  have hs : ∀ (s : SectorRays) (i : Fin 3), (side s i).1 ≤ (side s i).2 ∧ ((side s i = (s.i i, s.i (i + 1))) ∨ side s i = (s.i (i + 1), s.i i)) := by
    intro s i
    unfold side
    split
    · exact ⟨by simp only; omega, Or.inr rfl⟩
    · exact ⟨by simp only; omega, Or.inl rfl⟩
  constructor
  · rintro ⟨s, hm, hp⟩
    obtain ⟨i, rfl⟩ : ∃ i, p = side s i := by
      simp only [List.mem_cons, List.not_mem_nil, or_false] at hp
      rcases hp with h | h | h
      · exact ⟨0, h⟩
      · exact ⟨1, h⟩
      · exact ⟨2, h⟩
    obtain ⟨h1, h2 | h2⟩ := hs s i
    · exact ⟨h1, s, hm, i, i + 1, by fin_cases i <;> decide, by rw [h2], by rw [h2]⟩
    · exact ⟨h1, s, hm, i + 1, i, by fin_cases i <;> decide, by rw [h2], by rw [h2]⟩
  · rintro ⟨hle, s, hm, i, j, hij, h1, h2⟩
    refine ⟨s, hm, ?_⟩
    obtain ⟨k, hk⟩ : ∃ k : Fin 3, (i = k ∧ j = k + 1) ∨ (i = k + 1 ∧ j = k) := by
      revert hij
      revert i j
      intro i j _ _
      fin_cases i <;> fin_cases j <;> first | exact fun h => absurd rfl h | exact fun _ => by decide
    have hp : p = side s k := by
      unfold side
      rcases hk with ⟨rfl, rfl⟩ | ⟨rfl, rfl⟩
      · rw [if_neg (by omega)]
        exact Prod.ext h1 h2
      · by_cases he : s.i j > s.i (j + 1)
        · rw [if_pos he]
          exact Prod.ext h1 h2
        · rw [if_neg he]
          exact Prod.ext (by simp only; omega) (by simp only; omega)
    rw [hp]
    fin_cases k <;> simp

/-! ### Where the lines end -/

theorem toCvPoint_ok {v : V2} {sx sy : Option ℝ} {shift q : Pixel} (h : toCvPoint v sx sy shift = .ok q) :
    ∃ a b, sx = some a ∧ sy = some b ∧ q.x = truncInt (v.x * a) + shift.x ∧ q.y = truncInt (v.y * b) + shift.y := by
  unfold toCvPoint at h
  cases sx with
  | none => cases h
  | some a =>
    cases sy with
    | none => cases h
    | some b => cases h; exact ⟨a, b, rfl, rfl, rfl, rfl⟩

theorem quotient_some {a b c : ℝ} (h : quotient a b = some c) : b ≠ 0 ∧ c = a / b := by
  unfold quotient at h
  split at h
  · cases h
  · rename_i hb; exact ⟨hb, (Option.some.inj h).symm⟩

theorem truncInt_nonneg {x : ℝ} (h : 0 ≤ x) : truncInt x = ⌊x⌋ := if_pos h

/-- One coordinate of the scaled drawing. -/
theorem scaled_coord {p a e : ℝ} {w : Nat} (hp : 0 < p) (hp2 : p < 1 / 2) (hw : 0 < w) (ha : 0 ≤ a) (hae : a ≤ e) (he : 0 < e) :
    (0 ≤ truncInt (a * (w / ((1 + 2 * p) * e))) + truncInt (p * w) ∧ truncInt (a * (w / ((1 + 2 * p) * e))) + truncInt (p * w) < w) ∧
      |(((truncInt (a * (w / ((1 + 2 * p) * e))) + truncInt (p * w) : Int)) : ℝ) - w * (p + a / e / (1 + 2 * p))| < 2 := by
  have hw' : (0 : ℝ) < w := by exact_mod_cast hw
  have h1 : 0 ≤ a * (w / ((1 + 2 * p) * e)) := by positivity
  have h2 : 0 ≤ p * w := by positivity
  rw [truncInt_nonneg h1, truncInt_nonneg h2]
  have e1 : a * (w / ((1 + 2 * p) * e)) = w * (a / e / (1 + 2 * p)) := by
    have : (1 + 2 * p) ≠ 0 := by linarith
    field_simp
  have h3 : a / e / (1 + 2 * p) ≤ 1 / (1 + 2 * p) := by
    have : a / e ≤ 1 := (div_le_one he).2 hae
    gcongr
  have h4 : 1 / (1 + 2 * p) < 1 - p := by
    rw [div_lt_iff₀ (by linarith)]
    nlinarith
  have f1 := Int.floor_le (a * (w / ((1 + 2 * p) * e)))
  have f2 := Int.lt_floor_add_one (a * (w / ((1 + 2 * p) * e)))
  have f3 := Int.floor_le (p * (w : ℝ))
  have f4 := Int.lt_floor_add_one (p * (w : ℝ))
  have g1 : 0 ≤ ⌊a * (w / ((1 + 2 * p) * e))⌋ := Int.floor_nonneg.2 h1
  have g2 : 0 ≤ ⌊p * (w : ℝ)⌋ := Int.floor_nonneg.2 h2
  rw [e1] at f1 f2 g1 ⊢
  generalize a / e / (1 + 2 * p) = r at *
  have hlt : (w : ℝ) * r + p * w < w := by nlinarith
  refine ⟨⟨by omega, ?_⟩, ?_⟩
  · have : ((⌊(w : ℝ) * r⌋ + ⌊p * (w : ℝ)⌋ : Int) : ℝ) < ((w : Int) : ℝ) := by push_cast; linarith
    exact_mod_cast this
  · push_cast
    rw [abs_lt]
    constructor <;> nlinarith

theorem edge_end {env : Env} (henv : Lawful env) {s : Settings} {points : List V2} {order : List Nat} {fuel : Nat}
    (ho : Shuffle points.length order) (hG : GeneralPosition s points) {t : Triangulation} {l : List Nat}
    (h : triangulate env s points order fuel = .ok (some (t, l))) {e : Nat} (he : e ∈ edges t) (i : Fin 2) :
    position points order (t.mesh.ev e i) ∈ points := by
  obtain ⟨hc, hl⟩ := C48_general_position_partial henv ho hG h
  have hlen : order.length = points.length := by rw [ho.length_eq]; simp
  obtain ⟨h1, -⟩ := construct_full h (by omega)
  obtain ⟨hea, heb⟩ := List.mem_filter.1 he
  have hv := (hc.ends e hea).2 i
  have h3 : 3 ≤ t.mesh.ev e i := by
    simp only [isBound, Bool.and_eq_true, Bool.not_eq_true', decide_eq_false_iff_not, not_lt] at heb
    fin_cases i
    · exact heb.1
    · exact heb.2
  refine position_mem ho h3 ?_
  unfold vertices at hv
  rw [h1, List.mem_append, List.mem_range'_1] at hv
  rcases hv with hv | hv
  · simp only [List.mem_cons, List.not_mem_nil, or_false] at hv; omega
  · omega

theorem ext_bounds {points : List V2} {v : V2} (hv : v ∈ points) (f : V2 → ℝ) : 0 ≤ f v - lowest f points ∧ f v - lowest f points ≤ extent f points := by
  have h1 := lowest_le f points v hv
  have h2 := le_highest f points v hv
  unfold extent
  exact ⟨by linarith, by linarith⟩

/-- C121 (partial): a padding between 0 and 1/2, points in general position that are as wide as high. Every line of the drawing ends on the picture, at most two
pixels from the place where a drawing with the same padding on both sides would put its points; in the horizontal direction the lines stay on the picture also
if the points are higher than wide, in the vertical one if they are wider than high. Missing: other extents, see `C121_outside_violated`. -/
theorem C121_inside_partial {env : Env} (henv : Lawful env) {s : Settings} {points : List V2} {order : List Nat} {fuel : Nat}
    (ho : Shuffle points.length order) (hG : GeneralPosition s points) {t : Triangulation} {l : List Nat}
    (h : triangulate env s points order fuel = .ok (some (t, l))) {visit : Finset Nat → List Nat} (hv : Visits visit) {p : ℝ} (hp : 0 < p)
    (hp2 : p < 1 / 2) {w hh : Nat} (hw : 0 < w) (hh0 : 0 < hh) {lines : List Line}
    (hd : draw p visit t points (position points order) w hh = .ok lines) :
    EachOnce t lines fun v q =>
      (extent V2.x points ≤ extent V2.y points → InWidth w q) ∧ (extent V2.y points ≤ extent V2.x points → InHeight hh q) ∧
      (extent V2.x points = extent V2.y points →
        |(q.x : ℝ) - w * (p + ((position points order v).x - lowest V2.x points) / extent V2.x points / (1 + 2 * p))| < 2 ∧
        |(q.y : ℝ) - hh * (p + ((position points order v).y - lowest V2.y points) / extent V2.y points / (1 + 2 * p))| < 2) := by
  have hc := (C48_general_position_partial henv ho hG h).1
  refine (drawScaled_once hv hc hd).imp ?_
  intro e he i q hq
  obtain ⟨a, b, ha, hb, hx, hy⟩ := toCvPoint_ok hq
  have hm := edge_end henv ho hG h he i
  generalize position points order (t.mesh.ev e i) = u at hm hx hy ⊢
  obtain ⟨ha0, rfl⟩ := quotient_some ha
  obtain ⟨hb0, rfl⟩ := quotient_some hb
  have ex : ((1 + 2 * p) • (bottomRight points - upperLeft points) : V2).x = (1 + 2 * p) * extent V2.x points := rfl
  have ey : ((1 + 2 * p) • (bottomRight points - upperLeft points) : V2).y = (1 + 2 * p) * extent V2.y points := rfl
  rw [ey] at ha0 hx
  rw [ex] at hb0 hy
  have ux : (u - upperLeft points).x = u.x - lowest V2.x points := rfl
  have uy : (u - upperLeft points).y = u.y - lowest V2.y points := rfl
  rw [ux] at hx
  rw [uy] at hy
  obtain ⟨bx0, bx1⟩ := ext_bounds hm V2.x
  obtain ⟨by0, by1⟩ := ext_bounds hm V2.y
  have hX : 0 < extent V2.x points := lt_of_le_of_ne (by linarith) fun h0 => hb0 (by rw [← h0, mul_zero])
  have hY : 0 < extent V2.y points := lt_of_le_of_ne (by linarith) fun h0 => ha0 (by rw [← h0, mul_zero])
  refine ⟨fun hle => ?_, fun hle => ?_, fun heq => ⟨?_, ?_⟩⟩
  · have := (scaled_coord hp hp2 hw bx0 (bx1.trans hle) hY).1
    unfold InWidth
    rw [hx]
    exact this
  · have := (scaled_coord hp hp2 hh0 by0 (by1.trans hle) hX).1
    unfold InHeight
    rw [hy]
    exact this
  · have := (scaled_coord hp hp2 hw bx0 bx1 hX).2
    rw [← heq] at hx
    rw [hx]
    exact this
  · have := (scaled_coord hp hp2 hh0 by0 by1 hY).2
    rw [heq] at hy
    rw [hy]
    exact this

/-- C121: the drawing is defined exactly if there is no edge between points or the points do not all have the same abscissa or the same ordinate. -/
theorem C121_defined {visit : Finset Nat → List Nat} (hv : Visits visit) {t : Triangulation} (hc : Consistent t) {p : ℝ} (hp : 0 ≤ p) (points : List V2)
    (pos : Nat → V2) (w h : Nat) : (∃ lines, draw p visit t points pos w h = .ok lines) ↔
      edges t = [] ∨ (extent V2.x points ≠ 0 ∧ extent V2.y points ≠ 0) := by
  have ex : ((1 + 2 * p) • (bottomRight points - upperLeft points) : V2).x = (1 + 2 * p) * extent V2.x points := rfl
  have ey : ((1 + 2 * p) • (bottomRight points - upperLeft points) : V2).y = (1 + 2 * p) * extent V2.y points := rfl
  have h1 : (1 + 2 * p) ≠ 0 := by linarith
  constructor
  · rintro ⟨lines, hd⟩
    obtain ⟨es, hp', hf⟩ := drawScaled_once hv hc hd
    by_cases he : edges t = []
    · exact Or.inl he
    · right
      cases es with
      | nil => exact absurd hp'.symm.eq_nil he
      | cons e es =>
        cases hf with
        | cons hq _ =>
          obtain ⟨a, b, ha, hb, -⟩ := toCvPoint_ok hq.1
          have ha0 := (quotient_some ha).1
          have hb0 := (quotient_some hb).1
          rw [ey] at ha0
          rw [ex] at hb0
          exact ⟨fun h0 => hb0 (by rw [h0, mul_zero]), fun h0 => ha0 (by rw [h0, mul_zero])⟩
  · rintro (he | ⟨hx, hy⟩)
    · have hp' := unseen_perm hv hc
      rw [he] at hp'
      unfold draw drawScaled
      rw [hp'.eq_nil]
      exact ⟨[], rfl⟩
    · unfold draw drawScaled quotient
      simp only
      rw [if_neg (by rw [ey]; exact mul_ne_zero h1 hy), if_neg (by rw [ex]; exact mul_ne_zero h1 hx)]
      exact scaledLines_some _ _ _ _ _ _ _

/-! ### Drawing on a given picture -/

theorem trunc_sum {a b : ℝ} (ha : 0 ≤ a) : |truncInt (a * 1) + truncInt b - truncInt (a + b)| ≤ 1 := by
  rw [mul_one, truncInt_nonneg ha]
  have f1 := Int.floor_le a
  have f2 := Int.lt_floor_add_one a
  have key : -2 < ((⌊a⌋ + truncInt b - truncInt (a + b) : Int) : ℝ) ∧ ((⌊a⌋ + truncInt b - truncInt (a + b) : Int) : ℝ) < 2 := by
    push_cast
    unfold truncInt
    by_cases hb : 0 ≤ b
    · rw [if_pos hb, if_pos (by linarith)]
      have g1 := Int.floor_le b
      have g2 := Int.lt_floor_add_one b
      have k1 := Int.floor_le (a + b)
      have k2 := Int.lt_floor_add_one (a + b)
      have k3 : (⌊a⌋ + ⌊b⌋ : Int) ≤ ⌊a + b⌋ := Int.le_floor.2 (by push_cast; linarith)
      have k4 : ((⌊a⌋ + ⌊b⌋ : Int) : ℝ) ≤ ⌊a + b⌋ := by exact_mod_cast k3
      push_cast at k4
      constructor <;> linarith
    · rw [if_neg hb]
      have g1 := Int.le_ceil b
      have g2 := Int.ceil_lt_add_one b
      split
      · have k1 := Int.floor_le (a + b)
        have k2 := Int.lt_floor_add_one (a + b)
        constructor <;> linarith
      · have k1 := Int.le_ceil (a + b)
        have k2 := Int.ceil_lt_add_one (a + b)
        constructor <;> linarith
  obtain ⟨k1, k2⟩ := key
  have k3 : (-2 : Int) < ⌊a⌋ + truncInt b - truncInt (a + b) := by exact_mod_cast k1
  have k4 : ⌊a⌋ + truncInt b - truncInt (a + b) < (2 : Int) := by exact_mod_cast k2
  rw [abs_le]
  omega

/-- C122 (partial): drawn on a given picture, the lines end at most one pixel from the pixels of their points. Missing: they end exactly there, see
`C122_pixel_violated`. -/
theorem C122_pixel_partial {env : Env} (henv : Lawful env) {s : Settings} {points : List V2} {order : List Nat} {fuel : Nat}
    (ho : Shuffle points.length order) (hG : GeneralPosition s points) {t : Triangulation} {l : List Nat}
    (h : triangulate env s points order fuel = .ok (some (t, l))) {visit : Finset Nat → List Nat} (hv : Visits visit) :
    ∃ lines, drawOn visit t points (position points order) = .ok lines ∧ EachOnce t lines fun v q =>
      |q.x - truncInt (position points order v).x| ≤ 1 ∧ |q.y - truncInt (position points order v).y| ≤ 1 := by
  have hc := (C48_general_position_partial henv ho hG h).1
  obtain ⟨lines, hd⟩ : ∃ lines, drawOn visit t points (position points order) = .ok lines := scaledLines_some _ _ _ _ _ _ _
  refine ⟨lines, hd, (drawScaled_once hv hc hd).imp ?_⟩
  intro e he i q hq
  obtain ⟨a, b, ha, hb, hx, hy⟩ := toCvPoint_ok hq
  cases ha
  cases hb
  have hm := edge_end henv ho hG h he i
  generalize position points order (t.mesh.ev e i) = u at hm hx hy ⊢
  have k1 := trunc_sum (b := lowest V2.x points) (ext_bounds hm V2.x).1
  have k2 := trunc_sum (b := lowest V2.y points) (ext_bounds hm V2.y).1
  rw [sub_add_cancel] at k1 k2
  rw [hx, hy]
  exact ⟨k1, k2⟩

/-! ### Concrete triangulations -/

/-- The lines of the edges between points, as pairs of numbers of vertices. -/
def edgeEnds (t : Triangulation) : List (Nat × Nat) := (edges t).map fun e => (t.mesh.ev e 0, t.mesh.ev e 1)

theorem run_ends {points : List Q2} {order : List Nat} (hd : 0 ≤ 1 / 1000000000 * maxDimQ points) {ends : List (Nat × Nat)}
    (h : ((construct demoEnv (predsQ (positionQ points order) (1 / 1000000000 * maxDimQ points) (1 / 1000000000 * maxDimQ points)) order
      100).toOption.join.map fun r => edgeEnds r.1) = some ends) :
    ∃ t l, triangulate demoEnv defaultSettings (points.map Q2.real) order 100 = .ok (some (t, l)) ∧ edgeEnds t = ends := by
  have hr := triangulate_real demoEnv (1 / 1000000000) (1 / 1000000000) points hd order 100
  rw [← hr] at h
  unfold defaultSettings
  generalize triangulate demoEnv ⟨((1 / 1000000000 : ℚ) : ℝ), ((1 / 1000000000 : ℚ) : ℝ)⟩ (points.map Q2.real) order 100 = R at h
  cases R with
  | error f => cases h
  | ok r =>
    cases r with
    | none => cases h
    | some r => exact ⟨r.1, r.2, rfl, Option.some.inj h⟩

/-- A way to visit sets: in the order of the numbers. -/
def sorted (S : Finset Nat) : List Nat := (List.range (S.sup id + 1)).filter (· ∈ S)

theorem sorted_visits : Visits sorted := by
  intro S
  refine ⟨List.nodup_range.filter _, fun e => ?_⟩
  unfold sorted
  rw [List.mem_filter, List.mem_range]
  simp only [decide_eq_true_eq, and_iff_right_iff_imp]
  intro h
  have : e ≤ S.sup id := Finset.le_sup (f := id) h
  omega

/-- An end of a line of a drawing, for an edge between points. -/
theorem Spec.EachOnce.line {t : Triangulation} {lines : List Line} {shown : Nat → Pixel → Prop} (h : EachOnce t lines shown) {a b : Nat}
    (he : (a, b) ∈ edgeEnds t) : ∃ l ∈ lines, shown a l.a ∧ shown b l.b := by
  obtain ⟨e, hm, h1⟩ := List.mem_map.1 he
  obtain ⟨es, hp, hf⟩ := h
  obtain ⟨i, hi, rfl⟩ := List.mem_iff_getElem.1 (hp.mem_iff.2 hm)
  have hi2 : i < lines.length := by rw [← hf.length_eq]; exact hi
  have := (List.forall₂_iff_get.1 hf).2 i hi hi2
  simp only [List.get_eq_getElem] at this
  cases h1
  exact ⟨lines[i], List.getElem_mem hi2, this⟩

theorem Spec.EachOnce.ends {t : Triangulation} {lines : List Line} {shown : Nat → Pixel → Prop} (h : EachOnce t lines shown) {l : Line}
    (hl : l ∈ lines) : ∃ a b, (a, b) ∈ edgeEnds t ∧ shown a l.a ∧ shown b l.b := by
  obtain ⟨es, hp, hf⟩ := h
  obtain ⟨i, hi, rfl⟩ := List.mem_iff_getElem.1 hl
  have hi2 : i < es.length := by rw [hf.length_eq]; exact hi
  have := (List.forall₂_iff_get.1 hf).2 i hi2 hi
  simp only [List.get_eq_getElem] at this
  exact ⟨_, _, List.mem_map.2 ⟨es[i], hp.mem_iff.1 (List.getElem_mem hi2), rfl⟩, this⟩

/-- C121 is violated: three points that are wider than high are drawn beyond the right margin of every picture, with the default padding of 0.1. -/
theorem C121_outside_violated : ∃ (env : Env) (points : List V2) (order : List Nat) (fuel : Nat) (t : Triangulation) (l : List Nat)
    (visit : Finset Nat → List Nat), Lawful env ∧ Visits visit ∧ Shuffle points.length order ∧ GeneralPosition defaultSettings points ∧
    triangulate env defaultSettings points order fuel = .ok (some (t, l)) ∧ ∀ w h : Nat, 0 < w →
      ∃ lines, draw (1 / 10) visit t points (position points order) w h = .ok lines ∧ ∃ line ∈ lines, ¬ InWidth w line.a ∨ ¬ InWidth w line.b := by
  obtain ⟨t, l, h, he⟩ := run_ends (points := demoPoints) (order := [2, 0, 1]) (ends := [(4, 3), (5, 3), (5, 4)]) (by decide +kernel) (by decide +kernel)
  have ho : Shuffle (demoPoints.map Q2.real).length [2, 0, 1] := by show [2, 0, 1].Perm [0, 1, 2]; decide
  have hc := (C48_general_position_partial demoEnv_lawful ho demo_general h).1
  refine ⟨demoEnv, demoPoints.map Q2.real, [2, 0, 1], 100, t, l, sorted, demoEnv_lawful, sorted_visits, ho, demo_general, h, ?_⟩
  intro w hh hw
  have lx : lowest V2.x (demoPoints.map Q2.real) = 0 := by rw [lowest_real _ Q2.x (fun _ => rfl)]; norm_num [lowestQ, demoPoints]
  have ly : lowest V2.y (demoPoints.map Q2.real) = 0 := by rw [lowest_real _ Q2.y (fun _ => rfl)]; norm_num [lowestQ, demoPoints]
  have gx : highest V2.x (demoPoints.map Q2.real) = 3 := by rw [highest_real _ Q2.x (fun _ => rfl)]; norm_num [highestQ, demoPoints]
  have gy : highest V2.y (demoPoints.map Q2.real) = 2 := by rw [highest_real _ Q2.y (fun _ => rfl)]; norm_num [highestQ, demoPoints]
  have ex : extent V2.x (demoPoints.map Q2.real) = 3 := by unfold extent; rw [lx, gx]; norm_num
  have ey : extent V2.y (demoPoints.map Q2.real) = 2 := by unfold extent; rw [ly, gy]; norm_num
  obtain ⟨lines, hd⟩ := (C121_defined sorted_visits hc (p := 1 / 10) (by norm_num) (demoPoints.map Q2.real)
    (position (demoPoints.map Q2.real) [2, 0, 1]) w hh).2 (Or.inr ⟨by rw [ex]; norm_num, by rw [ey]; norm_num⟩)
  obtain ⟨line, hl, hq, -⟩ := (drawScaled_once sorted_visits hc hd).line (a := 5) (b := 3) (by rw [he]; simp)
  refine ⟨lines, hd, line, hl, Or.inl ?_⟩
  obtain ⟨a, b, ha, -, hx, -⟩ := toCvPoint_ok hq
  obtain ⟨-, rfl⟩ := quotient_some ha
  have hpos : (position (demoPoints.map Q2.real) [2, 0, 1] 5 - upperLeft (demoPoints.map Q2.real)).x = 3 := by
    show (position (demoPoints.map Q2.real) [2, 0, 1] 5).x - lowest V2.x (demoPoints.map Q2.real) = 3
    rw [lx]
    norm_num [position, demoPoints, Q2.real]
  have hdiag : ((1 + 2 * (1 / 10 : ℝ)) • (bottomRight (demoPoints.map Q2.real) - upperLeft (demoPoints.map Q2.real)) : V2).y = 12 / 5 := by
    show (1 + 2 * (1 / 10 : ℝ)) * extent V2.y (demoPoints.map Q2.real) = 12 / 5
    rw [ey]
    norm_num
  rw [hpos, hdiag] at hx
  rintro ⟨-, hlt⟩
  rw [hx] at hlt
  have hw' : (0 : ℝ) ≤ w := Nat.cast_nonneg w
  rw [truncInt_nonneg (by positivity)] at hlt
  simp only at hlt
  rw [truncInt_nonneg (by positivity)] at hlt
  have f1 : (w : Int) ≤ ⌊3 * ((w : ℝ) / (12 / 5))⌋ := Int.le_floor.2 (by push_cast; linarith)
  have f2 : 0 ≤ ⌊1 / 10 * (w : ℝ)⌋ := Int.floor_nonneg.2 (by positivity)
  omega

/-- C121 is violated: the drawing of a triangulation of two points with the same ordinate divides by zero and converts an infinite number. -/
theorem C121_flat_violated : ∃ (env : Env) (points : List V2) (order : List Nat) (fuel : Nat) (t : Triangulation) (l : List Nat)
    (visit : Finset Nat → List Nat), Lawful env ∧ Visits visit ∧ Shuffle points.length order ∧ GeneralPosition defaultSettings points ∧
    triangulate env defaultSettings points order fuel = .ok (some (t, l)) ∧ ∀ w h : Nat,
      ∀ lines, draw (1 / 10) visit t points (position points order) w h ≠ .ok lines := by
  obtain ⟨t, l, h, he⟩ := run_ends (points := [⟨0, 0⟩, ⟨1, 0⟩]) (order := [0, 1]) (ends := [(4, 3)]) (by decide +kernel) (by decide +kernel)
  have ho : Shuffle (([⟨0, 0⟩, ⟨1, 0⟩] : List Q2).map Q2.real).length [0, 1] := List.Perm.refl _
  have hG : GeneralPosition defaultSettings (([⟨0, 0⟩, ⟨1, 0⟩] : List Q2).map Q2.real) := general_of_check (by decide +kernel)
  have hc := (C48_general_position_partial demoEnv_lawful ho hG h).1
  refine ⟨demoEnv, _, [0, 1], 100, t, l, sorted, demoEnv_lawful, sorted_visits, ho, hG, h, ?_⟩
  intro w hh lines hd
  rcases (C121_defined sorted_visits hc (p := 1 / 10) (by norm_num) _ _ w hh).1 ⟨lines, hd⟩ with h0 | ⟨-, h0⟩
  · unfold edgeEnds at he
    rw [h0] at he
    cases he
  · apply h0
    unfold extent
    rw [lowest_real _ Q2.y (fun _ => rfl), highest_real _ Q2.y (fun _ => rfl)]
    norm_num [lowestQ, highestQ]

/-- The hypotheses of `C121_inside_partial` are met by three points as wide as high. -/
example : ∃ (points : List V2) (order : List Nat) (t : Triangulation) (l : List Nat) (lines : List Line),
    GeneralPosition defaultSettings points ∧ Shuffle points.length order ∧
    triangulate demoEnv defaultSettings points order 100 = .ok (some (t, l)) ∧ extent V2.x points = extent V2.y points ∧
    draw (1 / 10) sorted t points (position points order) 800 800 = .ok lines ∧ lines.length = 3 ∧ EachOnce t lines fun _ q => InWidth 800 q ∧ InHeight 800 q := by
  obtain ⟨t, l, h, he⟩ := run_ends (points := [⟨0, 0⟩, ⟨2, 1⟩, ⟨1, 2⟩]) (order := [2, 0, 1]) (ends := [(4, 3), (5, 3), (5, 4)]) (by decide +kernel)
    (by decide +kernel)
  have ho : Shuffle (([⟨0, 0⟩, ⟨2, 1⟩, ⟨1, 2⟩] : List Q2).map Q2.real).length [2, 0, 1] := by show [2, 0, 1].Perm [0, 1, 2]; decide
  have hG : GeneralPosition defaultSettings (([⟨0, 0⟩, ⟨2, 1⟩, ⟨1, 2⟩] : List Q2).map Q2.real) := general_of_check (by decide +kernel)
  have hc := (C48_general_position_partial demoEnv_lawful ho hG h).1
  have ex : extent V2.x (([⟨0, 0⟩, ⟨2, 1⟩, ⟨1, 2⟩] : List Q2).map Q2.real) = 2 := by
    unfold extent
    rw [lowest_real _ Q2.x (fun _ => rfl), highest_real _ Q2.x (fun _ => rfl)]
    norm_num [lowestQ, highestQ]
  have ey : extent V2.y (([⟨0, 0⟩, ⟨2, 1⟩, ⟨1, 2⟩] : List Q2).map Q2.real) = 2 := by
    unfold extent
    rw [lowest_real _ Q2.y (fun _ => rfl), highest_real _ Q2.y (fun _ => rfl)]
    norm_num [lowestQ, highestQ]
  obtain ⟨lines, hd⟩ := (C121_defined sorted_visits hc (p := 1 / 10) (by norm_num) (([⟨0, 0⟩, ⟨2, 1⟩, ⟨1, 2⟩] : List Q2).map Q2.real)
    (position (([⟨0, 0⟩, ⟨2, 1⟩, ⟨1, 2⟩] : List Q2).map Q2.real) [2, 0, 1]) 800 800).2 (Or.inr ⟨by rw [ex]; norm_num, by rw [ey]; norm_num⟩)
  have h1 := C121_inside_partial demoEnv_lawful ho hG h sorted_visits (p := 1 / 10) (by norm_num) (by norm_num) (by norm_num) (by norm_num) hd
  refine ⟨_, _, t, l, lines, hG, ho, h, by rw [ex, ey], hd, ?_, h1.imp ?_⟩
  · obtain ⟨es, hp, hf⟩ := h1
    rw [← hf.length_eq, hp.length_eq]
    have := congrArg List.length he
    unfold edgeEnds at this
    simpa using this
  · rintro e - i q ⟨h1, h2, -⟩
    exact ⟨h1 (by rw [ex, ey]), h2 (by rw [ex, ey])⟩

/-- C122 is violated: a line ends one pixel left of the pixel of its point if both the point and the left margin of the points are cut off. -/
theorem C122_pixel_violated : ∃ (env : Env) (points : List V2) (order : List Nat) (fuel : Nat) (t : Triangulation) (l : List Nat)
    (visit : Finset Nat → List Nat) (lines : List Line), Lawful env ∧ Visits visit ∧ Shuffle points.length order ∧ GeneralPosition defaultSettings points ∧
    triangulate env defaultSettings points order fuel = .ok (some (t, l)) ∧ drawOn visit t points (position points order) = .ok lines ∧
      ¬ EachOnce t lines fun v q => PixelOf (position points order v) q := by
  obtain ⟨t, l, h, he⟩ := run_ends (points := [⟨1 / 2, 0⟩, ⟨3, 1⟩, ⟨1, 2⟩]) (order := [2, 0, 1]) (ends := [(4, 3), (5, 3), (5, 4)])
    (by decide +kernel) (by decide +kernel)
  have ho : Shuffle (([⟨1 / 2, 0⟩, ⟨3, 1⟩, ⟨1, 2⟩] : List Q2).map Q2.real).length [2, 0, 1] := by show [2, 0, 1].Perm [0, 1, 2]; decide
  have hG : GeneralPosition defaultSettings (([⟨1 / 2, 0⟩, ⟨3, 1⟩, ⟨1, 2⟩] : List Q2).map Q2.real) := general_of_check (by decide +kernel)
  have hc := (C48_general_position_partial demoEnv_lawful ho hG h).1
  obtain ⟨lines, hd, -⟩ := C122_pixel_partial demoEnv_lawful ho hG h sorted_visits
  refine ⟨demoEnv, _, [2, 0, 1], 100, t, l, sorted, lines, demoEnv_lawful, sorted_visits, ho, hG, h, hd, ?_⟩
  intro hE
  have lx : lowest V2.x (([⟨1 / 2, 0⟩, ⟨3, 1⟩, ⟨1, 2⟩] : List Q2).map Q2.real) = 1 / 2 := by
    rw [lowest_real _ Q2.x (fun _ => rfl)]; norm_num [lowestQ]
  have p3 : (position (([⟨1 / 2, 0⟩, ⟨3, 1⟩, ⟨1, 2⟩] : List Q2).map Q2.real) [2, 0, 1] 3).x = 1 := by norm_num [position, Q2.real]
  have p4 : (position (([⟨1 / 2, 0⟩, ⟨3, 1⟩, ⟨1, 2⟩] : List Q2).map Q2.real) [2, 0, 1] 4).x = 1 / 2 := by norm_num [position, Q2.real]
  have p5 : (position (([⟨1 / 2, 0⟩, ⟨3, 1⟩, ⟨1, 2⟩] : List Q2).map Q2.real) [2, 0, 1] 5).x = 3 := by norm_num [position, Q2.real]
  obtain ⟨line, hl, hq, -⟩ := hE.line (a := 5) (b := 3) (by rw [he]; simp)
  have h3 : line.a.x = 3 := by rw [hq.1, p5]; norm_num [truncInt]
  obtain ⟨a, b, hab, hqa, -⟩ := (drawScaled_once sorted_visits hc hd).ends hl
  obtain ⟨ca, cb, hca, -, hx, -⟩ := toCvPoint_ok hqa
  cases hca
  have hsub : ∀ u : V2, (u - upperLeft (([⟨1 / 2, 0⟩, ⟨3, 1⟩, ⟨1, 2⟩] : List Q2).map Q2.real)).x = u.x - 1 / 2 := by
    intro u
    have : (u - upperLeft (([⟨1 / 2, 0⟩, ⟨3, 1⟩, ⟨1, 2⟩] : List Q2).map Q2.real)).x =
        u.x - lowest V2.x (([⟨1 / 2, 0⟩, ⟨3, 1⟩, ⟨1, 2⟩] : List Q2).map Q2.real) := rfl
    rw [this, lx]
  have hul : (upperLeft (([⟨1 / 2, 0⟩, ⟨3, 1⟩, ⟨1, 2⟩] : List Q2).map Q2.real)).x = 1 / 2 := lx
  rw [hsub, hul, h3] at hx
  rw [he] at hab
  simp only [List.mem_cons, Prod.mk.injEq, List.not_mem_nil, or_false] at hab
  rcases hab with ⟨rfl, -⟩ | ⟨rfl, -⟩ | ⟨rfl, -⟩
  · rw [p4] at hx; norm_num [truncInt] at hx
  · rw [p5] at hx; norm_num [truncInt] at hx
  · rw [p5] at hx; norm_num [truncInt] at hx

/-! ### Curves -/

theorem sqNorm_one_dot {a : V3} (h : a.sqNorm = 1) : a.x * a.x + a.y * a.y + a.z * a.z = 1 := h

/-- The square of the sine of the angle between unit vectors. -/
theorem cross_sq {a b : V3} (ha : a.sqNorm = 1) (hb : b.sqNorm = 1) : (a.cross b).sqNorm = 1 - a.dot b * a.dot b := by
  have h : (a.cross b).sqNorm = a.sqNorm * b.sqNorm - a.dot b * a.dot b := by simp only [V3.cross, V3.sqNorm, V3.dot]; ring
  rw [h, ha, hb, one_mul]

theorem rotate_perp {n r : V3} (hn : n.sqNorm = 1) (hnr : n.dot r = 0) {s : ℝ} (hs : 0 ≤ s) : rotate (s • n) r = Real.cos s • r + Real.sin s • n.cross r := by
  have hnorm : (s • n).norm = s := by rw [V3.norm_smul hs, V3.norm_eq_one hn, mul_one]
  unfold rotate
  rw [hnorm]
  by_cases h0 : s = 0
  · rw [if_pos h0, h0]
    ext <;> simp
  · rw [if_neg h0]
    have hd : (s • n).dot r = 0 := by
      have : (s • n).dot r = s * n.dot r := by simp [V3.dot]; ring
      rw [this, hnr, mul_zero]
    rw [hd]
    ext <;> simp [V3.cross] <;> field_simp

theorem arc_aux {a b : V3} (ha : a.sqNorm = 1) (hb : b.sqNorm = 1) (hc : a.cross b ≠ 0) (it : Nat) :
    rayAt a b it = Real.cos (Real.arccos (a.dot b) * it / 50) • a +
      (Real.sin (Real.arccos (a.dot b) * it / 50) / Real.sin (Real.arccos (a.dot b))) • (b - a.dot b • a) ∧
    Real.sin (Real.arccos (a.dot b)) ≠ 0 ∧ Real.cos (Real.arccos (a.dot b)) = a.dot b ∧
    Real.sin (Real.arccos (a.dot b)) * Real.sin (Real.arccos (a.dot b)) = 1 - a.dot b * a.dot b := by
  have hs : Real.sin (Real.arccos (a.dot b)) = (a.cross b).norm := by
    rw [Real.sin_arccos]
    unfold V3.norm
    rw [cross_sq ha hb]
    congr 1
    ring
  have hs0 : Real.sin (Real.arccos (a.dot b)) ≠ 0 := by rw [hs]; exact (V3.norm_pos hc).ne'
  have hd : a.dot b * a.dot b ≤ 1 := by
    have := V3.sqNorm_nonneg (a.cross b)
    rw [cross_sq ha hb] at this
    linarith
  have hcos : Real.cos (Real.arccos (a.dot b)) = a.dot b := Real.cos_arccos (by nlinarith) (by nlinarith)
  have hss : Real.sin (Real.arccos (a.dot b)) * Real.sin (Real.arccos (a.dot b)) = 1 - a.dot b * a.dot b := by
    rw [hs, V3.norm_sq, cross_sq ha hb]
  refine ⟨?_, hs0, hcos, hss⟩
  have hn : (a.cross b).normalized.sqNorm = 1 := V3.sqNorm_normalized hc
  have hperp : (a.cross b).normalized.dot a = 0 := by
    rw [V3.normalized_eq hc]
    simp only [V3.dot, V3.cross, V3.smul_x, V3.smul_y, V3.smul_z]
    ring
  have hx : (a.cross b).normalized.cross a = (1 / Real.sin (Real.arccos (a.dot b))) • (b - a.dot b • a) := by
    rw [V3.normalized_eq hc, ← hs]
    have h1 : ((a.cross b).cross a) = a.sqNorm • b - a.dot b • a := by
      ext <;> simp [V3.cross, V3.sqNorm, V3.dot] <;> ring
    have h2 : ∀ (s : ℝ) (u v : V3), (s • u).cross v = s • u.cross v := by
      intro s u v
      ext <;> simp [V3.cross] <;> ring
    rw [h2, h1, ha]
    ext <;> simp
  unfold rayAt
  simp only
  rw [rotate_perp hn hperp (by have := Real.arccos_nonneg (a.dot b); positivity), hx]
  ext <;> simp <;> ring

theorem rayAt_arc {a b : V3} (ha : a.sqNorm = 1) (hb : b.sqNorm = 1) (hopp : a + b ≠ 0) :
    (∀ it : Nat, OnArc a b (it / 50) (rayAt a b it)) ∧ rayAt a b 0 = a ∧ rayAt a b 50 = b := by
  by_cases hc : a.cross b = 0
  · have h1 : 1 - a.dot b * a.dot b = 0 := by rw [← cross_sq ha hb, hc]; simp [V3.sqNorm]
    have h2 : (a + b).sqNorm = 2 + 2 * a.dot b := by
      have : (a + b).sqNorm = a.sqNorm + b.sqNorm + 2 * a.dot b := by simp [V3.sqNorm, V3.dot]; ring
      rw [this, ha, hb]; ring
    have h3 := V3.sqNorm_pos hopp
    have hd : a.dot b = 1 := by
      have : (a.dot b - 1) * (a.dot b + 1) = 0 := by linarith
      rcases mul_eq_zero.1 this with h | h
      · linarith
      · linarith
    have hab : a - b = 0 := by
      by_contra h
      have h4 := V3.sqNorm_pos h
      have : (a - b).sqNorm = a.sqNorm + b.sqNorm - 2 * a.dot b := by simp [V3.sqNorm, V3.dot]; ring
      rw [this, ha, hb, hd] at h4
      linarith
    have hab' : a = b := by
      have hx := congrArg V3.x hab
      have hy := congrArg V3.y hab
      have hz := congrArg V3.z hab
      simp only [V3.sub_x, V3.sub_y, V3.sub_z, V3.zero_x, V3.zero_y, V3.zero_z] at hx hy hz
      ext <;> linarith
    subst hab'
    have hr : ∀ it : Nat, rayAt a a it = a := by
      intro it
      unfold rayAt
      simp only
      rw [hc, V3.normalized_zero]
      unfold rotate
      rw [if_pos]
      unfold V3.norm
      rw [V3.sqNorm_smul]
      simp [V3.sqNorm]
    refine ⟨fun it => ?_, hr 0, hr 50⟩
    rw [hr]
    refine ⟨ha, ?_, ?_, ?_⟩
    · rw [hd, Real.arccos_one, mul_zero, Real.cos_zero]
    · rw [hd, Real.arccos_one, mul_zero, Real.cos_zero]
    · simp only [V3.dot, V3.cross]; ring
  · obtain ⟨-, hs0, hcos, hss⟩ := arc_aux ha hb hc 0
    have hr := fun it => (arc_aux ha hb hc it).1
    generalize hφ : Real.arccos (a.dot b) = φ at *
    have d1 : ∀ u v : ℝ, a.dot (u • a + v • (b - a.dot b • a)) = u * a.sqNorm + v * (a.dot b - a.dot b * a.sqNorm) := by
      intro u v
      simp [V3.dot, V3.sqNorm]; ring
    have d2 : ∀ u v : ℝ, (u • a + v • (b - a.dot b • a)).dot b = u * a.dot b + v * (b.sqNorm - a.dot b * a.dot b) := by
      intro u v
      simp [V3.dot, V3.sqNorm]; ring
    have d3 : ∀ u v : ℝ, (u • a + v • (b - a.dot b • a)).dot (a.cross b) = 0 := by
      intro u v
      simp [V3.dot, V3.cross]; ring
    have d4 : ∀ u v : ℝ, (u • a + v • (b - a.dot b • a)).sqNorm =
        u * u * a.sqNorm + v * v * (b.sqNorm - 2 * (a.dot b * a.dot b) + a.dot b * a.dot b * a.sqNorm) + 2 * u * v * (a.dot b - a.dot b * a.sqNorm) := by
      intro u v
      simp [V3.dot, V3.sqNorm]; ring
    refine ⟨fun it => ?_, ?_, ?_⟩
    · generalize hθ : φ * (it : ℝ) / 50 = θ at *
      have hr' := hr it
      rw [hθ] at hr'
      have e1 : (it : ℝ) / 50 * φ = θ := by rw [← hθ]; ring
      have e2 : (1 - (it : ℝ) / 50) * φ = φ - θ := by rw [← hθ]; ring
      unfold OnArc
      rw [hφ, e1, e2, hr', d1, d2, d3, d4, ha, hb]
      refine ⟨?_, by ring, ?_, rfl⟩
      · have h1 : Real.sin θ / Real.sin φ * (Real.sin θ / Real.sin φ) * (1 - a.dot b * a.dot b) = Real.sin θ * Real.sin θ := by
          rw [← hss]
          field_simp
        have := Real.sin_sq_add_cos_sq θ
        nlinarith
      · have h1 : Real.sin θ / Real.sin φ * (1 - a.dot b * a.dot b) = Real.sin θ * Real.sin φ := by
          rw [← hss]
          field_simp
        rw [h1, Real.cos_sub, hcos]
        ring
    · rw [hr 0]
      ext <;> simp
    · rw [hr 50]
      have e1 : φ * ((50 : Nat) : ℝ) / 50 = φ := by push_cast; ring
      rw [e1, hcos, div_self hs0]
      ext <;> simp

/-- C123 (partial): for two rays that are not opposite to each other, a curve consists of 50 lines; it begins at the pixel of the first ray, ends at the pixel of
the second one, and in between runs along the shortest arc in equal steps. Missing: opposite rays, see `C123_opposite_violated`. -/
theorem C123_arc_partial (map : V3 → V2) {rayFrom rayTo : V3} (hf : rayFrom ≠ 0) (ht : rayTo ≠ 0) (hopp : rayFrom.normalized + rayTo.normalized ≠ 0) :
    ∃ ray : Nat → V3, ray 0 = rayFrom.normalized ∧ ray 50 = rayTo.normalized ∧
      (∀ it : Nat, OnArc rayFrom.normalized rayTo.normalized (it / 50) (ray it)) ∧ (curve map rayFrom rayTo).length = 50 ∧
      ∀ it < 50, ∃ l, (curve map rayFrom rayTo)[it]? = some l ∧ PixelOf (map (ray it)) l.a ∧ PixelOf (map (ray (it + 1))) l.b := by
  obtain ⟨h1, h2, h3⟩ := rayAt_arc (V3.sqNorm_normalized hf) (V3.sqNorm_normalized ht) hopp
  refine ⟨rayAt rayFrom.normalized rayTo.normalized, h2, h3, h1, ?_, ?_⟩
  · unfold curve
    rw [List.length_map, List.length_range]
  · intro it hit
    refine ⟨⟨curvePoint map rayFrom.normalized rayTo.normalized it, curvePoint map rayFrom.normalized rayTo.normalized (it + 1)⟩, ?_, ⟨rfl, rfl⟩, ⟨rfl, rfl⟩⟩
    unfold curve
    rw [List.getElem?_map, List.getElem?_range hit]
    rfl

/-- The hypotheses are met by two orthogonal rays. -/
example : (⟨1, 0, 0⟩ : V3) ≠ 0 ∧ (⟨0, 2, 0⟩ : V3) ≠ 0 ∧ (⟨1, 0, 0⟩ : V3).normalized + (⟨0, 2, 0⟩ : V3).normalized ≠ 0 := by
  have h1 : (⟨1, 0, 0⟩ : V3) ≠ 0 := fun h => by have := congrArg V3.x h; simp at this
  have h2 : (⟨0, 2, 0⟩ : V3) ≠ 0 := fun h => by have := congrArg V3.y h; simp at this
  refine ⟨h1, h2, fun h => ?_⟩
  have := congrArg V3.x h
  rw [V3.normalized_eq h1, V3.normalized_eq h2] at this
  simp only [V3.add_x, V3.smul_x, V3.zero_x, mul_one, mul_zero, add_zero] at this
  exact (one_div_pos.2 (V3.norm_pos h1)).ne' this

/-- C123 is violated by opposite rays: the whole curve stays at the pixel of the first ray. -/
theorem C123_opposite_violated (map : V3 → V2) {rayFrom rayTo : V3} (hopp : rayTo.normalized = -rayFrom.normalized) :
    ∀ l ∈ curve map rayFrom rayTo, PixelOf (map rayFrom.normalized) l.a ∧ PixelOf (map rayFrom.normalized) l.b := by
  have hr : ∀ it : Nat, rayAt rayFrom.normalized rayTo.normalized it = rayFrom.normalized := by
    intro it
    unfold rayAt
    simp only
    have hc : rayFrom.normalized.cross rayTo.normalized = 0 := by
      rw [hopp]
      ext <;> simp [V3.cross] <;> ring
    rw [hc, V3.normalized_zero]
    unfold rotate
    rw [if_pos]
    unfold V3.norm
    rw [V3.sqNorm_smul]
    simp [V3.sqNorm]
  intro l hl
  obtain ⟨it, -, rfl⟩ := List.mem_map.1 hl
  unfold curvePoint PixelOf
  simp only
  rw [hr, hr]
  exact ⟨⟨rfl, rfl⟩, ⟨rfl, rfl⟩⟩

/-! ### The convex hull of rays -/

/-- C124 (partial): a ray that is a sum of nonnegative multiples of three independent rays is found to be in the hull. Missing: no other ray is, see
`C124_hull_violated`. -/
theorem C124_hull_partial {L : Linear} (hL : Exact L) {rays : List V3} {a b c : V3} (ha : a ∈ rays) (hb : b ∈ rays) (hc : c ∈ rays) (hd : det3 a b c ≠ 0)
    {x y z : ℝ} (hx : 0 ≤ x) (hy : 0 ≤ y) (hz : 0 ≤ z) : isInConvexDummy L rays (x • a + y • b + z • c) = true := by
  unfold isInConvexDummy
  rw [List.any_eq_true]
  refine ⟨a, ha, List.any_eq_true.2 ⟨b, hb, List.any_eq_true.2 ⟨c, hc, ?_⟩⟩⟩
  unfold inSector
  rw [decide_eq_true_eq]
  simp only
  have h := hL.solve a b c (x • a + y • b + z • c) hd
  generalize L.solve a b c (x • a + y • b + z • c) = co at h
  have hx' := congrArg V3.x h
  have hy' := congrArg V3.y h
  have hz' := congrArg V3.z h
  simp only [V3.add_x, V3.add_y, V3.add_z, V3.smul_x, V3.smul_y, V3.smul_z] at hx' hy' hz'
  have k1 : (co.x - x) * det3 a b c = 0 := by
    simp only [det3, V3.dot, V3.cross]
    linear_combination (b.y * c.z - b.z * c.y) * hx' + (b.z * c.x - b.x * c.z) * hy' + (b.x * c.y - b.y * c.x) * hz'
  have k2 : (co.y - y) * det3 a b c = 0 := by
    simp only [det3, V3.dot, V3.cross]
    linear_combination (c.y * a.z - c.z * a.y) * hx' + (c.z * a.x - c.x * a.z) * hy' + (c.x * a.y - c.y * a.x) * hz'
  have k3 : (co.z - z) * det3 a b c = 0 := by
    simp only [det3, V3.dot, V3.cross]
    linear_combination (a.y * b.z - a.z * b.y) * hx' + (a.z * b.x - a.x * b.z) * hy' + (a.x * b.y - a.y * b.x) * hz'
  have m1 := (mul_eq_zero.1 k1).resolve_right hd
  have m2 := (mul_eq_zero.1 k2).resolve_right hd
  have m3 := (mul_eq_zero.1 k3).resolve_right hd
  refine ⟨by linarith, by linarith, by linarith⟩

/-- C124: a ray at an angle of at most 90 degrees to one of the rays is always found to be in the hull. -/
theorem C124_half_space {L : Linear} (hL : Basic L) {rays : List V3} {r q : V3} (hr : r ∈ rays) (h0 : r ≠ 0) (h : 0 ≤ r.dot q) :
    isInConvexDummy L rays q = true := by
  unfold isInConvexDummy
  rw [List.any_eq_true]
  refine ⟨r, hr, List.any_eq_true.2 ⟨r, hr, List.any_eq_true.2 ⟨r, hr, ?_⟩⟩⟩
  unfold inSector
  rw [decide_eq_true_eq]
  have hq : 0 ≤ r.dot q / r.sqNorm := div_nonneg h (V3.sqNorm_nonneg r)
  rcases hL r q h0 with e | e | e <;> simp only [e, ge_iff_le, le_refl, and_true, true_and] <;> exact hq

/-- C124 is violated: with a single ray, an orthogonal one is found to be in the hull. -/
theorem C124_hull_violated {L : Linear} (hL : Basic L) : ∃ (rays : List V3) (q : V3), isInConvexDummy L rays q = true ∧ ¬ InHull rays q := by
  have h0 : (⟨0, 0, 1⟩ : V3) ≠ 0 := fun h => by have := congrArg V3.z h; simp at this
  refine ⟨[⟨0, 0, 1⟩], ⟨1, 0, 0⟩, C124_half_space hL List.mem_cons_self h0 (by simp [V3.dot]), ?_⟩
  rintro ⟨a, ha, b, hb, c, hc, x, y, z, -, -, -, h⟩
  rw [List.mem_singleton] at ha hb hc
  subst ha hb hc
  have := congrArg V3.x h
  simp at this

open Classical in
/-- There is a solver as assumed. -/
example : ∃ L : Linear, Basic L ∧ ∀ a b c r, det3 a b c ≠ 0 → (L.solve a b c r).x • a + (L.solve a b c r).y • b + (L.solve a b c r).z • c = r := by
  refine ⟨⟨fun a b c r => if det3 a b c = 0 then ⟨a.dot r / a.sqNorm, 0, 0⟩ else
    ⟨det3 r b c / det3 a b c, det3 a r c / det3 a b c, det3 a b r / det3 a b c⟩, fun _ _ _ => (0, 0)⟩, ?_, ?_⟩
  · intro r q _
    left
    have : det3 r r r = 0 := by simp only [det3, V3.dot, V3.cross]; ring
    simp only
    rw [if_pos this]
  · intro a b c r hd
    simp only
    rw [if_neg hd]
    ext <;> simp only [V3.add_x, V3.add_y, V3.add_z, V3.smul_x, V3.smul_y, V3.smul_z] <;> field_simp <;> simp only [det3, V3.dot, V3.cross] <;> ring

end Mdso.Tri
