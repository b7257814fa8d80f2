import Verif.Spec.Sectors
import Verif.Model.FillUncovered
import Verif.Props.SphericalTerrain
import Verif.Props.TriDraw
import Verif.Props.Geometry3

/-!
# Properties of the sectors of a spherical triangulation (C163) and of the picture of the uncovered part (C164)
-/

set_option autoImplicit false

namespace Mdso.Tri

open Mdso.Geom Mdso.Tri.Spec Mdso.SectorSpec Mdso.Geom3Spec

/-! ### C163: the narrowest sector answers -/

theorem foldl_best_least (l : List Sector) (s : Sector) :
    sectorBadness (bestSector s l) ≤ sectorBadness s ∧ ∀ x ∈ l, sectorBadness (bestSector s l) ≤ sectorBadness x := by
  unfold bestSector
  induction l generalizing s with
  | nil => exact ⟨le_refl _, fun x hx => absurd hx List.not_mem_nil⟩
  | cons a l ih =>
    rw [List.foldl_cons]
    obtain ⟨h1, h2⟩ := ih (if sectorBadness a < sectorBadness s then a else s)
    have h3 : sectorBadness (if sectorBadness a < sectorBadness s then a else s) ≤ sectorBadness s ∧
        sectorBadness (if sectorBadness a < sectorBadness s then a else s) ≤ sectorBadness a := by
      by_cases h : sectorBadness a < sectorBadness s
      · rw [if_pos h]; exact ⟨h.le, le_refl _⟩
      · rw [if_neg h]; exact ⟨le_refl _, not_lt.1 h⟩
    refine ⟨h1.trans h3.1, fun x hx => ?_⟩
    rcases List.mem_cons.1 hx with rfl | hx
    · exact h1.trans h3.2
    · exact h2 x hx

theorem enclosingSector_least {L : Linear} {st : List Sector} {dir : V3} {s : Sector} (h : (enclosingSector L st dir).1 = some s) :
    ∀ x ∈ st, inSector L dir x = true → sectorBadness s ≤ sectorBadness x := by
  intro x hx hin
  have hm : x ∈ st.filter (inSector L dir) := List.mem_filter.2 ⟨hx, hin⟩
  unfold enclosingSector at h
  cases hf : st.filter (inSector L dir) with
  | nil => rw [hf] at hm; cases hm
  | cons a l =>
    rw [hf] at h hm
    cases l with
    | nil =>
      obtain rfl := Option.some.inj h
      rw [List.mem_singleton.1 hm]
    | cons b l =>
      obtain rfl := Option.some.inj h
      rcases List.mem_cons.1 hm with rfl | hm
      · exact (foldl_best_least _ _).1
      · exact (foldl_best_least _ _).2 x hm

theorem rays_nonzero {s : Sector} (h : det3 s.r0 s.r1 s.r2 ≠ 0) : s.r0 ≠ 0 ∧ s.r1 ≠ 0 ∧ s.r2 ≠ 0 := by
  refine ⟨?_, ?_, ?_⟩ <;> intro h0 <;> apply h <;> rw [h0] <;> unfold det3 V3.dot V3.cross <;> simp

/-- The greatest angle is what `sectorBadness` computes. -/
theorem widest_iff {s : Sector} (h : det3 s.r0 s.r1 s.r2 ≠ 0) {w : ℝ} : WidestAngle s w ↔ w = sectorBadness s := by
  obtain ⟨n0, n1, n2⟩ := rays_nonzero h
  have key : ∀ θ, AngleOf s θ ↔ θ = angle s.r0 s.r1 ∨ θ = angle s.r1 s.r2 ∨ θ = angle s.r2 s.r0 := by
    intro θ
    unfold AngleOf
    have e : ∀ {a b : V3}, a ≠ 0 → b ≠ 0 → (IsAngle θ a b ↔ θ = angle a b) := fun ha hb =>
      ⟨fun hh => ((C66_angle _ _ ha hb).2 θ hh).symm, fun hh => hh ▸ (C66_angle _ _ ha hb).1⟩
    rw [e n0 n1, e n1 n2, e n2 n0]
  unfold WidestAngle
  simp only [key]
  unfold sectorBadness
  constructor
  · rintro ⟨h1, h2⟩
    apply le_antisymm
    · rcases h1 with rfl | rfl | rfl
      · exact le_max_of_le_left (le_max_left _ _)
      · exact le_max_of_le_left (le_max_right _ _)
      · exact le_max_right _ _
    · exact max_le (max_le (h2 _ (.inl rfl)) (h2 _ (.inr (.inl rfl)))) (h2 _ (.inr (.inr rfl)))
  · rintro rfl
    constructor
    · rcases max_choice (max (angle s.r0 s.r1) (angle s.r1 s.r2)) (angle s.r2 s.r0) with h1 | h1
      · rw [h1]
        rcases max_choice (angle s.r0 s.r1) (angle s.r1 s.r2) with h2 | h2 <;> rw [h2]
        · exact .inl rfl
        · exact .inr (.inl rfl)
      · rw [h1]; exact .inr (.inr rfl)
    · rintro θ (rfl | rfl | rfl)
      · exact le_max_of_le_left (le_max_left _ _)
      · exact le_max_of_le_left (le_max_right _ _)
      · exact le_max_right _ _

/-- C163: after any lookups, a reported depth is that of a sector around the direction, and of all the sectors around the direction that are still kept it
is one whose widest angle between two rays is least. -/
theorem C163_narrowest {L : Linear} (hL : Exact L) {init : List Sector} (hreg : ∀ x ∈ init, det3 x.r0 x.r1 x.r2 ≠ 0) (dirs : List V3)
    {dir : V3} (h0 : dir ≠ 0) {d : ℝ} (hd : (sphericalDepth L (lookedUp L init dirs) dir).1 = some d) :
    ∃ s ∈ lookedUp L init dirs, Around s dir ∧ OnTriangle s.r0 s.r1 s.r2 ((d / dir.norm) • dir) ∧
      ∃ w, WidestAngle s w ∧ ∀ s' ∈ lookedUp L init dirs, Around s' dir → ∃ w', WidestAngle s' w' ∧ w ≤ w' := by
  have hreg' : ∀ x ∈ lookedUp L init dirs, det3 x.r0 x.r1 x.r2 ≠ 0 := fun x hx => hreg x ((lookedUp_sublist L dirs init).subset hx)
  have hspec := enclosingSector_spec L (lookedUp L init dirs) dir
  have hleast := @enclosingSector_least L (lookedUp L init dirs) dir
  unfold sphericalDepth at hd
  split at hd
  · cases hd
  · next x st hx =>
    rw [hx] at hspec hleast
    obtain ⟨hmem, hin⟩ := hspec.1 x rfl
    obtain ⟨hpos, htri⟩ := sector_depth hL (hreg' x hmem) h0 hin
    have hn := V3.norm_pos h0
    simp only at hd
    obtain rfl := Option.some.inj hd
    refine ⟨x, hmem, (inSector_cone hL (hreg' x hmem)).1 hin, ?_, _, (widest_iff (hreg' x hmem)).2 rfl, fun s' hs' har => ?_⟩
    · rw [mul_div_assoc, div_self hn.ne', mul_one]
      exact htri
    · exact ⟨_, (widest_iff (hreg' s' hs')).2 rfl, hleast rfl s' hs' ((inSector_cone hL (hreg' s' hs')).2 har)⟩

/-- C163: a depth is reported exactly if a sector that is still kept is around the direction. -/
theorem C163_some_iff {L : Linear} (hL : Exact L) {init : List Sector} (hreg : ∀ x ∈ init, det3 x.r0 x.r1 x.r2 ≠ 0) (dirs : List V3)
    (dir : V3) : (∃ d, (sphericalDepth L (lookedUp L init dirs) dir).1 = some d) ↔ ∃ s ∈ lookedUp L init dirs, Around s dir := by
  have hreg' : ∀ x ∈ lookedUp L init dirs, det3 x.r0 x.r1 x.r2 ≠ 0 := fun x hx => hreg x ((lookedUp_sublist L dirs init).subset hx)
  rw [← Option.ne_none_iff_exists', ne_eq, depth_none]
  push Not
  constructor
  · rintro ⟨s, hs, h⟩
    exact ⟨s, hs, (inSector_cone hL (hreg' s hs)).1 (by simpa using h)⟩
  · rintro ⟨s, hs, h⟩
    exact ⟨s, hs, by rw [(inSector_cone hL (hreg' s hs)).2 h]; simp⟩

/-- C163: the same lookup again reports the same depth and removes nothing more, and no sector is removed that is not around the direction. The sectors are
kept in a map, so their keys are distinct. -/
theorem C163_repeat {L : Linear} (hL : Exact L) {init : List Sector} (hkeys : (init.map Sector.key).Nodup)
    (hreg : ∀ x ∈ init, det3 x.r0 x.r1 x.r2 ≠ 0) (dirs : List V3) (dir : V3) :
    sphericalDepth L (lookedUp L init (dirs ++ [dir])) dir =
      ((sphericalDepth L (lookedUp L init dirs) dir).1, lookedUp L init (dirs ++ [dir])) ∧
    ∀ x ∈ lookedUp L init dirs, ¬ Around x dir → x ∈ lookedUp L init (dirs ++ [dir]) := by
  have hsub := lookedUp_sublist L dirs init
  have hreg' : ∀ x ∈ lookedUp L init dirs, det3 x.r0 x.r1 x.r2 ≠ 0 := fun x hx => hreg x (hsub.subset hx)
  have hn : ((lookedUp L init dirs).map Sector.key).Nodup := List.Nodup.sublist (hsub.map _) hkeys
  have e : lookedUp L init (dirs ++ [dir]) = (enclosingSector L (lookedUp L init dirs) dir).2 := by
    unfold lookedUp
    rw [List.foldl_append, List.foldl_cons, List.foldl_nil, sphericalDepth_state]
  rw [e]
  generalize lookedUp L init dirs = st at *
  obtain ⟨h1, h2⟩ := lookup_leaves_one (L := L) hn dir
  refine ⟨?_, fun x hx hnot => ?_⟩
  · obtain ⟨⟨o, st'⟩, ho⟩ : ∃ r, r = enclosingSector L st dir := ⟨_, rfl⟩
    rw [← ho] at h1 h2
    unfold sphericalDepth
    rw [← ho]
    cases o with
    | none =>
      have := h2 rfl
      simp only at this
      simp only [enclosingSector, this]
    | some x =>
      have := h1 x rfl
      simp only at this
      simp only [enclosingSector, this]
  · have hf : inSector L dir x = false := by
      rw [← Bool.not_eq_true, inSector_cone hL (hreg' x hx)]
      exact hnot
    unfold enclosingSector
    split
    · exact hx
    · exact hx
    · exact List.mem_filter.2 ⟨hx, by simp [hf]⟩

/-! ### C164: the picture of the uncovered part -/

theorem mem_cells {rows cols x y : Nat} : (x, y) ∈ cells rows cols 10 ↔ ∃ i j, x = 10 * i ∧ y = 10 * j ∧ x < cols ∧ y < rows := by
  unfold cells
  simp only [List.mem_flatMap, List.mem_map, List.mem_range, Prod.mk.injEq]
  constructor
  · rintro ⟨j, hj, i, hi, rfl, rfl⟩
    exact ⟨i, j, by omega, by omega, by omega, by omega⟩
  · rintro ⟨i, j, rfl, rfl, h1, h2⟩
    exact ⟨j, by omega, i, by omega, by omega, by omega⟩

theorem fill_fold {α : Type} (p : Nat × Nat → Bool) (col : α) (l : List (Nat × Nat)) (img : Pyr.Img α) :
    ∀ r, r = l.foldl (fun img c => if p c then fillCell img c.1 c.2 10 col else img) img → r.rows = img.rows ∧ r.cols = img.cols ∧
      ∀ x y, ((∃ c ∈ l, p c = true ∧ c.1 ≤ x ∧ x ≤ c.1 + 10 ∧ c.2 ≤ y ∧ y ≤ c.2 + 10) → r.px y x = col) ∧
        ((¬ ∃ c ∈ l, p c = true ∧ c.1 ≤ x ∧ x ≤ c.1 + 10 ∧ c.2 ≤ y ∧ y ≤ c.2 + 10) → r.px y x = img.px y x) := by
  induction l using List.reverseRecOn with
  | nil =>
    rintro r rfl
    exact ⟨rfl, rfl, fun x y => ⟨fun ⟨_, hc, _⟩ => absurd hc List.not_mem_nil, fun _ => rfl⟩⟩
  | append_singleton l c ih =>
    intro r hr
    rw [List.foldl_append, List.foldl_cons, List.foldl_nil] at hr
    obtain ⟨q, hq⟩ : ∃ q, q = l.foldl (fun img c => if p c then fillCell img c.1 c.2 10 col else img) img := ⟨_, rfl⟩
    rw [← hq] at hr
    obtain ⟨i1, i2, i3⟩ := ih q hq
    by_cases hp : p c = true
    · rw [if_pos hp] at hr
      subst hr
      refine ⟨i1, i2, fun x y => ?_⟩
      unfold fillCell
      simp only
      by_cases hc : c.1 ≤ x ∧ x ≤ c.1 + 10 ∧ c.2 ≤ y ∧ y ≤ c.2 + 10
      · rw [if_pos hc]
        exact ⟨fun _ => rfl, fun hh => absurd ⟨c, by simp, hp, hc⟩ hh⟩
      · rw [if_neg hc]
        constructor
        · rintro ⟨c', hc', hp', hin⟩
          rcases List.mem_append.1 hc' with hc' | hc'
          · exact (i3 x y).1 ⟨c', hc', hp', hin⟩
          · rw [List.mem_singleton.1 hc'] at hin; exact absurd hin hc
        · intro hh
          exact (i3 x y).2 fun ⟨c', hc', h'⟩ => hh ⟨c', List.mem_append_left _ hc', h'⟩
    · rw [if_neg hp] at hr
      subst hr
      refine ⟨i1, i2, fun x y => ⟨?_, fun hh => ?_⟩⟩
      · rintro ⟨c', hc', hp', hin⟩
        rcases List.mem_append.1 hc' with hc' | hc'
        · exact (i3 x y).1 ⟨c', hc', hp', hin⟩
        · rw [List.mem_singleton.1 hc'] at hp'; exact absurd hp' hp
      · exact (i3 x y).2 fun ⟨c', hc', h'⟩ => hh ⟨c', List.mem_append_left _ hc', h'⟩

/-- C164 (partial): the size of the picture is kept. Every pixel gets the colour if it belongs to a cell whose corner is found to be in the hull of the rays,
and is left as it was otherwise. Missing: the filled cells are the uncovered ones, see `C164_covered_violated` and `C164_empty_violated`. -/
theorem C164_cells_partial {α : Type} (L : Linear) (rays : List V3) (unmap : V2 → V3) (img : Pyr.Img α) (col : α) :
    (fillUncovered L rays unmap img col).rows = img.rows ∧ (fillUncovered L rays unmap img col).cols = img.cols ∧
    ∀ x y, ((∃ i j, 10 * i < img.cols ∧ 10 * j < img.rows ∧ isInConvexDummy L rays (unmap ⟨10 * i, 10 * j⟩) = true ∧ OfCell i j x y) →
        (fillUncovered L rays unmap img col).px y x = col) ∧
      ((¬ ∃ i j, 10 * i < img.cols ∧ 10 * j < img.rows ∧ isInConvexDummy L rays (unmap ⟨10 * i, 10 * j⟩) = true ∧ OfCell i j x y) →
        (fillUncovered L rays unmap img col).px y x = img.px y x) := by
  obtain ⟨h1, h2, h3⟩ := fill_fold (fun c => isInConvexDummy L rays (unmap ⟨c.1, c.2⟩)) col (cells img.rows img.cols 10) img
    (fillUncovered L rays unmap img col) rfl
  refine ⟨h1, h2, fun x y => ?_⟩
  have e : (∃ c ∈ cells img.rows img.cols 10, isInConvexDummy L rays (unmap ⟨c.1, c.2⟩) = true ∧
      c.1 ≤ x ∧ x ≤ c.1 + 10 ∧ c.2 ≤ y ∧ y ≤ c.2 + 10) ↔
      ∃ i j : Nat, 10 * i < img.cols ∧ 10 * j < img.rows ∧ isInConvexDummy L rays (unmap ⟨10 * i, 10 * j⟩) = true ∧ OfCell i j x y := by
    constructor
    · rintro ⟨⟨a, b⟩, hc, hp, hin⟩
      obtain ⟨i, j, rfl, rfl, hi, hj⟩ := mem_cells.1 hc
      exact ⟨i, j, hi, hj, by simpa using hp, hin⟩
    · rintro ⟨i, j, hi, hj, hp, hin⟩
      exact ⟨(10 * i, 10 * j), mem_cells.2 ⟨i, j, rfl, rfl, hi, hj⟩, by simpa using hp, hin⟩
  rw [← e]
  exact h3 x y

/-- C164 is violated: a cell whose corner is in the direction of a sum of positive multiples of three independent rays of the triangulation is filled, although
it is covered. -/
theorem C164_covered_violated {α : Type} {L : Linear} (hL : Exact L) {rays : List V3} {a b c : V3} (ha : a ∈ rays) (hb : b ∈ rays) (hc : c ∈ rays)
    (hd : det3 a b c ≠ 0) (unmap : V2 → V3) (img : Pyr.Img α) (col : α) {i j : Nat} (hi : 10 * i < img.cols) (hj : 10 * j < img.rows)
    {x y z : ℝ} (hx : 0 < x) (hy : 0 < y) (hz : 0 < z) (hu : unmap ⟨10 * i, 10 * j⟩ = x • a + y • b + z • c) {u v : Nat} (hin : OfCell i j u v) :
    (fillUncovered L rays unmap img col).px v u = col :=
  ((C164_cells_partial L rays unmap img col).2.2 u v).1 ⟨i, j, hi, hj, by
    rw [hu]; exact C124_hull_partial hL ha hb hc hd hx.le hy.le hz.le, hin⟩

/-- C164 is violated: with no rays nothing is covered, and nothing is filled. -/
theorem C164_empty_violated {α : Type} (L : Linear) (unmap : V2 → V3) (img : Pyr.Img α) (col : α) (x y : Nat) :
    (fillUncovered L [] unmap img col).px y x = img.px y x :=
  ((C164_cells_partial L [] unmap img col).2.2 x y).2 fun ⟨_, _, _, _, h, _⟩ => by cases h

/-! ### Demonstration -/

/-- The two sectors of four points, and a direction around which both are. -/
example {L : Linear} (hL : Exact L) : Around sectorA ⟨4, 8, 3⟩ ∧ Around sectorB ⟨4, 8, 3⟩ ∧
    (∃ d, (sphericalDepth L (lookedUp L [sectorA, sectorB] []) ⟨4, 8, 3⟩).1 = some d) ∧
    (([sectorA, sectorB] : List Sector).map Sector.key).Nodup := by
  have hA : Around sectorA ⟨4, 8, 3⟩ := (inSector_cone hL sectorA_regular).1 (both_sectors hL).1
  have hB : Around sectorB ⟨4, 8, 3⟩ := (inSector_cone hL sectorB_regular).1 (both_sectors hL).2
  have hreg : ∀ x ∈ [sectorA, sectorB], det3 x.r0 x.r1 x.r2 ≠ 0 := by
    intro x hx
    rcases List.mem_cons.1 hx with rfl | hx
    · exact sectorA_regular
    · rw [List.mem_singleton] at hx; subst hx; exact sectorB_regular
  exact ⟨hA, hB, (C163_some_iff hL hreg [] _).2 ⟨sectorA, by unfold lookedUp; simp, hA⟩, by unfold sectorA sectorB; simp⟩

/-- A picture of 20 × 20 pixels seen by a camera that looks along three independent rays: its first cell is covered, and filled. -/
example {L : Linear} (hL : Exact L) :
    (fillUncovered L [⟨1, 0, 0⟩, ⟨0, 1, 0⟩, ⟨0, 0, 1⟩] (fun p => ⟨p.x + 1, p.y + 1, 1⟩) ⟨20, 20, fun _ _ => false⟩ true).px 3 7 = true :=
  C164_covered_violated hL (a := ⟨1, 0, 0⟩) (b := ⟨0, 1, 0⟩) (c := ⟨0, 0, 1⟩) (by simp) (by simp) (by simp)
    (by unfold det3 V3.dot V3.cross; simp) _ _ _ (i := 0) (j := 0) (by norm_num) (by norm_num) one_pos one_pos one_pos
    (by ext <;> simp) (by unfold OfCell; omega)

end Mdso.Tri
