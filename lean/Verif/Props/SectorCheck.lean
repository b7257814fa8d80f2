import Verif.Spec.SectorCheck
import Verif.Props.Sectors
import Verif.Props.SphericalDelaunay

/-!
# Pictures of single sectors (C185)
-/

set_option autoImplicit false

namespace Mdso.Tri

open Mdso.Geom Mdso.Tri.Spec Mdso.SectorSpec Mdso.Geom3Spec

/-! ### The check for directions in several sectors -/

theorem two_of_filter {α : Type} {p : α → Bool} {l : List α} (hn : l.Nodup) :
    1 < (l.filter p).length ↔ ∃ x ∈ l, ∃ y ∈ l, x ≠ y ∧ p x = true ∧ p y = true := by
  constructor
  · intro h
    by_contra hc
    push Not at hc
    have := length_le_one hn (p := p) (fun x hx y hy hpx hpy => by
      by_contra hne
      exact hc x hx y hy hne hpx hpy)
    omega
  · rintro ⟨x, hx, y, hy, hne, hpx, hpy⟩
    have h1 : x ∈ l.filter p := List.mem_filter.2 ⟨hx, hpx⟩
    have h2 : y ∈ l.filter p := List.mem_filter.2 ⟨hy, hpy⟩
    match hf : l.filter p with
    | [] => rw [hf] at h1; cases h1
    | [a] =>
      rw [hf, List.mem_singleton] at h1 h2
      exact absurd (h1.trans h2.symm) hne
    | _ :: _ :: _ => simp

theorem doubled_iff {L : Linear} (hL : Exact L) {sectors : List Sector} (hkeys : (sectors.map Sector.key).Nodup)
    (hreg : ∀ x ∈ sectors, det3 x.r0 x.r1 x.r2 ≠ 0) (ray : V3) :
    1 < (sectors.filter (inSector L ray)).length ↔ Doubled sectors ray := by
  rw [two_of_filter (List.Nodup.of_map _ hkeys)]
  unfold Doubled Around
  constructor
  · rintro ⟨x, hx, y, hy, hne, h1, h2⟩
    exact ⟨x, hx, y, hy, hne, (inSector_cone hL (hreg x hx)).1 h1, (inSector_cone hL (hreg y hy)).1 h2⟩
  · rintro ⟨x, hx, y, hy, hne, h1, h2⟩
    exact ⟨x, hx, y, hy, hne, (inSector_cone hL (hreg x hx)).2 h1, (inSector_cone hL (hreg y hy)).2 h2⟩

/-- **C185**: a direction is marked, by a dot at its pixel, exactly if two sectors are around it. The first time this happens in a
process the sides of just these sectors are drawn, later not. Nothing else is drawn. -/
theorem C185_check {L : Linear} (hL : Exact L) (map : V3 → V2) {sectors : List Sector}
    (hkeys : (sectors.map Sector.key).Nodup) (hreg : ∀ x ∈ sectors, det3 x.r0 x.r1 x.r2 ≠ 0) (drawn : Bool) (ray : V3) :
    (¬ Doubled sectors ray → checkAllSectors L map sectors drawn ray = ([], drawn)) ∧
    (Doubled sectors ray → ∃ marks p, checkAllSectors L map sectors drawn ray = (marks, true) ∧ PixelOf map ray p ∧
      (∀ q, .dot q ∈ marks ↔ q = p) ∧
      ∀ l, .line l ∈ marks ↔ drawn = false ∧ ∃ s ∈ sectors, Around s ray ∧
        (l ∈ curve map s.r0 s.r1 ∨ l ∈ curve map s.r1 s.r2 ∨ l ∈ curve map s.r2 s.r0)) := by
  have hiff := doubled_iff hL hkeys hreg ray
  constructor
  · intro h
    unfold checkAllSectors
    exact if_neg (fun hh => h (hiff.1 hh))
  · intro h
    refine ⟨_, ⟨Util.truncInt (map ray).x, Util.truncInt (map ray).y⟩,
      (if_pos (hiff.2 h) : checkAllSectors L map sectors drawn ray = _), ⟨rfl, rfl⟩, ?_⟩
    constructor
    · intro q
      cases drawn <;> simp
    · intro l
      cases drawn
      · simp only [Bool.false_eq_true, if_false, List.mem_cons, reduceCtorEq, List.mem_map, Mark.line.injEq,
          exists_eq_right, false_or, true_and, List.mem_flatMap, List.mem_filter, outline, List.mem_append]
        constructor
        · rintro ⟨s, ⟨hs, hin⟩, hl⟩
          exact ⟨s, hs, (inSector_cone hL (hreg s hs)).1 hin, by tauto⟩
        · rintro ⟨s, hs, har, hl⟩
          exact ⟨s, ⟨hs, (inSector_cone hL (hreg s hs)).2 har⟩, by tauto⟩
      · simp

/-- **C185**: of any number of checks, sides are drawn only by the first one that marks something. -/
theorem C185_once {L : Linear} (hL : Exact L) (map : V3 → V2) {sectors : List Sector}
    (hkeys : (sectors.map Sector.key).Nodup) (hreg : ∀ x ∈ sectors, det3 x.r0 x.r1 x.r2 ≠ 0) (rays : List V3) :
    ∀ (drawn : Bool) (i : Nat) (marks : List Mark), (checkMany L map sectors drawn rays)[i]? = some marks →
      ∃ ray, rays[i]? = some ray ∧ ((∃ p, .dot p ∈ marks) ↔ Doubled sectors ray) ∧
        ∀ l, .line l ∈ marks → drawn = false ∧ ∀ (j : Nat) (r : V3), j < i → rays[j]? = some r → ¬ Doubled sectors r := by
  induction rays with
  | nil => intro drawn i marks h; simp [checkMany] at h
  | cons r rs ih =>
    intro drawn i marks h
    obtain ⟨h1, h2⟩ := C185_check hL map hkeys hreg drawn r
    cases i with
    | zero =>
      simp only [checkMany, List.getElem?_cons_zero, Option.some.injEq] at h
      refine ⟨r, rfl, ?_, ?_⟩
      · by_cases hd : Doubled sectors r
        · obtain ⟨m, p, e, -, h3, -⟩ := h2 hd
          rw [e] at h
          simp only at h
          subst h
          exact ⟨fun _ => hd, fun _ => ⟨p, (h3 p).2 rfl⟩⟩
        · rw [h1 hd] at h
          simp only at h
          subst h
          simp [hd]
      · intro l hl
        by_cases hd : Doubled sectors r
        · obtain ⟨m, p, e, -, -, h4⟩ := h2 hd
          rw [e] at h
          simp only at h
          subst h
          exact ⟨((h4 l).1 hl).1, fun j _ hj _ => by omega⟩
        · rw [h1 hd] at h
          simp only at h
          subst h
          cases hl
    | succ i =>
      simp only [checkMany, List.getElem?_cons_succ] at h
      obtain ⟨ray, e, hdot, hline⟩ := ih _ i marks h
      refine ⟨ray, by simpa using e, hdot, ?_⟩
      intro l hl
      obtain ⟨e1, e2⟩ := hline l hl
      have hnd : ¬ Doubled sectors r := by
        intro hd
        obtain ⟨m, p, e3, -⟩ := h2 hd
        rw [e3] at e1
        cases e1
      rw [h1 hnd] at e1
      refine ⟨e1, fun j r' hj hr' => ?_⟩
      cases j with
      | zero =>
        simp only [List.getElem?_cons_zero, Option.some.injEq] at hr'
        subst hr'
        exact hnd
      | succ j => exact e2 j r' (by omega) (by simpa using hr')

/-! ### The picture of one sector -/

/-- The same lookup again finds the same. -/
theorem enclosing_twice {L : Linear} {st : List Sector} (hn : (st.map Sector.key).Nodup) (ray : V3) :
    enclosingSector L (enclosingSector L st ray).2 ray = enclosingSector L st ray := by
  obtain ⟨h1, h2⟩ := lookup_leaves_one (L := L) hn ray
  obtain ⟨⟨o, st'⟩, ho⟩ : ∃ r, r = enclosingSector L st ray := ⟨_, rfl⟩
  rw [← ho] at h1 h2 ⊢
  simp only at h1 h2 ⊢
  cases o with
  | none =>
    unfold enclosingSector
    rw [h2 rfl]
  | some x =>
    unfold enclosingSector
    rw [h1 x rfl]

theorem sphericalDepth_congr {L : Linear} {st st' : List Sector} {ray : V3}
    (h : enclosingSector L st ray = enclosingSector L st' ray) : sphericalDepth L st ray = sphericalDepth L st' ray := by
  unfold sphericalDepth
  rw [h]

theorem denseLoop_skip {L : Linear} {unmap : V2 → V3} {sec : Nat} {mind maxd : ℝ} {c : Nat × Nat} {cs : List (Nat × Nat)}
    {st : List Sector} (hk : (enclosingSector L st (unmap ⟨c.1, c.2⟩)).1.map Sector.key ≠ some sec) :
    denseLoop L unmap sec mind maxd (c :: cs) st =
      denseLoop L unmap sec mind maxd cs (enclosingSector L st (unmap ⟨c.1, c.2⟩)).2 := if_pos hk

theorem denseLoop_hit {L : Linear} {unmap : V2 → V3} {sec : Nat} {mind maxd : ℝ} {c : Nat × Nat} {cs : List (Nat × Nat)}
    {st : List Sector} (hn : (st.map Sector.key).Nodup)
    (hk : (enclosingSector L st (unmap ⟨c.1, c.2⟩)).1.map Sector.key = some sec) :
    ∃ d, (sphericalDepth L st (unmap ⟨c.1, c.2⟩)).1 = some d ∧
    denseLoop L unmap sec mind maxd (c :: cs) st =
      (⟨c.1, c.2, Util.depthCol d mind maxd⟩ ::
        (denseLoop L unmap sec mind maxd cs (enclosingSector L st (unmap ⟨c.1, c.2⟩)).2).1,
       (denseLoop L unmap sec mind maxd cs (enclosingSector L st (unmap ⟨c.1, c.2⟩)).2).2) := by
  have e := sphericalDepth_congr (enclosing_twice (L := L) hn (unmap ⟨c.1, c.2⟩))
  have e2 := sphericalDepth_state L st (unmap ⟨c.1, c.2⟩)
  obtain ⟨d, hd⟩ : ∃ d, (sphericalDepth L st (unmap ⟨c.1, c.2⟩)).1 = some d := by
    unfold sphericalDepth
    match ho : enclosingSector L st (unmap ⟨c.1, c.2⟩) with
    | (none, st') => rw [ho] at hk; cases hk
    | (some x, st') => exact ⟨_, rfl⟩
  refine ⟨d, hd, ?_⟩
  refine (if_neg (not_not.2 hk)).trans ?_
  simp only [e, hd, e2]

theorem denseLoop_state {L : Linear} (unmap : V2 → V3) (sec : Nat) (mind maxd : ℝ) (cs : List (Nat × Nat)) :
    ∀ {st : List Sector}, (st.map Sector.key).Nodup →
      (denseLoop L unmap sec mind maxd cs st).2 = lookedUp L st (cs.map fun c => unmap ⟨c.1, c.2⟩) := by
  induction cs with
  | nil => intro st _; rfl
  | cons c cs ih =>
    intro st hn
    have hn' : ((enclosingSector L st (unmap ⟨c.1, c.2⟩)).2.map Sector.key).Nodup :=
      hn.sublist ((enclosingSector_spec L st _).2.2.map _)
    have e : lookedUp L st ((c :: cs).map fun c => unmap ⟨c.1, c.2⟩) =
        lookedUp L (enclosingSector L st (unmap ⟨c.1, c.2⟩)).2 (cs.map fun c => unmap ⟨c.1, c.2⟩) := by
      unfold lookedUp
      rw [List.map_cons, List.foldl_cons, sphericalDepth_state]
    rw [e, ← ih hn']
    by_cases hk : (enclosingSector L st (unmap ⟨c.1, c.2⟩)).1.map Sector.key = some sec
    · obtain ⟨d, -, h⟩ := denseLoop_hit (mind := mind) (maxd := maxd) (cs := cs) hn hk
      rw [h]
    · rw [denseLoop_skip hk]

/-- The dot of one position. -/
theorem dense_dot {L : Linear} (hL : Exact L) {st : List Sector} (hreg : ∀ x ∈ st, det3 x.r0 x.r1 x.r2 ≠ 0)
    {ray : V3} (h0 : ray ≠ 0) {s : Sector} (hf : st.filter (inSector L ray) = [s]) :
    ∃ d, sphericalDepth L st ray = (some d, st) ∧ 0 < d ∧ OnTriangle s.r0 s.r1 s.r2 ((d / ray.norm) • ray) := by
  have hs : s ∈ st.filter (inSector L ray) := by rw [hf]; simp
  obtain ⟨hm, hin⟩ := List.mem_filter.1 hs
  obtain ⟨hpos, htri⟩ := sector_depth hL (hreg s hm) h0 hin
  have hn := V3.norm_pos h0
  refine ⟨_, ?_, mul_pos hpos hn, ?_⟩
  · unfold sphericalDepth enclosingSector
    rw [hf]
  · rw [mul_div_assoc, div_self hn.ne', mul_one]
    exact htri

theorem denseLoop_dots {L : Linear} (hL : Exact L) (unmap : V2 → V3) {sec : Sector} (mind maxd : ℝ) {st : List Sector}
    (hn : (st.map Sector.key).Nodup) (hreg : ∀ x ∈ st, det3 x.r0 x.r1 x.r2 ≠ 0) (hsec : sec ∈ st)
    (cs : List (Nat × Nat)) (hcs : cs.Nodup) (hz : ∀ c ∈ cs, unmap ⟨(c.1 : ℝ), (c.2 : ℝ)⟩ ≠ 0)
    (hone : ∀ c ∈ cs, ¬ Doubled st (unmap ⟨(c.1 : ℝ), (c.2 : ℝ)⟩)) :
    ∃ dots, denseLoop L unmap sec.key mind maxd cs st = (dots, st) ∧
      (dots.map fun d => (d.x, d.y)).Sublist cs ∧
      (∀ c ∈ cs, c ∈ dots.map (fun d => (d.x, d.y)) ↔ Around sec (unmap ⟨(c.1 : ℝ), (c.2 : ℝ)⟩)) ∧
      ∀ t ∈ dots, ∃ d, 0 < d ∧ t.col = Util.depthCol d mind maxd ∧
        OnTriangle sec.r0 sec.r1 sec.r2 ((d / (unmap ⟨(t.x : ℝ), (t.y : ℝ)⟩).norm) • unmap ⟨(t.x : ℝ), (t.y : ℝ)⟩) := by
  have hall : ∀ c ∈ cs, ((enclosingSector L st (unmap ⟨c.1, c.2⟩)).1.map Sector.key = some sec.key ↔
      Around sec (unmap ⟨(c.1 : ℝ), (c.2 : ℝ)⟩)) ∧ (enclosingSector L st (unmap ⟨c.1, c.2⟩)).2 = st ∧
      (Around sec (unmap ⟨(c.1 : ℝ), (c.2 : ℝ)⟩) → st.filter (inSector L (unmap ⟨c.1, c.2⟩)) = [sec]) := by
    intro c hc
    have hle : ¬ 1 < (st.filter (inSector L (unmap ⟨c.1, c.2⟩))).length := fun h =>
      hone c hc ((doubled_iff hL hn hreg _).1 h)
    have hmem : Around sec (unmap ⟨(c.1 : ℝ), (c.2 : ℝ)⟩) ↔ sec ∈ st.filter (inSector L (unmap ⟨c.1, c.2⟩)) := by
      rw [List.mem_filter, inSector_cone hL (hreg sec hsec)]
      exact ⟨fun h => ⟨hsec, h⟩, fun h => h.2⟩
    rw [hmem]
    unfold enclosingSector
    match hf : st.filter (inSector L (unmap ⟨c.1, c.2⟩)) with
    | [] => simp
    | [s] =>
      have hs : s ∈ st := (List.mem_filter.1 (by rw [hf]; simp : s ∈ st.filter (inSector L (unmap ⟨c.1, c.2⟩)))).1
      refine ⟨?_, rfl, fun h => by rw [List.mem_singleton.1 h]⟩
      simp only [Option.map_some, Option.some.injEq, List.mem_singleton]
      exact ⟨fun h => (List.inj_on_of_nodup_map hn hs hsec h).symm, fun h => by rw [h]⟩
    | _ :: _ :: _ => rw [hf] at hle; simp at hle
  clear hone
  induction cs with
  | nil =>
    refine ⟨[], rfl, List.Sublist.refl _, ?_, ?_⟩
    · intro c hc
      cases hc
    · intro t ht
      cases ht
  | cons c cs ih =>
    obtain ⟨dots, h1, h2, h3, h4⟩ := ih (List.nodup_cons.1 hcs).2 (fun c hc => hz c (List.mem_cons_of_mem _ hc))
      (fun c hc => hall c (List.mem_cons_of_mem _ hc))
    obtain ⟨a1, a2, a3⟩ := hall c (List.mem_cons_self ..)
    have hcn : c ∉ cs := (List.nodup_cons.1 hcs).1
    by_cases hk : (enclosingSector L st (unmap ⟨c.1, c.2⟩)).1.map Sector.key = some sec.key
    · obtain ⟨d, hd, h⟩ := denseLoop_hit (mind := mind) (maxd := maxd) (cs := cs) hn hk
      rw [a2, h1] at h
      obtain ⟨d', hd', hpos, htri⟩ := dense_dot hL hreg (hz c (List.mem_cons_self ..)) (a3 (a1.1 hk))
      rw [hd'] at hd
      obtain rfl := Option.some.inj hd
      refine ⟨_, h, h2.cons_cons c, ?_, ?_⟩
      · intro c' hc'
        rw [List.map_cons, List.mem_cons]
        rcases List.mem_cons.1 hc' with rfl | hc'
        · exact ⟨fun _ => a1.1 hk, fun _ => .inl rfl⟩
        · rw [← h3 c' hc']
          exact ⟨fun hh => hh.elim (fun e => absurd (show c ∈ cs from (show c' = c from e) ▸ hc') hcn) id, .inr⟩
      · intro t ht
        rcases List.mem_cons.1 ht with rfl | ht
        · exact ⟨_, hpos, rfl, htri⟩
        · exact h4 t ht
    · refine ⟨dots, (denseLoop_skip hk).trans ((congrArg _ a2).trans h1), h2.cons c, ?_, h4⟩
      intro c' hc'
      rcases List.mem_cons.1 hc' with rfl | hc'
      · exact ⟨fun hh => absurd (h2.subset hh) hcn, fun hh => absurd (a1.2 hh) hk⟩
      · exact h3 c' hc'

theorem cells_nodup (rows cols : Nat) : (cells rows cols 10).Nodup := by
  unfold cells
  rw [List.nodup_flatMap]
  refine ⟨fun j _ => List.nodup_range.map (fun a b h => by simpa using congrArg Prod.fst h), ?_⟩
  refine List.nodup_range.imp ?_
  intro a b hab c h1 h2
  obtain ⟨i, -, rfl⟩ := List.mem_map.1 h1
  obtain ⟨i', -, e⟩ := List.mem_map.1 h2
  have := congrArg Prod.snd e
  simp only at this
  omega

theorem mem_cells_grid {rows cols x y : Nat} : (x, y) ∈ cells rows cols 10 ↔ OnGrid rows cols x y := by
  rw [mem_cells]
  unfold OnGrid
  constructor
  · rintro ⟨i, j, rfl, rfl, h1, h2⟩
    exact ⟨⟨i, rfl⟩, ⟨j, rfl⟩, h1, h2⟩
  · rintro ⟨⟨i, rfl⟩, ⟨j, rfl⟩, h1, h2⟩
    exact ⟨i, j, rfl, rfl, h1, h2⟩

/-- **C185**: if no position of the grid is in several sectors, drawing a sector puts one dot at each position of the grid that the
sector is around, in the colour of the depth at which its ray meets the triangle of the sector, and no other dot; the terrain stays
as it was. Missing: positions in several sectors, see `C185_dense_violated`. -/
theorem C185_dense_partial {L : Linear} (hL : Exact L) {unmap : V2 → V3} (hz : ∀ p, unmap p ≠ 0) (rows cols : Nat) (mind maxd : ℝ)
    {sectors : List Sector} (hkeys : (sectors.map Sector.key).Nodup) (hreg : ∀ x ∈ sectors, det3 x.r0 x.r1 x.r2 ≠ 0)
    {sec : Sector} (hsec : sec ∈ sectors) (hone : ∀ x y, OnGrid rows cols x y → ¬ Doubled sectors (unmap ⟨(x : ℝ), (y : ℝ)⟩)) :
    ∃ dots, drawDenseTriangle L unmap rows cols sec.key mind maxd sectors = (dots, sectors) ∧
      (dots.map fun d => (d.x, d.y)).Nodup ∧
      (∀ x y, (∃ t ∈ dots, t.x = x ∧ t.y = y) ↔ OnGrid rows cols x y ∧ Around sec (unmap ⟨(x : ℝ), (y : ℝ)⟩)) ∧
      ∀ t ∈ dots, ∃ d, 0 < d ∧ t.col = Util.depthCol d mind maxd ∧
        OnTriangle sec.r0 sec.r1 sec.r2 ((d / (unmap ⟨(t.x : ℝ), (t.y : ℝ)⟩).norm) • unmap ⟨(t.x : ℝ), (t.y : ℝ)⟩) := by
  obtain ⟨dots, h1, h2, h3, h4⟩ := denseLoop_dots hL unmap mind maxd hkeys hreg hsec (cells rows cols 10)
    (cells_nodup rows cols) (fun c _ => hz _) (fun c hc => hone c.1 c.2 (mem_cells_grid.1 hc))
  refine ⟨dots, h1, (cells_nodup rows cols).sublist h2, fun x y => ?_, h4⟩
  have e : (∃ t ∈ dots, t.x = x ∧ t.y = y) ↔ (x, y) ∈ dots.map fun d => (d.x, d.y) := by
    simp [List.mem_map]
  rw [e, ← mem_cells_grid]
  constructor
  · intro h
    have hc := h2.subset h
    exact ⟨hc, (h3 _ hc).1 h⟩
  · rintro ⟨hc, h⟩
    exact (h3 _ hc).2 h

/-- **C185**: around the optical axis only directions on the sides of sectors are marked by the check. -/
theorem C185_axis {L : Linear} (hL : Exact L) {env : Env} {arrange : List Nat → List Nat} {s : Settings} {rays : List V3}
    {points : List V2} {order : List Nat} {fuel : Nat} {init : List Sector} (henv : Lawful env) (ha : Arrangement arrange)
    (hnz : ∀ r ∈ rays, r ≠ 0) (hp : projectAll rays = some points) (ho : Shuffle points.length order)
    (hG : GeneralPosition s points) (hA : AroundAxis rays)
    (h : newSectors env arrange s rays order fuel = .ok (some init)) (map : V3 → V2) (drawn : Bool) {dir : V3}
    (hd : ∀ x ∈ init, OffSides x.r0 x.r1 x.r2 dir) :
    checkAllSectors L map init drawn dir = ([], drawn) := by
  have hreg := C153_regular henv ha hnz hp ho hG hA h
  refine (C185_check hL map (keys_nodup henv ha hp ho hG h) hreg drawn dir).1 ?_
  rintro ⟨x, hx, y, hy, hne, h1, h2⟩
  exact hne (one_sector hL henv ha hnz hp ho hG hA h hd x hx y hy ((inSector_cone hL (hreg x hx)).2 h1)
    ((inSector_cone hL (hreg y hy)).2 h2))

/-- **C185** is violated for positions in several sectors: drawing a sector removes sectors of the terrain. Whatever Eigen computes,
there are four points and a camera such that a picture of 10 by 10 pixels of a sector takes away a depth that the terrain reported
before. -/
theorem C185_dense_violated {L : Linear} (hL : Exact L) : ∃ (init : List Sector) (unmap : V2 → V3) (dir : V3),
    newSectors demoEnv id defaultSettings sphereRays [0, 1, 2, 3] 100 = .ok (some init) ∧ (∀ p, unmap p ≠ 0) ∧
    ∀ sec ∈ init, (∃ d, (sphericalDepth L init dir).1 = some d) ∧
      (sphericalDepth L (drawDenseTriangle L unmap 10 10 sec.key 1 2 init).2 dir).1 = none := by
  obtain ⟨init, dir, dir', h1, -, h0, -, h3, h4⟩ := C58_spherical_history_violated hL
  have hkeys : (init.map Sector.key).Nodup := by
    rw [sphere_sectors] at h1
    obtain rfl := Option.some.inj (Except.ok.inj h1)
    unfold sectorA sectorB; simp
  refine ⟨init, fun _ => dir, dir', h1, fun _ => h0, fun sec _ => ⟨h3, ?_⟩⟩
  · have e : (drawDenseTriangle L (fun _ => dir) 10 10 sec.key 1 2 init).2 = lookedUp L init [dir] := by
      unfold drawDenseTriangle
      rw [denseLoop_state _ _ _ _ _ hkeys]
      rfl
    rw [e]
    exact h4

/-- The demo terrain: a direction on the common side of its two sectors is marked, one within a sector is not, and a picture of one
cell shows the sector that its ray is in. -/
example {L : Linear} (hL : Exact L) (map : V3 → V2) : ∃ init,
    newSectors demoEnv id defaultSettings sphereRays [0, 1, 2, 3] 100 = .ok (some init) ∧
    (∃ marks, checkAllSectors L map init false ⟨4, 8, 3⟩ = (marks, true)) ∧
    checkAllSectors L map init false ⟨16, 12, -3⟩ = ([], false) ∧
    ∃ sec ∈ init, ∃ dot, drawDenseTriangle L (fun p => ⟨16 + p.x, 12 + p.y, -3⟩) 10 10 sec.key 1 2 init = ([dot], init) := by
  have hkeys : (([sectorA, sectorB] : List Sector).map Sector.key).Nodup := by unfold sectorA sectorB; simp
  have hreg : ∀ x ∈ [sectorA, sectorB], det3 x.r0 x.r1 x.r2 ≠ 0 := by
    intro x hx
    rcases List.mem_cons.1 hx with rfl | hx
    · exact sectorA_regular
    · rw [List.mem_singleton] at hx; subst hx; exact sectorB_regular
  have hAB : sectorA ≠ sectorB := fun h => by
    have := congrArg Sector.key h
    unfold sectorA sectorB at this
    simp at this
  have ho : Shuffle (spherePoints.map Q2.real).length [0, 1, 2, 3] := by show [0, 1, 2, 3].Perm [0, 1, 2, 3]; decide
  have hoff : ∀ x ∈ [sectorA, sectorB], OffSides x.r0 x.r1 x.r2 ⟨16, 12, -3⟩ := by
    intro x hx
    rcases List.mem_cons.1 hx with rfl | hx
    · exact off_A
    · rw [List.mem_singleton] at hx; subst hx; exact off_B
  have hnone : checkAllSectors L map [sectorA, sectorB] false ⟨16, 12, -3⟩ = ([], false) :=
    C185_axis hL demoEnv_lawful (fun _ => List.Perm.refl _) sphere_nonzero (projectAll_lift _) ho sphere_general sphere_around
      sphere_sectors map false hoff
  have hnd : ¬ Doubled [sectorA, sectorB] ⟨16, 12, -3⟩ := by
    intro hd
    obtain ⟨m, p, e, -⟩ := (C185_check hL map hkeys hreg false _).2 hd
    rw [hnone] at e
    simp at e
  refine ⟨_, sphere_sectors, ?_, hnone, sectorA, by simp, ?_⟩
  · obtain ⟨m, p, e, -⟩ := (C185_check hL map hkeys hreg false ⟨4, 8, 3⟩).2 ⟨sectorA, by simp, sectorB, by simp, hAB,
      (inSector_cone hL sectorA_regular).1 (both_sectors hL).1, (inSector_cone hL sectorB_regular).1 (both_sectors hL).2⟩
    exact ⟨m, e⟩
  · have hgrid : ∀ x y, OnGrid 10 10 x y ↔ x = 0 ∧ y = 0 := by
      intro x y
      unfold OnGrid
      omega
    obtain ⟨dots, e, hnod, hiff, -⟩ := C185_dense_partial hL (unmap := fun p => ⟨16 + p.x, 12 + p.y, -3⟩)
      (fun p h => by have := congrArg V3.z h; norm_num at this) 10 10 1 2 hkeys hreg (sec := sectorA) (by simp) (by
        intro x y hxy
        obtain ⟨rfl, rfl⟩ := (hgrid x y).1 hxy
        simpa using hnd)
    obtain ⟨t, ht, -⟩ := (hiff 0 0).2 ⟨(hgrid 0 0).2 ⟨rfl, rfl⟩, by
      have har : Around sectorA ⟨16, 12, -3⟩ := (inSector_cone hL sectorA_regular).1 (only_A hL).1
      simpa using har⟩
    have hall : ∀ u ∈ dots, (u.x, u.y) = (0, 0) := by
      intro u hu
      obtain ⟨h1, -⟩ := (hiff u.x u.y).1 ⟨u, hu, rfl, rfl⟩
      obtain ⟨h1, h2⟩ := (hgrid _ _).1 h1
      rw [h1, h2]
    match dots, e, hnod, ht, hall with
    | [a], e, _, _, _ => exact ⟨a, e⟩
    | a :: b :: r, _, hnod, _, hall =>
      have h1 := hall a (by simp)
      have h2 := hall b (by simp)
      rw [List.map_cons, List.map_cons, List.nodup_cons, h1, h2] at hnod
      simp at hnod

end Mdso.Tri
