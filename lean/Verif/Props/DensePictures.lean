import Verif.Spec.DensePictures
import Verif.Props.DepthColour
import Verif.Props.FrameTracker
import Verif.Props.Delaunay2

/-!
# Pictures coloured by depth
-/

set_option autoImplicit false

namespace Mdso.Dense

open Mdso.Geom Mdso.Tri Mdso.Tri.Spec Mdso.Util Mdso.Dense.Spec

theorem toByte_ok {x : ℝ} (h0 : 0 ≤ x) (h1 : x ≤ 255) : toByte x = .ok ⌊x⌋₊ := by
  unfold toByte truncInt
  rw [if_pos ⟨by linarith, by linarith⟩, if_pos h0]
  rfl

theorem byte_colour {b g r : ℝ} (b0 : 0 ≤ b) (b1 : b ≤ 255) (g0 : 0 ≤ g) (g1 : g ≤ 255) (r0 : 0 ≤ r) (r1 : r ≤ 255) :
    toCvVec3bDummy (some ⟨b, g, r⟩) = .ok (⌊b⌋₊, ⌊g⌋₊, ⌊r⌋₊) := by
  unfold toCvVec3bDummy
  simp only [toByte_ok b0 b1, toByte_ok g0 g1, toByte_ok r0 r1, bind, Except.bind]

/-- The colour of a depth is never undefined if the bounds differ, and is the one of the ramp. -/
theorem colour_ramp {mind maxd : ℝ} (h : mind < maxd) (d : ℝ) :
    toCvVec3bDummy (depthCol d mind maxd) = .ok (ramp mind maxd d) := by
  obtain ⟨c1, c2, c3, c4⟩ := C53_colour_partial h
  have hp : 0 < maxd - mind := by linarith
  by_cases hlo : d < mind
  · rw [c1 d hlo]
    have ht : place mind maxd d = 0 := by
      unfold place
      have : (d - mind) / (maxd - mind) ≤ 0 := div_nonpos_of_nonpos_of_nonneg (by linarith) hp.le
      rw [min_eq_right (by linarith), max_eq_left this]
    unfold ramp red
    rw [byte_colour (by norm_num) (by norm_num) (by norm_num) (by norm_num) (by norm_num) (by norm_num)]
    simp only [ht]
    norm_num
  by_cases hhi : maxd < d
  · rw [c2 d hhi]
    have ht : place mind maxd d = 1 := by
      unfold place
      have : 1 ≤ (d - mind) / (maxd - mind) := by rw [le_div_iff₀ hp]; linarith
      rw [min_eq_left this, max_eq_right (by norm_num)]
    unfold ramp blue
    rw [byte_colour (by norm_num) (by norm_num) (by norm_num) (by norm_num) (by norm_num) (by norm_num)]
    simp only [ht]
    norm_num
  push Not at hlo hhi
  obtain ⟨t, ht⟩ : ∃ t, t = (d - mind) / (maxd - mind) := ⟨_, rfl⟩
  have hd : d = mind + t * (maxd - mind) := by rw [ht]; field_simp; ring
  have t0 : 0 ≤ t := ht ▸ div_nonneg (by linarith) hp.le
  have t1 : t ≤ 1 := by rw [ht, div_le_one hp]; linarith
  have hpl : place mind maxd d = t := by
    unfold place
    rw [← ht, min_eq_right t1, max_eq_right t0]
  unfold ramp
  simp only [hpl]
  by_cases hh : t ≤ 1 / 2
  · rw [if_pos hh, show d = mind + 2 * t * ((maxd - mind) / 2) from by rw [hd]; ring,
      c3 (2 * t) (by linarith) (by linarith)]
    rw [byte_colour (by norm_num) (by norm_num) (by linarith) (by linarith) (by linarith) (by linarith)]
    simp
  · push Not at hh
    rw [if_neg (by linarith), show d = (mind + maxd) / 2 + (2 * t - 1) * ((maxd - mind) / 2) from by rw [hd]; ring,
      c4 (2 * t - 1) (by linarith) (by linarith)]
    rw [byte_colour (by linarith) (by linarith) (by linarith) (by linarith) (by norm_num) (by norm_num)]
    simp only [Nat.floor_zero, Except.ok.injEq, Prod.mk.injEq, and_true, true_and]
    congr 1
    ring

/-- What the loops do. -/
theorem paint_spec {depth : Nat × Nat → Except Fault (Option (Option ℝ))} {mind maxd : ℝ} (h : mind < maxd)
    {qs : List (Nat × Nat)} (hn : qs.Nodup) {img img' : Pyr.Img Bgr}
    (hp : paint depth mind maxd qs img = .ok (some img')) :
    img'.rows = img.rows ∧ img'.cols = img.cols ∧
    (∀ q ∉ qs, img'.px q.1 q.2 = img.px q.1 q.2) ∧
    ∀ q ∈ qs, ∃ o, depth q = .ok (some o) ∧
      img'.px q.1 q.2 = match o with
        | some d => ramp mind maxd d
        | none => img.px q.1 q.2 := by
  induction qs generalizing img with
  | nil =>
    obtain rfl := Option.some.inj (Except.ok.inj hp)
    exact ⟨rfl, rfl, fun _ _ => rfl, fun q hq => by cases hq⟩
  | cons q qs ih =>
    obtain ⟨hq, hn⟩ := List.nodup_cons.1 hn
    unfold paint at hp
    simp only [bind, Except.bind] at hp
    cases hd : depth q with
    | error f => rw [hd] at hp; cases hp
    | ok o =>
      rw [hd] at hp
      match o, hp with
      | none, hp => cases hp
      | some none, hp =>
        obtain ⟨i1, i2, i3, i4⟩ := ih hn hp
        refine ⟨i1, i2, fun r hr => i3 r fun h' => hr (List.mem_cons_of_mem _ h'), fun r hr => ?_⟩
        rcases List.mem_cons.1 hr with rfl | hr
        · exact ⟨none, hd, i3 _ hq⟩
        · exact i4 r hr
      | some (some d), hp =>
        simp only [colour_ramp h] at hp
        obtain ⟨i1, i2, i3, i4⟩ := ih hn hp
        have hset : ∀ r : Nat × Nat, r ≠ q → (setPixel img q (ramp mind maxd d)).px r.1 r.2 = img.px r.1 r.2 :=
          fun r hr => if_neg hr
        refine ⟨i1, i2, fun r hr => ?_, fun r hr => ?_⟩
        · rw [i3 r fun h' => hr (List.mem_cons_of_mem _ h')]
          exact hset r fun h' => hr (h' ▸ List.mem_cons_self ..)
        · rcases List.mem_cons.1 hr with rfl | hr
          · exact ⟨some d, hd, (i3 _ hq).trans (if_pos rfl)⟩
          · obtain ⟨o, o1, o2⟩ := i4 r hr
            refine ⟨o, o1, ?_⟩
            rw [o2, hset r (fun h' => hq (h' ▸ hr))]

theorem paint_defined {depth : Nat × Nat → Except Fault (Option (Option ℝ))} {mind maxd : ℝ} (h : mind < maxd)
    {qs : List (Nat × Nat)} (hd : ∀ q ∈ qs, ∃ o, depth q = .ok o) (img : Pyr.Img Bgr) :
    ∃ r, paint depth mind maxd qs img = .ok r := by
  induction qs generalizing img with
  | nil => exact ⟨_, rfl⟩
  | cons q qs ih =>
    obtain ⟨o, ho⟩ := hd q (List.mem_cons_self ..)
    have ih := fun img => ih (fun r hr => hd r (List.mem_cons_of_mem _ hr)) img
    unfold paint
    simp only [bind, Except.bind]
    rw [ho]
    match o with
    | none => exact ⟨_, rfl⟩
    | some none => exact ih img
    | some (some d) =>
      simp only [colour_ramp h]
      exact ih _

theorem pixels_nodup (rows cols : Nat) : (Track.pixels rows cols).Nodup := by
  refine (Track.pixels_before rows cols).imp ?_
  rintro a b h rfl
  unfold Track.Spec.Before at h
  omega

/-- C156, plain terrains: on a picture with three channels of bytes, with a positive range of depths, every pixel clear of
the edges is given the colour of the depth the terrain reports there if it is in the convex hull of the points, and is
left alone otherwise. The colour of a hull pixel does not depend on the walk. -/
theorem C156_dense {L : Linear} {env : Env} {unmap : V2 → V3} {s : Settings} {points : List V2} {depths : List ℝ}
    {order : List Nat} {fuel : Nat} {T : Terrain} (hL : Exact L) (henv : Lawful env) (ho : Shuffle points.length order)
    (hG : GeneralPosition s points) (hu : ∀ p ∈ points, unmap p ≠ 0) (hn : 3 ≤ points.length)
    (h : newTerrain env unmap s points depths order fuel = .ok (some T)) {env' : Env} (henv' : Lawful env')
    {coin : Nat × Nat → Nat → Bool} {fuel' : Nat} {img img' : Pyr.Img Bgr} {mind maxd : ℝ} (hb : mind < maxd)
    (hd : drawDensePlainDepths L env' T coin fuel' true img mind maxd = .ok (some img')) :
    img'.rows = img.rows ∧ img'.cols = img.cols ∧
    ∀ y < img.rows, ∀ x < img.cols, Clear T ⟨x, y⟩ →
      (InConvexHull points ⟨x, y⟩ → ∃ d, T.depthAt L env' ⟨x, y⟩ (coin (y, x)) fuel' = .ok (some (some d)) ∧
        img'.px y x = ramp mind maxd d) ∧
      (¬ InConvexHull points ⟨x, y⟩ → img'.px y x = img.px y x) := by
  unfold drawDensePlainDepths at hd
  rw [if_pos rfl] at hd
  obtain ⟨s1, s2, -, s4⟩ := paint_spec hb (pixels_nodup _ _) hd
  refine ⟨s1, s2, fun y hy x hx hc => ?_⟩
  obtain ⟨o, o1, o2⟩ := s4 (y, x) (Track.mem_pixels.2 ⟨hy, hx⟩)
  have hw := C151_where hL henv ho hG hu hn h hc henv' o1
  constructor
  · intro hin
    obtain ⟨d, rfl⟩ := Option.ne_none_iff_exists'.1 (hw.2 hin)
    exact ⟨d, o1, o2⟩
  · intro hout
    have : o = none := by
      by_contra hne
      exact hout (hw.1 hne)
    subst this
    exact o2

/-- C156: the call is defined for every picture of the right type and throws for every other, before painting. -/
theorem C156_dense_defined {L : Linear} {env : Env} {unmap : V2 → V3} {s : Settings} {points : List V2} {depths : List ℝ}
    {order : List Nat} {fuel : Nat} {T : Terrain} (hL : Exact L) (henv : Lawful env) (ho : Shuffle points.length order)
    (hG : GeneralPosition s points) (hu : ∀ p ∈ points, unmap p ≠ 0)
    (h : newTerrain env unmap s points depths order fuel = .ok (some T)) {env' : Env} (henv' : Lawful env')
    (coin : Nat × Nat → Nat → Bool) (fuel' : Nat) (img : Pyr.Img Bgr) {mind maxd : ℝ} (hb : mind < maxd) :
    (∃ r, drawDensePlainDepths L env' T coin fuel' true img mind maxd = .ok r) ∧
    drawDensePlainDepths L env' T coin fuel' false img mind maxd = .error .exception := by
  refine ⟨?_, rfl⟩
  unfold drawDensePlainDepths
  rw [if_pos rfl]
  refine paint_defined hb (fun q _ => ?_) img
  obtain ⟨r, -, -, e2, e3, e4⟩ := depthAt_spec hL henv henv' ho hG hu h ⟨q.2, q.1⟩ (coin q) fuel'
  match r with
  | none => exact ⟨_, e2 rfl⟩
  | some none => exact ⟨_, e3 rfl⟩
  | some (some k) =>
    obtain ⟨-, -, ⟨-, g⟩ | ⟨-, i, a, d, res, -, -, -, g⟩⟩ := e4 k rfl
    · exact ⟨_, g⟩
    · exact ⟨_, g⟩

/-- C156, frames: every pixel with a positive depth is given the colour of its depth, every other is gray as in the frame. -/
theorem C156_frame {frame : Pyr.Img Nat} {depths : Pyr.Img ℝ} {mind maxd : ℝ} (hb : mind < maxd)
    (h0 : 0 < frame.rows) (h1 : 0 < frame.cols) (h2 : frame.rows ≤ depths.rows) (h3 : frame.cols ≤ depths.cols) :
    ∃ img, drawDepthedFrame frame depths mind maxd = .ok (some img) ∧ img.rows = frame.rows ∧ img.cols = frame.cols ∧
      ∀ y < frame.rows, ∀ x < frame.cols,
        (0 < depths.px y x → img.px y x = ramp mind maxd (depths.px y x)) ∧
        (depths.px y x ≤ 0 → img.px y x = (frame.px y x, frame.px y x, frame.px y x)) := by
  unfold drawDepthedFrame
  rw [if_neg (by omega)]
  obtain ⟨f, hf⟩ : ∃ f : Nat × Nat → Except Fault (Option (Option ℝ)), f = knownDepth depths := ⟨_, rfl⟩
  have hfq : ∀ y < frame.rows, ∀ x < frame.cols, f (y, x) = .ok (some (if depths.px y x > 0 then some (depths.px y x) else none)) := by
    intro y hy x hx
    rw [hf]
    unfold knownDepth Pyr.Img.read
    rw [if_pos ⟨by show y < _; omega, by show x < _; omega⟩]
    rfl
  rw [← hf]
  -- no lookup fails to end
  have hsome : ∀ (qs : List (Nat × Nat)) (img : Pyr.Img Bgr), (∀ q ∈ qs, q.1 < frame.rows ∧ q.2 < frame.cols) →
      ∃ img', paint f mind maxd qs img = .ok (some img') := by
    intro qs
    induction qs with
    | nil => exact fun img _ => ⟨img, rfl⟩
    | cons q qs ih =>
      intro img hq
      obtain ⟨q1, q2⟩ := hq q (List.mem_cons_self ..)
      have ih := fun img => ih img fun r hr => hq r (List.mem_cons_of_mem _ hr)
      unfold paint
      simp only [bind, Except.bind]
      rw [show f q = _ from hfq q.1 q1 q.2 q2]
      by_cases hd : depths.px q.1 q.2 > 0
      · rw [if_pos hd]
        simp only [colour_ramp hb]
        exact ih _
      · rw [if_neg hd]
        exact ih img
  obtain ⟨img, himg⟩ := hsome (Track.pixels frame.rows frame.cols)
    ⟨frame.rows, frame.cols, fun y x => (frame.px y x, frame.px y x, frame.px y x)⟩ (fun q hq => Track.mem_pixels.1 hq)
  obtain ⟨s1, s2, -, s4⟩ := paint_spec hb (pixels_nodup _ _) himg
  refine ⟨img, himg, s1, s2, fun y hy x hx => ?_⟩
  obtain ⟨o, o1, o2⟩ := s4 (y, x) (Track.mem_pixels.2 ⟨hy, hx⟩)
  rw [hfq y hy x hx] at o1
  obtain rfl := Option.some.inj (Except.ok.inj o1)
  constructor
  · intro hd
    rw [if_pos hd] at o2
    exact o2
  · intro hd
    rw [if_neg (by linarith)] at o2
    exact o2

/-- C156: the range has to be positive. If the bounds coincide, painting a depth equal to them converts NaN to a byte. -/
theorem C156_equal_bounds (d : ℝ) (hd : 0 < d) :
    drawDepthedFrame ⟨1, 1, fun _ _ => 0⟩ ⟨1, 1, fun _ _ => d⟩ d d = .error .ub := by
  have hc : depthCol d d d = none := by unfold depthCol fdiv; simp
  unfold drawDepthedFrame
  rw [if_neg (by simp)]
  show paint _ d d [(0, 0)] _ = _
  unfold paint
  simp only [knownDepth, Pyr.Img.read, Nat.lt_one_iff, and_self, if_true, bind, Except.bind, gt_iff_lt, hd]
  rw [hc]
  rfl

/-- The hypotheses of `C156_frame` are met; 3 is halfway between the bounds. -/
example : ∃ img, drawDepthedFrame ⟨1, 2, fun _ _ => 7⟩ ⟨1, 2, fun _ x => 3 * x⟩ 2 4 = .ok (some img) ∧
    img.px 0 0 = (7, 7, 7) ∧ img.px 0 1 = (0, 255, 0) := by
  obtain ⟨img, h, -, -, hp⟩ := C156_frame (frame := ⟨1, 2, fun _ _ => 7⟩) (depths := ⟨1, 2, fun _ x => 3 * x⟩)
    (mind := 2) (maxd := 4) (by norm_num) (by norm_num) (by norm_num) (by norm_num) (by norm_num)
  refine ⟨img, h, (hp 0 (by norm_num) 0 (by norm_num)).2 (by norm_num), ?_⟩
  rw [(hp 0 (by norm_num) 1 (by norm_num)).1 (by norm_num)]
  unfold ramp place
  norm_num

/-! ### Demonstration for terrains -/

theorem paint_some {depth : Nat × Nat → Except Fault (Option (Option ℝ))} {mind maxd : ℝ} (h : mind < maxd)
    {qs : List (Nat × Nat)} (hd : ∀ q ∈ qs, ∃ o, depth q = .ok (some o)) (img : Pyr.Img Bgr) :
    ∃ img', paint depth mind maxd qs img = .ok (some img') := by
  induction qs generalizing img with
  | nil => exact ⟨img, rfl⟩
  | cons q qs ih =>
    obtain ⟨o, ho⟩ := hd q (List.mem_cons_self ..)
    have ih := fun img => ih (fun r hr => hd r (List.mem_cons_of_mem _ hr)) img
    unfold paint
    simp only [bind, Except.bind]
    rw [ho]
    match o with
    | none => exact ih img
    | some d =>
      simp only [colour_ramp h]
      exact ih _

/-- Checks that the walks to the listed pixels end. -/
def walksEnd (r : Except Fault (Option (Triangulation × List Nat))) (q : Nat × Nat → Query) (qs : List (Nat × Nat)) : Bool :=
  match r with
  | .ok (some (t, _)) => qs.all fun p => match enclosingTriangle demoEnv t.mesh (q p) (fun _ => true) 100 with
    | .ok (some _) => true
    | _ => false
  | _ => false

theorem walksEnd_spec {r : Except Fault (Option (Triangulation × List Nat))} {q : Nat × Nat → Query} {qs : List (Nat × Nat)}
    (h : walksEnd r q qs = true) : ∃ t l, r = .ok (some (t, l)) ∧
      ∀ p ∈ qs, ∃ o, enclosingTriangle demoEnv t.mesh (q p) (fun _ => true) 100 = .ok (some o) := by
  unfold walksEnd at h
  split at h
  · next t l =>
    rw [List.all_eq_true] at h
    refine ⟨t, l, rfl, fun p hp => ?_⟩
    have := h p hp
    split at this
    · next o ho => exact ⟨o, ho⟩
    · cases this
  · cases h

theorem clear_pixel : clearInner (construct demoEnv (predsQ (positionQ quadPoints [0, 1, 2, 3]) (1 / 1000000000 * maxDimQ quadPoints)
      (1 / 1000000000 * maxDimQ quadPoints)) [0, 1, 2, 3] 100) (queryQ (positionQ quadPoints [0, 1, 2, 3])
      (1 / 1000000000 * maxDimQ quadPoints) ⟨3, 2⟩) = true := by decide +kernel

theorem pixels_walk : walksEnd (construct demoEnv (predsQ (positionQ quadPoints [0, 1, 2, 3]) (1 / 1000000000 * maxDimQ quadPoints)
      (1 / 1000000000 * maxDimQ quadPoints)) [0, 1, 2, 3] 100) (fun p => queryQ (positionQ quadPoints [0, 1, 2, 3])
      (1 / 1000000000 * maxDimQ quadPoints) ⟨p.2, p.1⟩) (Track.pixels 3 4) = true := by decide +kernel

/-- The hypotheses of `C156_dense` are met: a picture of three rows and four columns is painted, and the pixel (3, 2) with
it. -/
theorem quad_dense {L : Linear} (hL : Exact L) : ∃ T img d,
    newTerrain demoEnv (fun _ => axis) defaultSettings (quadPoints.map Q2.real) [1, 2, 3, 4] [0, 1, 2, 3] 100 = .ok (some T) ∧
    drawDensePlainDepths L demoEnv T (fun _ _ => true) 100 true ⟨3, 4, fun _ _ => (9, 9, 9)⟩ 1 5 = .ok (some img) ∧
    Clear T ⟨3, 2⟩ ∧ T.depthAt L demoEnv ⟨3, 2⟩ (fun _ => true) 100 = .ok (some (some d)) ∧ img.px 2 3 = ramp 1 5 d := by
  have hr := triangulate_real demoEnv (1 / 1000000000) (1 / 1000000000) quadPoints (by decide +kernel) [0, 1, 2, 3] 100
  have hq := queryAt_real (positionQ quadPoints [0, 1, 2, 3]) (1 / 1000000000 * maxDimQ quadPoints) (by decide +kernel)
  have hc := clear_pixel
  have hw := pixels_walk
  simp only [← hr, ← hq, ← position_real] at hc hw
  obtain ⟨t, l, k, h1, h2, h3, h4⟩ := clearInner_spec hc
  obtain ⟨t', l', h1', h5⟩ := walksEnd_spec hw
  obtain ⟨rfl, rfl⟩ := Prod.mk.inj (Option.some.inj (Except.ok.inj (h1.symm.trans h1')))
  have hT : newTerrain demoEnv (fun _ => axis) defaultSettings (quadPoints.map Q2.real) [1, 2, 3, 4] [0, 1, 2, 3] 100 =
      .ok (some ⟨defaultSettings, quadPoints.map Q2.real, [0, 1, 2, 3], t,
        ((quadPoints.map Q2.real).zip [(1 : ℝ), 2, 3, 4]).map fun pd => pd.2 • (axis).normalized⟩) := by
    unfold newTerrain defaultSettings
    rw [h1]
    simp [quadPoints]
  have heps : ((1 / 1000000000 * maxDimQ quadPoints : ℚ) : ℝ) = defaultSettings.epsPointIsOnSegment *
      maxDim (quadPoints.map Q2.real) := by
    rw [maxDim_real, Rat.cast_mul]
    rfl
  rw [heps] at h2 h3 h5
  have ho' : Shuffle (quadPoints.map Q2.real).length [0, 1, 2, 3] := by show [0, 1, 2, 3].Perm [0, 1, 2, 3]; decide
  have hax : axis ≠ 0 := fun hh => by simpa [axis] using congrArg V3.z hh
  obtain ⟨T, hTT⟩ : ∃ T : Terrain, T = ⟨defaultSettings, quadPoints.map Q2.real, [0, 1, 2, 3], t,
        ((quadPoints.map Q2.real).zip [(1 : ℝ), 2, 3, 4]).map fun pd => pd.2 • (axis).normalized⟩ := ⟨_, rfl⟩
  have hreal : ∀ q : Nat × Nat, Q2.real ⟨q.2, q.1⟩ = (⟨q.2, q.1⟩ : V2) := by
    intro q
    unfold Q2.real
    simp
  have hdef : ∀ q ∈ Track.pixels 3 4, ∃ o, T.depthAt L demoEnv ⟨q.2, q.1⟩ (fun _ => true) 100 = .ok (some o) := by
    intro q hqq
    obtain ⟨o, ho⟩ := h5 q hqq
    rw [hreal] at ho
    obtain ⟨r, e1, -, -, e3, e4⟩ := depthAt_spec hL demoEnv_lawful demoEnv_lawful ho' quad_general (fun _ _ => hax) hT
      ⟨q.2, q.1⟩ (fun _ => true) 100
    obtain rfl := Except.ok.inj (e1.symm.trans ho)
    rw [hTT]
    match o with
    | none => exact ⟨_, e3 rfl⟩
    | some k =>
      obtain ⟨-, -, ⟨-, g⟩ | ⟨-, i, a, d, res, -, -, -, g⟩⟩ := e4 k rfl
      · exact ⟨_, g⟩
      · exact ⟨_, g⟩
  rw [← hTT] at hT
  obtain ⟨img, himg⟩ := paint_some (mind := 1) (maxd := 5) (by norm_num) hdef ⟨3, 4, fun _ _ => (9, 9, 9)⟩
  have hdraw : drawDensePlainDepths L demoEnv T (fun _ _ => true) 100 true ⟨3, 4, fun _ _ => (9, 9, 9)⟩ 1 5 =
    .ok (some img) := himg
  have h32 : Q2.real ⟨3, 2⟩ = (⟨(3 : Nat), (2 : Nat)⟩ : V2) := by unfold Q2.real; simp
  have hclear : Clear T ⟨(3 : Nat), (2 : Nat)⟩ := by
    intro e he
    rw [← h32]
    rw [hTT] at he ⊢
    have := h2 e he
    unfold Terrain.pos
    simpa [queryAt] using this
  obtain ⟨-, -, hp⟩ := C156_dense hL demoEnv_lawful ho' quad_general (fun _ _ => hax) (by decide) hT demoEnv_lawful
    (by norm_num) hdraw
  obtain ⟨p1, -⟩ := hp 2 (by decide) 3 (by decide) hclear
  have hin : InConvexHull (quadPoints.map Q2.real) ⟨(3 : Nat), (2 : Nat)⟩ := by
    obtain ⟨o, ho⟩ := hdef (2, 3) (by decide)
    refine (C151_where hL demoEnv_lawful ho' quad_general (fun _ _ => hax) (by decide) hT hclear demoEnv_lawful ho).1 ?_
    obtain ⟨r, e1, -, -, -, e4⟩ := depthAt_spec hL demoEnv_lawful demoEnv_lawful ho' quad_general (fun _ _ => hax) hT
      ⟨(3 : Nat), (2 : Nat)⟩ (fun _ => true) 100
    rw [h32] at h3
    have e1' : enclosingTriangle demoEnv t.mesh (queryAt (position (quadPoints.map Q2.real) [0, 1, 2, 3])
      (defaultSettings.epsPointIsOnSegment * maxDim (quadPoints.map Q2.real)) ⟨(3 : Nat), (2 : Nat)⟩) (fun _ => true) 100 = .ok r := by
      rw [hTT] at e1
      exact e1
    obtain rfl := Except.ok.inj (e1'.symm.trans h3)
    obtain ⟨-, -, ⟨hnk, -⟩ | ⟨-, i, a, d, res, -, -, -, g4⟩⟩ := e4 k rfl
    · exact absurd (by rw [hTT]; exact h4) hnk
    · have := Option.some.inj (Except.ok.inj (ho.symm.trans g4))
      rw [this]
      simp
  obtain ⟨d, d1, d2⟩ := p1 hin
  refine ⟨T, img, d, hT, hdraw, ?_, ?_, d2⟩
  · simpa using hclear
  · simpa using d1

end Mdso.Dense
