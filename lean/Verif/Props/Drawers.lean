import Verif.Spec.Drawers
import Verif.Props.FrameTracker

/-!
# Properties of the debug pictures of the tracker: C107, C108
-/

set_option autoImplicit false

namespace Mdso.Drawers

open Mdso.Geom Mdso.Light Mdso.Util Mdso.Track Mdso.Track.Spec Mdso.Drawers.Spec

/-! ## Squares -/

theorem squareSize_eq {rel : ℝ} (h : 0 ≤ rel) (w h' : Nat) : squareSize rel w h' = (halfSize rel w h' : Int) := by
  unfold squareSize halfSize truncInt
  have h0 : 0 ≤ rel * ((w : ℝ) + h') / 2 := by positivity
  rw [if_pos h0, Int.natCast_floor_eq_floor h0]

theorem covered_iff (s : Nat) (cy cx : Int) (y x : Nat) :
    (|(x : Int) - cx| ≤ |(s : Int)| ∧ |(y : Int) - cy| ≤ |(s : Int)|) ↔ InSquare s cy cx y x := by
  unfold InSquare
  rw [abs_of_nonneg (Int.natCast_nonneg s), abs_le, abs_le]
  constructor
  · rintro ⟨⟨a, b⟩, c, d⟩; exact ⟨by omega, by omega, by omega, by omega⟩
  · rintro ⟨a, b, c, d⟩; exact ⟨⟨by omega, by omega⟩, by omega, by omega⟩

theorem shows_cons {α : Type} {a : α} {items : List α} {covers : α → Prop} {colour : α → Option Colour} {bg bg' col : Option Colour}
    (hbg : (covers a ∧ bg' = colour a) ∨ (¬ covers a ∧ bg' = bg)) (h : Shows items covers colour bg' col) :
    Shows (a :: items) covers colour bg col := by
  rcases h with ⟨b, i, c, rfl, h1, h2, h3⟩ | ⟨h1, rfl⟩
  · exact Or.inl ⟨a :: b, i, c, rfl, h1, h2, h3⟩
  · rcases hbg with ⟨ha, rfl⟩ | ⟨ha, rfl⟩
    · exact Or.inl ⟨[], a, items, rfl, ha, h1, rfl⟩
    · refine Or.inr ⟨?_, rfl⟩
      intro b hb
      rcases List.mem_cons.1 hb with rfl | hb
      · exact ha
      · exact h1 b hb

theorem residuals_size (f : Flags) (c : Cam.Cam) (s : Int) (l : List (V2 × ℝ)) (img : Picture) :
    (drawResiduals f c s l img).rows = img.rows ∧ (drawResiduals f c s l img).cols = img.cols := by
  induction l generalizing img with
  | nil => exact ⟨rfl, rfl⟩
  | cons p l ih =>
    obtain ⟨point, res⟩ := p
    simp only [drawResiduals]
    rw [(ih _).1, (ih _).2]
    split <;> exact ⟨rfl, rfl⟩

theorem residuals_shows (f : Flags) (c : Cam.Cam) (s : Nat) (l : List (V2 × ℝ)) (img : Picture) (y x : Nat) :
    Shows l (fun p => Cam.isOnImage c p.1 (s : Int) ∧ InSquare s (truncInt p.1.y) (truncInt p.1.x) y x)
      (fun p => depthCol |p.2| 0 f.maxResidual) (img.px y x) ((drawResiduals f c s l img).px y x) := by
  induction l generalizing img with
  | nil => exact Or.inr ⟨by simp, rfl⟩
  | cons p l ih =>
    obtain ⟨point, res⟩ := p
    simp only [drawResiduals]
    refine shows_cons ?_ (ih _)
    by_cases h1 : Cam.isOnImage c point (s : Int)
    · rw [if_pos h1]
      by_cases h2 : InSquare s (truncInt point.y) (truncInt point.x) y x
      · exact Or.inl ⟨⟨h1, h2⟩, if_pos ((covered_iff _ _ _ _ _).2 h2)⟩
      · exact Or.inr ⟨fun h => h2 h.2, if_neg fun h => h2 ((covered_iff _ _ _ _ _).1 h)⟩
    · rw [if_neg h1]
      exact Or.inr ⟨fun h => h1 h.1, rfl⟩

theorem depths_size (cb : ColBounds) (depths : Pyr.Img ℝ) (s : Int) (l : List (Nat × Nat)) (img : Picture) :
    (drawDepths cb depths s l img).rows = img.rows ∧ (drawDepths cb depths s l img).cols = img.cols := by
  induction l generalizing img with
  | nil => exact ⟨rfl, rfl⟩
  | cons p l ih =>
    simp only [drawDepths]
    rw [(ih _).1, (ih _).2]
    split <;> exact ⟨rfl, rfl⟩

theorem depths_shows (cb : ColBounds) (depths : Pyr.Img ℝ) (s : Nat) (l : List (Nat × Nat)) (img : Picture) (y x : Nat) :
    Shows l (fun q => 0 < depths.px q.1 q.2 ∧ InSquare s q.1 q.2 y x)
      (fun q => depthCol (depths.px q.1 q.2) cb.minDepthCol cb.maxDepthCol) (img.px y x) ((drawDepths cb depths s l img).px y x) := by
  induction l generalizing img with
  | nil => exact Or.inr ⟨by simp, rfl⟩
  | cons q l ih =>
    simp only [drawDepths]
    refine shows_cons ?_ (ih _)
    by_cases h1 : depths.px q.1 q.2 > 0
    · rw [if_pos h1]
      by_cases h2 : InSquare s q.1 q.2 y x
      · exact Or.inl ⟨⟨h1, h2⟩, if_pos ((covered_iff _ _ _ _ _).2 h2)⟩
      · exact Or.inr ⟨fun h => h2 h.2, if_neg fun h => h2 ((covered_iff _ _ _ _ _).1 h)⟩
    · rw [if_neg h1]
      exact Or.inr ⟨fun h => h1 h.1, rfl⟩

/-! ## C107 -/

/-- Observing the reports of distinct levels: each level shows its own report. -/
theorem observe_levels {f : Flags} {images : List (Pyr.Img Nat)} (rs : List Report) (d : Drawer) (hn : (rs.map Report.pyrLevel).Nodup)
    (hc : ∀ r ∈ rs, r.pyrLevel < d.camPyr.length) (hi : ∀ r ∈ rs, r.pyrLevel < d.curFramePyr.length)
    (hr : ∀ r ∈ rs, r.pyrLevel < d.residualsImg.length) :
    ∃ d', Drawer.observeAll f images (rs.map .levelTracked) d = .ok d' ∧ d'.residualsImg.length = d.residualsImg.length ∧
      d'.levelNum = d.levelNum ∧ d'.camPyr = d.camPyr ∧
      (∀ i, i ∉ rs.map Report.pyrLevel → d'.residualsImg[i]? = d.residualsImg[i]?) ∧
      ∀ r ∈ rs, ∃ c img, d.camPyr[r.pyrLevel]? = some c ∧ d.curFramePyr[r.pyrLevel]? = some img ∧
        d'.residualsImg[r.pyrLevel]? =
          some (some (drawResiduals f c (squareSize f.relPointSize c.width c.height) r.pointResiduals (toBgr img))) := by
  induction rs generalizing d with
  | nil => exact ⟨d, rfl, rfl, rfl, rfl, fun _ _ => rfl, by simp⟩
  | cons r rs ih =>
    simp only [List.map_cons, List.nodup_cons] at hn
    have h1 := hc r (by simp)
    have h2 := hi r (by simp)
    have h3 := hr r (by simp)
    obtain ⟨d1, hd1⟩ : ∃ d1 : Drawer, d1 = { d with
      residualsImg := d.residualsImg.set r.pyrLevel (some (drawResiduals f d.camPyr[r.pyrLevel]
        (squareSize f.relPointSize d.camPyr[r.pyrLevel].width d.camPyr[r.pyrLevel].height) r.pointResiduals
        (toBgr d.curFramePyr[r.pyrLevel]))) } := ⟨_, rfl⟩
    have hobs : d.observe f images (.levelTracked r) = .ok d1 := by
      simp only [Drawer.observe, Drawer.levelTracked, at'_lt h1, at'_lt h2, at'_lt h3, bind, Except.bind, hd1]
    obtain ⟨d', e, hl, hlv, hcp, ho, hs⟩ := ih d1 hn.2 (by rw [hd1]; exact fun q hq => hc q (by simp [hq]))
      (by rw [hd1]; exact fun q hq => hi q (by simp [hq])) (by rw [hd1]; simpa using fun q hq => hr q (by simp [hq]))
    refine ⟨d', ?_, by rw [hl, hd1]; simp, by rw [hlv, hd1], by rw [hcp, hd1], ?_, ?_⟩
    · simp only [List.map_cons, Drawer.observeAll, hobs, bind, Except.bind]
      exact e
    · intro i hni
      simp only [List.map_cons, List.mem_cons, not_or] at hni
      rw [ho i hni.2, hd1]
      exact List.getElem?_set_ne (fun h => hni.1 h.symm)
    · intro q hq
      rcases List.mem_cons.1 hq with rfl | hq
      · refine ⟨_, _, List.getElem?_eq_getElem h1, List.getElem?_eq_getElem h2, ?_⟩
        rw [ho _ hn.1, hd1]
        exact List.getElem?_set_self h3
      · obtain ⟨c, img, a1, a2, a3⟩ := hs q hq
        rw [hd1] at a1 a2
        exact ⟨c, img, a1, a2, a3⟩

/-- C107: after a frame has been tracked, a registered drawer, whatever it was told before, has a picture of every level: the frame's own
picture of that level, on which every pixel in the square of a matched point (the last one in reading order, if several) has the colour of
the absolute brightness error there. Squares that do not fit into the picture are left out. -/
theorem C107_residuals {solve : Solver} {t : Tracker} {frame : Frame} {coarse : Motion3} {coarseLight : AffLight} {m : Motion3}
    {l : AffLight} {log : List (Nat × Event)} (h : trackFrame solve t frame coarse coarseLight = .ok (m, l, log)) {o : Nat}
    (ho : o < t.observers) {f : Flags} (hf : 0 ≤ f.relPointSize) {images : List (Pyr.Img Nat)} (hi : t.s.levelNum ≤ images.length)
    {d : Drawer} (hlv : d.levelNum = t.s.levelNum) (hcp : d.camPyr = t.camPyr) :
    ∃ rs d', rs.map Report.pyrLevel = (List.range t.s.levelNum).reverse ∧
      Drawer.observeAll f images ((log.filter fun q => q.1 == o).map Prod.snd) d = .ok d' ∧
      d'.residualsImg.length = t.s.levelNum ∧
      ∀ k r, rs[k]? = some r → ∃ c img depths tracked pix own pic,
        Reports t frame (startOf (coarse, coarseLight) rs k) r c img depths tracked pix ∧
        images[r.pyrLevel]? = some own ∧ d'.residualsImg[r.pyrLevel]? = some (some pic) ∧ pic.rows = own.rows ∧ pic.cols = own.cols ∧
        ∀ y x, y < own.rows → x < own.cols →
          Shows pix
            (fun q => Cam.isOnImage c (seenAt c depths r.baseToLast q) (halfSize f.relPointSize c.width c.height : Int) ∧
              InSquare (halfSize f.relPointSize c.width c.height) (truncInt (seenAt c depths r.baseToLast q).y)
                (truncInt (seenAt c depths r.baseToLast q).x) y x)
            (fun q => depthCol |mismatch c img depths tracked r.baseToLast r.affLight q| 0 f.maxResidual)
            (grey (own.px y x)) (pic.px y x) := by
  obtain ⟨rs, h1, h2, h3⟩ := C93_pixels h
  have hlev : ∀ r ∈ rs, r.pyrLevel < t.s.levelNum := by
    intro r hr
    have : r.pyrLevel ∈ rs.map Report.pyrLevel := List.mem_map_of_mem hr
    rw [h2] at this
    simpa using this
  have hcam : ∀ r ∈ rs, r.pyrLevel < t.camPyr.length := by
    intro r hr
    obtain ⟨k, hk, rfl⟩ := List.mem_iff_getElem.1 hr
    obtain ⟨c, img, depths, tracked, pix, ha, -⟩ := h3 k _ (List.getElem?_eq_getElem hk)
    have := ha.1
    exact (List.getElem?_eq_some_iff.1 this).1
  obtain ⟨d', e, hl, -, -, -, hs⟩ := observe_levels (f := f) (images := images) rs (d.startTracking images)
    (by rw [h2, List.nodup_reverse]; exact List.nodup_range)
    (by intro r hr; show r.pyrLevel < d.camPyr.length; rw [hcp]; exact hcam r hr)
    (by intro r hr; exact (hlev r hr).trans_le hi)
    (by intro r hr; simp only [Drawer.startTracking, List.length_replicate, hlv]; exact hlev r hr)
  refine ⟨rs, d', h2, ?_, ?_, ?_⟩
  · rw [h1.2 o ho]
    exact e
  · rw [hl]; simp [Drawer.startTracking, hlv]
  · intro k r hr
    obtain ⟨c, img, depths, tracked, pix, hrep⟩ := h3 k r hr
    obtain ⟨c', own, a1, a2, a3⟩ := hs r (List.mem_of_getElem? hr)
    have hc' : c' = c := by
      have hcc : t.camPyr[r.pyrLevel]? = some c := hrep.1.1
      have : d.camPyr[r.pyrLevel]? = some c' := a1
      rw [hcp, hcc] at this
      exact (Option.some.inj this).symm
    subst hc'
    refine ⟨c', img, depths, tracked, pix, own, _, hrep, a2, a3, (residuals_size _ _ _ _ _).1, (residuals_size _ _ _ _ _).2, ?_⟩
    intro y x _ _
    have hsh := residuals_shows f c' (halfSize f.relPointSize c'.width c'.height) r.pointResiduals (toBgr own) y x
    rw [← squareSize_eq hf] at hsh
    generalize (drawResiduals f c' (squareSize f.relPointSize c'.width c'.height) r.pointResiduals (toBgr own)).px y x = col at hsh ⊢
    rw [hrep.2.2.2] at hsh
    rcases hsh with ⟨b, i, a, e1, e2, e3, e4⟩ | ⟨e1, e2⟩
    · obtain ⟨b', ia, rfl, rfl, e5⟩ := List.map_eq_append_iff.1 e1
      obtain ⟨i', a', rfl, rfl, rfl⟩ := List.map_eq_cons_iff.1 e5
      refine Or.inl ⟨b', i', a', rfl, ?_, ?_, e4⟩
      · rw [← squareSize_eq hf]; exact e2
      · intro q hq
        rw [← squareSize_eq hf]
        exact e3 _ (List.mem_map_of_mem hq)
    · refine Or.inr ⟨?_, e2⟩
      intro q hq
      rw [← squareSize_eq hf]
      exact e1 _ (List.mem_map_of_mem hq)

/-- C107: the picture shown for the finest level belongs to the finest level of the frame tracked last. -/
theorem C107_finest {solve : Solver} {t : Tracker} {frame : Frame} {coarse : Motion3} {coarseLight : AffLight} {m : Motion3}
    {l : AffLight} {log : List (Nat × Event)} (h : trackFrame solve t frame coarse coarseLight = .ok (m, l, log)) {o : Nat}
    (ho : o < t.observers) {f : Flags} (hf : 0 ≤ f.relPointSize) {images : List (Pyr.Img Nat)} (hi : t.s.levelNum ≤ images.length)
    {d : Drawer} (hlv : d.levelNum = t.s.levelNum) (hcp : d.camPyr = t.camPyr) (hpos : 0 < t.s.levelNum) :
    ∃ d' own pic, Drawer.observeAll f images ((log.filter fun q => q.1 == o).map Prod.snd) d = .ok d' ∧ images[0]? = some own ∧
      d'.drawFinestLevel = .ok (some pic) ∧ pic.rows = own.rows ∧ pic.cols = own.cols := by
  obtain ⟨rs, d', h1, h2, -, h4⟩ := C107_residuals h ho hf hi hlv hcp
  have h0 : (0 : Nat) ∈ rs.map Report.pyrLevel := by rw [h1]; simp [hpos]
  obtain ⟨r, hr, hr0⟩ := List.mem_map.1 h0
  obtain ⟨k, hk⟩ := List.mem_iff_getElem?.1 hr
  obtain ⟨c, img, depths, tracked, pix, own, pic, -, a1, a2, a3, a4, -⟩ := h4 k r hk
  rw [hr0] at a1 a2
  refine ⟨d', own, pic, h2, a1, ?_, a3, a4⟩
  unfold Drawer.drawFinestLevel at'
  rw [a2]

/-- C107: before the first frame the picture shown is black and has the size of the camera's finest level. -/
theorem C107_before {camPyr : List Cam.Cam} {levelNum : Nat} (hpos : 0 < levelNum) {c : Cam.Cam} (hc : camPyr[0]? = some c) :
    ∃ d pic, Drawer.create camPyr levelNum = .ok d ∧ d.drawFinestLevel = .ok (some pic) ∧ pic.rows = c.height ∧ pic.cols = c.width ∧
      ∀ y x, pic.px y x = some ⟨0, 0, 0⟩ := by
  refine ⟨⟨levelNum, camPyr, [], List.replicate levelNum (some ⟨c.height, c.width, fun _ _ => some ⟨0, 0, 0⟩⟩)⟩,
    ⟨c.height, c.width, fun _ _ => some ⟨0, 0, 0⟩⟩, by unfold Drawer.create at'; rw [hc]; rfl, ?_, rfl, rfl, fun _ _ => rfl⟩
  unfold Drawer.drawFinestLevel at'
  obtain ⟨n, rfl⟩ : ∃ n, levelNum = n + 1 := ⟨levelNum - 1, by omega⟩
  rfl

/-- Non-vacuity of C107: the frame tracked in `Mdso.Track.exTracked`, by a tracker with one observer, which drew other pictures before. -/
example (interp : Pyr.Img Nat → Interp) (f : Flags) (hf : 0 ≤ f.relPointSize) (images : List (Pyr.Img Nat)) (h6 : images.length = 6)
    (old : List (Option Picture)) :
    ∃ (t : Tracker) (log : List (Nat × Event)) (d' : Drawer), 2 ≤ t.s.levelNum ∧
      Drawer.observeAll f images ((log.filter fun q => q.1 == 0).map Prod.snd) ⟨t.s.levelNum, t.camPyr, [], old⟩ = .ok d' ∧
      d'.residualsImg.length = t.s.levelNum := by
  obtain ⟨t, frame, ⟨m, l, log⟩, c, img, depths, tracked, ho, -, -, -, -, -, h2, h7, -, h, -⟩ := exTracked interp
  obtain ⟨rs, d', -, e, hl, -⟩ := C107_residuals h (o := 0) (by omega) hf (images := images) (by omega)
    (d := ⟨t.s.levelNum, t.camPyr, [], old⟩) rfl rfl
  exact ⟨t, log, d', h2, e, hl⟩

/-! ## C108 -/

theorem pyramid_spec {f : Flags} (hf : 0 ≤ f.pyrRelPointSize) {cb : ColBounds} {imgs : List (Pyr.Img Nat)} {ds : List (Pyr.Img ℝ)}
    {ps : List Picture} (h : drawPyramid f cb imgs ds = .ok ps) :
    ps.length = imgs.length ∧ ∀ (i : Nat) img d, imgs[i]? = some img → ds[i]? = some d →
      ∃ p, ps[i]? = some p ∧ DepthPicture f.pyrRelPointSize cb img d p := by
  induction imgs generalizing ds ps with
  | nil => cases h; exact ⟨rfl, by simp⟩
  | cons img imgs ih =>
    cases ds with
    | nil => cases h
    | cons d ds =>
      simp only [drawPyramid] at h
      cases hr : drawPyramid f cb imgs ds with
      | error e => simp only [hr, bind, Except.bind] at h; cases h
      | ok rest =>
        simp only [hr, bind, Except.bind] at h
        cases h
        obtain ⟨h1, h2⟩ := ih hr
        refine ⟨by simp [h1], ?_⟩
        intro i img' d' hi hd
        cases i with
        | succ i => exact h2 i img' d' hi hd
        | zero =>
          cases hi
          cases hd
          refine ⟨_, rfl, (depths_size _ _ _ _ _).1, (depths_size _ _ _ _ _).2, ?_⟩
          intro y x _ _
          unfold depthLevel
          rw [squareSize_eq hf]
          exact depths_shows _ _ _ _ _ _ _

theorem pyramid_ok (f : Flags) (cb : ColBounds) {imgs : List (Pyr.Img Nat)} {ds : List (Pyr.Img ℝ)} (h : imgs.length ≤ ds.length) :
    ∃ ps, drawPyramid f cb imgs ds = .ok ps := by
  induction imgs generalizing ds with
  | nil => exact ⟨[], by cases ds <;> rfl⟩
  | cons img imgs ih =>
    cases ds with
    | nil => simp at h
    | cons d ds =>
      obtain ⟨ps, e⟩ := ih (ds := ds) (by simpa using h)
      exact ⟨depthLevel f cb img d :: ps, by simp only [drawPyramid, e, bind, Except.bind]⟩

/-- The relation between a new base frame and the file written for it. -/
def FileOf (f : Flags) (w : Int × ColBounds × BaseFrame) (file : Int × List Picture) : Prop :=
  file.1 = w.1 ∧ drawPyramid f w.2.1 w.2.2.images w.2.2.depths = .ok file.2

theorem run_files (f : Flags) (ops : List PyrOp) : ∀ (d : PyrDrawer) (files : List (Int × List Picture)) (r : PyrDrawer × List (Int × List Picture)),
    pyrRun f ops (d, files) = .ok r →
      (d.mPyrChanged = false → ∃ fs, r.2 = files ++ fs ∧ List.Forall₂ (FileOf f) (fresh ops) fs) ∧
      (d.mPyrChanged = true → ∀ cb b, drawPyramid f cb b.images b.depths = .ok d.lastPyr →
        ∃ fs, r.2 = files ++ fs ∧ List.Forall₂ (FileOf f) (fresh (.base cb b :: ops)) fs) := by
  induction ops with
  | nil =>
    intro d files r h
    cases h
    exact ⟨fun _ => ⟨[], by simp, .nil⟩, fun _ cb b _ => ⟨[], by simp, .nil⟩⟩
  | cons op ops ih =>
    intro d files r h
    cases op with
    | base cb' b' =>
      simp only [pyrRun, pyrStep, PyrDrawer.newBaseFrame] at h
      cases hp : drawPyramid f cb' b'.images b'.depths with
      | error e => simp only [hp, bind, Except.bind] at h; cases h
      | ok ps =>
        simp only [hp, bind, Except.bind] at h
        have := (ih _ _ _ h).2 rfl cb' b' hp
        exact ⟨fun _ => this, fun _ cb b _ => this⟩
    | poll n =>
      cases hc : d.mPyrChanged with
      | false =>
        refine ⟨fun _ => ?_, by simp⟩
        simp only [pyrRun, pyrStep, hc, Bool.false_eq_true, if_false, bind, Except.bind] at h
        exact (ih _ _ _ h).1 hc
      | true =>
        refine ⟨by simp, fun _ cb b hb => ?_⟩
        simp only [pyrRun, pyrStep, hc, if_true, bind, Except.bind, PyrDrawer.getLastPyr] at h
        obtain ⟨fs, h1, h2⟩ := (ih _ _ _ h).1 rfl
        refine ⟨(n, d.lastPyr) :: fs, by rw [h1]; simp, ?_⟩
        rw [fresh]
        exact .cons ⟨rfl, hb⟩ h2

/-- C108: over any history, a picture is written exactly for the polls that come directly after a new base frame, in this order, one each; it
shows every level of that base frame with its depths. -/
theorem C108_files {f : Flags} (hf : 0 ≤ f.pyrRelPointSize) {ops : List PyrOp} {d : PyrDrawer} {files : List (Int × List Picture)}
    (h : pyrRun f ops (PyrDrawer.create, []) = .ok (d, files)) :
    files.map Prod.fst = (fresh ops).map Prod.fst ∧
      ∀ (k : Nat) n cb b, (fresh ops)[k]? = some (n, cb, b) → ∃ ps, files[k]? = some (n, ps) ∧ ps.length = b.images.length ∧
        ∀ (i : Nat) img depths, b.images[i]? = some img → b.depths[i]? = some depths →
          ∃ p, ps[i]? = some p ∧ DepthPicture f.pyrRelPointSize cb img depths p := by
  obtain ⟨fs, h1, h2⟩ := (run_files f ops _ _ _ h).1 rfl
  simp only [List.nil_append] at h1
  subst h1
  refine ⟨?_, ?_⟩
  · clear h
    generalize fresh ops = w at h2
    induction h2 with
    | nil => rfl
    | cons a _ ih => simp only [List.map_cons, ih, a.1]
  · intro k n cb b hk
    have hlen := h2.length_eq
    have hlt := (List.getElem?_eq_some_iff.1 hk).1
    have hrel := List.forall₂_iff_get.1 h2 |>.2 k hlt (hlen ▸ hlt)
    have hg : (fresh ops).get ⟨k, hlt⟩ = (n, cb, b) := (List.getElem?_eq_some_iff.1 hk).2
    rw [hg] at hrel
    refine ⟨(files.get ⟨k, hlen ▸ hlt⟩).2, ?_, (pyramid_spec hf hrel.2).1, (pyramid_spec hf hrel.2).2⟩
    rw [List.getElem?_eq_getElem (hlen ▸ hlt)]
    refine congrArg some (Prod.ext hrel.1 rfl)

/-- C108: drawing is defined if every base frame has depths for each of its levels. -/
theorem C108_defined (f : Flags) {ops : List PyrOp} (h : ∀ cb b, PyrOp.base cb b ∈ ops → b.images.length ≤ b.depths.length) :
    ∃ d files, pyrRun f ops (PyrDrawer.create, []) = .ok (d, files) := by
  obtain ⟨s, hs⟩ : ∃ s : PyrDrawer × List (Int × List Picture), s = (PyrDrawer.create, []) := ⟨_, rfl⟩
  rw [← hs]
  clear hs
  induction ops generalizing s with
  | nil => exact ⟨s.1, s.2, rfl⟩
  | cons op ops ih =>
    have ih' := fun s => ih (fun cb b hb => h cb b (by simp [hb])) s
    cases op with
    | base cb b =>
      obtain ⟨ps, e⟩ := pyramid_ok f cb (h cb b (by simp))
      simp only [pyrRun, pyrStep, PyrDrawer.newBaseFrame, e, bind, Except.bind]
      exact ih' _
    | poll n =>
      simp only [pyrRun, pyrStep]
      split
      · simp only [bind, Except.bind]; exact ih' _
      · simp only [bind, Except.bind]; exact ih' _

/-- A base frame with one level of 2 × 2 pixels, one of which has a depth. -/
def exBase : BaseFrame := ⟨[⟨2, 2, fun _ _ => 7⟩], [⟨2, 2, fun y x => if y = 1 ∧ x = 1 then 5 else 0⟩]⟩

/-- Non-vacuity of C108: two base frames, of which only the second one is polled; later polls write nothing. -/
example (f : Flags) (cb : ColBounds) : ∃ d files, pyrRun f [.poll 1, .base cb exBase, .base cb exBase, .poll 2, .poll 3] (PyrDrawer.create, [])
    = .ok (d, files) ∧ files.map Prod.fst = [2] := by
  obtain ⟨d, files, h⟩ := C108_defined f (ops := [.poll 1, .base cb exBase, .base cb exBase, .poll 2, .poll 3]) (by
    intro cb' b hb
    simp only [List.mem_cons, reduceCtorEq, PyrOp.base.injEq, List.not_mem_nil, or_false, false_or] at hb
    rcases hb with ⟨-, rfl⟩ | ⟨-, rfl⟩ <;> exact le_refl 1)
  obtain ⟨fs, h1, h2⟩ := (run_files f _ _ _ _ h).1 rfl
  refine ⟨d, files, h, ?_⟩
  simp only [List.nil_append] at h1
  subst h1
  cases h2 with
  | cons a b => cases b; simp [a.1]

end Mdso.Drawers
