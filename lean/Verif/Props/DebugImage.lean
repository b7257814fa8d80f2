import Verif.Spec.DebugImage
import Verif.Props.Drawers
import Verif.Props.BaseProjection

/-!
# Properties of the debug picture: C118, C119
-/

set_option autoImplicit false

namespace Mdso.DebugImage

open Mdso.Geom Mdso.Util Mdso.Drawers Mdso.Drawers.Spec Mdso.DebugImage.Spec

theorem paint_size (s : Int) (l : List (V2 × Option Colour)) (img : Picture) :
    (paint s l img).rows = img.rows ∧ (paint s l img).cols = img.cols := by
  induction l generalizing img with
  | nil => exact ⟨rfl, rfl⟩
  | cons q l ih => unfold paint; exact ih _

theorem paint_shows (s : Nat) (l : List (V2 × Option Colour)) (img : Picture) (y x : Nat) :
    Shows l (fun q => InSquare s (truncInt q.1.y) (truncInt q.1.x) y x) Prod.snd (img.px y x) ((paint s l img).px y x) := by
  induction l generalizing img with
  | nil => exact Or.inr ⟨by simp, rfl⟩
  | cons q l ih =>
    unfold paint
    refine shows_cons ?_ (ih _)
    by_cases h : InSquare s (truncInt q.1.y) (truncInt q.1.x) y x
    · left
      refine ⟨h, ?_⟩
      unfold putSquare
      simp only
      rw [if_pos ((covered_iff s _ _ y x).2 h)]
    · right
      refine ⟨h, ?_⟩
      unfold putSquare
      simp only
      rw [if_neg fun hc => h ((covered_iff s _ _ y x).1 hc)]

theorem shows_map {α β : Type} {items : List α} {l : List β} {covers : β → Prop} {colour : β → Option Colour} {bg col : Option Colour} (f : α → β)
    (hl : l = items.map f) (h : Shows l covers colour bg col) : Shows items (fun a => covers (f a)) (fun a => colour (f a)) bg col := by
  subst hl
  rcases h with ⟨b, i, a, e, h1, h2, h3⟩ | ⟨h1, h2⟩
  · obtain ⟨b', r, rfl, rfl, hr⟩ := List.map_eq_append_iff.1 e
    obtain ⟨i', a', rfl, rfl, rfl⟩ := List.map_eq_cons_iff.1 hr
    exact Or.inl ⟨b', i', a', rfl, h1, fun x hx => h2 _ (List.mem_map_of_mem hx), h3⟩
  · exact Or.inr ⟨fun x hx => h1 _ (List.mem_map_of_mem hx), h2⟩

theorem derefs_ok {α : Type} {points : KfV → List α} {kfs : List KfV} {ptrs : List (Nat × Nat)} {as : List α} (h : derefs points kfs ptrs = .ok as) :
    List.Forall₂ (fun p a => ∃ kf, kfs[p.1]? = some kf ∧ (points kf)[p.2]? = some a) ptrs as := by
  induction ptrs generalizing as with
  | nil => cases h; exact .nil
  | cons p ps ih =>
    unfold derefs at h
    cases h1 : deref points kfs p with
    | error e => simp only [h1, bind, Except.bind] at h; cases h
    | ok a =>
      simp only [h1, bind, Except.bind] at h
      cases h2 : derefs points kfs ps with
      | error e => rw [h2] at h; cases h
      | ok rest =>
        rw [h2] at h
        cases h
        refine .cons ?_ (ih h2)
        unfold deref at h1
        cases h3 : at' kfs p.1 with
        | error e => simp only [h3, bind, Except.bind] at h1; cases h1
        | ok kf =>
          simp only [h3, bind, Except.bind] at h1
          exact ⟨kf, at'_ok h3, at'_ok h1⟩

theorem project_ok {α : Type} {c : Cam.Cam} {last : Bool} {view : KfV → Base.KfView} {points : KfV → List α} {kfs : List KfV}
    (hv : ∀ kf, (view kf).thisToWorld = kf.thisToWorld) {base : Nat} (hb : Base.Spec.IsBase last kfs.length base)
    (ho : ∀ kf ∈ kfs, Base.Spec.Orthogonal kf.thisToWorld.rot) {items : List (Item α)} (h : project c last view points kfs = .ok items) :
    ItemsOf c base view points kfs items := by
  unfold project at h
  cases h1 : Base.projectOntoBaseKf c last (kfs.map view) with
  | error e => simp only [h1, bind, Except.bind] at h; cases h
  | ok out =>
    simp only [h1, bind, Except.bind] at h
    cases h2 : derefs points kfs out.ptrs with
    | error e => rw [h2] at h; cases h
    | ok refs =>
      rw [h2] at h
      cases h
      obtain ⟨l1, l2, -, hall, hex, hpw⟩ := Base.C91_partial (by rw [List.length_map]; exact hb) (by
        intro kf hkf
        obtain ⟨k, hk, rfl⟩ := List.mem_map.1 hkf
        rw [hv]
        exact ho k hk) h1
      have hr := derefs_ok h2
      refine ⟨out.ptrs, ?_, ?_, hex⟩
      · refine hpw.imp ?_
        rintro a b h rfl
        omega
      · rw [List.forall₂_iff_get]
        have hlen := hr.length_eq
        refine ⟨by simp; omega, ?_⟩
        intro j hj hj'
        have hj2 : j < out.points.length := by omega
        obtain ⟨depth, k, i, d1, d2, -, d4⟩ := hall j out.points[j] (List.getElem?_eq_getElem hj2)
        have hp : out.ptrs[j] = (k, i) := by
          rw [List.getElem?_eq_getElem hj] at d2
          exact Option.some.inj d2
        have hd : out.depths[j]'(by omega) = depth := by
          rw [List.getElem?_eq_getElem (by omega)] at d1
          exact Option.some.inj d1
        have href := (List.forall₂_iff_get.1 hr).2 j hj (by omega)
        simp only [List.get_eq_getElem, List.getElem_map, List.getElem_zip] at href ⊢
        rw [hp] at href ⊢
        rw [hd]
        exact ⟨d4, href⟩

theorem hconcat_ok {a b r : Picture} (h : hconcat a b = .ok r) : a.rows = b.rows ∧ r.rows = a.rows ∧ r.cols = a.cols + b.cols ∧
    (∀ y x, x < a.cols → r.px y x = a.px y x) ∧ ∀ y x, r.px y (a.cols + x) = b.px y x := by
  unfold hconcat at h
  split at h
  · rename_i hr
    cases h
    refine ⟨hr, rfl, rfl, fun y x hx => if_pos hx, fun y x => ?_⟩
    simp only
    rw [if_neg (by omega), Nat.add_sub_cancel_left]
  · cases h

theorem vconcat_ok {a b r : Picture} (h : vconcat a b = .ok r) : a.cols = b.cols ∧ r.rows = a.rows + b.rows ∧ r.cols = a.cols ∧
    (∀ y x, y < a.rows → r.px y x = a.px y x) ∧ ∀ y x, r.px (a.rows + y) x = b.px y x := by
  unfold vconcat at h
  split at h
  · rename_i hr
    cases h
    refine ⟨hr, rfl, rfl, fun y x hx => if_pos hx, fun y x => ?_⟩
    simp only
    rw [if_neg (by omega), Nat.add_sub_cancel_left]
  · cases h

/-- C118: the picture consists of four parts of the size of the base frame. Upper left: every pixel has the colour of the depth of the last point whose square
covers it, traced immature points first, then optimized points; where there is none, the grey of the base frame. Upper right: likewise for the optimized
points, green where the point is visible in the last frame, red otherwise. Lower left: as upper left with the colours of the standard deviations. Lower right:
the residuals of the tracker. -/
theorem C118_panels {p : Params} (hrel : 0 ≤ p.relPointSize) {c : Cam.Cam} {cb : ColBounds} {kfs : List KfV} {img : Pyr.Img Nat}
    {baseToLast : Motion3} {residuals big : Picture} {base : Nat} (hb : Base.Spec.IsBase p.trackFromLastKf kfs.length base)
    (ho : ∀ kf ∈ kfs, Base.Spec.Orthogonal kf.thisToWorld.rot) (h : drawBig p c cb kfs img baseToLast residuals = .ok big) :
    ∃ (imm : List (Item ImmV)) (opt : List (Item OptV)), ItemsOf c base immView KfV.imm kfs imm ∧ ItemsOf c base optView KfV.opt kfs opt ∧
      residuals.rows = img.rows ∧ residuals.cols = img.cols ∧ big.rows = 2 * img.rows ∧ big.cols = 2 * img.cols ∧
      ∀ y x, y < img.rows → x < img.cols →
        Shows ((imm.filter fun q => decide (0 < q.ref.numTraced)).map (fun q => (q.pos, q.depth)) ++ opt.map fun q => (q.pos, q.depth))
          (fun q => InSquare (halfSize p.relPointSize c.width c.height) (truncInt q.1.y) (truncInt q.1.x) y x)
          (fun q => depthCol q.2 cb.minDepthCol cb.maxDepthCol) (grey (img.px y x)) (big.px y x) ∧
        (∃ colour : Item OptV → Option Colour,
          (∀ q, Cam.isOnImage c (Cam.map c (baseToLast.act (q.depth • (Cam.unmap c q.pos).normalized))) p.patternHeight → colour q = some green) ∧
          (∀ q, ¬ Cam.isOnImage c (Cam.map c (baseToLast.act (q.depth • (Cam.unmap c q.pos).normalized))) p.patternHeight → colour q = some red) ∧
          Shows opt (fun q => InSquare (halfSize p.relPointSize c.width c.height) (truncInt q.pos.y) (truncInt q.pos.x) y x)
            colour (grey (img.px y x)) (big.px y (img.cols + x))) ∧
        Shows ((imm.filter fun q => decide (0 < q.ref.numTraced)).map (fun q => (q.pos, q.ref.stddev)) ++ opt.map fun q => (q.pos, q.ref.stddev))
          (fun q => InSquare (halfSize p.relPointSize c.width c.height) (truncInt q.1.y) (truncInt q.1.x) y x)
          (fun q => depthCol q.2 (Real.sqrt (p.positionVariance / p.patternSize)) p.maxStddev) (grey (img.px y x)) (big.px (img.rows + y) x) ∧
        big.px (img.rows + y) (img.cols + x) = residuals.px y x := by
  unfold drawBig at h
  cases h1 : project c p.trackFromLastKf immView KfV.imm kfs with
  | error e => simp only [h1, bind, Except.bind] at h; cases h
  | ok imm =>
    simp only [h1, bind, Except.bind] at h
    cases h2 : project c p.trackFromLastKf optView KfV.opt kfs with
    | error e => rw [h2] at h; cases h
    | ok opt =>
      rw [h2] at h
      simp only at h
      rw [squareSize_eq hrel] at h
      generalize hs : halfSize p.relPointSize c.width c.height = s at h ⊢
      cases h3 : hconcat (paint s (depthSquares cb imm opt) (toBgr img)) (paint s (usefulSquares c p baseToLast opt) (toBgr img)) with
      | error e => rw [h3] at h; cases h
      | ok row1 =>
        rw [h3] at h
        simp only at h
        cases h4 : hconcat (paint s (stddevSquares p imm opt) (toBgr img)) residuals with
        | error e => rw [h4] at h; cases h
        | ok row2 =>
          rw [h4] at h
          simp only at h
          obtain ⟨-, a2, a3, a4, a5⟩ := hconcat_ok h3
          obtain ⟨b1, b2, b3, b4, b5⟩ := hconcat_ok h4
          obtain ⟨c1, c2, c3, c4, c5⟩ := vconcat_ok h
          have z := fun l => paint_size s l (toBgr img)
          have zr : (toBgr img).rows = img.rows := rfl
          have zc : (toBgr img).cols = img.cols := rfl
          rw [(z _).1, zr] at a2 b1 b2
          rw [(z _).2, (z _).2, zc] at a3
          rw [(z _).2, zc] at b3
          simp only [(z _).2, zc] at a4 a5 b4 b5
          have hcols : residuals.cols = img.cols := by omega
          refine ⟨imm, opt, project_ok (fun _ => rfl) hb ho h1, project_ok (fun _ => rfl) hb ho h2, b1.symm, hcols, by omega, by omega, ?_⟩
          intro y x hy hx
          refine ⟨?_, ?_, ?_, ?_⟩
          · rw [c4 y x (by omega), a4 y x hx]
            have := paint_shows s (depthSquares cb imm opt) (toBgr img) y x
            refine shows_map (fun q : V2 × ℝ => (q.1, depthCol q.2 cb.minDepthCol cb.maxDepthCol)) ?_ this
            unfold depthSquares
            simp only [List.map_append, List.map_map]
            rfl
          · rw [c4 y _ (by omega), a5 y x]
            have := paint_shows s (usefulSquares c p baseToLast opt) (toBgr img) y x
            exact ⟨_, fun q hq => if_pos hq, fun q hq => if_neg hq, shows_map _ rfl this⟩
          · have e : img.rows + y = row1.rows + y := by omega
            rw [e, c5 y x, b4 y x hx]
            have := paint_shows s (stddevSquares p imm opt) (toBgr img) y x
            refine shows_map (fun q : V2 × ℝ => (q.1, depthCol q.2 (minStddev p) p.maxStddev)) ?_ this
            unfold stddevSquares
            simp only [List.map_append, List.map_map]
            rfl
          · have e : img.rows + y = row1.rows + y := by omega
            rw [e, c5, b5]

theorem derefs_defined {α : Type} {points : KfV → List α} {kfs : List KfV} {ptrs : List (Nat × Nat)}
    (h : ∀ p ∈ ptrs, ∃ kf a, kfs[p.1]? = some kf ∧ (points kf)[p.2]? = some a) : ∃ as, derefs points kfs ptrs = .ok as := by
  induction ptrs with
  | nil => exact ⟨[], rfl⟩
  | cons p ps ih =>
    obtain ⟨as, has⟩ := ih fun q hq => h q (List.mem_cons_of_mem _ hq)
    obtain ⟨kf, a, h1, h2⟩ := h p List.mem_cons_self
    refine ⟨a :: as, ?_⟩
    unfold derefs deref
    obtain ⟨l1, e1⟩ := List.getElem?_eq_some_iff.1 h1
    obtain ⟨l2, e2⟩ := List.getElem?_eq_some_iff.1 h2
    have q1 : at' kfs p.1 = .ok kf := by rw [at'_lt l1, e1]
    have q2 : at' (points kf) p.2 = .ok a := by rw [at'_lt l2, e2]
    simp only [q1, q2, has, bind, Except.bind]

theorem project_defined {α : Type} {c : Cam.Cam} {last : Bool} {view : KfV → Base.KfView} {points : KfV → List α} {kfs : List KfV}
    (hv : ∀ kf, (view kf).thisToWorld = kf.thisToWorld) (hlen : ∀ kf, (view kf).points.length = (points kf).length)
    {base : Nat} (hb : Base.Spec.IsBase last kfs.length base)
    (ho : ∀ kf ∈ kfs, Base.Spec.Orthogonal kf.thisToWorld.rot) :
    (∃ items, project c last view points kfs = .ok items) ↔ Base.Spec.DepthsKnown (kfs.map view) base := by
  have hb' : Base.Spec.IsBase last (kfs.map view).length base := by rw [List.length_map]; exact hb
  constructor
  · rintro ⟨items, h⟩
    unfold project at h
    cases h1 : Base.projectOntoBaseKf c last (kfs.map view) with
    | error e => simp only [h1, bind, Except.bind] at h; cases h
    | ok out =>
      obtain ⟨base', hb2, hd⟩ := (Base.C91_defined c last _).1 ⟨out, h1⟩
      have : base' = base := by unfold Base.Spec.IsBase at hb2 hb'; omega
      rwa [this] at hd
  · intro hd
    obtain ⟨out, h1⟩ := (Base.C91_defined c last _).2 ⟨base, hb', hd⟩
    obtain ⟨l1, l2, -, hall, hex, hpw⟩ := Base.C91_partial hb' (by
        intro kf hkf
        obtain ⟨k, hk, rfl⟩ := List.mem_map.1 hkf
        rw [hv]
        exact ho k hk) h1
    obtain ⟨as, has⟩ := derefs_defined (points := points) (kfs := kfs) (ptrs := out.ptrs) (by
      intro p hp
      obtain ⟨j, hj, rfl⟩ := List.mem_iff_getElem.1 hp
      have hj2 : j < out.points.length := by omega
      obtain ⟨depth, k, i, -, d2, -, kf, pt, ⟨e1, e2⟩, -⟩ := hall j out.points[j] (List.getElem?_eq_getElem hj2)
      have hp : out.ptrs[j] = (k, i) := by
        rw [List.getElem?_eq_getElem hj] at d2
        exact Option.some.inj d2
      rw [hp]
      rw [List.getElem?_map] at e1
      obtain ⟨kf', e3, rfl⟩ := Option.map_eq_some_iff.1 e1
      have hi : i < (points kf').length := by
        rw [← hlen]
        exact (List.getElem?_eq_some_iff.1 e2).1
      exact ⟨kf', _, e3, List.getElem?_eq_getElem hi⟩)
    unfold project
    simp only [h1, has, bind, Except.bind]
    exact ⟨_, rfl⟩

/-- C118: with a base keyframe the picture is drawn exactly if every depth that is read is known and the picture of the residuals has the size of the base
frame. -/
theorem C118_defined {p : Params} {c : Cam.Cam} {cb : ColBounds} {kfs : List KfV} {img : Pyr.Img Nat} {baseToLast : Motion3} {residuals : Picture}
    {base : Nat} (hb : Base.Spec.IsBase p.trackFromLastKf kfs.length base) (ho : ∀ kf ∈ kfs, Base.Spec.Orthogonal kf.thisToWorld.rot) :
    (∃ big, drawBig p c cb kfs img baseToLast residuals = .ok big) ↔
      Base.Spec.DepthsKnown (kfs.map immView) base ∧ Base.Spec.DepthsKnown (kfs.map optView) base ∧
        residuals.rows = img.rows ∧ residuals.cols = img.cols := by
  have hi := project_defined (c := c) (last := p.trackFromLastKf) (view := immView) (points := KfV.imm) (fun _ => rfl)
    (fun kf => List.length_map _) hb ho
  have hop := project_defined (c := c) (last := p.trackFromLastKf) (view := optView) (points := KfV.opt) (fun _ => rfl)
    (fun kf => List.length_map _) hb ho
  rw [← hi, ← hop]
  unfold drawBig
  generalize squareSize p.relPointSize c.width c.height = s
  have z := fun l => paint_size s l (toBgr img)
  have zr : (toBgr img).rows = img.rows := rfl
  have zc : (toBgr img).cols = img.cols := rfl
  cases h1 : project c p.trackFromLastKf immView KfV.imm kfs with
  | error e =>
    simp only [bind, Except.bind]
    constructor
    · rintro ⟨big, h⟩; cases h
    · rintro ⟨⟨_, h⟩, -⟩; cases h
  | ok imm =>
    cases h2 : project c p.trackFromLastKf optView KfV.opt kfs with
    | error e =>
      simp only [bind, Except.bind]
      constructor
      · rintro ⟨big, h⟩; cases h
      · rintro ⟨-, ⟨_, h⟩, -⟩; cases h
    | ok opt =>
      simp only [bind, Except.bind]
      have h3 : hconcat (paint s (depthSquares cb imm opt) (toBgr img)) (paint s (usefulSquares c p baseToLast opt) (toBgr img)) =
          .ok ⟨_, _, _⟩ := if_pos (by rw [(z _).1, (z _).1])
      rw [h3]
      simp only
      unfold hconcat
      by_cases hr : residuals.rows = img.rows
      · rw [if_pos (by rw [(z _).1, zr, hr])]
        simp only
        unfold vconcat
        simp only [(z _).2, zc]
        by_cases hcl : residuals.cols = img.cols
        · rw [if_pos (by rw [hcl])]
          exact ⟨fun _ => ⟨⟨_, rfl⟩, ⟨_, rfl⟩, hr, hcl⟩, fun _ => ⟨_, rfl⟩⟩
        · rw [if_neg (by omega)]
          constructor
          · rintro ⟨big, h⟩; cases h
          · rintro ⟨-, -, -, h⟩; exact absurd h hcl
      · rw [if_neg (by rw [(z _).1, zr]; exact fun h => hr h.symm)]
        constructor
        · rintro ⟨big, h⟩; cases h
        · rintro ⟨-, -, h, -⟩; exact absurd h hr

/-- C119 (partial): with a positive image width, once there are frames the picture has the configured width and the height that keeps the shape, rounded
down, whatever is drawn, provided this height is not zero and the resizing gives pictures of the size it is asked for. Missing: before the first frame
after a keyframe the picture has the size of the camera, see `C119_size_violated`. -/
theorem C119_size_partial {p : Params} {resize : Picture → Nat → Nat → Picture} (hres : ∀ a w h, (resize a w h).cols = w ∧ (resize a w h).rows = h)
    {c : Cam.Cam} {cb : ColBounds} {kfs : List KfV} {img : Pyr.Img Nat} {baseToLast : Motion3} {residuals pic : Picture} {base : Nat}
    (hrel : 0 ≤ p.relPointSize) (hb : Base.Spec.IsBase p.trackFromLastKf kfs.length base)
    (ho : ∀ kf ∈ kfs, Base.Spec.Orthogonal kf.thisToWorld.rot)
    (h : draw p resize c cb kfs (some (img, baseToLast)) residuals = .ok pic) :
    (pic.cols : Int) = p.imageWidth ∧ (pic.rows : Int) = ⌊(img.rows : ℝ) / img.cols * p.imageWidth⌋ ∧ 0 < pic.rows := by
  unfold draw at h
  cases h1 : drawBig p c cb kfs img baseToLast residuals with
  | error e => simp only [h1, bind, Except.bind] at h; cases h
  | ok big =>
    simp only [h1, bind, Except.bind] at h
    obtain ⟨_, _, -, -, -, -, e1, e2, -⟩ := C118_panels hrel hb ho h1
    unfold shrink at h
    simp only at h
    split at h
    · rename_i hc
      obtain ⟨hw, hh, hr, hcol⟩ := hc
      cases h
      rw [(hres _ _ _).1, (hres _ _ _).2]
      have hcol' : (img.cols : ℝ) ≠ 0 := by
        have : 0 < img.cols := by omega
        exact_mod_cast this.ne'
      have e3 : (big.rows : ℝ) / big.cols * p.imageWidth = (img.rows : ℝ) / img.cols * p.imageWidth := by
        rw [e1, e2]
        push_cast
        field_simp
      have h0 : 0 ≤ (img.rows : ℝ) / img.cols * p.imageWidth := by
        have : (0 : ℝ) ≤ p.imageWidth := by exact_mod_cast hw.le
        positivity
      rw [e3] at hh ⊢
      have e4 : truncInt ((img.rows : ℝ) / img.cols * p.imageWidth) = ⌊(img.rows : ℝ) / img.cols * p.imageWidth⌋ := by
        unfold truncInt
        rw [if_pos h0]
      rw [e4] at hh ⊢
      refine ⟨by omega, by omega, by omega⟩
    · cases h

/-- C119 is violated before the first keyframe: the picture is black and has the size of the camera, whatever width is configured. -/
theorem C119_size_violated {p : Params} {resize : Picture → Nat → Nat → Picture} {c : Cam.Cam} {cb : ColBounds} {kfs : List KfV} {residuals : Picture}
    (hne : (c.width : Int) ≠ p.imageWidth) : ∃ pic, draw p resize c cb kfs none residuals = .ok pic ∧ (pic.cols : Int) ≠ p.imageWidth ∧
      (pic.cols = c.width ∧ pic.rows = c.height) ∧ ∀ y x, pic.px y x = some ⟨0, 0, 0⟩ :=
  ⟨_, rfl, hne, ⟨rfl, rfl⟩, fun _ _ => rfl⟩

/-! ### A case -/

/-- One keyframe with an optimized point and two immature points, one of which was traced. -/
def exKf : KfV :=
  ⟨Motion3.one, [⟨⟨⟨1, 1⟩, true, some 2⟩, 1, 3⟩, ⟨⟨⟨2, 1⟩, true, some 5⟩, 0, 3⟩], [⟨⟨⟨1, 1⟩, true, some 4⟩, 1⟩]⟩

def exCam : Cam.Cam := ⟨3, 3, 1, [], ⟨1, 1⟩, 1, 1, 0, 0, 0, []⟩

noncomputable def exParams : Params := ⟨0, 12, 6, true, 1, 9, 9⟩

def exImg : Pyr.Img Nat := ⟨3, 3, fun _ _ => 7⟩

theorem ex_orth : ∀ kf ∈ [exKf], Base.Spec.Orthogonal kf.thisToWorld.rot := by
  intro kf hkf
  rw [List.mem_singleton] at hkf
  subst hkf
  intro v
  constructor <;> ext <;> simp [exKf, Motion3.one, M3.one, M3.transpose, M3.mulVec, V3.dot]

theorem ex_known : Base.Spec.DepthsKnown ([exKf].map immView) 0 ∧ Base.Spec.DepthsKnown ([exKf].map optView) 0 := by
  constructor
  · rintro k i kf pt ⟨h1, h2⟩ -
    have := List.mem_of_getElem? h1
    rw [List.map_singleton, List.mem_singleton] at this
    subst this
    have := List.mem_of_getElem? h2
    simp only [immView, exKf, List.map_cons, List.map_nil, List.mem_cons, List.not_mem_nil, or_false] at this
    rcases this with rfl | rfl <;> simp
  · rintro k i kf pt ⟨h1, h2⟩ -
    have := List.mem_of_getElem? h1
    rw [List.map_singleton, List.mem_singleton] at this
    subst this
    have := List.mem_of_getElem? h2
    simp only [optView, exKf, List.map_cons, List.map_nil, List.mem_cons, List.not_mem_nil, or_false] at this
    subst this
    simp

/-- The hypotheses of `C118_panels` are met: the picture of the case is drawn, and it is about one optimized point. -/
example (cb : ColBounds) (residuals : Picture) (hr : residuals.rows = 3) (hc : residuals.cols = 3) :
    ∃ big, drawBig exParams exCam cb [exKf] exImg Motion3.one residuals = .ok big ∧ big.rows = 6 ∧ big.cols = 6 := by
  obtain ⟨big, h⟩ := (C118_defined (p := exParams) (c := exCam) (cb := cb) (kfs := [exKf]) (img := exImg) (baseToLast := Motion3.one)
    (residuals := residuals) (base := 0) rfl ex_orth).2 ⟨ex_known.1, ex_known.2, hr, hc⟩
  obtain ⟨imm, opt, -, -, -, -, h1, h2, -⟩ := C118_panels (p := exParams) (by simp [exParams]) (kfs := [exKf]) (base := 0) rfl ex_orth h
  exact ⟨big, h, h1, h2⟩

/-- The hypotheses of `C119_size_partial` are met: the picture is 12 pixels wide. -/
example (cb : ColBounds) (residuals : Picture) (hr : residuals.rows = 3) (hc : residuals.cols = 3) :
    ∃ pic, draw exParams (fun _ w h => ⟨h, w, fun _ _ => none⟩) exCam cb [exKf] (some (exImg, Motion3.one)) residuals = .ok pic ∧ pic.cols = 12 := by
  obtain ⟨big, h⟩ := (C118_defined (p := exParams) (c := exCam) (cb := cb) (kfs := [exKf]) (img := exImg) (baseToLast := Motion3.one)
    (residuals := residuals) (base := 0) rfl ex_orth).2 ⟨ex_known.1, ex_known.2, hr, hc⟩
  obtain ⟨imm, opt, -, -, -, -, h1, h2, -⟩ := C118_panels (p := exParams) (by simp [exParams]) (kfs := [exKf]) (base := 0) rfl ex_orth h
  have e1 : big.rows = 6 := h1
  have e2 : big.cols = 6 := h2
  refine ⟨⟨12, 12, fun _ _ => none⟩, ?_, rfl⟩
  unfold draw
  simp only [h, bind, Except.bind, shrink, e1, e2]
  have e3 : truncInt (((6 : Nat) : ℝ) / ((6 : Nat) : ℝ) * exParams.imageWidth) = 12 := by norm_num [exParams, truncInt]
  rw [if_pos]
  · rw [e3]
    rfl
  · refine ⟨by norm_num [exParams], ?_, by norm_num, by norm_num⟩
    rw [e3]
    norm_num

end Mdso.DebugImage
