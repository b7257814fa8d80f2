import Verif.Props.Symmetry
import Verif.Lemmas.Pyramid

/-!
# Tracking and its depths in another unit of length: C140
-/

set_option autoImplicit false

namespace Mdso.Sym

open Mdso.Geom Mdso.Light

theorem scale_act (σ : ℝ) (m : Motion3) (x : V3) : (scaleMotion σ m).act (σ • x) = σ • m.act x := by
  unfold Motion3.act scaleMotion
  rw [mulVec_smul]
  ext <;> simp <;> ring

/-! ## The depths of the points of all keyframes, seen from the base keyframe -/

/-- The motion between two keyframes described anew is the old one in the new unit of length. -/
theorem relative_change {S : Change} (h : S.Proper) (a b : Motion3) (x : V3) :
    (Base.compose (Base.inverse (S.pose a)) (S.pose b)).act (S.scale • x) = S.scale • (Base.compose (Base.inverse a) b).act x := by
  rw [Base.act_compose, Base.act_compose, act_pose, seen_change h]

/-- The output in another unit of length. -/
def scaleOut (σ : ℝ) (o : Base.Out) : Base.Out := { o with depths := o.depths.map fun d => σ * d }

theorem push_scale (σ : ℝ) (o : Base.Out) (pos : V2) (d : ℝ) (ptr : Nat × Nat) (kf : Nat) :
    (scaleOut σ o).push pos (σ * d) ptr kf = scaleOut σ (o.push pos d ptr kf) := by
  simp [scaleOut, Base.Out.push]

/-- A point in another unit of length. -/
noncomputable def scaleView (σ : ℝ) (p : Base.PView) : Base.PView := { p with depth := p.depth.map fun d => σ * d }

theorem pushBase_scale (σ : ℝ) (k : Nat) : ∀ (ps : List Base.PView) (i : Nat) (o : Base.Out),
    Base.pushBase k i (ps.map (scaleView σ)) (scaleOut σ o) = (Base.pushBase k i ps o).map (scaleOut σ)
  | [], _, _ => rfl
  | p :: ps, i, o => by
    rw [List.map_cons, Base.pushBase, Base.pushBase]
    by_cases ha : p.active = true
    · rw [if_pos ha, if_pos (by exact ha)]
      cases hd : p.depth with
      | none => simp only [scaleView, hd, Option.map_none]; rfl
      | some d =>
        simp only [scaleView, hd, Option.map_some]
        rw [push_scale]
        exact pushBase_scale σ k ps (i + 1) _
    · rw [if_neg ha, if_neg (by exact ha)]
      exact pushBase_scale σ k ps (i + 1) o

theorem pushOther_scale {S : Change} (h : S.Proper) (c : Cam.Cam) (a b : Motion3) (k : Nat) : ∀ (ps : List Base.PView) (i : Nat) (o : Base.Out),
    Base.pushOther c (Base.compose (Base.inverse (S.pose a)) (S.pose b)) k i (ps.map (scaleView S.scale)) (scaleOut S.scale o) =
      (Base.pushOther c (Base.compose (Base.inverse a) b) k i ps o).map (scaleOut S.scale)
  | [], _, _ => rfl
  | p :: ps, i, o => by
    rw [List.map_cons, Base.pushOther, Base.pushOther]
    cases hd : p.depth with
    | none => simp only [scaleView, hd, Option.map_none]; rfl
    | some d =>
      have e : (scaleView S.scale p).depth = some (S.scale * d) := by simp [scaleView, hd]
      simp only [e]
      rw [show (scaleView S.scale p).p = p.p from rfl, mul_smul3, relative_change h, Cam.C38_direction _ _ _ h.positive]
      by_cases ho : Cam.isOnImage c (Cam.map c ((Base.compose (Base.inverse a) b).act (d • (Cam.unmap c p.p).normalized))) 0
      · rw [if_pos ho, if_pos ho, V3.norm_smul h.positive.le, push_scale]
        exact pushOther_scale h c a b k ps (i + 1) _
      · rw [if_neg ho, if_neg ho]
        exact pushOther_scale h c a b k ps (i + 1) o

theorem pushAll_scale {S : Change} (h : S.Proper) (c : Cam.Cam) (base : Nat) (m : Motion3) : ∀ (kfs : List Base.KfView) (k : Nat) (o : Base.Out),
    Base.pushAll c base (S.pose m) k (kfs.map S.view) (scaleOut S.scale o) = (Base.pushAll c base m k kfs o).map (scaleOut S.scale)
  | [], _, _ => rfl
  | kf :: kfs, k, o => by
    rw [List.map_cons, Base.pushAll, Base.pushAll]
    have e : Base.pushFrame c base (S.pose m) k (S.view kf) (scaleOut S.scale o) = (Base.pushFrame c base m k kf o).map (scaleOut S.scale) := by
      unfold Base.pushFrame
      by_cases hk : k = base
      · rw [if_pos hk, if_pos hk]
        exact pushBase_scale S.scale k kf.points 0 o
      · rw [if_neg hk, if_neg hk]
        exact pushOther_scale h c m kf.thisToWorld k kf.points 0 o
    rw [e]
    cases Base.pushFrame c base m k kf o with
    | error f => rfl
    | ok o' => exact pushAll_scale h c base m kfs (k + 1) o'

/-- **C140, the points.** With the keyframes and points described anew, the same points are projected onto the base keyframe, to the same positions; their
depths are the old ones in the new unit of length. -/
theorem C140_projection {S : Change} (h : S.Proper) (c : Cam.Cam) (fromLast : Bool) (kfs : List Base.KfView) :
    Base.projectOntoBaseKf c fromLast (kfs.map S.view) =
      (Base.projectOntoBaseKf c fromLast kfs).map fun o => ⟨o.points, o.depths.map fun d => S.scale * d, o.ptrs, o.kfs⟩ := by
  unfold Base.projectOntoBaseKf
  rw [List.length_map]
  cases Base.baseIndex fromLast kfs.length with
  | error f => rfl
  | ok base =>
    have hat : at' (kfs.map S.view) base = (at' kfs base).map S.view := by
      unfold at'
      rw [List.getElem?_map]
      cases kfs[base]? <;> rfl
    simp only [bind, Except.bind, hat]
    cases at' kfs base with
    | error f => rfl
    | ok kf => exact pushAll_scale h c base kf.thisToWorld kfs 0 ⟨[], [], [], []⟩

/-! ## The pyramid of depths -/

/-- Depths and weights in another unit of length. -/
def ScaledGrid (σ : ℝ) (g g' : Pyr.Grid) : Prop := ∀ y x, (g y x = (-1, 0) ∧ g' y x = (-1, 0)) ∨ g' y x = (σ * (g y x).1, (g y x).2)

theorem writeAll_scale (σ : ℝ) (rows cols : Nat) : ∀ (pts : List Pyr.Pt) (g g' : Pyr.Grid), ScaledGrid σ g g' →
    (∃ f, Pyr.writeAll rows cols pts g = .error f ∧ Pyr.writeAll rows cols (pts.map (scalePt σ)) g' = .error f) ∨
      ∃ r r', Pyr.writeAll rows cols pts g = .ok r ∧ Pyr.writeAll rows cols (pts.map (scalePt σ)) g' = .ok r' ∧ ScaledGrid σ r r'
  | [], g, g', h => Or.inr ⟨g, g', rfl, rfl, h⟩
  | p :: ps, g, g', h => by
    rw [List.map_cons, Pyr.writeAll, Pyr.writeAll]
    have e : Pyr.pixel rows cols (scalePt σ p) = Pyr.pixel rows cols p := rfl
    rw [e]
    cases Pyr.pixel rows cols p with
    | none => exact Or.inl ⟨.ub, rfl, rfl⟩
    | some q =>
      refine writeAll_scale σ rows cols ps _ _ ?_
      intro y x
      unfold Pyr.write
      by_cases hq : (y, x) = q
      · rw [if_pos hq, if_pos hq]
        exact Or.inr rfl
      · rw [if_neg hq, if_neg hq]
        exact h y x

theorem blockSum_mul (σ : ℝ) (f : Nat → Nat → ℝ) (y x n : Nat) :
    Pyr.blockSum (fun i j => σ * f i j) y x n = σ * Pyr.blockSum f y x n := by
  unfold Pyr.blockSum
  simp only [Finset.mul_sum]

theorem pyrN_scale {σ : ℝ} (hσ : 0 < σ) (rows cols l : Nat) (f w : Nat → Nat → ℝ) :
    ∃ im im', Pyr.pyrNUpDepth (Pyr.integral rows cols f) (Pyr.integral rows cols w) l = .ok im ∧
      Pyr.pyrNUpDepth (Pyr.integral rows cols fun i j => σ * f i j) (Pyr.integral rows cols w) l = .ok im' ∧ ScaledDepths σ im im' := by
  obtain ⟨im, h1, r1, c1, p1⟩ := Pyr.pyrN_ok rows cols l f w
  obtain ⟨im', h2, r2, c2, p2⟩ := Pyr.pyrN_ok rows cols l (fun i j => σ * f i j) w
  refine ⟨im, im', h1, h2, by rw [r1, r2], by rw [c1, c2], ?_⟩
  intro y x hy hx
  rw [r1] at hy
  rw [c1] at hx
  rw [p1 y x hy hx, p2 y x hy hx, blockSum_mul]
  split
  · rw [mul_div_assoc]
    exact ⟨fun _ => rfl, by rw [mul_pos_iff_of_pos_left hσ]⟩
  · exact ⟨fun h => absurd h (by norm_num), Iff.rfl⟩

theorem depthLevels_scale {σ : ℝ} (hσ : 0 < σ) (rows cols : Nat) (f w : Nat → Nat → ℝ) : ∀ n l,
    ∃ ds ds', Pyr.depthLevels (Pyr.integral rows cols f) (Pyr.integral rows cols w) n l = .ok ds ∧
      Pyr.depthLevels (Pyr.integral rows cols fun i j => σ * f i j) (Pyr.integral rows cols w) n l = .ok ds' ∧ List.Forall₂ (ScaledDepths σ) ds ds'
  | 0, _ => ⟨[], [], rfl, rfl, .nil⟩
  | n + 1, l => by
    obtain ⟨im, im', h1, h2, h3⟩ := pyrN_scale hσ rows cols l f w
    obtain ⟨ds, ds', h4, h5, h6⟩ := depthLevels_scale hσ rows cols f w n (l + 1)
    exact ⟨im :: ds, im' :: ds', by rw [Pyr.depthLevels, h1, h4], by rw [Pyr.depthLevels, h2, h5], .cons h3 h6⟩

/-- **C140, the pyramid.** The pyramid made of the points in another unit of length is, on every level, the pyramid in that unit: the same pixels have a
depth. -/
theorem C140_pyramid {σ : ℝ} (hσ : 0 < σ) (rows cols levelNum : Nat) (pts : List Pyr.Pt) :
    (∃ f, Pyr.depthPyramid rows cols levelNum pts = .error f ∧ Pyr.depthPyramid rows cols levelNum (pts.map (scalePt σ)) = .error f) ∨
      ∃ ds ds', Pyr.depthPyramid rows cols levelNum pts = .ok ds ∧ Pyr.depthPyramid rows cols levelNum (pts.map (scalePt σ)) = .ok ds' ∧
        List.Forall₂ (ScaledDepths σ) ds ds' := by
  unfold Pyr.depthPyramid
  by_cases h0 : levelNum = 0
  · rw [if_pos h0, if_pos h0]
    exact Or.inl ⟨.ub, rfl, rfl⟩
  · rw [if_neg h0, if_neg h0]
    rcases writeAll_scale σ rows cols pts Pyr.grid0 Pyr.grid0 (fun _ _ => Or.inl ⟨rfl, rfl⟩) with ⟨f, h1, h2⟩ | ⟨g, g', h1, h2, hg⟩
    · rw [h1, h2]
      exact Or.inl ⟨f, rfl, rfl⟩
    · rw [h1, h2]
      have e1 : (fun y x => (g' y x).1 * (g' y x).2) = fun y x => σ * ((g y x).1 * (g y x).2) := by
        funext y x
        rcases hg y x with ⟨a, b⟩ | b
        · rw [a, b]; simp
        · rw [b]; simp only; ring
      have e2 : (fun y x => (g' y x).2) = fun y x => (g y x).2 := by
        funext y x
        rcases hg y x with ⟨a, b⟩ | b
        · rw [a, b]
        · rw [b]
      dsimp only
      rw [e1, e2]
      obtain ⟨ds, ds', h4, h5, h6⟩ := depthLevels_scale hσ rows cols (fun y x => (g y x).1 * (g y x).2) (fun y x => (g y x).2) (levelNum - 1) 1
      rw [h4, h5]
      refine Or.inr ⟨_, _, rfl, rfl, .cons ⟨rfl, rfl, fun y x _ _ => ?_⟩ h6⟩
      dsimp only
      rcases hg y x with ⟨a, b⟩ | b
      · rw [a, b]
        exact ⟨fun h => absurd h (by norm_num), Iff.rfl⟩
      · rw [b]
        exact ⟨fun _ => rfl, by simp only; rw [mul_pos_iff_of_pos_left hσ]⟩

/-! ## Tracking -/

/-- A residual block in another unit of length. -/
def scaleBlock (σ : ℝ) (b : Track.Block) : Track.Block := { b with pos := σ • b.pos }

theorem pixelBody_scale {σ : ℝ} (hσ : 0 < σ) (s : Track.Settings) (c : Cam.Cam) (img : Pyr.Img Nat) {d d' : Pyr.Img ℝ} (hd : ScaledDepths σ d d')
    (m : Motion3) (y x : Nat) :
    Track.pixelBody s c img d' (scaleMotion σ m) y x = (Track.pixelBody s c img d m y x).map fun b => b.map (scaleBlock σ) := by
  unfold Track.pixelBody Pyr.Img.read
  rw [hd.1, hd.2.1]
  by_cases hin : y < d.rows ∧ x < d.cols
  · rw [if_pos hin, if_pos hin]
    simp only [bind, Except.bind]
    obtain ⟨h1, h2⟩ := hd.2.2 y x hin.1 hin.2
    by_cases hp : 0 < d.px y x
    · have e := h1 hp
      have ht : Track.isPointTrackable c (d'.px y x • (Cam.unmap c ⟨x, y⟩).normalized) (scaleMotion σ m) ↔
          Track.isPointTrackable c (d.px y x • (Cam.unmap c ⟨x, y⟩).normalized) m := by
        unfold Track.isPointTrackable
        rw [e, mul_smul3, scale_act, Cam.C38_direction _ _ _ hσ]
      by_cases hq : Track.isPointTrackable c (d.px y x • (Cam.unmap c ⟨x, y⟩).normalized) m
      · rw [if_pos ⟨h2.2 hp, ht.2 hq⟩, if_pos ⟨hp, hq⟩]
        unfold Track.blockOf
        cases img.read y x with
        | error f => rfl
        | ok v =>
          simp only [bind, Except.bind]
          cases Track.weightAt s img y x with
          | error f => rfl
          | ok w =>
            simp only [Except.map, Option.map_some, scaleBlock]
            rw [e, mul_smul3]
      · rw [if_neg (fun hh => hq (ht.1 hh.2)), if_neg (fun hh => hq hh.2)]
        rfl
    · rw [if_neg (fun hh => hp (h2.1 hh.1)), if_neg (fun hh => hp hh.1)]
      rfl
  · rw [if_neg hin, if_neg hin]
    rfl

theorem collect_scale {σ : ℝ} {f f' : Nat → Nat → Except Fault (Option Track.Block)}
    (h : ∀ y x, f' y x = (f y x).map fun b => b.map (scaleBlock σ)) : ∀ l,
    Track.collect f' l = (Track.collect f l).map fun bs => bs.map (scaleBlock σ)
  | [] => rfl
  | q :: l => by
    rw [Track.collect, Track.collect, h, collect_scale h l]
    cases f q.1 q.2 with
    | error e => rfl
    | ok b =>
      cases Track.collect f l with
      | error e => rfl
      | ok bs => cases b <;> rfl

/-- A report in another unit of length. -/
def scaleReport (σ : ℝ) (r : Track.Report) : Track.Report := { r with baseToLast := scaleMotion σ r.baseToLast }

theorem pointResiduals_scale {σ : ℝ} (hσ : 0 < σ) (c : Cam.Cam) (f : Track.Interp) (bs : List Track.Block) (m : Motion3) (l : AffLight) :
    Track.pointResiduals c f (bs.map (scaleBlock σ)) (scaleMotion σ m) l = Track.pointResiduals c f bs m l := by
  unfold Track.pointResiduals Track.Block.eval
  rw [List.map_map]
  apply List.map_congr_left
  intro b _
  simp only [Function.comp, scaleBlock]
  rw [scale_act, Cam.C38_direction _ _ _ hσ]

theorem trackPyrLevel_scale {σ : ℝ} (hσ : 0 < σ) {solve solve' : Track.Solver} (hs : SameTracking σ solve solve') (s : Track.Settings) (c : Cam.Cam)
    (img : Pyr.Img Nat) {d d' : Pyr.Img ℝ} (hd : ScaledDepths σ d d') (f : Track.Interp) (m : Motion3) (l : AffLight) (i : Nat) :
    Track.trackPyrLevel s solve' c img d' f (scaleMotion σ m) l i = (Track.trackPyrLevel s solve c img d f m l i).map (scaleReport σ) := by
  unfold Track.trackPyrLevel
  rw [collect_scale (fun y x => pixelBody_scale hσ s c img hd m y x)]
  cases Track.collect (Track.pixelBody s c img d m) (Track.pixels img.rows img.cols) with
  | error e => rfl
  | ok bs =>
    simp only [Except.map, bind, Except.bind]
    have e := hs { cam := c, trackedFrame := f, blocks := bs, motion := m, affLight := l, lightConstant := !s.optimizeAffineLight,
                   minA := s.minAffineLightA, maxA := s.maxAffineLightA, minB := s.minAffineLightB, maxB := s.maxAffineLightB, huber := s.outlierDiff }
    simp only [scaleProblem] at e
    rw [show (fun b : Track.Block => { b with pos := σ • b.pos }) = scaleBlock σ from rfl] at e
    rw [e]
    simp only [pointResiduals_scale hσ, scaleReport]

theorem trackLevels_scale {σ : ℝ} (hσ : 0 < σ) {solve solve' : Track.Solver} (hs : SameTracking σ solve solve') (s : Track.Settings)
    (cams : List Cam.Cam) (images : List (Pyr.Img Nat)) {ds ds' : List (Pyr.Img ℝ)} (hd : List.Forall₂ (ScaledDepths σ) ds ds') (frame : Track.Frame) :
    ∀ (i : Nat) (m : Motion3) (l : AffLight), Track.trackLevels s solve' cams ⟨images, ds'⟩ frame i (scaleMotion σ m) l =
      (Track.trackLevels s solve cams ⟨images, ds⟩ frame i m l).map fun r => (scaleMotion σ r.1, r.2.1, r.2.2.map (scaleReport σ))
  | 0, _, _ => rfl
  | i + 1, m, l => by
    rw [Track.trackLevels, Track.trackLevels]
    have e : Track.trackLevel s solve' cams ⟨images, ds'⟩ frame (scaleMotion σ m) l i =
        (Track.trackLevel s solve cams ⟨images, ds⟩ frame m l i).map (scaleReport σ) := by
      unfold Track.trackLevel
      cases at' cams i with
      | error e => rfl
      | ok c =>
        simp only [bind, Except.bind]
        cases at' images i with
        | error e => rfl
        | ok img =>
          dsimp only
          by_cases hi : i < ds.length
          · have hi' : i < ds'.length := by rw [← hd.length_eq]; exact hi
            have hr : ScaledDepths σ ds[i] ds'[i] := (List.forall₂_iff_get.1 hd).2 i hi hi'
            rw [at'_lt hi, at'_lt hi']
            dsimp only
            cases at' frame i with
            | error e => rfl
            | ok f => exact trackPyrLevel_scale hσ hs s c img hr f m l i
          · have hi' : ¬ i < ds'.length := by rw [← hd.length_eq]; exact hi
            have e1 : at' ds i = .error .ub := by unfold at'; rw [List.getElem?_eq_none (by omega)]
            have e2 : at' ds' i = .error .ub := by unfold at'; rw [List.getElem?_eq_none (by omega)]
            rw [e1, e2]
            rfl
    rw [e]
    cases Track.trackLevel s solve cams ⟨images, ds⟩ frame m l i with
    | error f => rfl
    | ok r =>
      simp only [Except.map, bind, Except.bind]
      rw [show (scaleReport σ r).baseToLast = scaleMotion σ r.baseToLast from rfl, show (scaleReport σ r).affLight = r.affLight from rfl,
        trackLevels_scale hσ hs s cams images hd frame i r.baseToLast r.affLight]
      cases Track.trackLevels s solve cams ⟨images, ds⟩ frame i r.baseToLast r.affLight with
      | error f => rfl
      | ok rest => rfl

/-- **C140, tracking.** If the depths of the base frame and the first guess of the motion are given in another unit of length, and Ceres treats the two
problems alike, then tracking a frame finds the same motion in that unit and the same light transform, and every observer is told the same residuals at the
same places. It fails in one unit if and only if it fails in the other. -/
theorem C140_tracking_partial {σ : ℝ} (hσ : 0 < σ) {solve solve' : Track.Solver} (hs : SameTracking σ solve solve') (t : Track.Tracker)
    {depths' : List (Pyr.Img ℝ)} (hd : List.Forall₂ (ScaledDepths σ) t.base.depths depths') (frame : Track.Frame) (coarse : Motion3) (light : AffLight) :
    Track.trackFrame solve' { t with base := ⟨t.base.images, depths'⟩ } frame (scaleMotion σ coarse) light =
      (Track.trackFrame solve t frame coarse light).map fun r => (scaleMotion σ r.1, r.2.1, r.2.2.map fun q => (q.1, scaleEvent σ q.2)) := by
  unfold Track.trackFrame
  dsimp only
  rw [trackLevels_scale hσ hs t.s t.camPyr t.base.images hd frame t.s.levelNum coarse light]
  cases Track.trackLevels t.s solve t.camPyr t.base frame t.s.levelNum coarse light with
  | error f =>
    rfl
  | ok r =>
    simp only [Except.map, bind, Except.bind, Except.ok.injEq, Prod.mk.injEq, true_and]
    rw [List.map_append, List.map_flatMap]
    congr 1
    · simp [Track.tell, scaleEvent]
    · rw [List.flatMap_map]
      congr 1
      funext rep
      simp [Track.tell, scaleEvent, scaleReport]

/-- The photometric error of tracking is the same in both units. -/
theorem C140_cost {σ : ℝ} (hσ : 0 < σ) (P : Track.Problem) (m : Motion3) (l : AffLight) :
    Track.Spec.cost (scaleProblem σ P) (scaleMotion σ m) l = Track.Spec.cost P m l := by
  unfold Track.Spec.cost scaleProblem Track.Block.eval
  dsimp only
  rw [List.map_map]
  congr 2
  apply List.map_congr_left
  intro b _
  simp only [Function.comp]
  rw [scale_act, Cam.C38_direction _ _ _ hσ]

/-- A solver that keeps the start values treats both problems alike, and so do the two halves of any pair related by the change of unit. -/
theorem keep_same (σ : ℝ) : SameTracking σ (fun P => (P.motion, P.affLight)) (fun P => (P.motion, P.affLight)) := fun _ => rfl

/-- For every solver there is one that treats the problems in the new unit alike. -/
theorem C140_solver_exists {σ : ℝ} (hσ : σ ≠ 0) (solve : Track.Solver) : ∃ solve', SameTracking σ solve solve' := by
  refine ⟨fun P => (scaleMotion σ (solve (scaleProblem σ⁻¹ P)).1, (solve (scaleProblem σ⁻¹ P)).2), fun P => ?_⟩
  have e : scaleProblem σ⁻¹ (scaleProblem σ P) = P := by
    have h3 : ∀ v : V3, σ⁻¹ • σ • v = v := by
      intro v
      rw [← mul_smul3, inv_mul_cancel₀ hσ]
      ext <;> simp
    cases P with
    | mk cam tf blocks motion al lc a b c d hu =>
      simp only [scaleProblem, scaleMotion, List.map_map, Function.comp_def, h3]
      congr 1
      exact List.map_id blocks
  show (scaleMotion σ (solve (scaleProblem σ⁻¹ (scaleProblem σ P))).1, (solve (scaleProblem σ⁻¹ (scaleProblem σ P))).2) = _
  rw [e]

/-- The depths of two pixels: in feet what was in yards. -/
example : List.Forall₂ (ScaledDepths 3) [⟨1, 2, fun _ x => if x = 0 then 2 else -1⟩] [⟨1, 2, fun _ x => if x = 0 then 6 else -1⟩] := by
  refine .cons ⟨rfl, rfl, fun y x _ _ => ?_⟩ .nil
  by_cases hx : x = 0
  · simp [hx]; norm_num
  · simp [hx]

end Mdso.Sym
