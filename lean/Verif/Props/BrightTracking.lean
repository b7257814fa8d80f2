import Verif.Props.Brightness
import Verif.Props.Frame
import Verif.Props.FrameTracker
import Verif.Props.Pyramid
import Verif.Spec.BrightTracking

/-!
# Tracking in brighter and darker pictures: C180
-/

set_option autoImplicit false

namespace Mdso.Relit

open Mdso.Geom Mdso.Light

theorem apply_shift (δ β : ℝ) (l : AffLight) (t : ℝ) : (shiftLight δ β l).apply (t + δ) = l.apply t + β := by
  unfold shiftLight AffLight.apply
  dsimp only
  have h : Real.exp l.a * Real.exp (-l.a) = 1 := by rw [← Real.exp_add, add_neg_cancel, Real.exp_zero]
  calc Real.exp l.a * (t + δ + (l.b - δ + β * Real.exp (-l.a)))
      = Real.exp l.a * (t + l.b) + β * (Real.exp l.a * Real.exp (-l.a)) := by ring
    _ = _ := by rw [h, mul_one]

/-- A residual block of the brighter base picture. -/
noncomputable def shiftBlock (β : ℝ) (b : Track.Block) : Track.Block := { b with baseIntensity := b.baseIntensity + β }

theorem eval_shift {δ : ℝ} (β : ℝ) {tr tr' : Track.Interp} (h : ∀ y x, tr' y x = tr y x + δ) (b : Track.Block) (c : Cam.Cam) (m : Motion3) (l : AffLight) :
    (shiftBlock β b).eval c tr' m (shiftLight δ β l) = b.eval c tr m l := by
  unfold Track.Block.eval shiftBlock
  dsimp only
  rw [h, apply_shift]
  ring

/-- **C180, residuals.** Two problems for the same view have the same residual for every motion, with corresponding light transforms. -/
theorem C180_residuals {δ β : ℝ} {P P' : Track.Problem} (h : SameView δ β P P') (m : Motion3) (l : AffLight) :
    P'.blocks.map (fun b => b.eval P'.cam P'.trackedFrame m (shiftLight δ β l)) = P.blocks.map fun b => b.eval P.cam P.trackedFrame m l := by
  rw [h.blocks, h.cam, List.map_map]
  exact List.map_congr_left fun b _ => eval_shift β h.tracked b P.cam m l

/-! ## Reading brighter pictures -/

theorem read_shift {b : ℝ} {img img' : Pyr.Img Nat} (h : Brighter b img img') (y x : Nat) :
    (∃ v v' : Nat, img.read y x = .ok v ∧ img'.read y x = .ok v' ∧ (v' : ℝ) = v + b) ∨ (img.read y x = .error .ub ∧ img'.read y x = .error .ub) := by
  obtain ⟨h1, h2, h3⟩ := h
  unfold Pyr.Img.read
  rw [h1, h2]
  by_cases hc : y < img.rows ∧ x < img.cols
  · rw [if_pos hc, if_pos hc]
    exact Or.inl ⟨_, _, rfl, rfl, by rw [h3 y x hc.1 hc.2, one_mul]⟩
  · rw [if_neg hc, if_neg hc]
    exact Or.inr ⟨rfl, rfl⟩

theorem readInt_shift {b : ℝ} {img img' : Pyr.Img Nat} (h : Brighter b img img') (y x : Int) :
    (∃ v v' : Nat, Track.readInt img y x = .ok v ∧ Track.readInt img' y x = .ok v' ∧ (v' : ℝ) = v + b) ∨
      (Track.readInt img y x = .error .ub ∧ Track.readInt img' y x = .error .ub) := by
  unfold Track.readInt
  by_cases hc : 0 ≤ y ∧ 0 ≤ x
  · rw [if_pos hc, if_pos hc]
    exact read_shift h _ _
  · rw [if_neg hc, if_neg hc]
    exact Or.inr ⟨rfl, rfl⟩

theorem grad_shift {b : ℝ} {img img' : Pyr.Img Nat} (h : Brighter b img img') (y x : Nat) : Track.gradNormAt img' y x = Track.gradNormAt img y x := by
  unfold Track.gradNormAt
  rcases readInt_shift h y (x + 1) with ⟨v1, w1, e1, f1, g1⟩ | ⟨e1, f1⟩
  · rcases readInt_shift h y (x - 1) with ⟨v2, w2, e2, f2, g2⟩ | ⟨e2, f2⟩
    · rcases readInt_shift h (y + 1) x with ⟨v3, w3, e3, f3, g3⟩ | ⟨e3, f3⟩
      · rcases readInt_shift h (y - 1) x with ⟨v4, w4, e4, f4, g4⟩ | ⟨e4, f4⟩
        · simp only [e1, e2, e3, e4, f1, f2, f3, f4, bind, Except.bind, g1, g2, g3, g4]
          simp only [add_sub_add_right_eq_sub]
        · simp only [e1, e2, e3, e4, f1, f2, f3, f4, bind, Except.bind]
      · simp only [e1, e2, e3, f1, f2, f3, bind, Except.bind]
    · simp only [e1, e2, f1, f2, bind, Except.bind]
  · simp only [e1, f1, bind, Except.bind]

/-- Settings that agree in everything that is used when the residual blocks are made. -/
theorem weight_shift {b : ℝ} {img img' : Pyr.Img Nat} (h : Brighter b img img') {s s' : Track.Settings} (h1 : s'.useGradWeighting = s.useGradWeighting)
    (h2 : s'.gradWeightingC = s.gradWeightingC) (y x : Nat) : Track.weightAt s' img' y x = Track.weightAt s img y x := by
  unfold Track.weightAt
  rw [h1, h2, grad_shift h]

theorem block_shift {β : ℝ} {img img' : Pyr.Img Nat} (h : Brighter β img img') {s s' : Track.Settings} (h1 : s'.useGradWeighting = s.useGradWeighting)
    (h2 : s'.gradWeightingC = s.gradWeightingC) (y x : Nat) (pos : V3) :
    Track.blockOf s' img' y x pos = (Track.blockOf s img y x pos).map fun o => o.map (shiftBlock β) := by
  unfold Track.blockOf
  rw [weight_shift h h1 h2]
  rcases read_shift h y x with ⟨v, v', e1, e2, e3⟩ | ⟨e1, e2⟩
  · simp only [e1, e2, bind, Except.bind]
    cases Track.weightAt s img y x with
    | error f => rfl
    | ok w => simp only [Except.map, Option.map_some, shiftBlock, e3]
  · simp only [e1, e2, bind, Except.bind]
    rfl

theorem body_shift {β : ℝ} {img img' : Pyr.Img Nat} (h : Brighter β img img') {s s' : Track.Settings} (h1 : s'.useGradWeighting = s.useGradWeighting)
    (h2 : s'.gradWeightingC = s.gradWeightingC) (c : Cam.Cam) (depths : Pyr.Img ℝ) (m : Motion3) (y x : Nat) :
    Track.pixelBody s' c img' depths m y x = (Track.pixelBody s c img depths m y x).map fun o => o.map (shiftBlock β) := by
  unfold Track.pixelBody
  cases depths.read y x with
  | error f => rfl
  | ok d =>
    simp only [bind, Except.bind]
    split
    · exact block_shift h h1 h2 y x _
    · rfl

theorem collect_shift {β : ℝ} {f f' : Nat → Nat → Except Fault (Option Track.Block)} (h : ∀ y x, f' y x = (f y x).map fun o => o.map (shiftBlock β)) :
    ∀ qs : List (Nat × Nat), Track.collect f' qs = (Track.collect f qs).map fun bs => bs.map (shiftBlock β)
  | [] => rfl
  | q :: qs => by
    rw [Track.collect, Track.collect, h, collect_shift h qs]
    cases f q.1 q.2 with
    | error e => rfl
    | ok o =>
      cases Track.collect f qs with
      | error e => rfl
      | ok bs =>
        simp only [bind, Except.bind, Except.map, List.map_append]
        cases o <;> rfl

/-- The report for the brighter pictures. -/
noncomputable def shiftReport (δ β : ℝ) (r : Track.Report) : Track.Report := { r with affLight := shiftLight δ β r.affLight }

theorem settings_same {δ β : ℝ} {s s' : Track.Settings} (h : SettingsFor δ β s s') : s'.useGradWeighting = s.useGradWeighting ∧
    s'.gradWeightingC = s.gradWeightingC ∧ s'.optimizeAffineLight = s.optimizeAffineLight ∧ s'.outlierDiff = s.outlierDiff ∧ s'.levelNum = s.levelNum ∧
    ((!s.optimizeAffineLight) = true ∨ (β = 0 ∧ s'.minAffineLightA = s.minAffineLightA ∧ s'.maxAffineLightA = s.maxAffineLightA ∧
      s'.minAffineLightB = s.minAffineLightB - δ ∧ s'.maxAffineLightB = s.maxAffineLightB - δ)) := by
  rcases h with ⟨h, rfl⟩ | ⟨h, rfl⟩
  · exact ⟨rfl, rfl, rfl, rfl, rfl, Or.inl (by rw [h]; rfl)⟩
  · exact ⟨rfl, rfl, rfl, rfl, rfl, Or.inr ⟨h, rfl, rfl, rfl, rfl⟩⟩

theorem level_shift {solve : Track.Solver} (hs : LightFair solve) {δ β : ℝ} {s s' : Track.Settings} (hset : SettingsFor δ β s s')
    {img img' : Pyr.Img Nat} (h : Brighter β img img') {tr tr' : Track.Interp} (ht : ∀ y x, tr' y x = tr y x + δ) (c : Cam.Cam) (depths : Pyr.Img ℝ)
    (m : Motion3) (l : AffLight) (i : Nat) :
    Track.trackPyrLevel s' solve c img' depths tr' m (shiftLight δ β l) i = (Track.trackPyrLevel s solve c img depths tr m l i).map (shiftReport δ β) := by
  obtain ⟨g1, g2, g3, g4, _, g6⟩ := settings_same hset
  unfold Track.trackPyrLevel
  rw [collect_shift (fun y x => body_shift h g1 g2 c depths m y x), h.1, h.2.1]
  cases Track.collect (Track.pixelBody s c img depths m) (Track.pixels img.rows img.cols) with
  | error f => rfl
  | ok bs =>
    simp only [Except.map, bind, Except.bind]
    obtain ⟨P, hP⟩ : ∃ P : Track.Problem, P = {
      cam := c, trackedFrame := tr, blocks := bs, motion := m, affLight := l, lightConstant := !s.optimizeAffineLight,
      minA := s.minAffineLightA, maxA := s.maxAffineLightA, minB := s.minAffineLightB, maxB := s.maxAffineLightB,
      huber := s.outlierDiff } := ⟨_, rfl⟩
    obtain ⟨P', hP'⟩ : ∃ P' : Track.Problem, P' = {
      cam := c, trackedFrame := tr', blocks := bs.map (shiftBlock β), motion := m, affLight := shiftLight δ β l, lightConstant := !s'.optimizeAffineLight,
      minA := s'.minAffineLightA, maxA := s'.maxAffineLightA, minB := s'.minAffineLightB, maxB := s'.maxAffineLightB,
      huber := s'.outlierDiff } := ⟨_, rfl⟩
    rw [← hP, ← hP']
    have hv : SameView δ β P P' := by
      subst hP hP'
      exact ⟨rfl, ht, rfl, rfl, rfl, by rw [g3], g4, g6⟩
    rw [hs δ β P P' hv]
    simp only [shiftReport, Except.ok.injEq, Track.Report.mk.injEq, true_and]
    unfold Track.pointResiduals
    rw [List.map_map]
    apply List.map_congr_left
    intro b _
    simp only [Function.comp, eval_shift β ht]
    rfl

theorem at_forall₂ {α γ : Type} {R : α → γ → Prop} {l : List α} {l' : List γ} (h : List.Forall₂ R l l') (i : Nat) :
    (∃ a a', at' l i = .ok a ∧ at' l' i = .ok a' ∧ R a a') ∨ (∃ f, at' l i = .error f ∧ at' l' i = .error f) := by
  induction h generalizing i with
  | nil => exact Or.inr ⟨.ub, rfl, rfl⟩
  | cons hr _ ih =>
    cases i with
    | zero => exact Or.inl ⟨_, _, rfl, rfl, hr⟩
    | succ i =>
      simpa [at'] using ih i

theorem trackLevel_shift {solve : Track.Solver} (hs : LightFair solve) {δ β : ℝ} {s s' : Track.Settings} (hset : SettingsFor δ β s s') (cams : List Cam.Cam)
    {base base' : Track.BaseFrame} (hi : List.Forall₂ (Brighter β) base.images base'.images) (hd : base'.depths = base.depths)
    {frame frame' : Track.Frame} (hf : List.Forall₂ (fun tr tr' : Track.Interp => ∀ y x, tr' y x = tr y x + δ) frame frame')
    (m : Motion3) (l : AffLight) (i : Nat) :
    Track.trackLevel s' solve cams base' frame' m (shiftLight δ β l) i = (Track.trackLevel s solve cams base frame m l i).map (shiftReport δ β) := by
  unfold Track.trackLevel
  rw [hd]
  cases at' cams i with
  | error f => rfl
  | ok c =>
    simp only [bind, Except.bind]
    rcases at_forall₂ hi i with ⟨img, img', e1, e2, h1⟩ | ⟨f, e1, e2⟩
    · rw [e1, e2]
      dsimp only
      cases at' base.depths i with
      | error f => rfl
      | ok depths =>
        dsimp only
        rcases at_forall₂ hf i with ⟨tr, tr', e3, e4, h2⟩ | ⟨f, e3, e4⟩
        · rw [e3, e4]
          exact level_shift hs hset h1 h2 c depths m l i
        · rw [e3, e4]
          rfl
    · rw [e1, e2]
      rfl

theorem trackLevels_shift {solve : Track.Solver} (hs : LightFair solve) {δ β : ℝ} {s s' : Track.Settings} (hset : SettingsFor δ β s s') (cams : List Cam.Cam)
    {base base' : Track.BaseFrame} (hi : List.Forall₂ (Brighter β) base.images base'.images) (hd : base'.depths = base.depths)
    {frame frame' : Track.Frame} (hf : List.Forall₂ (fun tr tr' : Track.Interp => ∀ y x, tr' y x = tr y x + δ) frame frame') :
    ∀ (n : Nat) (m : Motion3) (l : AffLight),
    Track.trackLevels s' solve cams base' frame' n m (shiftLight δ β l) =
      (Track.trackLevels s solve cams base frame n m l).map fun r => (r.1, shiftLight δ β r.2.1, r.2.2.map (shiftReport δ β))
  | 0, _, _ => rfl
  | n + 1, m, l => by
    rw [Track.trackLevels, Track.trackLevels, trackLevel_shift hs hset cams hi hd hf]
    cases Track.trackLevel s solve cams base frame m l n with
    | error f => rfl
    | ok r =>
      simp only [Except.map, bind, Except.bind]
      have h := trackLevels_shift hs hset cams hi hd hf n r.baseToLast r.affLight
      simp only [Except.map] at h
      rw [show (shiftReport δ β r).baseToLast = r.baseToLast from rfl, show (shiftReport δ β r).affLight = shiftLight δ β r.affLight from rfl, h]
      cases Track.trackLevels s solve cams base frame n r.baseToLast r.affLight <;> rfl

/-- **C180.** If the tracked picture is brighter by `δ` on all levels, and the base picture by `β`, and Ceres treats problems with the same residuals alike, then
tracking finds the same motion and the corresponding light transform, and the observers are told the same residuals at the same places. It fails in one case if
and only if it fails in the other. -/
theorem C180_track {solve : Track.Solver} (hs : LightFair solve) {δ β : ℝ} {t t' : Track.Tracker} (hset : SettingsFor δ β t.s t'.s)
    (hc : t'.camPyr = t.camPyr) (ho : t'.observers = t.observers) (hi : List.Forall₂ (Brighter β) t.base.images t'.base.images)
    (hd : t'.base.depths = t.base.depths) {frame frame' : Track.Frame}
    (hf : List.Forall₂ (fun tr tr' : Track.Interp => ∀ y x, tr' y x = tr y x + δ) frame frame') (coarse : Motion3) (light : AffLight) :
    Track.trackFrame solve t' frame' coarse (shiftLight δ β light) =
      (Track.trackFrame solve t frame coarse light).map fun r => (r.1, shiftLight δ β r.2.1, r.2.2.map fun q => (q.1, shiftEvent δ β q.2)) := by
  unfold Track.trackFrame
  rw [(settings_same hset).2.2.2.2.1, hc, ho, trackLevels_shift hs hset t.camPyr hi hd hf]
  cases Track.trackLevels t.s solve t.camPyr t.base frame t.s.levelNum coarse light with
  | error f => rfl
  | ok r =>
    simp only [Except.map, bind, Except.bind, Except.ok.injEq, Prod.mk.injEq, true_and]
    rw [List.map_append, List.map_flatMap]
    congr 1
    · simp [Track.tell, shiftEvent]
    · rw [List.flatMap_map]
      congr 1
      funext rep
      simp [Track.tell, shiftEvent, shiftReport]

/-! ## The pyramids -/

theorem down_shift {b : ℝ} {img img' im : Pyr.Img Nat} (h : Brighter b img img') (h1 : Pyr.boxFilterPyrDown img = .ok im) :
    ∃ im', Pyr.boxFilterPyrDown img' = .ok im' ∧ Brighter b im im' := by
  obtain ⟨im1, e1, r1, c1, p1⟩ := Pyr.C42_level img
  rw [h1] at e1
  cases e1
  obtain ⟨im', e2, r2, c2, p2⟩ := Pyr.C42_level img'
  refine ⟨im', e2, by rw [r2, r1, h.1], by rw [c2, c1, h.2.1], ?_⟩
  intro y x hy hx
  obtain ⟨a1, a2⟩ := p1 y x hy hx
  obtain ⟨b1, b2⟩ := p2 y x (by rw [r2, h.1, ← r1]; exact hy) (by rw [c2, h.2.1, ← c1]; exact hx)
  have hy2 : 2 * y + 1 < img.rows := by rw [r1] at hy; omega
  have hx2 : 2 * x + 1 < img.cols := by rw [c1] at hx; omega
  have q1 := h.2.2 (2 * y) (2 * x) (by omega) (by omega)
  have q2 := h.2.2 (2 * y) (2 * x + 1) (by omega) hx2
  have q3 := h.2.2 (2 * y + 1) (2 * x) hy2 (by omega)
  have q4 := h.2.2 (2 * y + 1) (2 * x + 1) hy2 hx2
  obtain ⟨k, hk⟩ : ∃ k : Int, (k : ℝ) = b := ⟨(img'.px (2 * y) (2 * x) : Int) - img.px (2 * y) (2 * x), by push_cast; linarith⟩
  rw [one_mul, ← hk] at q1 q2 q3 q4
  have z1 : (img'.px (2 * y) (2 * x) : Int) = img.px (2 * y) (2 * x) + k := by exact_mod_cast q1
  have z2 : (img'.px (2 * y) (2 * x + 1) : Int) = img.px (2 * y) (2 * x + 1) + k := by exact_mod_cast q2
  have z3 : (img'.px (2 * y + 1) (2 * x) : Int) = img.px (2 * y + 1) (2 * x) + k := by exact_mod_cast q3
  have z4 : (img'.px (2 * y + 1) (2 * x + 1) : Int) = img.px (2 * y + 1) (2 * x + 1) + k := by exact_mod_cast q4
  have z : (im'.px y x : Int) = im.px y x + k := by omega
  rw [one_mul, ← hk]
  exact_mod_cast z

theorem levels_shift {b : ℝ} : ∀ (n : Nat) {img img' : Pyr.Img Nat} {ls : List (Pyr.Img Nat)}, Brighter b img img' → Pyr.levelsFrom n img = .ok ls →
    ∃ ls', Pyr.levelsFrom n img' = .ok ls' ∧ List.Forall₂ (Brighter b) ls ls'
  | 0, _, _, ls, _, h => by
    cases h
    exact ⟨[], rfl, .nil⟩
  | n + 1, img, img', ls, hb, h => by
    rw [Pyr.levelsFrom] at h
    cases h1 : Pyr.boxFilterPyrDown img with
    | error f => rw [h1] at h; cases h
    | ok im =>
      obtain ⟨im', e1, hb'⟩ := down_shift hb h1
      rw [h1] at h
      dsimp only at h
      cases h2 : Pyr.levelsFrom n im with
      | error f => rw [h2] at h; cases h
      | ok rest =>
        obtain ⟨rest', e2, hr⟩ := levels_shift n hb' h2
        rw [h2] at h
        cases h
        exact ⟨im' :: rest', by rw [Pyr.levelsFrom, e1]; dsimp only; rw [e2], .cons hb' hr⟩

/-- **C180, the pyramid.** The pyramid of a picture that is brighter by a constant is, on every level, the pyramid brighter by that constant: rounding the means
down does not spoil this. -/
theorem C180_pyramid {b : ℝ} {img img' : Pyr.Img Nat} (h : Brighter b img img') (n : Nat) :
    ∃ ls ls', Pyr.imagePyramid img (n + 1) = .ok ls ∧ Pyr.imagePyramid img' (n + 1) = .ok ls' ∧ List.Forall₂ (Brighter b) ls ls' := by
  obtain ⟨ls, h1, _, _⟩ := Pyr.C42_pyramid img n
  rw [Pyr.imagePyramid] at h1
  cases h2 : Pyr.levelsFrom n img with
  | error f => rw [h2] at h1; cases h1
  | ok rest =>
    obtain ⟨rest', e, hr⟩ := levels_shift n h h2
    refine ⟨img :: rest, img' :: rest', ?_, ?_, .cons h hr⟩
    · rw [Pyr.imagePyramid, h2]
    · rw [Pyr.imagePyramid, e]

/-- Level `l` of the pyramid has the size of the picture divided by `2 ^ l`. -/
theorem levels_size : ∀ (n : Nat) {img : Pyr.Img Nat} {ls : List (Pyr.Img Nat)}, Pyr.levelsFrom n img = .ok ls → 2 ^ n ≤ img.rows → 2 ^ n ≤ img.cols →
    ∀ im ∈ ls, 0 < im.rows ∧ 0 < im.cols
  | 0, _, ls, h, _, _, im, hm => by
    cases h
    cases hm
  | n + 1, img, ls, h, hr, hc, im, hm => by
    rw [Pyr.levelsFrom] at h
    obtain ⟨im1, e1, r1, c1, _⟩ := Pyr.C42_level img
    rw [e1] at h
    dsimp only at h
    have p1 : 2 ^ n ≤ im1.rows := by rw [r1, pow_succ] at *; omega
    have p2 : 2 ^ n ≤ im1.cols := by rw [c1, pow_succ] at *; omega
    have p3 : 0 < 2 ^ n := by positivity
    cases h2 : Pyr.levelsFrom n im1 with
    | error f => rw [h2] at h; cases h
    | ok rest =>
      rw [h2] at h
      cases h
      rcases List.mem_cons.1 hm with rfl | hm
      · exact ⟨by omega, by omega⟩
      · exact levels_size n h2 p1 p2 im hm

theorem interp_shift {interp : Pyr.Img Nat → Track.Interp} (hi : InterpFollows interp) {b : ℝ} {ls ls' : List (Pyr.Img Nat)}
    (h : List.Forall₂ (Brighter b) ls ls') (hp : ∀ im ∈ ls, 0 < im.rows ∧ 0 < im.cols) :
    List.Forall₂ (fun tr tr' : Track.Interp => ∀ y x, tr' y x = tr y x + b) (ls.map interp) (ls'.map interp) := by
  induction h with
  | nil => exact .nil
  | cons hr _ ih =>
    have h0 := hp _ (List.mem_cons_self ..)
    exact .cons (hi b _ _ hr h0.1 h0.2) (ih fun im him => hp im (List.mem_cons_of_mem _ him))

/-- **C180, new frames.** The frame made of a picture that is brighter by a constant is the frame brighter by that constant, on all levels, if the picture has
at least 32 rows and columns. -/
theorem C180_frame {interp : Pyr.Img Nat → Track.Interp} (hi : InterpFollows interp) {b : ℝ} {img img' : Pyr.Img Nat} (h : Brighter b img img')
    (hr : 32 ≤ img.rows) (hc : 32 ≤ img.cols) :
    ∃ fr fr', Track.newFrame interp img = .ok fr ∧ Track.newFrame interp img' = .ok fr' ∧ fr.length = 6 ∧
      List.Forall₂ (fun tr tr' : Track.Interp => ∀ y x, tr' y x = tr y x + b) fr fr' := by
  obtain ⟨ls, ls', e1, e2, h2⟩ := C180_pyramid h 5
  have hlen : ls.length = 6 := by
    obtain ⟨k, g1, g2, _⟩ := Pyr.C42_pyramid img 5
    rw [e1] at g1
    cases g1
    exact g2
  refine ⟨ls.map interp, ls'.map interp, ?_, ?_, by simpa using hlen, interp_shift hi h2 ?_⟩
  · unfold Track.newFrame Track.defaultLevelNum
    rw [e1]
    rfl
  · unfold Track.newFrame Track.defaultLevelNum
    rw [e2]
    rfl
  · rw [Pyr.imagePyramid] at e1
    cases h3 : Pyr.levelsFrom 5 img with
    | error f => rw [h3] at e1; cases e1
    | ok rest =>
      rw [h3] at e1
      cases e1
      intro im him
      rcases List.mem_cons.1 him with rfl | him
      · exact ⟨by omega, by omega⟩
      · exact levels_size 5 h3 (by norm_num; omega) (by norm_num; omega) im him

/-- **C180, from the pictures on.** The pictures of the base frame and of the tracked frame are brighter by `β` and `δ`. All pyramids can be made, and tracking
finds the same motion and the corresponding light transform. -/
theorem C180_pictures {solve : Track.Solver} (hs : LightFair solve) {interp : Pyr.Img Nat → Track.Interp} (hi : InterpFollows interp) {δ β : ℝ}
    {base base' cur cur' : Pyr.Img Nat} (hb : Brighter β base base') (hcur : Brighter δ cur cur') (hr : 32 ≤ cur.rows) (hc : 32 ≤ cur.cols) (n : Nat) :
    ∃ ls ls' fr fr', Pyr.imagePyramid base (n + 1) = .ok ls ∧ Pyr.imagePyramid base' (n + 1) = .ok ls' ∧ Track.newFrame interp cur = .ok fr ∧
      Track.newFrame interp cur' = .ok fr' ∧
      ∀ (s s' : Track.Settings), SettingsFor δ β s s' → ∀ (cams : List Cam.Cam) (depths : List (Pyr.Img ℝ)) (observers : Nat) (coarse : Motion3) (light : AffLight),
        Track.trackFrame solve ⟨s', cams, ⟨ls', depths⟩, observers⟩ fr' coarse (shiftLight δ β light) =
          (Track.trackFrame solve ⟨s, cams, ⟨ls, depths⟩, observers⟩ fr coarse light).map fun r =>
            (r.1, shiftLight δ β r.2.1, r.2.2.map fun q => (q.1, shiftEvent δ β q.2)) := by
  obtain ⟨ls, ls', e1, e2, h1⟩ := C180_pyramid hb n
  obtain ⟨fr, fr', e3, e4, _, h2⟩ := C180_frame hi hcur hr hc
  exact ⟨ls, ls', fr, fr', e1, e2, e3, e4, fun s s' hset cams depths observers coarse light =>
    C180_track hs (t := ⟨s, cams, ⟨ls, depths⟩, observers⟩) (t' := ⟨s', cams, ⟨ls', depths⟩, observers⟩) hset rfl rfl h1 rfl h2 coarse light⟩

/-- **C180, both pictures alike.** If both pictures get brighter by the same constant, and the light transform is not optimized and does not change the contrast,
the light transform that corresponds to it is the same one. -/
theorem C180_same (b : ℝ) {l : AffLight} (h : l.a = 0) : shiftLight b b l = l := by
  unfold shiftLight
  rw [h, neg_zero, Real.exp_zero]
  ext
  · exact h.symm
  · simp

/-- **C180, one picture only.** If only the tracked picture is brighter by `δ` and the light transform stays as it is, as with the default settings, then for
every motion every residual is greater by `exp a * δ`: the brightness is taken for an error of the match at all places alike. -/
theorem C180_one_sided {δ : ℝ} {tr tr' : Track.Interp} (h : ∀ y x, tr' y x = tr y x + δ) (b : Track.Block) (c : Cam.Cam) (m : Motion3) (l : AffLight) :
    b.eval c tr' m l = b.eval c tr m l + Real.exp l.a * δ := by
  unfold Track.Block.eval AffLight.apply
  dsimp only
  rw [h]
  ring

/-- So a match that is perfect in the one light is off by `|δ|` at every place in the other, with the identity as light transform. -/
theorem C180_one_sided_match {δ : ℝ} {tr tr' : Track.Interp} (h : ∀ y x, tr' y x = tr y x + δ) (bs : List Track.Block) (c : Cam.Cam) (m : Motion3)
    (hp : ∀ q ∈ Track.pointResiduals c tr bs m AffLight.identity, q.2 = 0) :
    ∀ q ∈ Track.pointResiduals c tr' bs m AffLight.identity, |q.2| = |δ| := by
  intro q hq
  obtain ⟨b, hb, rfl⟩ := List.mem_map.1 hq
  have h0 := hp _ (List.mem_map.2 ⟨b, hb, rfl⟩)
  dsimp only at h0 ⊢
  rw [C180_one_sided h, h0]
  simp [AffLight.identity]

/-! ## Non-trivial cases -/

/-- Interpolation by the nearest pixel follows the brightness. -/
example : InterpFollows fun img y x => img.px (Frame.replicate img.rows ⌊y⌋) (Frame.replicate img.cols ⌊x⌋) := by
  intro b img img' h hr hc y x
  dsimp only
  have h1 : ∀ (n : Nat) (i : Int), 0 < n → Frame.replicate n i < n := by
    intro n i hn
    unfold Frame.replicate
    omega
  rw [h.1, h.2.1, h.2.2 _ _ (h1 _ _ hr) (h1 _ _ hc), one_mul]

open Classical in
/-- A solver that takes the better one of two motions (by the sum of the squared residuals) treats problems with the same residuals alike. -/
example (m0 : Motion3) : LightFair fun P =>
    (if (P.blocks.map fun b => b.eval P.cam P.trackedFrame m0 P.affLight ^ 2).sum < (P.blocks.map fun b => b.eval P.cam P.trackedFrame P.motion P.affLight ^ 2).sum
      then m0 else P.motion, P.affLight) := by
  intro δ β P P' h
  have e : ∀ m, (P'.blocks.map fun b => b.eval P'.cam P'.trackedFrame m P'.affLight ^ 2) = P.blocks.map fun b => b.eval P.cam P.trackedFrame m P.affLight ^ 2 := by
    intro m
    have h1 := congrArg (List.map fun v : ℝ => v ^ 2) (C180_residuals h m P.affLight)
    rw [List.map_map, List.map_map] at h1
    rw [h.affLight]
    exact h1
  dsimp only
  rw [e m0, e P'.motion, h.motion, h.affLight]

/-- A picture of 32 rows and columns and the same one brighter by 40. -/
example : Brighter 40 ⟨32, 32, fun y x => y + 2 * x⟩ ⟨32, 32, fun y x => y + 2 * x + 40⟩ :=
  ⟨rfl, rfl, fun y x _ _ => by push_cast; ring⟩

end Mdso.Relit
