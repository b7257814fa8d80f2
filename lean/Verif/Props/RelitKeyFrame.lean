import Verif.Spec.RelitKeyFrame
import Verif.Props.Frame2

/-!
# Keyframes of pictures in another light (C186)
-/

set_option autoImplicit false

namespace Mdso.Frame

open Mdso.Geom Mdso.RelitSpec

/-! ## Selection -/

/-- Two pictures of gradients, the second `m` times as steep on the picture. -/
def TimesPixels (m : ℝ) (g g' : PixSel.Grad ℝ) : Prop := g'.rows = g.rows ∧ g'.cols = g.cols ∧ ∀ y x, y < g.rows → x < g.cols → g'.px y x = m * g.px y x

theorem foldl_better_times {m : ℝ} (hm : 0 < m) {f f' : Nat × Nat → ℝ} : ∀ (l : List (Nat × Nat)) (c : Nat × Nat), f' c = m * f c → (∀ o ∈ l, f' o = m * f o) →
    l.foldl (PixSel.better f') c = l.foldl (PixSel.better f) c ∧ (l.foldl (PixSel.better f) c ∈ c :: l)
  | [], c, _, _ => ⟨rfl, by simp⟩
  | o :: l, c, hc, h => by
    have ho := h o (List.mem_cons_self ..)
    have e : PixSel.better f' c o = PixSel.better f c o := by
      unfold PixSel.better
      rw [hc, ho]
      simp only [mul_lt_mul_iff_right₀ hm]
    have mm : PixSel.better f c o = c ∨ PixSel.better f c o = o := by
      unfold PixSel.better
      split
      · exact Or.inr rfl
      · exact Or.inl rfl
    have hb : f' (PixSel.better f c o) = m * f (PixSel.better f c o) := by
      rcases mm with mm | mm <;> rw [mm] <;> assumption
    obtain ⟨h1, h2⟩ := foldl_better_times hm (f := f) (f' := f') l (PixSel.better f c o) hb fun o ho => h o (List.mem_cons_of_mem _ ho)
    rw [List.foldl_cons, List.foldl_cons, e]
    refine ⟨h1, ?_⟩
    rcases List.mem_cons.1 h2 with h2 | h2
    · rw [h2]
      rcases mm with mm | mm <;> rw [mm] <;> simp
    · exact List.mem_cons_of_mem _ (List.mem_cons_of_mem _ h2)

theorem block_times {m : ℝ} (hm : 0 < m) {g g' : PixSel.Grad ℝ} (h : TimesPixels m g g') {bs i j : Nat} (hi : i + bs < g.rows) (hj : j + bs < g.cols) :
    PixSel.maxOffset g' bs i j = PixSel.maxOffset g bs i j ∧
    g'.px (i + (PixSel.maxOffset g bs i j).1) (j + (PixSel.maxOffset g bs i j).2) =
      m * g.px (i + (PixSel.maxOffset g bs i j).1) (j + (PixSel.maxOffset g bs i j).2) ∧
    PixSel.blockAvg g' bs i j = m * PixSel.blockAvg g bs i j := by
  obtain ⟨_, _, hp⟩ := h
  have key : ∀ o ∈ PixSel.offsets bs, g'.px (i + o.1) (j + o.2) = m * g.px (i + o.1) (j + o.2) := by
    intro o ho
    have := offsets_lt ho
    exact hp _ _ (by omega) (by omega)
  have havg : PixSel.blockAvg g' bs i j = m * PixSel.blockAvg g bs i j := by
    unfold PixSel.blockAvg
    rw [List.map_congr_left key, List.sum_map_mul_left, mul_div_assoc]
  have hmax : PixSel.maxOffset g' bs i j = PixSel.maxOffset g bs i j ∧
      g'.px (i + (PixSel.maxOffset g bs i j).1) (j + (PixSel.maxOffset g bs i j).2) =
        m * g.px (i + (PixSel.maxOffset g bs i j).1) (j + (PixSel.maxOffset g bs i j).2) := by
    unfold PixSel.maxOffset
    cases ho : PixSel.offsets bs with
    | nil => exact ⟨rfl, hp _ _ (by simp; omega) (by simp; omega)⟩
    | cons c cs =>
      rw [ho] at key
      obtain ⟨h1, h2⟩ := foldl_better_times hm (f := fun o => g.px (i + o.1) (j + o.2)) (f' := fun o => g'.px (i + o.1) (j + o.2)) cs c
        (key c (List.mem_cons_self ..)) fun o ho => key o (List.mem_cons_of_mem _ ho)
      exact ⟨h1, key _ h2⟩
  exact ⟨hmax.1, hmax.2, havg⟩

theorem pick_times {m : ℝ} (hm : 0 < m) {g g' : PixSel.Grad ℝ} (h : TimesPixels m g g') {bs i j : Nat} (t : ℝ) (hi : i + bs < g.rows) (hj : j + bs < g.cols) :
    PixSel.pick g' bs (m * t) i j = PixSel.pick g bs t i j := by
  obtain ⟨h1, h2, h3⟩ := block_times hm h hi hj
  unfold PixSel.pick
  simp only [h1, h2, h3, ← mul_add, gt_iff_lt, mul_lt_mul_iff_right₀ hm]

theorem pick_more {m : ℝ} (hm : 1 ≤ m) {g g' : PixSel.Grad ℝ} (h : TimesPixels m g g') {bs i j : Nat} {t : ℝ} (ht : 0 ≤ t) (hi : i + bs < g.rows)
    (hj : j + bs < g.cols) : (PixSel.pick g bs t i j).Sublist (PixSel.pick g' bs t i j) := by
  have h0 : 0 < m := by linarith
  obtain ⟨h1, h2, h3⟩ := block_times h0 h hi hj
  unfold PixSel.pick
  simp only [h1, h2, h3]
  by_cases hc : g.px (i + (PixSel.maxOffset g bs i j).1) (j + (PixSel.maxOffset g bs i j).2) > PixSel.blockAvg g bs i j + t
  · rw [if_pos hc, if_pos]
    have := mul_lt_mul_of_pos_left hc h0
    nlinarith
  · rw [if_neg hc]
    exact List.nil_sublist _

theorem selectLayer_times {m : ℝ} (hm : 0 < m) {g g' : PixSel.Grad ℝ} (h : TimesPixels m g g') (fuel bs : Nat) (t : ℝ) :
    PixSel.selectLayer fuel g' bs (m * t) = PixSel.selectLayer fuel g bs t := by
  unfold PixSel.selectLayer
  rw [h.1, h.2.1]
  cases hs : PixSel.scan g.rows bs fuel 0 with
  | none => rfl
  | some is =>
    cases is with
    | nil => rfl
    | cons i0 is =>
      dsimp only
      cases hs2 : PixSel.scan g.cols bs fuel 0 with
      | none => rfl
      | some js =>
        dsimp only
        congr 1
        apply List.flatMap_congr
        intro i hi
        apply List.flatMap_congr
        intro j hj
        exact pick_times hm h t (scan_lt _ _ _ _ _ hs i hi) (scan_lt _ _ _ _ _ hs2 j hj)

theorem layers_times {m : ℝ} (hm : 0 < m) {g g' : PixSel.Grad ℝ} (h : TimesPixels m g g') (fuel : Nat) (shuffle : Nat → List PixSel.Pt → List PixSel.Pt)
    (bs : Nat) : ∀ (ts : List ℝ) (i : Nat), PixSel.layers fuel shuffle g' bs i (ts.map fun t => m * t) = PixSel.layers fuel shuffle g bs i ts
  | [], _ => rfl
  | t :: ts, i => by
    rw [List.map_cons, PixSel.layers, PixSel.layers, selectLayer_times hm h, layers_times hm h fuel shuffle bs ts]

theorem select_times {m : ℝ} (hm : 0 < m) {g g' : PixSel.Grad ℝ} (h : TimesPixels m g g') (fuel : Nat) (shuffle : Nat → List PixSel.Pt → List PixSel.Pt)
    (s : PixSel.Settings ℝ) (st : PixSel.State) (n : Nat) :
    PixSel.select fuel shuffle (thresholdsTimes m s) st g' n = PixSel.select fuel shuffle s st g n := by
  unfold PixSel.select PixSel.selectInternal thresholdsTimes
  simp only [layers_times hm h, List.isEmpty_map]

theorem relit_times {k b : ℝ} {img img' : Pyr.Img Nat} (h : Relit k b img img') : TimesPixels |k| (grad img).forSelector (grad img').forSelector :=
  ⟨h.1, h.2.1, fun y x hy hx => (C142_relit h y x hy hx).2.2⟩

/-- **C186, selection.** If all brightnesses `v` of a picture become `k v + b` and the thresholds follow the contrast, the same pixels are selected in the same
order, and the selector is left in the same state. -/
theorem C186_selection {k b : ℝ} {img img' : Pyr.Img Nat} (h : Relit k b img img') (hk : k ≠ 0) (fuel : Nat)
    (shuffle : Nat → List PixSel.Pt → List PixSel.Pt) (s : PixSel.Settings ℝ) (st : PixSel.State) (n : Nat) :
    PixSel.select fuel shuffle (thresholdsTimes |k| s) st (grad img').forSelector n = PixSel.select fuel shuffle s st (grad img).forSelector n :=
  select_times (abs_pos.2 hk) (relit_times h) fuel shuffle s st n

theorem flatMap_sublist {α β : Type} {f g : α → List β} : ∀ l : List α, (∀ a ∈ l, (f a).Sublist (g a)) → (l.flatMap f).Sublist (l.flatMap g)
  | [], _ => List.Sublist.refl _
  | a :: l, h => by
    rw [List.flatMap_cons, List.flatMap_cons]
    exact (h a (List.mem_cons_self ..)).append (flatMap_sublist l fun b hb => h b (List.mem_cons_of_mem _ hb))

/-- **C186, contrast.** With the same thresholds and blocks, more contrast never loses a pixel: the pixels found in a layer are found again, in the same
order, whatever else is found. -/
theorem C186_contrast {k b : ℝ} {img img' : Pyr.Img Nat} (h : Relit k b img img') (hk : 1 ≤ |k|) (fuel bs : Nat) {t : ℝ} (ht : 0 ≤ t) {l : List PixSel.Pt}
    (hl : PixSel.selectLayer fuel (grad img).forSelector bs t = some l) :
    ∃ l', PixSel.selectLayer fuel (grad img').forSelector bs t = some l' ∧ l.Sublist l' := by
  obtain ⟨g, hg⟩ : ∃ g, g = (grad img).forSelector := ⟨_, rfl⟩
  obtain ⟨g', hg'⟩ : ∃ g', g' = (grad img').forSelector := ⟨_, rfl⟩
  have hT : TimesPixels |k| g g' := by rw [hg, hg']; exact relit_times h
  rw [← hg] at hl
  rw [← hg']
  unfold PixSel.selectLayer at hl ⊢
  rw [hT.1, hT.2.1]
  cases hs : PixSel.scan g.rows bs fuel 0 with
  | none => rw [hs] at hl; cases hl
  | some is =>
    rw [hs] at hl
    cases is with
    | nil => cases hl; exact ⟨[], rfl, List.Sublist.refl _⟩
    | cons i0 is =>
      dsimp only at hl ⊢
      cases hs2 : PixSel.scan g.cols bs fuel 0 with
      | none => rw [hs2] at hl; cases hl
      | some js =>
        rw [hs2] at hl
        dsimp only at hl ⊢
        injection hl with hl
        refine ⟨_, rfl, ?_⟩
        rw [← hl]
        apply flatMap_sublist
        intro i hi
        apply flatMap_sublist
        intro j hj
        exact pick_more hk hT ht (scan_lt _ _ _ _ _ hs i hi) (scan_lt _ _ _ _ _ hs2 j hj)

/-! ## Points -/

theorem read_relit {k b : ℝ} {img img' : Pyr.Img Nat} (h : Relit k b img img') (pos : V2) :
    (∃ e, readAt img pos = .error e ∧ readAt img' pos = .error e) ∨
    ∃ v v' gx gy, readAt img pos = .ok v ∧ readAt img' pos = .ok v' ∧ (v' : ℝ) = k * v + b ∧
      readAt (grad img).gradX pos = .ok gx ∧ readAt (grad img').gradX pos = .ok (k * gx) ∧
      readAt (grad img).gradY pos = .ok gy ∧ readAt (grad img').gradY pos = .ok (k * gy) := by
  by_cases h0 : 0 ≤ Util.truncInt pos.y ∧ 0 ≤ Util.truncInt pos.x
  · by_cases h1 : (Util.truncInt pos.y).toNat < img.rows ∧ (Util.truncInt pos.x).toNat < img.cols
    · right
      have h1' : (Util.truncInt pos.y).toNat < img'.rows ∧ (Util.truncInt pos.x).toNat < img'.cols := by rw [h.1, h.2.1]; exact h1
      have r := C142_relit h _ _ h1.1 h1.2
      refine ⟨img.px (Util.truncInt pos.y).toNat (Util.truncInt pos.x).toNat, img'.px (Util.truncInt pos.y).toNat (Util.truncInt pos.x).toNat,
        (grad img).gradX.px (Util.truncInt pos.y).toNat (Util.truncInt pos.x).toNat, (grad img).gradY.px (Util.truncInt pos.y).toNat (Util.truncInt pos.x).toNat,
        ?_, ?_, h.2.2 _ _ h1.1 h1.2, ?_, ?_, ?_, ?_⟩
      · exact (if_pos h0).trans (if_pos h1)
      · exact (if_pos h0).trans (if_pos h1')
      · exact (if_pos h0).trans (if_pos h1)
      · rw [← r.1]; exact (if_pos h0).trans (if_pos h1')
      · exact (if_pos h0).trans (if_pos h1)
      · rw [← r.2.1]; exact (if_pos h0).trans (if_pos h1')
    · left
      have h1' : ¬((Util.truncInt pos.y).toNat < img'.rows ∧ (Util.truncInt pos.x).toNat < img'.cols) := by rw [h.1, h.2.1]; exact h1
      exact ⟨_, (if_pos h0).trans (if_neg h1), (if_pos h0).trans (if_neg h1')⟩
  · left
    exact ⟨_, if_neg h0, if_neg h0⟩

theorem normalize_relit {k : ℝ} (hk : k ≠ 0) (gx gy : ℝ) :
    normalize ⟨k * gx, k * gy⟩ = (if 0 < k then (1 : ℝ) else -1) • normalize ⟨gx, gy⟩ := by
  have hs : sqNorm ⟨k * gx, k * gy⟩ = k ^ 2 * sqNorm ⟨gx, gy⟩ := by unfold sqNorm; ring
  have hn : Cam.norm2 ⟨k * gx, k * gy⟩ = |k| * Cam.norm2 ⟨gx, gy⟩ := by
    unfold Cam.norm2
    rw [hs, Real.sqrt_mul (sq_nonneg k), Real.sqrt_sq_eq_abs]
  unfold normalize Cam.normalized2
  have hk2 : 0 < k ^ 2 := by positivity
  by_cases h0 : 0 < sqNorm ⟨gx, gy⟩
  · have hpos : 0 < Cam.norm2 ⟨gx, gy⟩ := Real.sqrt_pos.2 h0
    rw [if_pos h0, if_pos (by rw [hs]; exact mul_pos hk2 h0), hn]
    rcases lt_or_gt_of_ne hk with hk' | hk'
    · rw [if_neg (by linarith), abs_of_neg hk']
      ext
      · simp only [smul_x]; field_simp
      · simp only [smul_y]; field_simp
    · rw [if_pos hk', abs_of_pos hk']
      ext
      · simp only [smul_x]; field_simp
      · simp only [smul_y]; field_simp
  · have hx : gx = 0 := by unfold sqNorm at h0; nlinarith [mul_self_nonneg gx, mul_self_nonneg gy]
    have hy : gy = 0 := by unfold sqNorm at h0; nlinarith [mul_self_nonneg gx, mul_self_nonneg gy]
    rw [if_neg h0, if_neg (by rw [hs]; nlinarith)]
    subst hx hy
    split <;> ext <;> simp

theorem samples_relit {k b : ℝ} (hk : k ≠ 0) {img img' : Pyr.Img Nat} (h : Relit k b img img') {c : Cam.Cam} {f f' : PreFrame}
    (hg : f.grads = grad img) (h0 : at' f.pyramid 0 = .ok img) (hg' : f'.grads = grad img') (h0' : at' f'.pyramid 0 = .ok img') (p : V2) :
    ∀ ds : List V2, EndAlike (List.Forall₂ (RelitSample k b)) (samples c f p ds) (samples c f' p ds)
  | [] => List.Forall₂.nil
  | d :: ds => by
    have ih := samples_relit hk h (c := c) hg h0 hg' h0' p ds
    rw [samples, samples]
    rcases read_relit h (p + d) with ⟨e, h1, h1'⟩ | ⟨v, v', gx, gy, h1, h1', hv, h2, h2', h3, h3'⟩
    · simp only [h0, h0', h1, h1', bind, Except.bind, EndAlike]
    · cases hr : samples c f p ds with
      | error e =>
        cases hr' : samples c f' p ds with
        | error e' =>
          rw [hr, hr'] at ih
          simp only [h0, h0', h1, h1', hg, hg', h2, h2', h3, h3', bind, Except.bind, EndAlike]
          exact ih
        | ok r' => rw [hr, hr'] at ih; exact ih.elim
      | ok r =>
        cases hr' : samples c f' p ds with
        | error e' => rw [hr, hr'] at ih; exact ih.elim
        | ok r' =>
          rw [hr, hr'] at ih
          simp only [h0, h0', h1, h1', hg, hg', h2, h2', h3, h3', bind, Except.bind, EndAlike]
          exact List.Forall₂.cons ⟨rfl, hv, rfl, normalize_relit hk gx gy⟩ ih

/-- **C186, points.** A point made at a pixel of a frame in another light is the same: it is made or not, and out of bounds or not, alike, and its patch shows
the same directions, with the brightnesses and gradients of the new light. -/
theorem C186_point {k b : ℝ} (hk : k ≠ 0) {img img' : Pyr.Img Nat} (h : Relit k b img img') {c : Cam.Cam} {f f' : PreFrame} (hf : FrameOf c img f)
    (hf' : FrameOf c img' f') (pattern : List V2) (height : Int) (p : V2) :
    EndAlike (SameCandidate k b) (newPoint c pattern height f p) (newPoint c pattern height f' p) := by
  obtain ⟨_, _, n, hn⟩ := hf
  obtain ⟨_, _, n', hn'⟩ := hf'
  obtain ⟨hg, h0, _⟩ := frame_parts hn
  obtain ⟨hg', h0', _⟩ := frame_parts hn'
  have hs := samples_relit hk h (c := c) hg h0 hg' h0' p pattern
  unfold newPoint
  by_cases hi : Cam.isOnImage c p height
  · rw [if_pos hi, if_pos hi]
    cases hr : samples c f p pattern with
    | error e =>
      cases hr' : samples c f' p pattern with
      | error e' => rw [hr, hr'] at hs; exact hs
      | ok r' => rw [hr, hr'] at hs; exact hs.elim
    | ok r =>
      cases hr' : samples c f' p pattern with
      | error e' => rw [hr, hr'] at hs; exact hs.elim
      | ok r' => rw [hr, hr'] at hs; exact ⟨rfl, rfl, hs⟩
  · rw [if_neg hi, if_neg hi]
    exact ⟨rfl, rfl, List.Forall₂.nil⟩

theorem addImmatures_relit {k b : ℝ} (hk : k ≠ 0) {img img' : Pyr.Img Nat} (h : Relit k b img img') {c : Cam.Cam} {f f' : PreFrame} (hf : FrameOf c img f)
    (hf' : FrameOf c img' f') (pattern : List V2) (height : Int) : ∀ qs : List PixSel.Pt,
    EndAlike (List.Forall₂ (SameCandidate k b)) (addImmatures c pattern height f qs) (addImmatures c pattern height f' qs)
  | [] => List.Forall₂.nil
  | q :: qs => by
    have ih := addImmatures_relit hk h hf hf' pattern height qs
    have hp := C186_point hk h hf hf' pattern height ⟨q.1, q.2⟩
    rw [addImmatures, addImmatures]
    cases h1 : newPoint c pattern height f ⟨q.1, q.2⟩ with
    | error e =>
      cases h1' : newPoint c pattern height f' ⟨q.1, q.2⟩ with
      | error e' => rw [h1, h1'] at hp; exact hp
      | ok r' => rw [h1, h1'] at hp; exact hp.elim
    | ok a =>
      cases h1' : newPoint c pattern height f' ⟨q.1, q.2⟩ with
      | error e' => rw [h1, h1'] at hp; exact hp.elim
      | ok a' =>
        rw [h1, h1'] at hp
        cases h2 : addImmatures c pattern height f qs with
        | error e =>
          cases h2' : addImmatures c pattern height f' qs with
          | error e' => rw [h2, h2'] at ih; exact ih
          | ok r' => rw [h2, h2'] at ih; exact ih.elim
        | ok r =>
          cases h2' : addImmatures c pattern height f' qs with
          | error e' => rw [h2, h2'] at ih; exact ih.elim
          | ok r' => rw [h2, h2'] at ih; exact List.Forall₂.cons hp ih

/-! ## Keyframes -/

/-- **C186, selecting again.** Selecting points anew in a keyframe, as before activating them all, does so too, whatever points the two keyframes had. -/
theorem C186_denser {k b : ℝ} (hk : k ≠ 0) {img img' : Pyr.Img Nat} (h : Relit k b img img') {c : Cam.Cam} {kf kf' : KeyFrame} (hf : FrameOf c img kf.pre)
    (hf' : FrameOf c img' kf'.pre) (fuel : Nat) (shuffle : Nat → List PixSel.Pt → List PixSel.Pt) (pattern : List V2) (height : Int)
    (sel : PixSel.Settings ℝ) (st : PixSel.State) (pointsNum : Nat) :
    EndAlike (SameCandidates k b) (selectPointsDenser fuel shuffle c pattern height sel st pointsNum kf)
      (selectPointsDenser fuel shuffle c pattern height (thresholdsTimes |k| sel) st pointsNum kf') := by
  obtain ⟨_, _, n, hn⟩ := id hf
  obtain ⟨_, _, n', hn'⟩ := id hf'
  have hg := (frame_parts hn).1
  have hg' := (frame_parts hn').1
  have hsel := C186_selection h hk fuel shuffle sel st pointsNum
  unfold selectPointsDenser
  rw [hg, hg', hsel]
  cases hs : PixSel.select fuel shuffle sel st (grad img).forSelector pointsNum with
  | error e => exact rfl
  | ok r =>
    cases r with
    | none => exact trivial
    | some r =>
      have ha := addImmatures_relit hk h hf hf' pattern height r.1
      dsimp only
      cases h2 : addImmatures c pattern height kf.pre r.1 with
      | error e =>
        cases h2' : addImmatures c pattern height kf'.pre r.1 with
        | error e' => rw [h2, h2'] at ha; exact ha
        | ok r' => rw [h2, h2'] at ha; exact ha.elim
      | ok a =>
        cases h2' : addImmatures c pattern height kf'.pre r.1 with
        | error e' => rw [h2, h2'] at ha; exact ha.elim
        | ok a' => rw [h2, h2'] at ha; exact ⟨rfl, ha, rfl, rfl⟩

/-- **C186, keyframes.** A keyframe made from the same picture in another light, with thresholds that follow the contrast, has the same candidates, or
making it fails alike. -/
theorem C186_keyframe {k b : ℝ} (hk : k ≠ 0) {img img' : Pyr.Img Nat} (h : Relit k b img img') {c : Cam.Cam} {f f' : PreFrame} (hf : FrameOf c img f)
    (hf' : FrameOf c img' f') (fuel : Nat) (shuffle : Nat → List PixSel.Pt → List PixSel.Pt) (pattern : List V2) (height : Int)
    (sel : PixSel.Settings ℝ) (st : PixSel.State) (pointsNum : Nat) :
    EndAlike (SameCandidates k b) (newKeyFrame fuel shuffle c pattern height sel st pointsNum f)
      (newKeyFrame fuel shuffle c pattern height (thresholdsTimes |k| sel) st pointsNum f') :=
  C186_denser (kf := ⟨f, [], []⟩) (kf' := ⟨f', [], []⟩) hk h hf hf' fuel shuffle pattern height sel st pointsNum

/-- **C186, brightness.** With the settings as they are, a keyframe made from a brighter or darker picture, or from a negative, has the same candidates. -/
theorem C186_brightness {k b : ℝ} (hk : |k| = 1) {img img' : Pyr.Img Nat} (h : Relit k b img img') {c : Cam.Cam} {f f' : PreFrame} (hf : FrameOf c img f)
    (hf' : FrameOf c img' f') (fuel : Nat) (shuffle : Nat → List PixSel.Pt → List PixSel.Pt) (pattern : List V2) (height : Int)
    (sel : PixSel.Settings ℝ) (st : PixSel.State) (pointsNum : Nat) :
    EndAlike (SameCandidates k b) (newKeyFrame fuel shuffle c pattern height sel st pointsNum f)
      (newKeyFrame fuel shuffle c pattern height sel st pointsNum f') := by
  have hk0 : k ≠ 0 := by
    intro h0
    rw [h0, abs_zero] at hk
    norm_num at hk
  have := C186_keyframe hk0 h hf hf' fuel shuffle pattern height sel st pointsNum
  have e : thresholdsTimes |k| sel = sel := by
    unfold thresholdsTimes
    rw [hk]
    simp
  rwa [e] at this

/-- Non-trivial case: the negative of a picture with one bright spot. Its keyframe has the one candidate of the picture itself. -/
example (c : Cam.Cam) (hw : c.width = 5) (hh : c.height = 5) : ∃ img' f' kf', Relit (-1) 255 spotPicture img' ∧ FrameOf c img' f' ∧
    newKeyFrame 5 (fun _ l => l) c [⟨0, 0⟩] 0 spotSelector (PixSel.init spotSelector) 10 f' = .ok (some (kf', ⟨4, 1⟩)) ∧ kf'.immature.length = 1 := by
  obtain ⟨f, kf, hf, hkf, hp, -⟩ := spot_keyframe c hw hh
  have hr : Relit (-1) 255 spotPicture ⟨5, 5, fun y x => 255 - spotPicture.px y x⟩ := by
    refine ⟨rfl, rfl, ?_⟩
    intro y x _ _
    have : spotPicture.px y x ≤ 255 := by
      unfold spotPicture
      dsimp only
      split <;> norm_num
    dsimp only
    rw [Nat.cast_sub this]
    push_cast
    ring
  obtain ⟨f', hf'⟩ : ∃ f, newPreFrame ⟨5, 5, fun y x => 255 - spotPicture.px y x⟩ 1 = .ok f := ⟨_, rfl⟩
  have hfo' : FrameOf c ⟨5, 5, fun y x => 255 - spotPicture.px y x⟩ f' := ⟨hh.symm, hw.symm, 1, hf'⟩
  have h := C186_brightness (k := -1) (by simp) hr hf hfo' 5 (fun _ l => l) [⟨0, 0⟩] 0 spotSelector (PixSel.init spotSelector) 10
  rw [hkf] at h
  cases h2 : newKeyFrame 5 (fun _ l => l) c [⟨0, 0⟩] 0 spotSelector (PixSel.init spotSelector) 10 f' with
  | error e => rw [h2] at h; exact h.elim
  | ok r =>
    rw [h2] at h
    cases r with
    | none => exact h.elim
    | some r =>
      obtain ⟨h3, h4, -⟩ := h
      refine ⟨_, f', r.1, hr, hfo', ?_, ?_⟩
      · rw [h2]
        exact congrArg (fun q => Except.ok (some (r.1, q))) h3
      · rw [← h4.length_eq, ← List.length_map (f := fun p : ImPoint => p.p), hp]
        rfl

/-- Two pictures, the second with half the contrast, and one block of them. -/
def edge (v : Nat) : Pyr.Img Nat := ⟨3, 3, fun _ x => if x = 2 then v else 0⟩

theorem edge_slopes (v : Nat) : ∀ y x, y < 2 → x < 2 → (grad (edge v)).gradNorm.px y x = if x = 1 then (v : ℝ) / 2 else 0 := by
  intro y x hy hx
  have h1 : slopeY (edge v) y x = 0 := by
    have h2 : x ≠ 2 := by omega
    unfold slopeY edge
    simp [h2]
  have h2 : slopeX (edge v) y x = if x = 1 then (v : ℝ) / 2 else 0 := by
    unfold slopeX edge next before
    interval_cases x <;> norm_num
  rw [norm_px (edge v) (show y < 3 by omega) (show x < 3 by omega), h1, h2]
  split
  · rw [zero_pow (by norm_num), add_zero, Real.sqrt_sq (by positivity)]
  · norm_num

/-- **C186, why the thresholds must follow.** With the same settings a picture with half the contrast can lose a pixel. -/
theorem C186_contrast_example : Relit 2 0 (edge 50) (edge 100) ∧ PixSel.selectLayer 5 (grad (edge 100)).forSelector 2 20 = some [(1, 0)] ∧
    PixSel.selectLayer 5 (grad (edge 50)).forSelector 2 20 = some [] := by
  have hp : ∀ v y x, y < 2 → x < 2 → ((grad (edge v)).forSelector).px y x = if x = 1 then (v : ℝ) / 2 else 0 := edge_slopes
  have hs : PixSel.scan 3 2 5 0 = some [0] := by decide
  have ho : PixSel.offsets 2 = [(0, 0), (0, 1), (1, 0), (1, 1)] := by decide
  have key : ∀ v : Nat, 0 < v → PixSel.selectLayer 5 (grad (edge v)).forSelector 2 20 = some (if (v : ℝ) / 2 > v / 4 + 20 then [(1, 0)] else []) := by
    intro v hv
    have hv' : (0 : ℝ) < v := by exact_mod_cast hv
    have a00 := hp v 0 0 (by norm_num) (by norm_num)
    have a01 := hp v 0 1 (by norm_num) (by norm_num)
    have a10 := hp v 1 0 (by norm_num) (by norm_num)
    have a11 := hp v 1 1 (by norm_num) (by norm_num)
    have hm : PixSel.maxOffset (grad (edge v)).forSelector 2 0 0 = (0, 1) := by
      unfold PixSel.maxOffset
      rw [ho]
      have hn : ¬(v : ℝ) / 2 < 0 := by linarith
      simp [PixSel.better, a00, a01, a10, a11, hv, hn]
    have ha : PixSel.blockAvg (grad (edge v)).forSelector 2 0 0 = v / 4 := by
      unfold PixSel.blockAvg
      rw [ho]
      simp only [List.map_cons, List.map_nil, List.sum_cons, List.sum_nil, Nat.zero_add, a00, a01, a10, a11]
      norm_num
    unfold PixSel.selectLayer
    rw [show (grad (edge v)).forSelector.rows = 3 from rfl, show (grad (edge v)).forSelector.cols = 3 from rfl, hs]
    simp only [List.flatMap_cons, List.flatMap_nil, List.append_nil]
    unfold PixSel.pick
    rw [hm, ha]
    simp only [Nat.zero_add, a01, if_true]
  refine ⟨⟨rfl, rfl, ?_⟩, ?_, ?_⟩
  · intro y x _ _
    unfold edge
    dsimp only
    split <;> norm_num
  · rw [key 100 (by norm_num), if_pos (by norm_num)]
  · rw [key 50 (by norm_num), if_neg (by norm_num)]

end Mdso.Frame
