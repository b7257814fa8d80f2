import Verif.Props.Frame
import Mathlib.Tactic.IntervalCases

/-!
# Properties of new points, keyframes and frames (C143-C146)
-/

set_option autoImplicit false

namespace Mdso.Frame

open Mdso.Geom

/-! ## C143: the patch of a new point -/

theorem trunc_nonneg {v : ℝ} (h : 0 ≤ v) : Util.truncInt v = ⌊v⌋ := by
  unfold Util.truncInt
  rw [if_pos h]

theorem readAt_in {α : Type} (img : Pyr.Img α) (pos : V2) (hx : 0 ≤ pos.x) (hx' : pos.x < img.cols) (hy : 0 ≤ pos.y) (hy' : pos.y < img.rows) :
    readAt img pos = .ok (img.px ⌊pos.y⌋.toNat ⌊pos.x⌋.toNat) := by
  have a := Int.floor_nonneg.2 hx
  have b := Int.floor_nonneg.2 hy
  have a' : ⌊pos.x⌋ < (img.cols : Int) := Int.floor_lt.2 (by exact_mod_cast hx')
  have b' : ⌊pos.y⌋ < (img.rows : Int) := Int.floor_lt.2 (by exact_mod_cast hy')
  unfold readAt Pyr.Img.read
  rw [trunc_nonneg hx, trunc_nonneg hy, if_pos ⟨b, a⟩, if_pos ⟨by omega, by omega⟩]

theorem normalize_spec (g : V2) : (g = ⟨0, 0⟩ → normalize g = ⟨0, 0⟩) ∧
    (g ≠ ⟨0, 0⟩ → sqNorm (normalize g) = 1 ∧ ∃ k : ℝ, 0 < k ∧ normalize g = k • g) := by
  unfold normalize Cam.normalized2
  constructor
  · rintro rfl
    rw [if_neg (by simp [sqNorm])]
  · intro h
    have h0 : 0 < sqNorm g := by
      unfold sqNorm
      by_contra hc
      have : g.x * g.x + g.y * g.y = 0 := le_antisymm (not_lt.1 hc) (by nlinarith [sq_nonneg g.x, sq_nonneg g.y])
      exact h (V2.ext (by nlinarith [sq_nonneg g.x, sq_nonneg g.y]) (by nlinarith [sq_nonneg g.x, sq_nonneg g.y]))
    rw [if_pos h0]
    have hn : 0 < Cam.norm2 g := Real.sqrt_pos.2 h0
    refine ⟨?_, 1 / Cam.norm2 g, by positivity, rfl⟩
    have hs : Cam.norm2 g * Cam.norm2 g = sqNorm g := Real.mul_self_sqrt h0.le
    show 1 / Cam.norm2 g * g.x * (1 / Cam.norm2 g * g.x) + 1 / Cam.norm2 g * g.y * (1 / Cam.norm2 g * g.y) = 1
    have : g.x * g.x + g.y * g.y = Cam.norm2 g * Cam.norm2 g := hs.symm
    field_simp
    nlinarith

theorem infNorm_le : ∀ (ds : List V2) (m : ℝ), m ≤ ds.foldl (fun m e => max m (BA.infNorm e)) m ∧
    ∀ e ∈ ds, BA.infNorm e ≤ ds.foldl (fun m e => max m (BA.infNorm e)) m
  | [], m => ⟨le_rfl, by simp⟩
  | d :: ds, m => by
    obtain ⟨h1, h2⟩ := infNorm_le ds (max m (BA.infNorm d))
    refine ⟨le_trans (le_max_left _ _) h1, ?_⟩
    intro e he
    rcases List.mem_cons.1 he with rfl | he
    · exact le_trans (le_max_right _ _) h1
    · exact h2 e he

/-- Every offset of a pattern is within its height. -/
theorem height_bound {pattern : List V2} {height : Int} (h : BA.patternHeight pattern = .ok height) {d : V2} (hd : d ∈ pattern) :
    |d.x| ≤ height ∧ |d.y| ≤ height := by
  cases pattern with
  | nil => cases h
  | cons e ds =>
    simp only [BA.patternHeight, Except.ok.injEq] at h
    obtain ⟨h1, h2⟩ := infNorm_le ds (BA.infNorm e)
    have h3 : BA.infNorm d ≤ ds.foldl (fun m e => max m (BA.infNorm e)) (BA.infNorm e) := by
      rcases List.mem_cons.1 hd with rfl | hd
      · exact h1
      · exact h2 d hd
    have h4 := Int.le_ceil (ds.foldl (fun m e => max m (BA.infNorm e)) (BA.infNorm e))
    rw [h] at h4
    unfold BA.infNorm at h3 h4
    exact ⟨le_trans (le_trans (le_max_left _ _) h3) h4, le_trans (le_trans (le_max_right _ _) h3) h4⟩

theorem frame_parts {img : Pyr.Img Nat} {n : Nat} {f : PreFrame} (h : newPreFrame img n = .ok f) :
    f.grads = grad img ∧ at' f.pyramid 0 = .ok img ∧ Pyr.imagePyramid img n = .ok f.pyramid ∧ internals f.pyramid (List.range n) = .ok f.grids := by
  unfold newPreFrame at h
  cases h1 : Pyr.imagePyramid img n with
  | error e => rw [h1] at h; cases h
  | ok pyr =>
    cases h2 : internals pyr (List.range n) with
    | error e =>
      simp only [h1, h2, bind, Except.bind] at h
      cases h
    | ok grids =>
      simp only [h1, h2, bind, Except.bind] at h
      injection h with h
      subst h
      refine ⟨rfl, ?_, rfl, h2⟩
      cases n with
      | zero => cases h1
      | succ n =>
        simp only [Pyr.imagePyramid] at h1
        split at h1
        · cases h1
        · injection h1 with h1
          subst h1
          rfl

theorem samples_spec {c : Cam.Cam} {img : Pyr.Img Nat} {f : PreFrame} (hg : f.grads = grad img) (h0 : at' f.pyramid 0 = .ok img) (p : V2) :
    ∀ ds : List V2, (∀ d ∈ ds, 0 ≤ (p + d).x ∧ (p + d).x < img.cols ∧ 0 ≤ (p + d).y ∧ (p + d).y < img.rows) →
    ∃ ss, samples c f p ds = .ok ss ∧ ss.length = ds.length ∧ ∀ (i : Nat) d s, ds[i]? = some d → ss[i]? = some s → Shows c img (p + d) s
  | [], _ => ⟨[], rfl, rfl, by simp⟩
  | d :: ds, h => by
    obtain ⟨hx, hx', hy, hy'⟩ := h d (List.mem_cons_self ..)
    obtain ⟨ss, hss, hlen, hsp⟩ := samples_spec (c := c) hg h0 p ds fun d hd => h d (List.mem_cons_of_mem _ hd)
    obtain ⟨y, hY⟩ : ∃ y, y = ⌊(p + d).y⌋.toNat := ⟨_, rfl⟩
    obtain ⟨x, hX⟩ : ∃ x, x = ⌊(p + d).x⌋.toNat := ⟨_, rfl⟩
    have fx0 := Int.floor_nonneg.2 hx
    have fy0 := Int.floor_nonneg.2 hy
    have ey : (y : Int) = ⌊(p + d).y⌋ := by omega
    have ex : (x : Int) = ⌊(p + d).x⌋ := by omega
    have ly : y < img.rows := by
      have : ⌊(p + d).y⌋ < (img.rows : Int) := Int.floor_lt.2 (by exact_mod_cast hy')
      omega
    have lx : x < img.cols := by
      have : ⌊(p + d).x⌋ < (img.cols : Int) := Int.floor_lt.2 (by exact_mod_cast hx')
      omega
    have r0 : readAt img (p + d) = .ok (img.px y x) := by rw [readAt_in img _ hx hx' hy hy', hY, hX]
    have rd : ∀ (i : Pyr.Img ℝ) v, i.rows = img.rows → i.cols = img.cols → i.read y x = .ok v → readAt i (p + d) = .ok v := by
      intro i v e1 e2 e3
      rw [readAt_in i _ hx (by rw [e2]; exact hx') hy (by rw [e1]; exact hy'), ← hY, ← hX]
      unfold Pyr.Img.read at e3
      rw [if_pos (by rw [e1, e2]; exact ⟨ly, lx⟩)] at e3
      exact e3
    obtain ⟨g1, g2, -⟩ := C142_gradients img y x ly lx
    refine ⟨⟨(Cam.unmap c (p + d)).normalized, img.px y x, ⟨slopeX img y x, slopeY img y x⟩, normalize ⟨slopeX img y x, slopeY img y x⟩⟩ :: ss, ?_, by simp [hlen], ?_⟩
    · rw [samples, h0, hg]
      simp only [bind, Except.bind, r0, rd _ _ rfl rfl g1, rd _ _ rfl rfl g2, hss]
    · intro i d' s hd hs
      cases i with
      | zero =>
        simp only [List.getElem?_cons_zero, Option.some.injEq] at hd hs
        subst hd hs
        have fx : ((x : Int) : ℝ) = ((⌊(p + d).x⌋ : Int) : ℝ) := by rw [ex]
        have fy : ((y : Int) : ℝ) = ((⌊(p + d).y⌋ : Int) : ℝ) := by rw [ey]
        push_cast at fx fy
        refine ⟨y, x, ⟨ly, lx, ?_, ?_, ?_, ?_⟩, rfl, rfl, rfl, (normalize_spec _).1, (normalize_spec _).2⟩
        · rw [fx]; exact Int.floor_le _
        · rw [fx]; exact Int.lt_floor_add_one _
        · rw [fy]; exact Int.floor_le _
        · rw [fy]; exact Int.lt_floor_add_one _
      | succ i => exact hsp i d' s hd hs

/-- **C143, what holds.** A new point near or beyond the border is marked as out of bounds and copies nothing. Any other point that keeps the border also on the
far sides of the picture copies, for each pixel of the pattern, what the picture shows there. (Missing: points exactly the border away from the far sides, see
`C143_far_side_violated`.) -/
theorem C143_patch_partial {c : Cam.Cam} {pattern : List V2} {height : Int} (hh : BA.patternHeight pattern = .ok height) {img : Pyr.Img Nat} {f : PreFrame}
    (hf : FrameOf c img f) (p : V2) :
    (¬ Cam.isOnImage c p height → newPoint c pattern height f p = .ok ⟨p, Trace.new false, []⟩) ∧
    (Cam.isOnImage c p height → InsideBorder c height p →
      ∃ patch, newPoint c pattern height f p = .ok ⟨p, Trace.new true, patch⟩ ∧ patch.length = pattern.length ∧
        ∀ (i : Nat) d s, pattern[i]? = some d → patch[i]? = some s → Shows c img (p + d) s) := by
  obtain ⟨hr, hc, n, hn⟩ := hf
  obtain ⟨hg, h0, -, -⟩ := frame_parts hn
  constructor
  · intro h
    unfold newPoint
    rw [if_neg h]
  · intro h hin
    obtain ⟨ss, hss, hlen, hsp⟩ := samples_spec (c := c) hg h0 p pattern (by
      intro d hd
      obtain ⟨bx, by'⟩ := height_bound hh hd
      obtain ⟨h1, h2, h3, h4⟩ := h
      obtain ⟨i1, i2⟩ := hin
      have := abs_le.1 bx
      have := abs_le.1 by'
      have ax : (p + d).x = p.x + d.x := rfl
      have ay : (p + d).y = p.y + d.y := rfl
      rw [ax, ay, hr, hc]
      refine ⟨by linarith, by linarith, by linarith, by linarith⟩)
    refine ⟨ss, ?_, hlen, hsp⟩
    unfold newPoint
    rw [if_pos h, hss]
    rfl

/-- Reading past the last column is undefined behaviour. -/
theorem readAt_beyond {α : Type} (img : Pyr.Img α) (pos : V2) (hy : 0 ≤ pos.y) (hx' : (img.cols : ℝ) ≤ pos.x) : readAt img pos = .error .ub := by
  have hx : 0 ≤ pos.x := le_trans (Nat.cast_nonneg _) hx'
  have a' : (img.cols : Int) ≤ ⌊pos.x⌋ := Int.le_floor.2 (by exact_mod_cast hx')
  have b := Int.floor_nonneg.2 hy
  unfold readAt Pyr.Img.read
  rw [trunc_nonneg hx, trunc_nonneg hy, if_pos ⟨b, by omega⟩, if_neg (by omega)]

theorem default_height : BA.patternHeight defaultPattern = .ok 2 := by
  simp only [BA.patternHeight, defaultPattern, List.foldl_cons, List.foldl_nil, BA.infNorm]
  norm_num

/-- **C143, violated.** With the default pattern, making a point two pixels away from the right side of the picture, which is accepted as being on the image,
reads behind the picture, whatever the picture. -/
theorem C143_far_side_violated {c : Cam.Cam} {img : Pyr.Img Nat} {f : PreFrame} (hf : FrameOf c img f) (hw : 4 ≤ c.width) (y : Nat) (hy : 2 ≤ y) (hy' : y + 2 ≤ c.height)
    (p : V2) (hp : p = ⟨((c.width - 2 : Nat) : ℝ), (y : ℝ)⟩) :
    Cam.isOnImage c p 2 ∧ newPoint c defaultPattern 2 f p = .error .ub := by
  obtain ⟨hr, hc, n, hn⟩ := hf
  obtain ⟨hg, h0, -, -⟩ := frame_parts hn
  have ew : ((c.width - 2 : Nat) : ℝ) = (c.width : ℝ) - 2 := by
    rw [Nat.cast_sub (by omega)]
    norm_num
  have hw' : (4 : ℝ) ≤ c.width := by exact_mod_cast hw
  have hy2 : (2 : ℝ) ≤ y := by exact_mod_cast hy
  have hy3 : (y : ℝ) + 2 ≤ c.height := by exact_mod_cast hy'
  have hon : Cam.isOnImage c p 2 := by
    rw [hp]
    unfold Cam.isOnImage
    push_cast
    rw [ew]
    refine ⟨by linarith, by linarith, le_rfl, by linarith⟩
  refine ⟨hon, ?_⟩
  have step : ∀ (d : V2) (ds : List V2), (∃ e, samples c f p ds = .error e ∧ e = .ub) → samples c f p (d :: ds) = .error .ub := by
    intro d ds h
    obtain ⟨e, h, rfl⟩ := h
    rw [samples, h0, hg]
    simp only [bind, Except.bind, h]
    have u : ∀ {β : Type} (i : Pyr.Img β) e, readAt i (p + d) = .error e → e = .ub := by
      intro β i e he
      unfold readAt Pyr.Img.read at he
      split at he
      · split at he
        · cases he
        · cases he; rfl
      · cases he; rfl
    cases h1 : readAt img (p + d) with
    | error e => rw [u img e h1]
    | ok v =>
      dsimp only
      cases h2 : readAt (grad img).gradX (p + d) with
      | error e => rw [u _ e h2]
      | ok v =>
        dsimp only
        cases h3 : readAt (grad img).gradY (p + d) with
        | error e => rw [u _ e h3]
        | ok v => rfl
  have last : samples c f p [⟨2, 0⟩, ⟨-1, 1⟩, ⟨1, 1⟩, ⟨0, 2⟩] = .error .ub := by
    rw [samples, h0]
    simp only [bind, Except.bind]
    rw [readAt_beyond img (p + ⟨2, 0⟩) (by rw [hp]; show (0 : ℝ) ≤ (y : ℝ) + 0; linarith) (by
      rw [hp, hc]
      show (c.width : ℝ) ≤ ((c.width - 2 : Nat) : ℝ) + 2
      rw [ew]
      linarith)]
  unfold newPoint
  rw [if_pos hon]
  have : samples c f p defaultPattern = .error .ub := by
    unfold defaultPattern
    exact step _ _ ⟨_, step _ _ ⟨_, step _ _ ⟨_, step _ _ ⟨_, step _ _ ⟨_, last, rfl⟩, rfl⟩, rfl⟩, rfl⟩, rfl⟩
  rw [this]
  rfl

/-! ## C144: the points of a new keyframe -/

theorem newPoint_ok {c : Cam.Cam} {pattern : List V2} {height : Int} {f : PreFrame} {p : V2} {ip : ImPoint} (h : newPoint c pattern height f p = .ok ip) :
    ip.p = p ∧ (Cam.isOnImage c p height → ip.state = Trace.new true) ∧ (¬ Cam.isOnImage c p height → ip.state = Trace.new false) := by
  unfold newPoint at h
  by_cases hon : Cam.isOnImage c p height
  · rw [if_pos hon] at h
    cases h1 : samples c f p pattern with
    | error e => rw [h1] at h; cases h
    | ok ss =>
      simp only [h1, bind, Except.bind] at h
      injection h with h
      subst h
      exact ⟨rfl, fun _ => rfl, fun h => absurd hon h⟩
  · rw [if_neg hon] at h
    injection h with h
    subst h
    exact ⟨rfl, fun h => absurd h hon, fun _ => rfl⟩

theorem add_ok {c : Cam.Cam} {pattern : List V2} {height : Int} {f : PreFrame} : ∀ (qs : List PixSel.Pt) (ips : List ImPoint),
    addImmatures c pattern height f qs = .ok ips →
    ips.map (·.p) = qs.map (fun q => (⟨q.1, q.2⟩ : V2)) ∧ ∀ ip ∈ ips, (Cam.isOnImage c ip.p height → ip.state = Trace.new true) ∧
      (¬ Cam.isOnImage c ip.p height → ip.state = Trace.new false)
  | [], ips, h => by
    simp only [addImmatures, Except.ok.injEq] at h
    subst h
    exact ⟨rfl, by simp⟩
  | q :: qs, ips, h => by
    rw [addImmatures] at h
    cases h1 : newPoint c pattern height f ⟨q.1, q.2⟩ with
    | error e => rw [h1] at h; cases h
    | ok ip =>
      cases h2 : addImmatures c pattern height f qs with
      | error e =>
        simp only [h1, h2, bind, Except.bind] at h
        cases h
      | ok rest =>
        simp only [h1, h2, bind, Except.bind] at h
        injection h with h
        subst h
        obtain ⟨a1, a2, a3⟩ := newPoint_ok h1
        obtain ⟨b1, b2⟩ := add_ok qs rest h2
        refine ⟨by simp [a1, b1], ?_⟩
        intro ip' hip
        rcases List.mem_cons.1 hip with rfl | hip
        · rw [a1]
          exact ⟨a2, a3⟩
        · exact b2 ip' hip

theorem add_total {c : Cam.Cam} {pattern : List V2} {height : Int} (hh : BA.patternHeight pattern = .ok height) {img : Pyr.Img Nat} {f : PreFrame}
    (hf : FrameOf c img f) : ∀ qs : List PixSel.Pt, (∀ q ∈ qs, Cam.isOnImage c ⟨q.1, q.2⟩ height → InsideBorder c height ⟨q.1, q.2⟩) →
    ∃ ips, addImmatures c pattern height f qs = .ok ips
  | [], _ => ⟨[], rfl⟩
  | q :: qs, h => by
    obtain ⟨rest, hrest⟩ := add_total hh hf qs fun q hq => h q (List.mem_cons_of_mem _ hq)
    obtain ⟨h1, h2⟩ := C143_patch_partial hh hf ⟨q.1, q.2⟩
    have : ∃ ip, newPoint c pattern height f ⟨q.1, q.2⟩ = .ok ip := by
      by_cases hon : Cam.isOnImage c ⟨q.1, q.2⟩ height
      · obtain ⟨patch, hp, -⟩ := h2 hon (h q (List.mem_cons_self ..) hon)
        exact ⟨_, hp⟩
      · exact ⟨_, h1 hon⟩
    obtain ⟨ip, hip⟩ := this
    refine ⟨ip :: rest, ?_⟩
    rw [addImmatures, hip]
    simp only [bind, Except.bind, hrest]

/-- **C144, what holds.** A new keyframe has no optimized points, and exactly one untraced point for each selected pixel, in that order and at most as many as
asked for; the points that keep the border are active, the others are out of bounds. It can be made whenever the selection returns pixels that keep the border on
the far sides. (Missing: the other pixels, see `C144_selected_violated`.) -/
theorem C144_points_partial {c : Cam.Cam} {pattern : List V2} {height : Int} (hh : BA.patternHeight pattern = .ok height) {img : Pyr.Img Nat} {f : PreFrame}
    (hf : FrameOf c img f) {fuel : Nat} {shuffle : Nat → List PixSel.Pt → List PixSel.Pt} (hs : PixSel.IsShuffle shuffle) {sel : PixSel.Settings ℝ}
    {st st' : PixSel.State} {num : Nat} {pts : List PixSel.Pt} (hsel : PixSel.select fuel shuffle sel st (grad img).forSelector num = .ok (some (pts, st'))) :
    (∀ kf st'', newKeyFrame fuel shuffle c pattern height sel st num f = .ok (some (kf, st'')) →
      st'' = st' ∧ kf.pre = f ∧ kf.optimized = [] ∧ kf.immature.length ≤ num ∧ kf.immature.map (·.p) = pts.map (fun q => (⟨q.1, q.2⟩ : V2)) ∧
      ∀ ip ∈ kf.immature, (Cam.isOnImage c ip.p height → ip.state = Trace.new true) ∧ (¬ Cam.isOnImage c ip.p height → ip.state = Trace.new false)) ∧
    ((∀ q ∈ pts, Cam.isOnImage c ⟨q.1, q.2⟩ height → InsideBorder c height ⟨q.1, q.2⟩) →
      ∃ kf, newKeyFrame fuel shuffle c pattern height sel st num f = .ok (some (kf, st'))) := by
  obtain ⟨hr, hc, n, hn⟩ := id hf
  obtain ⟨hg, -, -, -⟩ := frame_parts hn
  constructor
  · intro kf st'' h
    unfold newKeyFrame at h
    rw [hg, hsel] at h
    dsimp only at h
    cases h1 : addImmatures c pattern height f pts with
    | error e => rw [h1] at h; cases h
    | ok ips =>
      rw [h1] at h
      injection h with h
      injection h with h
      obtain ⟨rfl, rfl⟩ := Prod.mk.inj h
      obtain ⟨a, b⟩ := add_ok pts ips h1
      refine ⟨rfl, rfl, rfl, ?_, a, b⟩
      have h2 := (PixSel.C24_count hs hsel).2.1
      have h3 : ips.length = pts.length := by
        have := congrArg List.length a
        simpa using this
      show ips.length ≤ num
      rw [h3, h2]
      exact min_le_left _ _
  · intro h
    obtain ⟨ips, hips⟩ := add_total hh hf pts h
    refine ⟨⟨f, ips, []⟩, ?_⟩
    unfold newKeyFrame
    rw [hg, hsel]
    dsimp only
    rw [hips]

/-- A dark picture of 5 by 5 pixels with one bright pixel in the last row. -/
def spotPicture : Pyr.Img Nat := ⟨5, 5, fun y x => if y = 4 ∧ x = 3 then 255 else 0⟩

/-- A selector with the default thresholds and factor (source/util/settings.cpp:8-9, include/util/settings.h:35-36) that starts with blocks of size 4. -/
noncomputable def spotSelector : PixSel.Settings ℝ := ⟨4, 11, 11 / 10, [20, 8, 5]⟩

/-- The lengths of its gradients. -/
noncomputable def spotGrad : PixSel.Grad ℝ :=
  ⟨5, 5, fun y x => if (y = 3 ∧ x = 3) ∨ (y = 4 ∧ (x = 2 ∨ x = 3 ∨ x = 4)) then 255 / 2 else 0⟩

theorem spot_same : SamePixels spotGrad (grad spotPicture).forSelector := by
  refine ⟨rfl, rfl, ?_⟩
  intro y x hy hx
  have hy5 : y < 5 := hy
  have hx5 : x < 5 := hx
  have e : (grad spotPicture).forSelector.px y x = Real.sqrt (slopeX spotPicture y x ^ 2 + slopeY spotPicture y x ^ 2) := norm_px spotPicture hy hx
  rw [e]
  have s : ∀ a : ℝ, 0 ≤ a → Real.sqrt (a ^ 2) = a := fun a h => Real.sqrt_sq h
  have s' := s (255 / 2) (by norm_num)
  interval_cases y <;> interval_cases x <;>
    simp [slopeX, slopeY, spotPicture, spotGrad, next, before] <;> norm_num at s' ⊢ <;> exact s'

theorem spot_pick : PixSel.pick spotGrad 4 20 0 0 = [(3, 3)] := by
  simp [PixSel.pick, PixSel.maxOffset, PixSel.offsets, PixSel.better, PixSel.blockAvg, List.range_succ, spotGrad]
  norm_num

theorem spot_select : PixSel.select 5 (fun _ l => l) spotSelector (PixSel.init spotSelector) (grad spotPicture).forSelector 10 = .ok (some ([(3, 3)], ⟨4, 1⟩)) := by
  rw [select_same spot_same]
  have ha : PixSel.adapt spotSelector.adaptToFactor (PixSel.init spotSelector) 10 = .ok 4 := by
    unfold PixSel.adapt
    simp only [PixSel.init, spotSelector]
    norm_num
    simp [Util.truncInt]
  unfold PixSel.select
  rw [ha]
  have hl : PixSel.layers 5 (fun _ l => l) spotGrad 4 0 spotSelector.gradThresholds = .ok (some [[(3, 3)], [], []]) := by
    have s0 : PixSel.selectLayer 5 spotGrad (2 ^ 0 * 4) 20 = some [(3, 3)] := by
      have h1 : PixSel.scan spotGrad.rows (2 ^ 0 * 4) 5 0 = some [0] := rfl
      have h2 : PixSel.scan spotGrad.cols (2 ^ 0 * 4) 5 0 = some [0] := rfl
      unfold PixSel.selectLayer
      rw [h1, h2]
      simp [spot_pick]
    have s1 : PixSel.selectLayer 5 spotGrad (2 ^ 1 * 4) 8 = some [] := rfl
    have s2 : PixSel.selectLayer 5 spotGrad (2 ^ 2 * 4) 5 = some [] := rfl
    simp only [spotSelector, PixSel.layers, s0, s1, s2]
    norm_num
  show PixSel.selectInternal 5 (fun _ l => l) spotSelector.gradThresholds spotGrad 10 4 = _
  unfold PixSel.selectInternal
  rw [hl]
  simp [spotSelector, PixSel.trim]

/-- **C144, violated.** With the default pattern, there is a picture for which the selector returns a pixel whose patch reaches beyond the picture: making the
keyframe reads behind the picture. -/
theorem C144_selected_violated (c : Cam.Cam) (hw : c.width = 5) (hh : c.height = 5) :
    ∃ f, FrameOf c spotPicture f ∧
      PixSel.select 5 (fun _ l => l) spotSelector (PixSel.init spotSelector) (grad spotPicture).forSelector 10 = .ok (some ([(3, 3)], ⟨4, 1⟩)) ∧
      newKeyFrame 5 (fun _ l => l) c defaultPattern 2 spotSelector (PixSel.init spotSelector) 10 f = .error .ub := by
  obtain ⟨f, hf⟩ : ∃ f, newPreFrame spotPicture 1 = .ok f := ⟨_, rfl⟩
  have hfo : FrameOf c spotPicture f := ⟨hh.symm, hw.symm, 1, hf⟩
  refine ⟨f, hfo, spot_select, ?_⟩
  obtain ⟨_, hub⟩ := C143_far_side_violated hfo (by omega) 3 (by norm_num) (by omega) ⟨(3 : Nat), (3 : Nat)⟩ (by rw [hw])
  unfold newKeyFrame
  rw [(frame_parts hf).1, spot_select]
  dsimp only
  rw [addImmatures, hub]
  rfl

/-- `C144_points_partial` applies to the same picture with a pattern of one pixel: the keyframe gets one active point. -/
theorem spot_keyframe (c : Cam.Cam) (hw : c.width = 5) (hh : c.height = 5) : ∃ f kf, FrameOf c spotPicture f ∧
    newKeyFrame 5 (fun _ l => l) c [⟨0, 0⟩] 0 spotSelector (PixSel.init spotSelector) 10 f = .ok (some (kf, ⟨4, 1⟩)) ∧
    kf.immature.map (·.p) = [⟨(3 : Nat), (3 : Nat)⟩] ∧ ∀ ip ∈ kf.immature, ip.state = Trace.new true := by
  obtain ⟨f, hf⟩ : ∃ f, newPreFrame spotPicture 1 = .ok f := ⟨_, rfl⟩
  have hfo : FrameOf c spotPicture f := ⟨hh.symm, hw.symm, 1, hf⟩
  have hp : BA.patternHeight [⟨0, 0⟩] = .ok 0 := by
    simp [BA.patternHeight, BA.infNorm]
  have hon : Cam.isOnImage c ⟨(3 : Nat), (3 : Nat)⟩ 0 := by
    unfold Cam.isOnImage
    rw [hw, hh]
    norm_num
  obtain ⟨h1, h2⟩ := C144_points_partial hp hfo PixSel.isShuffle_id spot_select
  obtain ⟨kf, hkf⟩ := h2 (by
    intro q hq _
    simp only [List.mem_singleton] at hq
    subst hq
    unfold InsideBorder
    rw [hw, hh]
    norm_num)
  obtain ⟨-, -, -, -, e, b⟩ := h1 kf _ hkf
  refine ⟨f, kf, hfo, hkf, e, ?_⟩
  intro ip hip
  apply (b ip hip).1
  have : ip.p ∈ kf.immature.map (·.p) := List.mem_map_of_mem hip
  rw [e] at this
  simp only [List.map_cons, List.map_nil, List.mem_singleton] at this
  rw [this]
  exact hon

end Mdso.Frame
