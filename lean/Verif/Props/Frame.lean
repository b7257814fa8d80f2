import Verif.Spec.Frame
import Verif.Props.Pyramid
import Verif.Props.PixelSelector
import Verif.Props.ImmaturePoint

/-!
# Properties of new frames, keyframes and points (C142-C146)
-/

set_option autoImplicit false

namespace Mdso.Frame

open Mdso.Geom

/-! ## C142: gradients -/

theorem replicate_next {n x : Nat} (h : x < n) : replicate n ((x : Int) + 1) = next n x := by
  unfold replicate next
  split <;> omega

theorem replicate_before {n x : Nat} (h : x < n) : replicate n ((x : Int) - 1) = before x := by
  unfold replicate before
  split <;> omega

/-- **C142, the gradients.** Horizontal and vertical gradient of every pixel are half the difference of its neighbours, a missing neighbour being replaced by
the pixel itself, and the third picture is the length of the gradient. -/
theorem C142_gradients (img : Pyr.Img Nat) (y x : Nat) (hy : y < img.rows) (hx : x < img.cols) :
    (grad img).gradX.read y x = .ok (slopeX img y x) ∧ (grad img).gradY.read y x = .ok (slopeY img y x) ∧
    ∃ n, (grad img).gradNorm.read y x = .ok n ∧ 0 ≤ n ∧ n ^ 2 = slopeX img y x ^ 2 + slopeY img y x ^ 2 := by
  have h1 : (filterRow img).px y x = slopeX img y x := by
    unfold filterRow slopeX
    simp only [replicate_next hx, replicate_before hx]
    ring
  have h2 : (filterColumn img).px y x = slopeY img y x := by
    unfold filterColumn slopeY
    simp only [replicate_next hy, replicate_before hy]
    ring
  refine ⟨?_, ?_, Real.sqrt (slopeX img y x ^ 2 + slopeY img y x ^ 2), ?_, Real.sqrt_nonneg _, Real.sq_sqrt (by positivity)⟩
  · unfold Pyr.Img.read
    rw [if_pos (by exact ⟨hy, hx⟩)]
    exact congrArg _ h1
  · unfold Pyr.Img.read
    rw [if_pos (by exact ⟨hy, hx⟩)]
    exact congrArg _ h2
  · unfold Pyr.Img.read
    rw [if_pos (by exact ⟨hy, hx⟩)]
    show Except.ok (Real.sqrt ((filterRow img).px y x ^ 2 + (filterColumn img).px y x ^ 2)) = _
    rw [h1, h2]

theorem norm_px (img : Pyr.Img Nat) {y x : Nat} (hy : y < img.rows) (hx : x < img.cols) :
    (grad img).gradNorm.px y x = Real.sqrt (slopeX img y x ^ 2 + slopeY img y x ^ 2) := by
  obtain ⟨h1, h2, n, h3, h4, h5⟩ := C142_gradients img y x hy hx
  unfold Pyr.Img.read at h3
  rw [if_pos (by exact ⟨hy, hx⟩)] at h3
  injection h3 with h3
  rw [h3, ← h5, Real.sqrt_sq h4]

/-- **C142, range.** For a picture of bytes no gradient is steeper than 127.5 brightness levels per pixel in a coordinate. -/
theorem C142_range (img : Pyr.Img Nat) (hb : ∀ y x, y < img.rows → x < img.cols → img.px y x ≤ 255) (y x : Nat) (hy : y < img.rows) (hx : x < img.cols) :
    |slopeX img y x| ≤ 127.5 ∧ |slopeY img y x| ≤ 127.5 ∧ (grad img).gradNorm.px y x ≤ 127.5 * Real.sqrt 2 := by
  have hnx : next img.cols x < img.cols := by unfold next; split <;> omega
  have hny : next img.rows y < img.rows := by unfold next; split <;> omega
  have hbx : before x < img.cols := by unfold before; split <;> omega
  have hby : before y < img.rows := by unfold before; split <;> omega
  have c : ∀ n : Nat, n ≤ 255 → (0 : ℝ) ≤ n ∧ (n : ℝ) ≤ 255 := fun n h => ⟨Nat.cast_nonneg n, by exact_mod_cast h⟩
  have a1 := c _ (hb y _ hy hnx)
  have a2 := c _ (hb y _ hy hbx)
  have a3 := c _ (hb _ x hny hx)
  have a4 := c _ (hb _ x hby hx)
  have b1 : |slopeX img y x| ≤ 127.5 := by
    unfold slopeX
    rw [abs_le]
    constructor <;> norm_num <;> linarith
  have b2 : |slopeY img y x| ≤ 127.5 := by
    unfold slopeY
    rw [abs_le]
    constructor <;> norm_num <;> linarith
  refine ⟨b1, b2, ?_⟩
  rw [norm_px img hy hx]
  apply Real.sqrt_le_iff.2
  refine ⟨by positivity, ?_⟩
  rw [mul_pow, Real.sq_sqrt (by norm_num)]
  have := sq_le_sq' (abs_le.1 b1).1 (abs_le.1 b1).2
  have := sq_le_sq' (abs_le.1 b2).1 (abs_le.1 b2).2
  linarith

theorem slope_relit {k b : ℝ} {img img' : Pyr.Img Nat} (h : Relit k b img img') {y x : Nat} (hy : y < img.rows) (hx : x < img.cols) :
    slopeX img' y x = k * slopeX img y x ∧ slopeY img' y x = k * slopeY img y x := by
  obtain ⟨hr, hc, hp⟩ := h
  have hnx : next img.cols x < img.cols := by unfold next; split <;> omega
  have hny : next img.rows y < img.rows := by unfold next; split <;> omega
  have hbx : before x < img.cols := by unfold before; split <;> omega
  have hby : before y < img.rows := by unfold before; split <;> omega
  unfold slopeX slopeY
  rw [hr, hc, hp y _ hy hnx, hp y _ hy hbx, hp _ x hny hx, hp _ x hby hx]
  constructor <;> ring

/-- **C142, brightness.** If all brightnesses are shifted by a constant, the gradients stay the same; if they are scaled, the gradients are scaled alike. -/
theorem C142_relit {k b : ℝ} {img img' : Pyr.Img Nat} (h : Relit k b img img') (y x : Nat) (hy : y < img.rows) (hx : x < img.cols) :
    (grad img').gradX.px y x = k * (grad img).gradX.px y x ∧ (grad img').gradY.px y x = k * (grad img).gradY.px y x ∧
    (grad img').gradNorm.px y x = |k| * (grad img).gradNorm.px y x := by
  have hy' : y < img'.rows := by rw [h.1]; exact hy
  have hx' : x < img'.cols := by rw [h.2.1]; exact hx
  have read : ∀ (i : Pyr.Img ℝ) v, y < i.rows → x < i.cols → i.read y x = .ok v → i.px y x = v := by
    intro i v h1 h2 h3
    unfold Pyr.Img.read at h3
    rw [if_pos ⟨h1, h2⟩] at h3
    injection h3
  obtain ⟨a1, a2, _⟩ := C142_gradients img y x hy hx
  obtain ⟨b1, b2, _⟩ := C142_gradients img' y x hy' hx'
  have ⟨s1, s2⟩ := slope_relit h hy hx
  refine ⟨?_, ?_, ?_⟩
  · rw [read _ _ hy' hx' b1, read _ _ hy hx a1, s1]
  · rw [read _ _ hy' hx' b2, read _ _ hy hx a2, s2]
  · rw [norm_px img' hy' hx', norm_px img hy hx, s1, s2, mul_pow, mul_pow, ← mul_add, Real.sqrt_mul (sq_nonneg k), Real.sqrt_sq_eq_abs]

/-- **C142, mirror.** In a mirror horizontal gradients change their sign, vertical ones and the lengths do not. -/
theorem C142_mirror {img img' : Pyr.Img Nat} (h : Mirrored img img') (y x : Nat) (hy : y < img.rows) (hx : x < img.cols) :
    slopeX img' y x = -slopeX img y (img.cols - 1 - x) ∧ slopeY img' y x = slopeY img y (img.cols - 1 - x) ∧
    (grad img').gradNorm.px y x = (grad img).gradNorm.px y (img.cols - 1 - x) := by
  obtain ⟨hr, hc, hp⟩ := h
  have hnx : next img.cols x < img.cols := by unfold next; split <;> omega
  have hny : next img.rows y < img.rows := by unfold next; split <;> omega
  have hbx : before x < img.cols := by unfold before; split <;> omega
  have hby : before y < img.rows := by unfold before; split <;> omega
  have e1 : img.cols - 1 - next img.cols x = before (img.cols - 1 - x) := by unfold next before; split <;> split <;> omega
  have e2 : img.cols - 1 - before x = next img.cols (img.cols - 1 - x) := by unfold next before; split <;> split <;> omega
  have s1 : slopeX img' y x = -slopeX img y (img.cols - 1 - x) := by
    unfold slopeX
    rw [hc, hp y _ hy hnx, hp y _ hy hbx, e1, e2]
    ring
  have s2 : slopeY img' y x = slopeY img y (img.cols - 1 - x) := by
    unfold slopeY
    rw [hr, hp _ x hny hx, hp _ x hby hx]
  refine ⟨s1, s2, ?_⟩
  rw [norm_px img' (by rw [hr]; exact hy) (by rw [hc]; exact hx), norm_px img hy (by omega), s1, s2, neg_sq]

/-- **C142, tracking.** Away from the border the weights of tracking use the same lengths of gradients. -/
theorem C142_tracking (img : Pyr.Img Nat) (y x : Nat) (hy : 0 < y) (hy' : y + 1 < img.rows) (hx : 0 < x) (hx' : x + 1 < img.cols) :
    Track.gradNormAt img y x = .ok ((grad img).gradNorm.px y x) := by
  have r : ∀ a b : Int, 0 ≤ a → a < img.rows → 0 ≤ b → b < img.cols → Track.readInt img a b = .ok (img.px a.toNat b.toNat) := by
    intro a b h1 h2 h3 h4
    unfold Track.readInt Pyr.Img.read
    rw [if_pos ⟨h1, h3⟩, if_pos ⟨by omega, by omega⟩]
  unfold Track.gradNormAt
  rw [r _ _ (by omega) (by omega) (by omega) (by omega), r _ _ (by omega) (by omega) (by omega) (by omega),
    r _ _ (by omega) (by omega) (by omega) (by omega), r _ _ (by omega) (by omega) (by omega) (by omega), norm_px img (by omega) (by omega)]
  simp only [bind, Except.bind]
  unfold slopeX slopeY next before
  rw [if_pos hx', if_pos hx, if_pos hy', if_pos hy]
  have e1 : ((x : Int) + 1).toNat = x + 1 := by omega
  have e2 : ((x : Int) - 1).toNat = x - 1 := by omega
  have e3 : ((y : Int) + 1).toNat = y + 1 := by omega
  have e4 : ((y : Int) - 1).toNat = y - 1 := by omega
  simp only [e1, e2, e3, e4, Int.toNat_natCast]

/-! The selection reads only pixels of the picture. -/

theorem scan_lt (limit bs : Nat) : ∀ (fuel s : Nat) (l : List Nat), PixSel.scan limit bs fuel s = some l → ∀ i ∈ l, i + bs < limit
  | 0, s, l, h => by
    unfold PixSel.scan at h
    split at h
    · cases h
    · cases h
      intro i hi
      cases hi
  | fuel + 1, s, l, h => by
    unfold PixSel.scan at h
    split at h
    · obtain ⟨l', h', rfl⟩ := Option.map_eq_some_iff.1 h
      intro i hi
      rcases List.mem_cons.1 hi with rfl | hi
      · assumption
      · exact scan_lt limit bs fuel _ l' h' i hi
    · cases h
      intro i hi
      cases hi

theorem offsets_lt {bs : Nat} {o : Nat × Nat} (h : o ∈ PixSel.offsets bs) : o.1 < bs ∧ o.2 < bs := by
  unfold PixSel.offsets at h
  obtain ⟨y, hy, h⟩ := List.mem_flatMap.1 h
  obtain ⟨x, hx, rfl⟩ := List.mem_map.1 h
  exact ⟨List.mem_range.1 hy, List.mem_range.1 hx⟩

/-- Two pictures of gradients that agree on the picture. -/
def SamePixels (g g' : PixSel.Grad ℝ) : Prop := g'.rows = g.rows ∧ g'.cols = g.cols ∧ ∀ y x, y < g.rows → x < g.cols → g'.px y x = g.px y x

theorem foldl_better {f f' : Nat × Nat → ℝ} : ∀ (l : List (Nat × Nat)) (c : Nat × Nat), f' c = f c → (∀ o ∈ l, f' o = f o) →
    l.foldl (PixSel.better f') c = l.foldl (PixSel.better f) c ∧ (l.foldl (PixSel.better f) c ∈ c :: l)
  | [], c, _, _ => ⟨rfl, by simp⟩
  | o :: l, c, hc, h => by
    have ho := h o (List.mem_cons_self ..)
    have e : PixSel.better f' c o = PixSel.better f c o := by
      unfold PixSel.better
      rw [hc, ho]
    have m : PixSel.better f c o = c ∨ PixSel.better f c o = o := by
      unfold PixSel.better
      split
      · exact Or.inr rfl
      · exact Or.inl rfl
    have hb : f' (PixSel.better f c o) = f (PixSel.better f c o) := by
      rcases m with m | m <;> rw [m] <;> assumption
    obtain ⟨h1, h2⟩ := foldl_better (f := f) (f' := f') l (PixSel.better f c o) hb fun o ho => h o (List.mem_cons_of_mem _ ho)
    rw [List.foldl_cons, List.foldl_cons, e]
    refine ⟨h1, ?_⟩
    rcases List.mem_cons.1 h2 with h2 | h2
    · rw [h2]
      rcases m with m | m <;> rw [m] <;> simp
    · exact List.mem_cons_of_mem _ (List.mem_cons_of_mem _ h2)

theorem pick_same {g g' : PixSel.Grad ℝ} (h : SamePixels g g') {bs i j : Nat} (t : ℝ) (hi : i + bs < g.rows) (hj : j + bs < g.cols) :
    PixSel.pick g' bs t i j = PixSel.pick g bs t i j := by
  obtain ⟨_, _, hp⟩ := h
  have key : ∀ o ∈ PixSel.offsets bs, g'.px (i + o.1) (j + o.2) = g.px (i + o.1) (j + o.2) := by
    intro o ho
    have := offsets_lt ho
    exact hp _ _ (by omega) (by omega)
  have hmax : PixSel.maxOffset g' bs i j = PixSel.maxOffset g bs i j ∧
      g'.px (i + (PixSel.maxOffset g bs i j).1) (j + (PixSel.maxOffset g bs i j).2) =
        g.px (i + (PixSel.maxOffset g bs i j).1) (j + (PixSel.maxOffset g bs i j).2) := by
    unfold PixSel.maxOffset
    cases ho : PixSel.offsets bs with
    | nil => exact ⟨rfl, hp _ _ (by simp; omega) (by simp; omega)⟩
    | cons c cs =>
      rw [ho] at key
      obtain ⟨h1, h2⟩ := foldl_better (f := fun o => g.px (i + o.1) (j + o.2)) (f' := fun o => g'.px (i + o.1) (j + o.2)) cs c
        (key c (List.mem_cons_self ..)) fun o ho => key o (List.mem_cons_of_mem _ ho)
      exact ⟨h1, key _ h2⟩
  have havg : PixSel.blockAvg g' bs i j = PixSel.blockAvg g bs i j := by
    unfold PixSel.blockAvg
    rw [List.map_congr_left key]
  unfold PixSel.pick
  simp only [hmax.1, hmax.2, havg]

theorem selectLayer_same {g g' : PixSel.Grad ℝ} (h : SamePixels g g') (fuel bs : Nat) (t : ℝ) :
    PixSel.selectLayer fuel g' bs t = PixSel.selectLayer fuel g bs t := by
  unfold PixSel.selectLayer
  rw [h.1, h.2.1]
  cases hs : PixSel.scan g.rows bs fuel 0 with
  | none => rfl
  | some is =>
    cases is with
    | nil => rfl
    | cons i0 is =>
      dsimp only
      cases hs2 : PixSel.scan g.cols bs fuel 0 with
      | none => rfl
      | some js =>
        dsimp only
        congr 1
        apply List.flatMap_congr
        intro i hi
        apply List.flatMap_congr
        intro j hj
        exact pick_same h t (scan_lt _ _ _ _ _ hs i hi) (scan_lt _ _ _ _ _ hs2 j hj)

theorem layers_same {g g' : PixSel.Grad ℝ} (h : SamePixels g g') (fuel : Nat) (shuffle : Nat → List PixSel.Pt → List PixSel.Pt) (bs : Nat) :
    ∀ (ts : List ℝ) (i : Nat), PixSel.layers fuel shuffle g' bs i ts = PixSel.layers fuel shuffle g bs i ts
  | [], _ => rfl
  | t :: ts, i => by
    rw [PixSel.layers, PixSel.layers, selectLayer_same h, layers_same h fuel shuffle bs ts]

theorem select_same {g g' : PixSel.Grad ℝ} (h : SamePixels g g') (fuel : Nat) (shuffle : Nat → List PixSel.Pt → List PixSel.Pt) (s : PixSel.Settings ℝ)
    (st : PixSel.State) (n : Nat) : PixSel.select fuel shuffle s st g' n = PixSel.select fuel shuffle s st g n := by
  unfold PixSel.select PixSel.selectInternal
  simp only [layers_same h]

/-- **C142, selection.** In a picture that is brighter or darker by a constant, and in a negative, the same pixels are selected. -/
theorem C142_selection {k b : ℝ} {img img' : Pyr.Img Nat} (h : Relit k b img img') (hk : |k| = 1) (fuel : Nat)
    (shuffle : Nat → List PixSel.Pt → List PixSel.Pt) (s : PixSel.Settings ℝ) (st : PixSel.State) (n : Nat) :
    PixSel.select fuel shuffle s st (grad img').forSelector n = PixSel.select fuel shuffle s st (grad img).forSelector n := by
  apply select_same
  refine ⟨h.1, h.2.1, ?_⟩
  intro y x hy hx
  have := (C142_relit h y x hy hx).2.2
  rw [hk, one_mul] at this
  exact this

theorem weight_range {c : ℝ} (hc : 0 < c) (g : ℝ) :
    0 < c / Real.sqrt (c ^ 2 + g ^ 2) ∧ c / Real.sqrt (c ^ 2 + g ^ 2) ≤ 1 ∧ (c / Real.sqrt (c ^ 2 + g ^ 2) = 1 ↔ g = 0) := by
  have hs : 0 < Real.sqrt (c ^ 2 + g ^ 2) := Real.sqrt_pos.2 (by positivity)
  have hle : c ≤ Real.sqrt (c ^ 2 + g ^ 2) := Real.le_sqrt_of_sq_le (by nlinarith [sq_nonneg g])
  refine ⟨by positivity, (div_le_one hs).2 hle, ?_⟩
  rw [div_eq_one_iff_eq (ne_of_gt hs)]
  constructor
  · intro h
    have h2 : c ^ 2 = c ^ 2 + g ^ 2 := by
      have := Real.sq_sqrt (show 0 ≤ c ^ 2 + g ^ 2 by positivity)
      rw [← h] at this
      exact this
    have : g ^ 2 = 0 := by linarith
    exact pow_eq_zero_iff (two_ne_zero) |>.1 this
  · rintro rfl
    rw [show c ^ 2 + 0 ^ 2 = c ^ 2 by ring, Real.sqrt_sq hc.le]

theorem readAt_ba {img : Pyr.Img ℝ} {pos : V2} {v : ℝ} (h : BA.readAt img pos = .ok v) :
    ∃ y x, y < img.rows ∧ x < img.cols ∧ ((y : Int) = Util.truncInt pos.y) ∧ ((x : Int) = Util.truncInt pos.x) ∧ v = img.px y x := by
  unfold BA.readAt Pyr.Img.read at h
  split at h
  · rename_i h0
    split at h
    · rename_i h1
      injection h with h
      exact ⟨_, _, h1.1, h1.2, by omega, by omega, h.symm⟩
    · cases h
  · cases h

/-- **C142, weights.** The weight of a residual in bundle adjustment is positive and at most 1, and it is 1 exactly if the picture is flat around the pixel. -/
theorem C142_weight {c : Cam.Cam} {s : BA.Settings} (hc : 0 < s.gradWeightingC) {img : Pyr.Img Nat} {base : BA.Kf}
    (hbase : base.gradNorm = (grad img).gradNorm) {k i ref : Nat} {p : V2} :
    ∀ (ds : List V2) (bs : List BA.RBlock), BA.patternBlocks c s base k i ref p ds = .ok bs →
    ∀ (n : Nat) (d : V2) (b : BA.RBlock), ds[n]? = some d → bs[n]? = some b →
    0 < b.weight ∧ b.weight ≤ 1 ∧ ∃ y x : Nat, y < img.rows ∧ x < img.cols ∧ (y : Int) = Util.truncInt (p + d).y ∧ (x : Int) = Util.truncInt (p + d).x ∧
      (b.weight = 1 ↔ slopeX img y x = 0 ∧ slopeY img y x = 0)
  | [], bs, h, n, d, b, hd, _ => by simp at hd
  | e :: ds, bs, h, n, d, b, hd, hb => by
    rw [BA.patternBlocks] at h
    cases h1 : BA.readAt base.gradNorm (p + e) with
    | error f => rw [h1] at h; cases h
    | ok g =>
      cases h2 : BA.patternBlocks c s base k i ref p ds with
      | error f =>
        rw [h1] at h
        simp only [h2, bind, Except.bind] at h
        cases h
      | ok rest =>
        rw [h1] at h
        simp only [h2, bind, Except.bind] at h
        injection h with h
        subst h
        cases n with
        | zero =>
          simp only [List.getElem?_cons_zero, Option.some.injEq] at hd hb
          subst hd hb
          obtain ⟨y, x, hy, hx, ey, ex, hv⟩ := readAt_ba h1
          rw [hbase] at hy hx hv
          obtain ⟨w1, w2, w3⟩ := weight_range hc g
          refine ⟨w1, w2, y, x, hy, hx, ey, ex, ?_⟩
          rw [show (_ = (1 : ℝ)) = (s.gradWeightingC / Real.sqrt (s.gradWeightingC ^ 2 + g ^ 2) = 1) from rfl, w3, hv, norm_px img hy hx]
          rw [Real.sqrt_eq_zero (by positivity)]
          constructor
          · intro h
            constructor <;> nlinarith [sq_nonneg (slopeX img y x), sq_nonneg (slopeY img y x)]
          · rintro ⟨h3, h4⟩
            rw [h3, h4]
            norm_num
        | succ n => exact C142_weight hc hbase ds rest h2 n d b hd hb

/-- Non-trivial case: a negative of a picture with a bright spot, which both have gradients. -/
example : ∃ img img' : Pyr.Img Nat, Relit (-1) 255 img img' ∧ slopeX img 1 1 = 50 ∧ slopeX img' 1 1 = -50 := by
  refine ⟨⟨3, 3, fun _ x => if x = 2 then 100 else 0⟩, ⟨3, 3, fun _ x => if x = 2 then 155 else 255⟩, ⟨rfl, rfl, ?_⟩, ?_, ?_⟩
  · intro y x _ _
    dsimp only
    split <;> norm_num
  · norm_num [slopeX, next, before]
  · norm_num [slopeX, next, before]

end Mdso.Frame
