import Verif.Props.BaseProjection
import Verif.Props.Initializer
import Verif.Props.Pyramid
import Mathlib.Analysis.Real.Pi.Bounds

/-!
# What tracking is given: initialization, projection and depth pyramid together
-/

set_option autoImplicit false

namespace Mdso.Base

open Mdso.Geom Mdso.Base.Spec Mdso.Init Mdso.Tri.Spec

/-- An immature point as `projectOntoBaseKf` sees it. -/
def view (ip : IPoint) : PView := ⟨ip.p, decide (ip.pt.state = .active), ip.pt.depth⟩

/-- The two keyframes of the initializer as `projectOntoBaseKf` sees them. -/
def views (m0 m1 : Motion3) (l0 l1 : List IPoint) : List KfView := [⟨m0, l0.map view⟩, ⟨m1, l1.map view⟩]

/-- The base keyframe of two. -/
def baseOfTwo (last : Bool) : Nat := if last then 1 else 0

theorem isBase_two (last : Bool) (m0 m1 : Motion3) (l0 l1 : List IPoint) :
    IsBase last (views m0 m1 l0 l1).length (baseOfTwo last) := by
  unfold IsBase baseOfTwo views
  cases last <;> rfl

theorem isBase_unique {last : Bool} {n b b' : Nat} (h : IsBase last n b) (h' : IsBase last n b') : b = b' := by
  unfold IsBase at h h'
  omega

/-- After an initialization by spherical terrains, the projection that prepares tracking ends normally, whatever the camera, the
poses and the choice of the base keyframe are. -/
theorem C91_after_spherical {S : Setup} {k0 k1 : Matched} {l0 l1 : List IPoint}
    (h : createKeyFrames S false k0 k1 = .ok (some (l0, l1))) (c : Cam.Cam) (last : Bool) (m0 m1 : Motion3) :
    ∃ out, projectOntoBaseKf c last (views m0 m1 l0 l1) = .ok out := by
  obtain ⟨_, _, -, -, g0, g1, -⟩ := C60_spherical h
  rw [C91_defined]
  refine ⟨_, isBase_two last m0 m1 l0 l1, ?_⟩
  have key : ∀ l : List IPoint, (∀ ip ∈ l, ∃ d, ip.pt.depth = some d) → ∀ pt ∈ l.map view, pt.depth ≠ none := by
    intro l hl pt hpt
    obtain ⟨ip, hip, rfl⟩ := List.mem_map.1 hpt
    obtain ⟨d, hd⟩ := hl ip hip
    show ip.pt.depth ≠ none
    rw [hd]
    exact Option.some_ne_none d
  rintro k i kf pt ⟨hk, hi⟩ -
  have hm := List.mem_of_getElem? hi
  rcases List.mem_cons.1 (List.mem_of_getElem? hk) with rfl | hk
  · exact key l0 (fun ip hip => (by obtain ⟨⟨-, d, -, hd, -⟩, -⟩ := g0 ip hip; exact ⟨d, hd⟩)) pt hm
  · rw [List.mem_singleton] at hk
    subst hk
    exact key l1 (fun ip hip => (by obtain ⟨⟨-, d, -, hd, -⟩, -⟩ := g1 ip hip; exact ⟨d, hd⟩)) pt hm

/-- C91 is violated after an initialization by plain terrains: there are keyframes the initializer returns for which the
projection, with either base keyframe and for all cameras and poses, reads a depth that has never been set. -/
theorem C91_depth_violated {L : Tri.Linear} (hL : Exact L) : ∃ (S : Setup) (k0 k1 : Matched) (l0 l1 : List IPoint), S.L = L ∧
    createKeyFrames S true k0 k1 = .ok (some (l0, l1)) ∧
    ∀ (c : Cam.Cam) (last : Bool) (m0 m1 : Motion3), projectOntoBaseKf c last (views m0 m1 l0 l1) = .error .ub := by
  obtain ⟨S, k0, k1, l0, l1, hS, h, ⟨ip0, hm0, -, hd0⟩, ⟨ip1, hm1, -, hd1⟩⟩ := C60_plain_violated hL
  refine ⟨S, k0, k1, l0, l1, hS, h, fun c last m0 m1 => ?_⟩
  cases hr : projectOntoBaseKf c last (views m0 m1 l0 l1) with
  | error f => rw [C91_otherwise c last _ f hr]
  | ok out =>
    exfalso
    obtain ⟨base, hb, hk⟩ := (C91_defined c last (views m0 m1 l0 l1)).1 ⟨out, hr⟩
    obtain rfl := isBase_unique hb (isBase_two last m0 m1 l0 l1)
    obtain ⟨i0, hi0⟩ := List.mem_iff_getElem?.1 (List.mem_map.2 ⟨ip0, hm0, rfl⟩ : view ip0 ∈ l0.map view)
    obtain ⟨i1, hi1⟩ := List.mem_iff_getElem?.1 (List.mem_map.2 ⟨ip1, hm1, rfl⟩ : view ip1 ∈ l1.map view)
    cases last with
    | false => exact hk 1 i1 _ _ ⟨rfl, hi1⟩ (Or.inl (by decide)) hd1
    | true => exact hk 0 i0 _ _ ⟨rfl, hi0⟩ (Or.inl (by decide)) hd0

/-! ### The pyramid built from the projection -/

/-- The points handed to `DepthedImagePyramid` (source/system/DsoSystem.cpp:427-429, 549-551). -/
def pyramidPoints (out : Out) (weights : List ℝ) : List Pyr.Pt :=
  (out.points.zip (out.depths.zip weights)).map fun q => ⟨q.1.x, q.1.y, q.2.1, q.2.2⟩

/-- C91: the pyramid can be built from the points projected, for all weights, if the pixels of the base keyframe are in the
picture and no point is projected exactly to its right or lower border. -/
theorem C91_pyramid_partial {c : Cam.Cam} {last : Bool} {kfs : List KfView} {base : Nat}
    (hb : IsBase last kfs.length base) (ho : ∀ kf ∈ kfs, Orthogonal kf.thisToWorld.rot) {out : Out}
    (h : projectOntoBaseKf c last kfs = .ok out)
    (hin : ∀ i kf pt, PointAt kfs base i kf pt → pt.active = true →
      0 ≤ pt.p.x ∧ pt.p.x < c.width ∧ 0 ≤ pt.p.y ∧ pt.p.y < c.height)
    (hne : ∀ pos ∈ out.points, pos.x ≠ c.width ∧ pos.y ≠ c.height) (weights : List ℝ) (n : Nat) :
    ∃ ls, Pyr.depthPyramid c.height c.width (n + 1) (pyramidPoints out weights) = .ok ls ∧ ls.length = n + 1 := by
  obtain ⟨-, -, -, hrep, -, -⟩ := C91_partial hb ho h
  have hinside : ∀ p ∈ pyramidPoints out weights, Pyr.Inside c.height c.width p := by
    intro p hp
    obtain ⟨⟨pos, d, w⟩, hq, rfl⟩ := List.mem_map.1 hp
    have hpos : pos ∈ out.points := (List.of_mem_zip hq).1
    obtain ⟨j, hj⟩ := List.mem_iff_getElem?.1 hpos
    obtain ⟨depth, k, i, -, -, -, kf, pt, hpt, ⟨rfl, ha, -, rfl⟩ | ⟨-, -, -, -, -, -, -, -, -, himg⟩⟩ := hrep j pos hj
    · obtain ⟨h1, h2, h3, h4⟩ := hin i kf pt hpt ha
      exact ⟨h1, h2, h3, h4⟩
    · obtain ⟨h1, h2, h3, h4⟩ := himg
      obtain ⟨n1, n2⟩ := hne pos hpos
      norm_num at h1 h2 h3 h4
      exact ⟨h1, lt_of_le_of_ne h3 n1, h2, lt_of_le_of_ne h4 n2⟩
  have hpix : ∀ p ∈ pyramidPoints out weights, ∃ q, Pyr.pixel c.height c.width p = some q := by
    intro p hp
    have h := hinside p hp
    obtain ⟨y, x, h', -⟩ := Pyr.pixel_inside h.1 h.2.1 h.2.2.1 h.2.2.2
    exact ⟨_, h'⟩
  obtain ⟨g, hg, -⟩ := Pyr.writeAll_ok (rows := c.height) (cols := c.width) _ Pyr.grid0 hpix
  obtain ⟨rest, hr1, hr2, -⟩ := Pyr.depthLevels_ok c.height c.width (fun y x => (g y x).1 * (g y x).2)
    (fun y x => (g y x).2) n 1
  refine ⟨{ rows := c.height, cols := c.width, px := fun y x => (g y x).1 } :: rest, ?_, by simp [hr2]⟩
  unfold Pyr.depthPyramid
  simp [hg, hr1]

/-- The weights of a resumed system (source/system/DsoSystem.cpp:93-94): the inverse of the standard deviation, where the inverse
of infinity is zero. -/
noncomputable def weightOf (ip : IPoint) : ℝ :=
  match ip.pt.stddev with
  | none => 0
  | some s => 1 / s

/-- With weights zero every level of the pyramid above the picture itself is empty. -/
theorem zero_weights {rows cols n : Nat} {pts : List Pyr.Pt} (hw : ∀ p ∈ pts, p.w = 0) {ls : List (Pyr.Img ℝ)}
    (h : Pyr.depthPyramid rows cols (n + 1) pts = .ok ls) {l : Nat} {im : Pyr.Img ℝ} (hl : ls[l + 1]? = some im) {y x : Nat}
    (hy : y < im.rows) (hx : x < im.cols) : im.px y x = -1 := by
  have hgrid : ∀ (pts : List Pyr.Pt) (g g' : Pyr.Grid), (∀ p ∈ pts, p.w = 0) → (∀ y x, (g y x).2 = 0) →
      Pyr.writeAll rows cols pts g = .ok g' → ∀ y x, (g' y x).2 = 0 := by
    intro pts
    induction pts with
    | nil =>
      intro g g' _ hg hh
      obtain rfl := Except.ok.inj hh
      exact hg
    | cons p pts ih =>
      intro g g' hp hg hh
      rw [Pyr.writeAll] at hh
      split at hh
      · cases hh
      · next at_ _ =>
        refine ih _ g' (fun q hq => hp q (List.mem_cons_of_mem _ hq)) ?_ hh
        intro y x
        unfold Pyr.write
        split
        · exact hp p (List.mem_cons_self ..)
        · exact hg y x
  unfold Pyr.depthPyramid at h
  rw [if_neg (Nat.succ_ne_zero n)] at h
  split at h
  · cases h
  · next g hg =>
    have hz := hgrid pts Pyr.grid0 g hw (fun _ _ => rfl) hg
    simp only at h
    obtain ⟨rest, hr1, hr2, hr3⟩ := Pyr.depthLevels_ok rows cols (fun y x => (g y x).1 * (g y x).2)
      (fun y x => (g y x).2) n 1
    rw [show n + 1 - 1 = n from rfl, hr1] at h
    obtain rfl := Except.ok.inj h
    obtain ⟨im', h1, h2, h3, h4⟩ := Pyr.pyrN_ok rows cols (1 + l) (fun y x => (g y x).1 * (g y x).2)
      (fun y x => (g y x).2)
    rw [hr3 l im hl] at h1
    obtain rfl := Except.ok.inj h1
    rw [h4 y x (h2 ▸ hy) (h3 ▸ hx), if_neg]
    have : Pyr.blockSum (fun y x => (g y x).2) (y * 2 ^ (1 + l)) (x * 2 ^ (1 + l)) (2 ^ (1 + l)) = 0 := by
      unfold Pyr.blockSum
      exact Finset.sum_eq_zero fun i _ => Finset.sum_eq_zero fun j _ => hz _ _
    rw [this]
    norm_num

/-- C90, what follows from its violation: after an initialization by spherical terrains the points have weight zero for a
system resumed from these keyframes, so that its depth pyramid has no depth on any level above the picture itself. -/
theorem C90_consequence {S : Setup} {k0 k1 : Matched} {l0 l1 : List IPoint}
    (h : createKeyFrames S false k0 k1 = .ok (some (l0, l1))) {rows cols n : Nat} {pts : List Pyr.Pt}
    (hp : ∀ p ∈ pts, ∃ ip ∈ l0 ++ l1, p.w = weightOf ip) {ls : List (Pyr.Img ℝ)}
    (hls : Pyr.depthPyramid rows cols (n + 1) pts = .ok ls) {l : Nat} {im : Pyr.Img ℝ} (hl : ls[l + 1]? = some im) {y x : Nat}
    (hy : y < im.rows) (hx : x < im.cols) : im.px y x = -1 := by
  obtain ⟨h0, h1, -⟩ := C90_violated h
  refine zero_weights ?_ hls hl hy hx
  intro p hpm
  obtain ⟨ip, hip, hw⟩ := hp p hpm
  have ht : ip.pt.stddev = ⊤ := by
    rcases List.mem_append.1 hip with hip | hip
    · exact h0 ip hip
    · exact h1 ip hip
  rw [hw]
  unfold weightOf
  rw [ht]

/-! ### Witnesses -/

/-- A fisheye camera: the distance from the centre is proportional to the angle. -/
noncomputable def fisheye : Cam.Cam where
  width := 200
  height := 200
  p0 := 1
  ps := []
  center := ⟨1, 1⟩
  scale := 100
  maxRadius := 1
  minZ := 0
  maxAngle := 1
  m0 := 0
  ms := [1]

/-- No motion. -/
def still : Motion3 := ⟨⟨⟨1, 0, 0⟩, ⟨0, 1, 0⟩, ⟨0, 0, 1⟩⟩, 0⟩

/-- A translation. -/
def shift (t : V3) : Motion3 := { still with t := t }

theorem orthogonal_shift (t : V3) : Orthogonal (shift t).rot := by
  intro v
  unfold shift still M3.transpose M3.mulVec
  constructor <;> ext <;> simp [V3.dot]

theorem act_shift (t v : V3) : (shift t).act v = v + t := by
  unfold shift still Motion3.act M3.mulVec
  ext <;> simp [V3.dot]

theorem centre_ray : (Cam.unmap fisheye ⟨100, 100⟩).normalized = ⟨0, 0, 1⟩ := by
  have h : Cam.unmap fisheye ⟨100, 100⟩ = ⟨0, 0, 1⟩ := by
    unfold Cam.unmap fisheye Cam.unmapLoop
    ext <;> simp
  rw [h, V3.normalized_eq (fun hh => by simpa using congrArg V3.z hh)]
  have : V3.norm ⟨0, 0, 1⟩ = 1 := by unfold V3.norm V3.sqNorm; simp
  rw [this]
  ext <;> simp

theorem map_axis : Cam.map fisheye ⟨0, 0, 2⟩ = ⟨100, 100⟩ := by
  unfold Cam.map fisheye
  simp only
  have : Cam.normalized2 ⟨0, 0⟩ = ⟨0, 0⟩ := by
    unfold Cam.normalized2 sqNorm; simp
  rw [this]
  ext <;> simp

/-- C91 is violated for points that are not active: a point of a keyframe other than the base keyframe is reported although it
has been found to be an outlier. -/
theorem C91_state_violated : ∃ (c : Cam.Cam) (kfs : List KfView) (base k i : Nat) (kf : KfView) (pt : PView) (out : Out),
    IsBase true kfs.length base ∧ (∀ kf ∈ kfs, Orthogonal kf.thisToWorld.rot) ∧ projectOntoBaseKf c true kfs = .ok out ∧
    PointAt kfs k i kf pt ∧ pt.active = false ∧ (k, i) ∈ out.ptrs := by
  obtain ⟨kf0, h0⟩ : ∃ kf : KfView, kf = ⟨shift 0, [⟨⟨100, 100⟩, false, some 2⟩]⟩ := ⟨_, rfl⟩
  obtain ⟨kf1, h1⟩ : ∃ kf : KfView, kf = ⟨shift 0, []⟩ := ⟨_, rfl⟩
  have hb : IsBase true [kf0, kf1].length 1 := rfl
  have ho : ∀ kf ∈ [kf0, kf1], Orthogonal kf.thisToWorld.rot := by
    intro kf hkf
    rcases List.mem_cons.1 hkf with rfl | hkf
    · subst h0; exact orthogonal_shift 0
    · rw [List.mem_singleton] at hkf; subst hkf h1; exact orthogonal_shift 0
  have hp : PointAt [kf0, kf1] 0 0 kf0 ⟨⟨100, 100⟩, false, some 2⟩ := ⟨rfl, by subst h0; rfl⟩
  obtain ⟨out, hout⟩ := (C91_defined fisheye true [kf0, kf1]).2 ⟨1, hb, by
    rintro k i kf pt ⟨hk, hi⟩ -
    rcases List.mem_cons.1 (List.mem_of_getElem? hk) with rfl | hk
    · subst h0
      have := List.mem_singleton.1 (List.mem_of_getElem? hi)
      subst this
      exact Option.some_ne_none _
    · rw [List.mem_singleton] at hk
      subst hk h1
      cases hi⟩
  refine ⟨fisheye, [kf0, kf1], 1, 0, 0, kf0, _, out, hb, ho, hout, hp, rfl, ?_⟩
  refine (C91_partial hb ho hout).2.2.2.2.1 0 0 ⟨100, 100⟩ (V3.norm ⟨0, 0, 2⟩) ⟨kf0, _, hp, Or.inr ⟨by decide, kf1, 2,
    ⟨0, 0, 2⟩, rfl, rfl, ?_, map_axis.symm, rfl, ?_⟩⟩
  · subst h0 h1
    unfold SeenAs
    rw [centre_ray, act_shift, act_shift]
    ext <;> simp
  · unfold Cam.isOnImage fisheye
    norm_num

theorem map_border : Cam.map fisheye ⟨Real.sin 1, 0, Real.cos 1⟩ = ⟨200, 100⟩ := by
  have hs : 0 < Real.sin 1 := Real.sin_pos_of_pos_of_lt_pi one_pos (by linarith [Real.pi_gt_three])
  have hlen : Cam.norm2 ⟨Real.sin 1, 0⟩ = Real.sin 1 := by
    unfold Cam.norm2 sqNorm
    simp only [mul_zero, add_zero]
    exact Real.sqrt_mul_self hs.le
  have hn : Cam.normalized2 ⟨Real.sin 1, 0⟩ = ⟨1, 0⟩ := by
    unfold Cam.normalized2
    rw [if_pos (by unfold sqNorm; simpa using mul_pos hs hs), hlen]
    ext
    · simp [hs.ne']
    · simp
  have ha : Cam.atan2 (Real.sin 1) (Real.cos 1) = 1 := by
    unfold Cam.atan2
    have : (⟨Real.cos 1, Real.sin 1⟩ : ℂ) = Complex.cos (1 : ℝ) + Complex.sin (1 : ℝ) * Complex.I := by
      rw [← Complex.ofReal_cos, ← Complex.ofReal_sin]
      generalize Real.cos 1 = a
      generalize Real.sin 1 = b
      apply Complex.ext <;> simp
    rw [this]
    exact Complex.arg_cos_add_sin_mul_I ⟨by linarith [Real.pi_pos], by linarith [Real.pi_gt_three]⟩
  unfold Cam.map
  simp only
  rw [hlen, ha, hn]
  unfold fisheye
  ext <;> simp [Cam.polyLoop] <;> norm_num

/-- C91 is violated at the border: a point projected exactly to the right border of the picture counts as on it, and building
the depth pyramid writes outside the picture. -/
theorem C91_border_violated : ∃ (c : Cam.Cam) (kfs : List KfView) (base : Nat) (out : Out),
    IsBase true kfs.length base ∧ (∀ kf ∈ kfs, Orthogonal kf.thisToWorld.rot) ∧
    (∀ k i kf pt, PointAt kfs k i kf pt → pt.active = true ∧ 0 ≤ pt.p.x ∧ pt.p.x < c.width ∧ 0 ≤ pt.p.y ∧
      pt.p.y < c.height ∧ ∃ d, pt.depth = some d ∧ 0 < d) ∧
    projectOntoBaseKf c true kfs = .ok out ∧ ∀ n, out.points.length = 1 ∧
      Pyr.depthPyramid c.height c.width (n + 1) (pyramidPoints out [1]) = .error .ub := by
  obtain ⟨kf0, h0⟩ : ∃ kf : KfView, kf = ⟨shift 0, [⟨⟨100, 100⟩, true, some 2⟩]⟩ := ⟨_, rfl⟩
  obtain ⟨kf1, h1⟩ : ∃ kf : KfView, kf = ⟨shift ⟨-Real.sin 1, 0, 2 - Real.cos 1⟩, []⟩ := ⟨_, rfl⟩
  have hb : IsBase true [kf0, kf1].length 1 := rfl
  have ho : ∀ kf ∈ [kf0, kf1], Orthogonal kf.thisToWorld.rot := by
    intro kf hkf
    rcases List.mem_cons.1 hkf with rfl | hkf
    · subst h0; exact orthogonal_shift _
    · rw [List.mem_singleton] at hkf; subst hkf h1; exact orthogonal_shift _
  have hp : PointAt [kf0, kf1] 0 0 kf0 ⟨⟨100, 100⟩, true, some 2⟩ := ⟨rfl, by subst h0; rfl⟩
  have hall : ∀ k i kf pt, PointAt [kf0, kf1] k i kf pt → (k, i) = (0, 0) ∧ pt = ⟨⟨100, 100⟩, true, some 2⟩ := by
    rintro k i kf pt ⟨hk, hi⟩
    match k, hk with
    | 0, hk =>
      obtain rfl := Option.some.inj hk
      subst h0
      match i, hi with
      | 0, hi => exact ⟨rfl, (Option.some.inj hi).symm⟩
    | 1, hk =>
      obtain rfl := Option.some.inj hk
      subst h1
      cases hi
  obtain ⟨out, hout⟩ := (C91_defined fisheye true [kf0, kf1]).2 ⟨1, hb, by
    intro k i kf pt hpt _
    rw [(hall k i kf pt hpt).2]
    exact Option.some_ne_none _⟩
  obtain ⟨hd, hptr, hkf, hrep, hcomp, hord⟩ := C91_partial hb ho hout
  have hseen : SeenAs fisheye kf1 kf0 ⟨100, 100⟩ 2 ⟨Real.sin 1, 0, Real.cos 1⟩ := by
    subst h0 h1
    unfold SeenAs
    rw [centre_ray, act_shift, act_shift]
    ext <;> simp
  have hmem : (0, 0) ∈ out.ptrs := hcomp 0 0 ⟨200, 100⟩ (V3.norm ⟨Real.sin 1, 0, Real.cos 1⟩) ⟨kf0, _, hp,
    Or.inr ⟨by decide, kf1, 2, _, rfl, rfl, hseen, map_border.symm, rfl, by unfold Cam.isOnImage fisheye; norm_num⟩⟩
  have hpos : ∀ (j : Nat) pos, out.points[j]? = some pos → pos = ⟨200, 100⟩ ∧ out.ptrs[j]? = some (0, 0) := by
    intro j pos hj
    obtain ⟨depth, k, i, -, e2, -, kf, pt, hpt, ⟨e3, -⟩ | ⟨-, baseKf, d, q, hbk, hdd, hq, hposq, -, -⟩⟩ := hrep j pos hj
    · obtain ⟨e, -⟩ := hall k i kf pt hpt
      rw [(Prod.mk.inj e).1] at e3
      cases e3
    · obtain ⟨e, rfl⟩ := hall k i kf pt hpt
      obtain ⟨rfl, rfl⟩ := Prod.mk.inj e
      refine ⟨?_, e2⟩
      obtain rfl := Option.some.inj hbk
      obtain rfl := Option.some.inj hdd
      obtain rfl := Option.some.inj hpt.1
      have ho1 : Orthogonal kf1.thisToWorld.rot := ho kf1 (by simp)
      have := (seen_iff ho1).1 hq
      rw [← (seen_iff ho1).1 hseen] at this
      rw [hposq, this]
      exact map_border
  have hlen : out.points.length = 1 := by
    have hge : 0 < out.points.length := by
      rw [← hptr]
      exact List.length_pos_of_mem hmem
    by_contra hc
    have h2 : 1 < out.points.length := by omega
    have a := (hpos 0 _ (List.getElem?_eq_getElem hge)).2
    have b := (hpos 1 _ (List.getElem?_eq_getElem h2)).2
    obtain ⟨l0, a'⟩ := List.getElem?_eq_some_iff.1 a
    obtain ⟨l1, b'⟩ := List.getElem?_eq_some_iff.1 b
    have := List.pairwise_iff_getElem.1 hord 0 1 l0 l1 (by decide)
    rw [a', b'] at this
    simp at this
  refine ⟨fisheye, [kf0, kf1], 1, out, hb, ho, ?_, hout, fun n => ⟨hlen, ?_⟩⟩
  · intro k i kf pt hpt
    rw [(hall k i kf pt hpt).2]
    unfold fisheye
    norm_num
  · obtain ⟨pos, hpe⟩ := List.length_eq_one_iff.1 hlen
    obtain ⟨d, hde⟩ := List.length_eq_one_iff.1 (hd.trans hlen)
    have := (hpos 0 pos (by rw [hpe]; rfl)).1
    unfold pyramidPoints
    rw [hpe, hde]
    refine Pyr.C43_outside_ub _ _ _ _ _ (Or.inl ?_)
    rw [this]
    unfold fisheye
    norm_num

end Mdso.Base
