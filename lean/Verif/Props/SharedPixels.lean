import Verif.Spec.SharedPixels
import Verif.Props.TrackingDepths

/-!
# Points that share a pixel (C184)
-/

set_option autoImplicit false

namespace Mdso.Pyr

open Mdso.PyrSpec

/-! ## Pixels -/

theorem pixel_at {rows cols r c : Nat} {p : Pt} (hr : r < rows) (hc : c < cols) (h : At r c p) :
    pixel rows cols p = some (r, c) := by
  obtain ⟨h1, h2, h3, h4⟩ := h
  have hx0 : 0 ≤ p.x := le_trans (Nat.cast_nonneg c) h1
  have hy0 : 0 ≤ p.y := le_trans (Nat.cast_nonneg r) h3
  have fx : Util.truncInt p.x = c := by
    unfold Util.truncInt
    rw [if_pos hx0, Int.floor_eq_iff]
    exact ⟨by exact_mod_cast h1, by exact_mod_cast h2⟩
  have fy : Util.truncInt p.y = r := by
    unfold Util.truncInt
    rw [if_pos hy0, Int.floor_eq_iff]
    exact ⟨by exact_mod_cast h3, by exact_mod_cast h4⟩
  unfold pixel
  simp only [fx, fy]
  rw [if_pos ⟨by omega, by omega, by omega, by omega⟩]
  rfl

theorem pixel_iff {rows cols r c : Nat} {p : Pt} (h : InPicture rows cols p) :
    pixel rows cols p = some (r, c) ↔ At r c p := by
  obtain ⟨r', c', hr, hc, ha⟩ := h
  rw [pixel_at hr hc ha]
  constructor
  · intro e
    obtain ⟨rfl, rfl⟩ := Prod.mk.inj (Option.some.inj e)
    exact ha
  · intro hb
    have key : ∀ {m n : Nat} {x : ℝ}, (m : ℝ) ≤ x → x < (m : ℝ) + 1 → (n : ℝ) ≤ x → x < (n : ℝ) + 1 →
        m = n := by
      intro m n x a1 a2 b1 b2
      have c1 : (m : ℝ) < ((n + 1 : Nat) : ℝ) := by push_cast; linarith
      have c2 : (n : ℝ) < ((m + 1 : Nat) : ℝ) := by push_cast; linarith
      have d1 := Nat.cast_lt.1 c1
      have d2 := Nat.cast_lt.1 c2
      omega
    rw [key ha.1 ha.2.1 hb.1 hb.2.1, key ha.2.2.1 ha.2.2.2 hb.2.2.1 hb.2.2.2]

theorem share_iff {rows cols : Nat} {p q : Pt} (hp : InPicture rows cols p)
    (hq : InPicture rows cols q) : Share p q ↔ pixel rows cols p = pixel rows cols q := by
  constructor
  · rintro ⟨r, c, h1, h2⟩
    rw [(pixel_iff hp).2 h1, (pixel_iff hq).2 h2]
  · intro e
    obtain ⟨r, c, hr, hc, ha⟩ := hp
    refine ⟨r, c, ha, (pixel_iff hq).1 ?_⟩
    rw [← e, pixel_at hr hc ha]

/-! ## The last point wins -/

theorem writeAll_last {rows cols : Nat} : ∀ (ps : List Pt) (g g' : Grid),
    writeAll rows cols ps g = .ok g' → ∀ (j : Nat) (p : Pt), ps[j]? = some p →
    ∀ q, pixel rows cols p = some q →
      (∀ (k : Nat) (p' : Pt), j < k → ps[k]? = some p' → pixel rows cols p' ≠ some q) →
      g' q.1 q.2 = (p.d, p.w)
  | [], _, _, _, j, p, hj, _, _, _ => by simp at hj
  | a :: ps, g, g', h, 0, p, hj, q, hq, hl => by
    simp only [List.getElem?_cons_zero, Option.some.injEq] at hj
    subst hj
    rw [writeAll, hq] at h
    simp only at h
    have hin : ∀ x ∈ ps, ∃ y, pixel rows cols x = some y := by
      clear hl hq
      generalize write g q (a.d, a.w) = g0 at h
      induction ps generalizing g0 with
      | nil => simp
      | cons b bs ih =>
        rw [writeAll] at h
        intro x hx
        cases e : pixel rows cols b with
        | none => rw [e] at h; cases h
        | some y =>
          rw [e] at h
          rcases List.mem_cons.1 hx with rfl | hx
          · exact ⟨y, e⟩
          · exact ih _ h x hx
    obtain ⟨g2, e2, h2⟩ := writeAll_ok ps (write g q (a.d, a.w)) hin
    rw [h] at e2
    obtain rfl := Except.ok.inj e2
    rcases h2 q.1 q.2 with ⟨-, h3⟩ | ⟨x, hx, h3, -⟩
    · rw [h3]
      unfold write
      rw [if_pos rfl]
    · obtain ⟨k, hk⟩ := List.mem_iff_getElem?.1 hx
      exact absurd h3 (hl (k + 1) x (by omega) (by simpa using hk))
  | a :: ps, g, g', h, j + 1, p, hj, q, hq, hl => by
    rw [writeAll] at h
    cases e : pixel rows cols a with
    | none => rw [e] at h; cases h
    | some y =>
      rw [e] at h
      refine writeAll_last ps _ g' h j p (by simpa using hj) q hq ?_
      intro k p' hk hp'
      exact hl (k + 1) p' (by omega) (by simpa using hp')

/-- **C184**, what holds: the picture of depths shows in every pixel the depth of the last of the points
there. Missing: that this is the nearest one (`C184_nearest_violated`). -/
theorem C184_last_partial (rows cols n : Nat) (pts : List Pt)
    (hin : ∀ p ∈ pts, InPicture rows cols p) :
    ∃ ls im, depthPyramid rows cols (n + 1) pts = .ok ls ∧ ls[0]? = some im ∧
      ∀ (j : Nat) (p : Pt), pts[j]? = some p →
        (∀ (k : Nat) (q : Pt), j < k → pts[k]? = some q → ¬ Share p q) →
        ∀ r c, At r c p → im.px r c = p.d := by
  have hpix : ∀ p ∈ pts, ∃ q, pixel rows cols p = some q := by
    intro p hp
    obtain ⟨r, c, hr, hc, ha⟩ := hin p hp
    exact ⟨_, pixel_at hr hc ha⟩
  obtain ⟨g, hg, -⟩ := writeAll_ok (rows := rows) (cols := cols) pts grid0 hpix
  obtain ⟨rest, hr1, -⟩ := depthLevels_ok rows cols (fun y x => (g y x).1 * (g y x).2)
    (fun y x => (g y x).2) n 1
  refine ⟨{ rows := rows, cols := cols, px := fun y x => (g y x).1 } :: rest, _, ?_, rfl, ?_⟩
  · unfold depthPyramid
    simp [hg, hr1]
  · intro j p hj hl r c ha
    have hp := hin p (List.mem_of_getElem? hj)
    have := writeAll_last pts grid0 g hg j p hj (r, c) ((pixel_iff hp).2 ha) (by
      intro k q hk hq e
      have hq' := hin q (List.mem_of_getElem? hq)
      exact hl k q hk hq ⟨r, c, ha, (pixel_iff hq').1 e⟩)
    exact congrArg Prod.fst this

/-! ## The order of the points -/

theorem writeAll_perm {rows cols : Nat} {ps qs : List Pt} (h : ps.Perm qs)
    (hin : ∀ p ∈ ps, ∃ q, pixel rows cols p = some q)
    (hd : ps.Pairwise (fun p q => pixel rows cols p ≠ pixel rows cols q)) :
    writeAll rows cols ps grid0 = writeAll rows cols qs grid0 := by
  obtain ⟨g, e, hg⟩ := writeAll_ok ps grid0 hin
  obtain ⟨g', e', hg'⟩ := writeAll_ok qs grid0 (fun p hp => hin p (h.mem_iff.2 hp))
  rw [e, e']
  congr 1
  funext y x
  have uniq : ∀ p ∈ ps, ∀ q ∈ ps, pixel rows cols p = pixel rows cols q → p = q := by
    intro p hp q hq hpq
    by_contra hne
    obtain ⟨i, hi, rfl⟩ := List.mem_iff_getElem.1 hp
    obtain ⟨j, hj, rfl⟩ := List.mem_iff_getElem.1 hq
    rcases Nat.lt_trichotomy i j with hij | hij | hij
    · exact List.pairwise_iff_getElem.1 hd i j hi hj hij hpq
    · subst hij
      exact hne rfl
    · exact List.pairwise_iff_getElem.1 hd j i hj hi hij hpq.symm
  rcases hg y x with ⟨h1, h2⟩ | ⟨p, hp, h1, h2⟩
  · rcases hg' y x with ⟨-, h4⟩ | ⟨q, hq, h3, -⟩
    · rw [h2, h4]
    · exact absurd h3 (h1 q (h.mem_iff.2 hq))
  · rcases hg' y x with ⟨h3, -⟩ | ⟨q, hq, h3, h4⟩
    · exact absurd h1 (h3 p (h.mem_iff.1 hp))
    · rw [h2, h4, uniq p hp q (h.mem_iff.2 hq) (h1.trans h3.symm)]

/-- **C184**, what holds: as long as no two points share a pixel, the order of the points does not
matter on any level. -/
theorem C184_order_partial (rows cols n : Nat) {pts pts' : List Pt} (hp : pts.Perm pts')
    (hin : ∀ p ∈ pts, InPicture rows cols p) (hd : pts.Pairwise (fun p q => ¬ Share p q)) :
    depthPyramid rows cols n pts = depthPyramid rows cols n pts' := by
  have hpix : ∀ p ∈ pts, ∃ q, pixel rows cols p = some q := by
    intro p hp
    obtain ⟨r, c, hr, hc, ha⟩ := hin p hp
    exact ⟨_, pixel_at hr hc ha⟩
  have hd' : pts.Pairwise (fun p q => pixel rows cols p ≠ pixel rows cols q) := by
    refine hd.imp_of_mem ?_
    intro p q hp hq h e
    exact h ((share_iff (hin p hp) (hin q hq)).2 e)
  unfold depthPyramid
  rw [writeAll_perm hp hpix hd']

/-- Three points in different pixels of a picture of 4 by 5 pixels. -/
example : depthPyramid 4 5 3 [⟨2.5, 0, 3, 1⟩, ⟨3, 1.5, 7, 2⟩, ⟨0.25, 0.5, 1, 1⟩] =
    depthPyramid 4 5 3 [⟨0.25, 0.5, 1, 1⟩, ⟨3, 1.5, 7, 2⟩, ⟨2.5, 0, 3, 1⟩] := by
  have a1 : At 0 2 ⟨2.5, 0, 3, 1⟩ := by norm_num [At]
  have a2 : At 1 3 ⟨3, 1.5, 7, 2⟩ := by norm_num [At]
  have a3 : At 0 0 ⟨0.25, 0.5, 1, 1⟩ := by norm_num [At]
  have p1 : InPicture 4 5 ⟨2.5, 0, 3, 1⟩ := ⟨0, 2, by norm_num, by norm_num, a1⟩
  have p2 : InPicture 4 5 ⟨3, 1.5, 7, 2⟩ := ⟨1, 3, by norm_num, by norm_num, a2⟩
  have p3 : InPicture 4 5 ⟨0.25, 0.5, 1, 1⟩ := ⟨0, 0, by norm_num, by norm_num, a3⟩
  refine C184_order_partial 4 5 3 (List.reverse_perm _).symm ?_ ?_
  · intro p hp
    simp only [List.mem_cons, List.not_mem_nil, or_false] at hp
    rcases hp with rfl | rfl | rfl
    · exact p1
    · exact p2
    · exact p3
  · simp only [List.pairwise_cons, List.mem_cons, List.not_mem_nil, or_false, forall_eq_or_imp,
      forall_eq, false_implies, implies_true, List.Pairwise.nil, and_true]
    refine ⟨⟨?_, ?_⟩, ?_⟩
    · rw [share_iff p1 p2, (pixel_iff p1).2 a1, (pixel_iff p2).2 a2]; decide
    · rw [share_iff p1 p3, (pixel_iff p1).2 a1, (pixel_iff p3).2 a3]; decide
    · rw [share_iff p2 p3, (pixel_iff p2).2 a2, (pixel_iff p3).2 a3]; decide

/-- **C184** is violated for points that share a pixel: the order in which they are given decides which
depth is shown. -/
theorem C184_order_violated : ∃ p q : Pt, InPicture 2 2 p ∧ InPicture 2 2 q ∧ 0 < p.d ∧ 0 < q.d ∧
    depthPyramid 2 2 1 [p, q] ≠ depthPyramid 2 2 1 [q, p] := by
  have a1 : At 0 0 ⟨0, 0, 2, 1⟩ := by norm_num [At]
  have a2 : At 0 0 ⟨0.5, 0, 5, 1⟩ := by norm_num [At]
  have p1 : InPicture 2 2 ⟨0, 0, 2, 1⟩ := ⟨0, 0, by norm_num, by norm_num, a1⟩
  have p2 : InPicture 2 2 ⟨0.5, 0, 5, 1⟩ := ⟨0, 0, by norm_num, by norm_num, a2⟩
  refine ⟨⟨0, 0, 2, 1⟩, ⟨0.5, 0, 5, 1⟩, p1, p2, by norm_num, by norm_num, fun h => ?_⟩
  obtain ⟨ls, im, e, h0, hl⟩ := C184_last_partial 2 2 0 [⟨0, 0, 2, 1⟩, ⟨0.5, 0, 5, 1⟩] (by
    intro p hp
    simp only [List.mem_cons, List.not_mem_nil, or_false] at hp
    rcases hp with rfl | rfl
    · exact p1
    · exact p2)
  obtain ⟨ls', im', e', h0', hl'⟩ := C184_last_partial 2 2 0 [⟨0.5, 0, 5, 1⟩, ⟨0, 0, 2, 1⟩] (by
    intro p hp
    simp only [List.mem_cons, List.not_mem_nil, or_false] at hp
    rcases hp with rfl | rfl
    · exact p2
    · exact p1)
  rw [e, e'] at h
  obtain rfl := Except.ok.inj h
  rw [h0] at h0'
  obtain rfl := Option.some.inj h0'
  have b1 := hl 1 ⟨0.5, 0, 5, 1⟩ rfl (by
    intro k q hk hq
    rw [List.getElem?_eq_none (by simp; omega)] at hq
    cases hq) 0 0 a2
  have b2 := hl' 1 ⟨0, 0, 2, 1⟩ rfl (by
    intro k q hk hq
    rw [List.getElem?_eq_none (by simp; omega)] at hq
    cases hq) 0 0 a1
  rw [b1] at b2
  norm_num at b2

end Mdso.Pyr

namespace Mdso.Base

open Mdso.Geom Mdso.Base.Spec Mdso.PyrSpec

/-! ## Tracking -/

theorem zip_getElem {out : Out} {weights : List ℝ} {j : Nat} {pt : Pyr.Pt}
    (h : (pyramidPoints out weights)[j]? = some pt) :
    ∃ pos, out.points[j]? = some pos ∧ out.depths[j]? = some pt.d ∧ pt.x = pos.x ∧ pt.y = pos.y := by
  unfold pyramidPoints at h
  rw [List.getElem?_map] at h
  obtain ⟨⟨pos, d, w⟩, hz, rfl⟩ := Option.map_eq_some_iff.1 h
  rw [List.getElem?_zip_eq_some] at hz
  obtain ⟨h1, h2⟩ := hz
  rw [List.getElem?_zip_eq_some] at h2
  exact ⟨pos, h1, h2.1, rfl, rfl⟩

/-- **C184**, what holds when tracking starts from the newest keyframe: in the pixel of an active point
of that keyframe the depths show that point's own depth, whatever other keyframes have there, if no
other active point of the keyframe lies in the pixel. -/
theorem C184_base_partial {c : Cam.Cam} {kfs : List KfView} {base : Nat}
    (hb : IsBase true kfs.length base) (ho : ∀ kf ∈ kfs, Orthogonal kf.thisToWorld.rot) {out : Out}
    (h : projectOntoBaseKf c true kfs = .ok out) {weights : List ℝ}
    (hwl : weights.length = out.points.length)
    (hin : ∀ p ∈ pyramidPoints out weights, InPicture c.height c.width p) (n : Nat)
    {i : Nat} {kf : KfView} {pt : PView} {d : ℝ} (hpt : PointAt kfs base i kf pt)
    (ha : pt.active = true) (hd : pt.depth = some d)
    (hone : ∀ i' pt', PointAt kfs base i' kf pt' → pt'.active = true → i' ≠ i →
      ∀ w w' d d' : ℝ, ¬ Share ⟨pt.p.x, pt.p.y, d, w⟩ ⟨pt'.p.x, pt'.p.y, d', w'⟩) :
    ∃ ls im, Pyr.depthPyramid c.height c.width (n + 1) (pyramidPoints out weights) = .ok ls ∧
      ls[0]? = some im ∧ ∀ r k : Nat, (k : ℝ) ≤ pt.p.x → pt.p.x < (k : ℝ) + 1 → (r : ℝ) ≤ pt.p.y →
        pt.p.y < (r : ℝ) + 1 → im.px r k = d := by
  obtain ⟨l1, l2, l3, hrep, hall, hpw⟩ := C91_partial hb ho h
  obtain ⟨ls, im, e, h0, hlast⟩ := Pyr.C184_last_partial c.height c.width n _ hin
  refine ⟨ls, im, e, h0, ?_⟩
  intro r k x1 x2 y1 y2
  have hmem := hall base i pt.p d ⟨kf, pt, hpt, Or.inl ⟨rfl, ha, hd, rfl⟩⟩
  obtain ⟨j, hj⟩ := List.mem_iff_getElem?.1 hmem
  have hjlt : j < out.points.length := by
    have := (List.getElem?_eq_some_iff.1 hj).1
    omega
  obtain ⟨w, hw⟩ : ∃ w, weights[j]? = some w :=
    ⟨_, List.getElem?_eq_getElem (by omega)⟩
  have hpos : out.points[j]? = some out.points[j] := List.getElem?_eq_getElem hjlt
  obtain ⟨depth, k', i', hdep, hptr, -, kf', pt', hpt', hcase⟩ := hrep j _ hpos
  rw [hj] at hptr
  obtain ⟨rfl, rfl⟩ := Prod.mk.inj (Option.some.inj hptr)
  have hk1 : kf = kf' := Option.some.inj (hpt.1.symm.trans hpt'.1)
  subst hk1
  have hp1 : pt = pt' := Option.some.inj (hpt.2.symm.trans hpt'.2)
  subst hp1
  rcases hcase with ⟨-, -, hd', hpp⟩ | ⟨hne, -⟩
  swap
  · exact absurd rfl hne
  have hdd : depth = d := Option.some.inj (hd'.symm.trans hd)
  subst hdd
  rw [hpp] at hpos
  have hentry : (pyramidPoints out weights)[j]? = some ⟨pt.p.x, pt.p.y, depth, w⟩ := by
    unfold pyramidPoints
    rw [List.getElem?_map, Option.map_eq_some_iff]
    refine ⟨(pt.p, depth, w), ?_, rfl⟩
    rw [List.getElem?_zip_eq_some]
    exact ⟨hpos, List.getElem?_zip_eq_some.2 ⟨hdep, hw⟩⟩
  refine hlast j _ hentry ?_ r k ⟨x1, x2, y1, y2⟩
  intro j2 q hlt hq
  obtain ⟨pos2, hpos2, -, hx, hy⟩ := zip_getElem hq
  obtain ⟨depth2, k2, i2, -, hptr2, -, kf2, pt2, hpt2, hcase2⟩ := hrep j2 pos2 hpos2
  have hpair := List.pairwise_iff_getElem.1 hpw j j2 (List.getElem?_eq_some_iff.1 hj).1
    (List.getElem?_eq_some_iff.1 hptr2).1 hlt
  rw [(List.getElem?_eq_some_iff.1 hj).2, (List.getElem?_eq_some_iff.1 hptr2).2] at hpair
  simp only at hpair
  have hk2 : k2 < kfs.length := (List.getElem?_eq_some_iff.1 hpt2.1).1
  have hb' : base + 1 = kfs.length := hb
  have hk2b : k2 = base := by omega
  subst hk2b
  have hi : i2 ≠ i := by omega
  have hk3 : kf = kf2 := Option.some.inj (hpt.1.symm.trans hpt2.1)
  subst hk3
  rcases hcase2 with ⟨-, ha2, -, hpp2⟩ | ⟨hne, -⟩
  · have := hone i2 pt2 hpt2 ha2 hi w q.w depth q.d
    rw [hpp2] at hx hy
    rw [← hx, ← hy] at this
    exact this
  · exact absurd rfl hne

theorem project_two : projectOntoBaseKf fisheye true
    [⟨shift 0, [⟨⟨100, 100⟩, true, some 2⟩]⟩, ⟨shift 0, [⟨⟨100, 100⟩, true, some 5⟩]⟩] =
      .ok ⟨[⟨100, 100⟩, ⟨100, 100⟩], [2, 5], [(0, 0), (1, 0)], [0, 1]⟩ := by
  have hact : (compose (inverse (shift 0)) (shift 0)).act ((2 : ℝ) • (⟨0, 0, 1⟩ : V3)) = ⟨0, 0, 2⟩ := by
    unfold compose inverse shift still Motion3.act M3.mulVec M3.mul M3.transpose
    ext <;> simp [V3.dot]
  have hnorm : V3.norm ⟨0, 0, 2⟩ = 2 := by
    unfold V3.norm V3.sqNorm
    simp only [mul_zero, add_zero, zero_add]
    exact Real.sqrt_mul_self (by norm_num)
  have himg : Cam.isOnImage fisheye ⟨100, 100⟩ 0 := by
    unfold Cam.isOnImage fisheye
    norm_num
  have hother : ∀ o, pushOther fisheye (compose (inverse (shift 0)) (shift 0)) 0 0
      [⟨⟨100, 100⟩, true, some 2⟩] o = .ok (o.push ⟨100, 100⟩ 2 (0, 0) 0) := by
    intro o
    unfold pushOther
    simp only
    rw [centre_ray, hact, map_axis, if_pos himg, hnorm]
    rfl
  have h0 : ∀ o, pushFrame fisheye 1 (shift 0) 0 ⟨shift 0, [⟨⟨100, 100⟩, true, some 2⟩]⟩ o =
      .ok (o.push ⟨100, 100⟩ 2 (0, 0) 0) := fun o => hother o
  have h1 : ∀ o, pushFrame fisheye 1 (shift 0) 1 ⟨shift 0, [⟨⟨100, 100⟩, true, some 5⟩]⟩ o =
      .ok (o.push ⟨100, 100⟩ 5 (1, 0) 1) := fun o => rfl
  show pushAll fisheye 1 (shift 0) 0 _ _ = _
  simp only [pushAll, h0, h1, bind, Except.bind]
  rfl

theorem inPicture_two : ∀ p ∈ pyramidPoints ⟨[⟨100, 100⟩, ⟨100, 100⟩], [2, 5], [(0, 0), (1, 0)], [0, 1]⟩ [1, 1],
    InPicture fisheye.height fisheye.width p := by
  intro p hp
  simp only [pyramidPoints, List.zip_cons_cons, List.zip_nil_right, List.map_cons, List.map_nil,
    List.mem_cons, List.not_mem_nil, or_false] at hp
  rcases hp with rfl | rfl
  · exact ⟨100, 100, by norm_num [fisheye], by norm_num [fisheye], by norm_num [At]⟩
  · exact ⟨100, 100, by norm_num [fisheye], by norm_num [fisheye], by norm_num [At]⟩

/-- Two keyframes with one point each in the same pixel: the depths show the 5 of the base keyframe. -/
example : ∃ ls im, Pyr.depthPyramid fisheye.height fisheye.width 3
      (pyramidPoints ⟨[⟨100, 100⟩, ⟨100, 100⟩], [2, 5], [(0, 0), (1, 0)], [0, 1]⟩ [1, 1]) = .ok ls ∧
    ls[0]? = some im ∧ im.px 100 100 = 5 := by
  obtain ⟨ls, im, e, h0, h⟩ := C184_base_partial (base := 1) (i := 0) (d := 5) (kfs := [⟨shift 0, [⟨⟨100, 100⟩, true, some 2⟩]⟩,
      ⟨shift 0, [⟨⟨100, 100⟩, true, some 5⟩]⟩]) (show 1 + 1 = 2 from rfl) (by
      intro kf hkf
      simp only [List.mem_cons, List.not_mem_nil, or_false] at hkf
      rcases hkf with rfl | rfl <;> exact orthogonal_shift 0) project_two (weights := [1, 1]) rfl
    inPicture_two 2 ⟨rfl, rfl⟩ rfl rfl (by
      intro i' pt' hp _ hi
      have := hp.2
      rw [List.getElem?_eq_none (by simp; omega)] at this
      cases this)
  exact ⟨ls, im, e, h0, h 100 100 (by norm_num) (by norm_num) (by norm_num) (by norm_num)⟩

/-- **C184** is violated: a point of an older keyframe at distance 2 and one of the base keyframe at
distance 5 lie in the same pixel; tracking is given the distance 5, although the nearer point hides the
other one. -/
theorem C184_nearest_violated : ∃ (c : Cam.Cam) (kfs : List KfView) (out : Out) (weights : List ℝ)
    (ls : List (Pyr.Img ℝ)) (im : Pyr.Img ℝ), projectOntoBaseKf c true kfs = .ok out ∧
      weights.length = out.points.length ∧
      Pyr.depthPyramid c.height c.width 1 (pyramidPoints out weights) = .ok ls ∧ ls[0]? = some im ∧
      ¬ ShowsNearest (pyramidPoints out weights) im.px := by
  have a1 : At 100 100 ⟨100, 100, 2, 1⟩ := by norm_num [At]
  have a2 : At 100 100 ⟨100, 100, 5, 1⟩ := by norm_num [At]
  obtain ⟨ls, im, e, h0, hl⟩ := Pyr.C184_last_partial fisheye.height fisheye.width 0 _ inPicture_two
  refine ⟨fisheye, _, _, [1, 1], ls, im, project_two, rfl, e, h0, fun hs => ?_⟩
  have h1 := hl 1 ⟨100, 100, 5, 1⟩ rfl (by
    intro k q hk hq
    rw [List.getElem?_eq_none (by simp [pyramidPoints]; omega)] at hq
    cases hq) 100 100 a2
  have h2 := hs 100 100 ⟨100, 100, 2, 1⟩ (by simp [pyramidPoints]) a1
  rw [h1] at h2
  norm_num at h2

end Mdso.Base
