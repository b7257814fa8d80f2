import Verif.Spec.GenPly
import Verif.Spec.BaseProjection
import Verif.Props.DataSet
import Verif.Props.PrintInPly
import Verif.Props.BaseProjection

/-!
# Properties of the ground truth clouds: C114–C117
-/

set_option autoImplicit false

namespace Mdso.GenPly

open Mdso.Geom Mdso.Reader Mdso.Ply Mdso.PlySpec

/-! ## The grid -/

theorem counter_eq {n s : Nat} (hs : 0 < s) (fuel y : Nat) (hf : n ≤ y + fuel * s) (hy : s ∣ y) :
    counter n s fuel y = ((List.range' y (n - y)).filter fun i => decide (s ∣ i)) := by
  induction fuel generalizing y with
  | zero =>
    have : n - y = 0 := by omega
    rw [this]; rfl
  | succ fuel ih =>
    unfold counter
    split
    · rename_i hlt
      rw [ih (y + s) (by rw [Nat.add_mul] at hf; omega) (Nat.dvd_add hy (dvd_refl s))]
      by_cases h : n ≤ y + s
      · have h0 : n - (y + s) = 0 := by omega
        rw [h0]
        obtain ⟨k, hk⟩ : ∃ k, n - y = k + 1 := ⟨n - y - 1, by omega⟩
        rw [hk, List.range'_succ, List.filter_cons, if_pos (by simpa using hy)]
        have : (List.range' (y + 1) k).filter (fun i => decide (s ∣ i)) = [] := by
          rw [List.filter_eq_nil_iff]
          intro i hi hd
          rw [List.mem_range'_1] at hi
          have hd' : s ∣ i - y := Nat.dvd_sub (by simpa using hd) hy
          have := Nat.le_of_dvd (by omega) hd'
          omega
        rw [this]; rfl
      · have hsplit : List.range' y (n - y) = List.range' y s ++ List.range' (y + s) (n - (y + s)) := by
          rw [show n - y = s + (n - (y + s)) by omega, ← List.range'_append_1]
        rw [hsplit, List.filter_append]
        obtain ⟨k, hk⟩ : ∃ k, s = k + 1 := ⟨s - 1, by omega⟩
        have : (List.range' y s).filter (fun i => decide (s ∣ i)) = [y] := by
          rw [show List.range' y s = y :: List.range' (y + 1) k by rw [hk, List.range'_succ], List.filter_cons, if_pos (by simpa using hy)]
          congr 1
          rw [List.filter_eq_nil_iff]
          intro i hi hd
          rw [List.mem_range'_1] at hi
          have hd' : s ∣ i - y := Nat.dvd_sub (by simpa using hd) hy
          have := Nat.le_of_dvd (by omega) hd'
          omega
        rw [this]; rfl
    · rename_i hlt
      have : n - y = 0 := by omega
      rw [this]; rfl

theorem counter_range {n s : Nat} (hs : 0 < s) : counter n s n 0 = (List.range n).filter fun i => decide (s ∣ i) := by
  rw [counter_eq hs n 0 (by have := Nat.le_mul_of_pos_right n hs; omega) (dvd_zero s), List.range_eq_range']
  simp

theorem counter_length {n s : Nat} (hs : 0 < s) (fuel y : Nat) : (counter n s fuel y).length * s ≤ (n - y) + (s - 1) := by
  induction fuel generalizing y with
  | zero => simp [counter]
  | succ fuel ih =>
    unfold counter
    split
    · rename_i hlt
      have := ih (y + s)
      rw [List.length_cons, Nat.add_mul]
      by_cases h : y + s ≤ n
      · omega
      · have h0 : n - (y + s) = 0 := by omega
        have hl : (counter n s fuel (y + s)).length = 0 := by
          cases fuel with
          | zero => rfl
          | succ k => unfold counter; rw [if_neg (by omega)]; rfl
        rw [hl]; omega
    · simp

theorem pixels_length (w h s : Nat) : (pixels w h s).length = (counter h s h 0).length * (counter w s w 0).length := by
  unfold pixels
  generalize counter h s h 0 = a
  induction a with
  | nil => simp
  | cons y a ih =>
    rw [List.flatMap_cons, List.length_append, ih, List.length_map, List.length_cons]
    ring

/-! ## One frame -/

theorem scan_spec {cam : Cam.Cam} (hz : ∀ p, Cam.unmap cam p ≠ 0) {depths : Pyr.Img (Option ℝ)} {frame : Pyr.Img Vec3b}
    (l : List (Nat × Nat)) {acc r : List V3 × List Vec3b} (h : scan cam depths frame l acc = .ok r) :
    ∃ out : List (V3 × Vec3b), r = (acc.1 ++ out.map Prod.fst, acc.2 ++ out.map Prod.snd) ∧
      List.Forall₂ (PointOf cam depths frame) (l.filter fun p => open Classical in decide (∃ d, depths.px p.1 p.2 = some d ∧ d ≤ 10 ^ 10)) out := by
  classical
  induction l generalizing acc with
  | nil =>
    cases h
    exact ⟨[], by simp, .nil⟩
  | cons p l ih =>
    obtain ⟨y, x⟩ := p
    unfold scan at h
    cases hd : depths.px y x with
    | none => rw [hd] at h; cases h
    | some d =>
      rw [hd] at h
      simp only at h
      by_cases hbig : d > 10000000000
      · rw [if_pos hbig] at h
        obtain ⟨out, h1, h2⟩ := ih h
        refine ⟨out, h1, ?_⟩
        rw [List.filter_cons, if_neg]
        · convert h2
        · simp only [hd, Option.some.injEq, decide_eq_true_eq]
          rintro ⟨d', rfl, hle⟩
          norm_num at hle
          linarith
      · rw [if_neg hbig] at h
        cases hf : frame.read y x with
        | error e => rw [hf] at h; cases h
        | ok c =>
          rw [hf] at h
          simp only at h
          obtain ⟨out, h1, h2⟩ := ih h
          refine ⟨(d • (Cam.unmap cam ⟨x, y⟩).normalized, c) :: out, ?_, ?_⟩
          · rw [h1]; simp
          · rw [List.filter_cons, if_pos]
            · refine .cons ?_ (by convert h2)
              have hq : 0 < (Cam.unmap cam ⟨x, y⟩).sqNorm := V3.sqNorm_pos (hz _)
              have hn : 0 < (Cam.unmap cam ⟨x, y⟩).norm := Real.sqrt_pos.2 hq
              refine ⟨d, (Cam.unmap cam ⟨x, y⟩).normalized, hd, ⟨1 / (Cam.unmap cam ⟨x, y⟩).norm, by positivity, ?_⟩, ?_, rfl, ?_⟩
              · unfold V3.normalized; rw [if_pos hq]
              · exact V3.norm_normalized (hz _)
              · unfold Pyr.Img.read at hf
                split at hf
                · cases hf; rfl
                · cases hf
            · simp only [hd, Option.some.injEq, decide_eq_true_eq]
              refine ⟨d, rfl, ?_⟩
              norm_num
              linarith

theorem scan_length {cam : Cam.Cam} {depths : Pyr.Img (Option ℝ)} {frame : Pyr.Img Vec3b} (l : List (Nat × Nat))
    {acc r : List V3 × List Vec3b} (h : scan cam depths frame l acc = .ok r) : r.1.length ≤ acc.1.length + l.length := by
  induction l generalizing acc with
  | nil => cases h; simp
  | cons p l ih =>
    obtain ⟨y, x⟩ := p
    unfold scan at h
    cases hd : depths.px y x with
    | none => rw [hd] at h; cases h
    | some d =>
      rw [hd] at h
      simp only at h
      by_cases hbig : d > 10000000000
      · rw [if_pos hbig] at h
        have := ih h
        rw [List.length_cons]; omega
      · rw [if_neg hbig] at h
        cases hf : frame.read y x with
        | error e => rw [hf] at h; cases h
        | ok c =>
          rw [hf] at h
          have := ih h
          simp only [List.length_append, List.length_cons, List.length_nil] at this ⊢
          omega

theorem scan_defined {cam : Cam.Cam} {depths : Pyr.Img (Option ℝ)} {frame : Pyr.Img Vec3b} (l : List (Nat × Nat))
    (h : ∀ p ∈ l, (depths.px p.1 p.2).isSome ∧ p.1 < frame.rows ∧ p.2 < frame.cols) (acc : List V3 × List Vec3b) :
    ∃ r, scan cam depths frame l acc = .ok r := by
  induction l generalizing acc with
  | nil => exact ⟨_, rfl⟩
  | cons p l ih =>
    obtain ⟨y, x⟩ := p
    obtain ⟨h1, h2, h3⟩ := h (y, x) (by simp)
    have ih' := ih fun p hp => h p (by simp [hp])
    obtain ⟨d, hd⟩ := Option.isSome_iff_exists.1 h1
    have hr : frame.read y x = .ok (frame.px y x) := if_pos ⟨h2, h3⟩
    unfold scan
    simp only at hd
    rw [hd]
    simp only [hr]
    split
    · exact ih' _
    · exact ih' _

theorem getDepths_size {N I G : Type} {disk : Disk N I} {r : MultiFovReader G} {n : Int} {m : Pyr.Img (Option ℝ)}
    (h : getDepths disk r n = .ok m) : m.rows = r.cam.height ∧ m.cols = r.cam.width := by
  unfold getDepths at h
  cases hn : depthsFName r.dir n with
  | error e => simp only [hn, bind, Except.bind] at h; cases h
  | ok name =>
    simp only [hn, bind, Except.bind] at h
    cases hf : disk.numbers name with
    | none => rw [hf] at h; cases h
    | some tp => rw [hf] at h; cases h; exact ⟨rfl, rfl⟩

theorem frameStep_ok {N : Type} {disk : Disk N (Pyr.Img Vec3b)} {r : MultiFovReader Motion3} {stp it : Int} {t t' : Tables}
    (h : frameStep disk r stp it t = .ok t') :
    0 ≤ it ∧ it < t.points.length ∧ it < t.colors.length ∧ stp ≠ 0 ∧ ∃ depths frame out, getDepths disk r it = .ok depths ∧
      getFrame disk r it = .ok frame ∧ scan r.cam depths frame (pixels r.cam.width r.cam.height stp.toNat)
        (t.points.getD it.toNat [], t.colors.getD it.toNat []) = .ok out ∧
      t' = ⟨t.points.set it.toNat out.1, t.colors.set it.toNat out.2⟩ := by
  unfold frameStep at h
  split at h
  · rename_i hin
    split at h
    · cases h
    · rename_i hs
      cases h1 : getDepths disk r it with
      | error e => simp only [h1, bind, Except.bind] at h; cases h
      | ok depths =>
        cases h2 : getFrame disk r it with
        | error e => simp only [h1, h2, bind, Except.bind] at h; cases h
        | ok frame =>
          simp only [h1, h2, bind, Except.bind] at h
          cases h3 : scan r.cam depths frame (pixels r.cam.width r.cam.height stp.toNat)
              (t.points.getD it.toNat [], t.colors.getD it.toNat []) with
          | error e => rw [h3] at h; cases h
          | ok out =>
            rw [h3] at h
            cases h
            exact ⟨hin.1, hin.2.1, hin.2.2, hs, depths, frame, out, rfl, rfl, h3, rfl⟩
  · cases h

theorem pixels_sampled {depths : Pyr.Img (Option ℝ)} {w h s : Nat} (hs : 0 < s) (hr : depths.rows = h) (hc : depths.cols = w) :
    ((pixels w h s).filter fun p => open Classical in decide (∃ d, depths.px p.1 p.2 = some d ∧ d ≤ 10 ^ 10)) = sampled depths s := by
  subst hr hc
  unfold pixels sampled
  rw [counter_range hs, counter_range hs]

/-- What the loop over the frames leaves behind. -/
theorem frames_spec {N : Type} {disk : Disk N (Pyr.Img Vec3b)} {r : MultiFovReader Motion3} {stp : Int} (hs : 0 ≤ stp)
    (hz : ∀ p, Cam.unmap r.cam p ≠ 0) (n : Nat) {it : Int} {t t' : Tables} (h : frames disk r stp n it t = .ok t') :
    t'.points.length = t.points.length ∧ t'.colors.length = t.colors.length ∧
    ∀ i : Nat, i < t.points.length →
      (it ≤ i ∧ (i : Int) < it + n → 0 < stp ∧ ∃ depths frame out, getDepths disk r i = .ok depths ∧ getFrame disk r i = .ok frame ∧
        t'.points[i]? = some (t.points.getD i [] ++ out.map Prod.fst) ∧ t'.colors[i]? = some (t.colors.getD i [] ++ out.map Prod.snd) ∧
        List.Forall₂ (PointOf r.cam depths frame) (sampled depths stp.toNat) out) ∧
      (¬ (it ≤ i ∧ (i : Int) < it + n) → t'.points[i]? = t.points[i]? ∧ t'.colors[i]? = t.colors[i]?) := by
  induction n generalizing it t with
  | zero =>
    cases h
    refine ⟨rfl, rfl, fun i hi => ⟨fun hc => by omega, fun _ => ⟨rfl, rfl⟩⟩⟩
  | succ n ih =>
    unfold frames at h
    cases hf : frameStep disk r stp it t with
    | error e => rw [hf] at h; cases h
    | ok t1 =>
      rw [hf] at h
      obtain ⟨h0, hp, hc, hne, depths, frame, out, hd, hfr, hscan, rfl⟩ := frameStep_ok hf
      obtain ⟨l1, l2, hrest⟩ := ih h
      simp only [List.length_set] at l1 l2 hrest
      have hspos : 0 < stp := by omega
      refine ⟨l1, l2, fun i hi => ?_⟩
      obtain ⟨ha, hb⟩ := hrest i hi
      obtain ⟨k, rfl⟩ : ∃ k : Nat, it = k := ⟨it.toNat, by omega⟩
      simp only [Int.toNat_natCast] at hscan ha hb
      constructor
      · rintro ⟨h1, h2⟩
        refine ⟨hspos, ?_⟩
        by_cases hik : i = k
        · subst hik
          obtain ⟨q1, q2⟩ := hb (by omega)
          obtain ⟨o, ho, hF⟩ := scan_spec hz _ hscan
          rw [pixels_sampled (by omega) (getDepths_size hd).1 (getDepths_size hd).2] at hF
          refine ⟨depths, frame, o, hd, hfr, ?_, ?_, hF⟩
          · rw [q1, List.getElem?_set_self hi, ho]
          · rw [q2, List.getElem?_set_self (by omega), ho]
        · obtain ⟨-, d', f', o', e1, e2, e3, e4, e5⟩ := ha ⟨by omega, by push_cast at h2 ⊢; omega⟩
          refine ⟨d', f', o', e1, e2, ?_, ?_, e5⟩
          · rw [e3]
            simp only [List.getD_eq_getElem?_getD, List.getElem?_set_ne (Ne.symm hik)]
          · rw [e4]
            simp only [List.getD_eq_getElem?_getD, List.getElem?_set_ne (Ne.symm hik)]
      · intro hn
        have hik : i ≠ k := by rintro rfl; exact hn ⟨le_refl _, by push_cast; omega⟩
        obtain ⟨q1, q2⟩ := hb (by push_cast at hn; omega)
        rw [q1, q2, List.getElem?_set_ne (Ne.symm hik), List.getElem?_set_ne (Ne.symm hik)]
        exact ⟨rfl, rfl⟩

theorem step_nonneg {f : Flags} {w h : Nat} {s : Int} (hs : step f w h = .ok s) : 0 ≤ s := by
  unfold step at hs
  split at hs
  · cases hs
  · simp only at hs
    split at hs
    · cases hs
    · unfold Cam.toInt at hs
      split at hs
      · cases hs
        have h0 : (0 : ℝ) ≤ ((⌈Real.sqrt ((f.count : ℝ) * w * h / f.gtPoints)⌉ : Int) : ℝ) := by
          exact_mod_cast Int.ceil_nonneg (Real.sqrt_nonneg _)
        unfold Util.truncInt
        rw [if_pos h0]
        exact Int.floor_nonneg.2 h0
      · cases hs

/-- C114: after reading, every frame that was asked for has exactly the points of the pixels on the grid whose depth is at most 10^10, row by row, each on
the ray of its pixel at the depth given for it and with the colour of that pixel; other frames have none. -/
theorem C114_points {N : Type} {f : Flags} {disk : Disk N (Pyr.Img Vec3b)} {r : MultiFovReader Motion3} {t : Tables}
    (h : readPointsInFrameGT f disk r = .ok t) (hz : ∀ p, Cam.unmap r.cam p ≠ 0) :
    ∃ s : Int, step f r.cam.width r.cam.height = .ok s ∧ t.points.length = getFrameCount r.table ∧ t.colors.length = getFrameCount r.table ∧
    ∀ i : Nat, i < getFrameCount r.table →
      (f.start ≤ i ∧ (i : Int) < f.start + f.count → 0 < s ∧ ∃ depths frame out, getDepths disk r i = .ok depths ∧ getFrame disk r i = .ok frame ∧
        t.points[i]? = some (out.map Prod.fst) ∧ t.colors[i]? = some (out.map Prod.snd) ∧
        List.Forall₂ (PointOf r.cam depths frame) (sampled depths s.toNat) out) ∧
      (¬ (f.start ≤ i ∧ (i : Int) < f.start + f.count) → t.points[i]? = some [] ∧ t.colors[i]? = some []) := by
  unfold readPointsInFrameGT at h
  cases hs : step f r.cam.width r.cam.height with
  | error e => simp only [hs, bind, Except.bind] at h; cases h
  | ok s =>
    simp only [hs, bind, Except.bind] at h
    obtain ⟨l1, l2, hall⟩ := frames_spec (step_nonneg hs) hz _ h
    simp only [List.length_replicate] at l1 l2 hall
    refine ⟨s, rfl, l1, l2, fun i hi => ?_⟩
    obtain ⟨ha, hb⟩ := hall i hi
    have hrep : ∀ {β : Type}, (List.replicate (getFrameCount r.table) ([] : List β))[i]? = some [] := by
      intro β; rw [List.getElem?_replicate, if_pos hi]
    constructor
    · intro hc
      obtain ⟨hp, d, fr, o, e1, e2, e3, e4, e5⟩ := ha (by omega)
      refine ⟨hp, d, fr, o, e1, e2, ?_, ?_, e5⟩
      · rw [e3, List.getD_eq_getElem?_getD, hrep]; rfl
      · rw [e4, List.getD_eq_getElem?_getD, hrep]; rfl
    · intro hc
      obtain ⟨q1, q2⟩ := hb (by omega)
      rw [q1, q2, hrep, hrep]
      exact ⟨rfl, rfl⟩

/-! ## C115: the number of points -/

theorem toInt_ceil {x : ℝ} {s : Int} (h : Cam.toInt ((⌈x⌉ : Int) : ℝ) = .ok s) : s = ⌈x⌉ := by
  unfold Cam.toInt at h
  split at h
  · cases h
    unfold Util.truncInt
    split
    · exact Int.floor_intCast _
    · exact Int.ceil_intCast _
  · cases h

/-- The step is the least number such that one pixel out of each square of that side keeps within the budget. -/
theorem C115_step {f : Flags} {w h : Nat} (hg : 0 < f.gtPoints) {s : Int} (hs : step f w h = .ok s) :
    f.count * w * h ≤ f.gtPoints * s ^ 2 ∧ ∀ s' : Int, 0 ≤ s' → f.count * w * h ≤ f.gtPoints * s' ^ 2 → s ≤ s' := by
  unfold step at hs
  rw [if_neg hg.ne'] at hs
  simp only at hs
  split at hs
  · cases hs
  · rename_i hq
    push Not at hq
    have he := toInt_ceil hs
    have hgr : (0 : ℝ) < f.gtPoints := by exact_mod_cast hg
    constructor
    · have h1 : Real.sqrt ((f.count : ℝ) * w * h / f.gtPoints) ≤ s := by rw [he]; exact Int.le_ceil _
      have h2 : (f.count : ℝ) * w * h / f.gtPoints ≤ (s : ℝ) ^ 2 := by
        rw [← Real.sq_sqrt hq]
        have := Real.sqrt_nonneg ((f.count : ℝ) * w * h / f.gtPoints)
        nlinarith
      rw [div_le_iff₀ hgr] at h2
      have : (f.count : ℝ) * w * h ≤ f.gtPoints * (s : ℝ) ^ 2 := by linarith
      exact_mod_cast this
    · intro s' h0 hle
      rw [he, Int.ceil_le]
      have h1 : (f.count : ℝ) * w * h ≤ f.gtPoints * (s' : ℝ) ^ 2 := by exact_mod_cast hle
      have h2 : (f.count : ℝ) * w * h / f.gtPoints ≤ (s' : ℝ) ^ 2 := by rw [div_le_iff₀ hgr]; linarith
      calc Real.sqrt ((f.count : ℝ) * w * h / f.gtPoints) ≤ Real.sqrt ((s' : ℝ) ^ 2) := Real.sqrt_le_sqrt h2
        _ = s' := Real.sqrt_sq (by exact_mod_cast h0)

theorem sum_set_le (l : List (List V3)) (i : Nat) (v : List V3) (k : Nat) (hv : v.length ≤ (l.getD i []).length + k) :
    ((l.set i v).map List.length).sum ≤ (l.map List.length).sum + k := by
  induction l generalizing i with
  | nil => simp
  | cons a l ih =>
    cases i with
    | zero =>
      simp only [List.getD_cons_zero] at hv
      simp only [List.set_cons_zero, List.map_cons, List.sum_cons]
      omega
    | succ i =>
      simp only [List.getD_cons_succ] at hv
      have := ih i hv
      simp only [List.set_cons_succ, List.map_cons, List.sum_cons]
      omega

theorem frames_total {N : Type} {disk : Disk N (Pyr.Img Vec3b)} {r : MultiFovReader Motion3} {stp : Int} (n : Nat) {it : Int} {t t' : Tables}
    (h : frames disk r stp n it t = .ok t') :
    total t' ≤ total t + n * (pixels r.cam.width r.cam.height stp.toNat).length ∧ (0 < n → stp ≠ 0) := by
  induction n generalizing it t with
  | zero => cases h; simp
  | succ n ih =>
    unfold frames at h
    cases hf : frameStep disk r stp it t with
    | error e => rw [hf] at h; cases h
    | ok t1 =>
      rw [hf] at h
      obtain ⟨-, -, -, hne, depths, frame, out, -, -, hscan, rfl⟩ := frameStep_ok hf
      have h1 := (ih h).1
      have h2 := sum_set_le t.points it.toNat out.1 _ (scan_length _ hscan)
      refine ⟨?_, fun _ => hne⟩
      unfold total at h1 h2 ⊢
      simp only at h1
      rw [Nat.add_mul]
      omega

theorem counter_length_dvd {n s : Nat} (hs : 0 < s) (hd : s ∣ n) : (counter n s n 0).length * s ≤ n := by
  have h := counter_length (n := n) hs n 0
  obtain ⟨k, rfl⟩ := hd
  have : (counter (s * k) s (s * k) 0).length ≤ k := by
    by_contra hc
    have h2 : (k + 1) * s ≤ (counter (s * k) s (s * k) 0).length * s := Nat.mul_le_mul_right _ (by omega)
    rw [Nat.add_mul, Nat.mul_comm k s] at h2
    omega
  calc _ ≤ k * s := Nat.mul_le_mul_right _ this
    _ = s * k := Nat.mul_comm _ _

/-- C115, in part: if the step divides width and height of the pictures, there are at most as many points as asked for; if it is at most the width and
the height, at most four times as many. Missing: the number asked for is exceeded in other cases, see `C115_budget_violated`. -/
theorem C115_budget_partial {N : Type} {f : Flags} {disk : Disk N (Pyr.Img Vec3b)} {r : MultiFovReader Motion3} {t : Tables}
    (hg : 0 < f.gtPoints) (h : readPointsInFrameGT f disk r = .ok t) {s : Int} (hs : step f r.cam.width r.cam.height = .ok s) :
    (s ∣ r.cam.width → s ∣ r.cam.height → (total t : Int) ≤ f.gtPoints) ∧
    (s ≤ r.cam.width → s ≤ r.cam.height → (total t : Int) ≤ 4 * f.gtPoints) := by
  unfold readPointsInFrameGT at h
  simp only [hs, bind, Except.bind] at h
  obtain ⟨htot, hne⟩ := frames_total _ h
  have h0 : total ⟨List.replicate (getFrameCount r.table) [], List.replicate (getFrameCount r.table) []⟩ = 0 := by
    unfold total; simp
  rw [h0, Nat.zero_add, pixels_length] at htot
  have hnn := step_nonneg hs
  have hbud := (C115_step hg hs).1
  rcases Nat.eq_zero_or_pos f.count.toNat with hc0 | hcpos
  · rw [hc0, Nat.zero_mul] at htot
    constructor <;> intros <;> omega
  obtain ⟨k, rfl⟩ : ∃ k : Nat, s = k := ⟨s.toNat, by omega⟩
  obtain ⟨c, hc⟩ : ∃ c : Nat, f.count = c := ⟨f.count.toNat, by omega⟩
  obtain ⟨g, hgg⟩ : ∃ g : Nat, f.gtPoints = g := ⟨f.gtPoints.toNat, by omega⟩
  rw [hc, hgg] at hbud
  rw [hgg]
  rw [hc, Int.toNat_natCast] at htot
  simp only [Int.toNat_natCast] at htot
  have hk : 0 < k := by
    have := hne hcpos
    omega
  have hbud' : c * r.cam.width * r.cam.height ≤ g * k ^ 2 := by exact_mod_cast hbud
  generalize hA : (counter r.cam.height k r.cam.height 0).length = A at htot
  generalize hB : (counter r.cam.width k r.cam.width 0).length = B at htot
  have key : ∀ q : Nat, A * k * (B * k) ≤ q * (r.cam.height * r.cam.width) → total t ≤ q * g := by
    intro q hq
    have h1 : c * (A * B) * k ^ 2 ≤ q * g * k ^ 2 := by
      calc c * (A * B) * k ^ 2 = c * (A * k * (B * k)) := by ring
        _ ≤ c * (q * (r.cam.height * r.cam.width)) := Nat.mul_le_mul_left _ hq
        _ = q * (c * r.cam.width * r.cam.height) := by ring
        _ ≤ q * (g * k ^ 2) := Nat.mul_le_mul_left _ hbud'
        _ = q * g * k ^ 2 := by ring
    have h2 := Nat.le_of_mul_le_mul_right h1 (by positivity)
    omega
  constructor
  · intro hw hh
    have hw' : k ∣ r.cam.width := by exact_mod_cast hw
    have hh' : k ∣ r.cam.height := by exact_mod_cast hh
    have := key 1 (by
      rw [Nat.one_mul, ← hA, ← hB]
      exact Nat.mul_le_mul (counter_length_dvd hk hh') (counter_length_dvd hk hw'))
    rw [Nat.one_mul] at this
    exact_mod_cast this
  · intro hw hh
    have hw' : k ≤ r.cam.width := by exact_mod_cast hw
    have hh' : k ≤ r.cam.height := by exact_mod_cast hh
    have := key 4 (by
      have h1 := counter_length (n := r.cam.height) hk r.cam.height 0
      have h2 := counter_length (n := r.cam.width) hk r.cam.width 0
      rw [hA] at h1
      rw [hB] at h2
      calc A * k * (B * k) ≤ (2 * r.cam.height) * (2 * r.cam.width) := Nat.mul_le_mul (by omega) (by omega)
        _ = 4 * (r.cam.height * r.cam.width) := by ring)
    exact_mod_cast this

/-! ## C116: reading is defined -/

theorem mem_pixels {w h s : Nat} (hs : 0 < s) {p : Nat × Nat} (hp : p ∈ pixels w h s) : p.1 < h ∧ p.2 < w := by
  unfold pixels at hp
  rw [counter_range hs, counter_range hs] at hp
  simp only [List.mem_flatMap, List.mem_map, List.mem_filter, List.mem_range] at hp
  obtain ⟨y, ⟨hy, -⟩, x, ⟨hx, -⟩, rfl⟩ := hp
  exact ⟨hy, hx⟩

theorem frameStep_defined {N : Type} {disk : Disk N (Pyr.Img Vec3b)} {r : MultiFovReader Motion3} {stp it : Int} {t : Tables}
    (hs : 0 < stp) (h0 : 0 ≤ it) (h1 : it < t.points.length) (h2 : it < t.colors.length) (hr : Readable disk r it) :
    ∃ t', frameStep disk r stp it t = .ok t' ∧ t'.points.length = t.points.length ∧ t'.colors.length = t.colors.length := by
  obtain ⟨depths, frame, hd, hf, hall, hrow, hcol⟩ := hr
  obtain ⟨out, hout⟩ := scan_defined (cam := r.cam) (depths := depths) (frame := frame) (pixels r.cam.width r.cam.height stp.toNat)
    (fun p hp => by
      obtain ⟨a, b⟩ := mem_pixels (by omega) hp
      exact ⟨hall _ _ a b, by omega, by omega⟩) (t.points.getD it.toNat [], t.colors.getD it.toNat [])
  refine ⟨⟨t.points.set it.toNat out.1, t.colors.set it.toNat out.2⟩, ?_, by simp, by simp⟩
  unfold frameStep
  rw [if_pos ⟨h0, h1, h2⟩, if_neg hs.ne']
  simp only [hd, hf, hout, bind, Except.bind]

theorem frames_defined {N : Type} {disk : Disk N (Pyr.Img Vec3b)} {r : MultiFovReader Motion3} {stp : Int} (hs : 0 < stp) (n : Nat) {it : Int}
    {t : Tables} (h0 : 0 ≤ it) (h1 : it + n ≤ t.points.length) (h2 : it + n ≤ t.colors.length)
    (hr : ∀ i, it ≤ i → i < it + n → Readable disk r i) : ∃ t', frames disk r stp n it t = .ok t' := by
  induction n generalizing it t with
  | zero => exact ⟨t, rfl⟩
  | succ n ih =>
    push_cast at h1 h2 hr
    obtain ⟨t1, e, l1, l2⟩ := frameStep_defined (t := t) hs h0 (by omega) (by omega) (hr it (by omega) (by omega))
    unfold frames
    rw [e]
    exact ih (t := t1) (by omega) (by rw [l1]; omega) (by rw [l2]; omega) fun i a b => hr i (by omega) (by omega)

theorem frames_beyond {N : Type} {disk : Disk N (Pyr.Img Vec3b)} {r : MultiFovReader Motion3} {stp : Int} (hs : 0 < stp) (n : Nat) {it : Int}
    {t : Tables} (h0 : 0 ≤ it) (hl : t.points.length = t.colors.length) (h1 : t.points.length < it + n) (hn : 0 < n)
    (hr : ∀ i, it ≤ i → i < t.points.length → Readable disk r i) : frames disk r stp n it t = .error .ub := by
  induction n generalizing it t with
  | zero => omega
  | succ n ih =>
    push_cast at h1
    unfold frames
    by_cases hin : it < t.points.length
    · obtain ⟨t1, e, l1, l2⟩ := frameStep_defined (disk := disk) (r := r) hs h0 hin (by omega) (hr it (le_refl _) hin)
      rw [e]
      refine ih (by omega) (by omega) (by rw [l1]; omega) (by omega) fun i a b => hr i (by omega) (by omega)
    · have : frameStep disk r stp it t = .error .ub := by
        unfold frameStep
        rw [if_neg (by omega)]
      rw [this]

theorem step_defined {f : Flags} {w h : Nat} (hg : 0 < f.gtPoints) (hc : 0 < f.count) (hw : 0 < w) (hh : 0 < h)
    (hfit : f.count * w * h ≤ f.gtPoints * (2 ^ 31 - 1) ^ 2) : ∃ s, step f w h = .ok s ∧ 0 < s := by
  have hgr : (0 : ℝ) < f.gtPoints := by exact_mod_cast hg
  have hcr : (0 : ℝ) < f.count := by exact_mod_cast hc
  have hwr : (0 : ℝ) < w := by exact_mod_cast hw
  have hhr : (0 : ℝ) < h := by exact_mod_cast hh
  have hq : 0 < (f.count : ℝ) * w * h / f.gtPoints := by positivity
  have hle : Real.sqrt ((f.count : ℝ) * w * h / f.gtPoints) ≤ ((2 ^ 31 - 1 : Int) : ℝ) := by
    have h1 : (f.count : ℝ) * w * h ≤ f.gtPoints * (2 ^ 31 - 1) ^ 2 := by exact_mod_cast hfit
    have h2 : (f.count : ℝ) * w * h / f.gtPoints ≤ (2 ^ 31 - 1) ^ 2 := by rw [div_le_iff₀ hgr]; linarith
    calc _ ≤ Real.sqrt ((2 ^ 31 - 1 : ℝ) ^ 2) := Real.sqrt_le_sqrt h2
      _ = 2 ^ 31 - 1 := Real.sqrt_sq (by norm_num)
      _ = _ := by norm_num
  have hceil : ⌈Real.sqrt ((f.count : ℝ) * w * h / f.gtPoints)⌉ ≤ (2 ^ 31 - 1 : Int) := Int.ceil_le.2 hle
  have hpos : 0 < ⌈Real.sqrt ((f.count : ℝ) * w * h / f.gtPoints)⌉ := Int.ceil_pos.2 (Real.sqrt_pos.2 hq)
  unfold step
  rw [if_neg hg.ne']
  simp only
  rw [if_neg (not_lt.2 hq.le)]
  generalize ⌈Real.sqrt ((f.count : ℝ) * w * h / f.gtPoints)⌉ = z at hceil hpos
  have hz1 : ((z : Int) : ℝ) < 2147483648 := by
    have : z < 2147483648 := by omega
    exact_mod_cast this
  have hz2 : (-2147483649 : ℝ) < z := by
    have : -2147483649 < z := by omega
    exact_mod_cast this
  unfold Cam.toInt
  rw [if_pos ⟨hz2, hz1⟩]
  refine ⟨_, rfl, ?_⟩
  unfold Util.truncInt
  rw [if_pos (by exact_mod_cast hpos.le), Int.floor_intCast]
  exact hpos

/-- C116, in part: if all frames asked for have a pose in the table and can be read, reading ends normally. Missing: other ranges of frames, see
`C116_beyond_violated`, and other budgets, see `C116_zero_violated`. -/
theorem C116_defined_partial {N : Type} {f : Flags} {disk : Disk N (Pyr.Img Vec3b)} {r : MultiFovReader Motion3}
    (hg : 0 < f.gtPoints) (hc : 0 < f.count) (hw : 0 < r.cam.width) (hh : 0 < r.cam.height)
    (hfit : f.count * r.cam.width * r.cam.height ≤ f.gtPoints * (2 ^ 31 - 1) ^ 2)
    (h0 : 0 ≤ f.start) (hn : f.start + f.count ≤ getFrameCount r.table)
    (hr : ∀ i, f.start ≤ i → i < f.start + f.count → Readable disk r i) : ∃ t, readPointsInFrameGT f disk r = .ok t := by
  obtain ⟨s, hs, hpos⟩ := step_defined hg hc hw hh hfit
  obtain ⟨t, ht⟩ := frames_defined (disk := disk) (r := r) (t := ⟨List.replicate (getFrameCount r.table) [], List.replicate (getFrameCount r.table) []⟩)
    hpos f.count.toNat h0 (by rw [List.length_replicate]; omega) (by rw [List.length_replicate]; omega) (fun i a b => hr i a (by omega))
  refine ⟨t, ?_⟩
  unfold readPointsInFrameGT
  simp only [hs, bind, Except.bind]
  exact ht

/-- C116 is violated: if more frames are asked for than there are poses, the tables are accessed beyond their end. -/
theorem C116_beyond_violated {N : Type} {f : Flags} {disk : Disk N (Pyr.Img Vec3b)} {r : MultiFovReader Motion3}
    (hg : 0 < f.gtPoints) (hc : 0 < f.count) (hw : 0 < r.cam.width) (hh : 0 < r.cam.height)
    (hfit : f.count * r.cam.width * r.cam.height ≤ f.gtPoints * (2 ^ 31 - 1) ^ 2)
    (h0 : 0 ≤ f.start) (hn : getFrameCount r.table < f.start + f.count)
    (hr : ∀ i, f.start ≤ i → i < getFrameCount r.table → Readable disk r i) : readPointsInFrameGT f disk r = .error .ub := by
  obtain ⟨s, hs, hpos⟩ := step_defined hg hc hw hh hfit
  unfold readPointsInFrameGT
  simp only [hs, bind, Except.bind]
  exact frames_beyond hpos _ h0 (by simp) (by rw [List.length_replicate]; omega) (by omega) (by rw [List.length_replicate]; exact hr)

/-- C116 is violated: with a budget of 0 points the step is computed by a division by zero. -/
theorem C116_zero_violated {N : Type} {f : Flags} {disk : Disk N (Pyr.Img Vec3b)} {r : MultiFovReader Motion3} (hg : f.gtPoints = 0) :
    readPointsInFrameGT f disk r = .error .ub := by
  unfold readPointsInFrameGT step
  rw [if_pos hg]
  rfl

/-! ## C117: the cloud -/

theorem worldPoints_spec {pose : Option Motion3} {ps : List V3} {cs : List Vec3b} {out : List (V3 × Vec3b)} (hl : ps.length = cs.length)
    (ho : ∀ g, pose = some g → Base.Spec.Orthogonal g.rot) (h : worldPoints pose ps cs = .ok out) :
    out.map Prod.snd = cs ∧ List.Forall₂ (fun p q => ∃ g, pose = some g ∧ g.act q.1 = p) ps out := by
  induction ps generalizing cs out with
  | nil =>
    cases h
    cases cs with
    | nil => exact ⟨rfl, .nil⟩
    | cons c cs => cases hl
  | cons p ps ih =>
    cases cs with
    | nil => cases hl
    | cons c cs =>
      unfold worldPoints at h
      cases pose with
      | none => cases h
      | some g =>
        simp only at h
        cases hw : worldPoints (some g) ps cs with
        | error e => rw [hw] at h; cases h
        | ok rest =>
          rw [hw] at h
          cases h
          obtain ⟨a, b⟩ := ih (by simpa using hl) hw
          refine ⟨by rw [List.map_cons, a], .cons ⟨g, rfl, ?_⟩ b⟩
          exact (Base.act_inverse (ho g rfl) p).1

theorem allPoints_spec {table : List (Option Motion3)} {pss : List (List V3)} {css : List (List Vec3b)} {all : List (V3 × Vec3b)}
    (h1 : pss.length = css.length) (h2 : ∀ i : Nat, (pss[i]?).map List.length = (css[i]?).map List.length)
    (ho : ∀ g, some g ∈ table → Base.Spec.Orthogonal g.rot) (h : allPoints table pss css = .ok all) :
    ∃ blocks : List (List (V3 × Vec3b)), all = blocks.flatten ∧ blocks.length = pss.length ∧
      ∀ i : Nat, i < pss.length → ∃ ps b, pss[i]? = some ps ∧ blocks[i]? = some b ∧ css[i]? = some (b.map Prod.snd) ∧
        List.Forall₂ (fun p q => ∃ g, table[i]? = some (some g) ∧ g.act q.1 = p) ps b := by
  induction pss generalizing table css all with
  | nil =>
    have : all = [] := by
      cases table <;> cases css <;> cases h <;> rfl
    exact ⟨[], by rw [this]; rfl, rfl, fun i hi => by simp at hi⟩
  | cons ps pss ih =>
    cases css with
    | nil => cases h1
    | cons cs css =>
      cases table with
      | nil => cases h
      | cons g gs =>
        unfold allPoints at h
        cases hw : worldPoints g ps cs with
        | error e => rw [hw] at h; cases h
        | ok a =>
          rw [hw] at h
          simp only at h
          cases hr : allPoints gs pss css with
          | error e => rw [hr] at h; cases h
          | ok b =>
            rw [hr] at h
            cases h
            obtain ⟨blocks, e1, e2, e3⟩ := ih (by simpa using h1) (fun i => by simpa using h2 (i + 1))
              (fun g' hg' => ho g' (by simp [hg'])) hr
            obtain ⟨w1, w2⟩ := worldPoints_spec (by simpa using h2 0) (fun g' hg' => ho g' (by simp [hg'])) hw
            refine ⟨a :: blocks, by rw [e1]; rfl, by simp [e2], fun i hi => ?_⟩
            cases i with
            | zero =>
              refine ⟨ps, a, rfl, rfl, by rw [w1]; rfl, ?_⟩
              simpa using w2
            | succ i =>
              simpa using e3 i (by simpa using hi)

/-- C117: the file `pointsGT.ply` holds the points of all frames, frame by frame, each at the place of the world that the pose of its frame takes to
the point of the frame, with its colour; it declares as many points as it holds. -/
theorem C117_cloud {N : Type} {finite : ℝ → Bool} {fmt : ℝ → List Char} (hfmt : ∀ a, '\n' ∉ fmt a) {f : Flags}
    {disk : Disk N (Pyr.Img Vec3b)} {r : MultiFovReader Motion3} {text : List Char} (hz : ∀ p, Cam.unmap r.cam p ≠ 0)
    (ho : ∀ g, some g ∈ r.table → Base.Spec.Orthogonal g.rot) (h : genGtOnly finite fmt f disk r = .ok text) :
    ∃ t, readPointsInFrameGT f disk r = .ok t ∧ ∃ blocks : List (List (V3 × Vec3b)), blocks.length = getFrameCount r.table ∧
      (∀ i : Nat, i < getFrameCount r.table → ∃ ps b, t.points[i]? = some ps ∧ blocks[i]? = some b ∧ t.colors[i]? = some (b.map Prod.snd) ∧
        List.Forall₂ (fun p q => ∃ g, r.table[i]? = some (some g) ∧ g.act q.1 = p) ps b) ∧
      declaredCount text = some ((blocks.flatten.filter fun q => AllFinite finite ⟨q.1.x, q.1.y, q.1.z⟩).length) ∧
      vertexLines text = (blocks.flatten.filter fun q => AllFinite finite ⟨q.1.x, q.1.y, q.1.z⟩).map
        fun q => vertexText fmt (⟨q.1.x, q.1.y, q.1.z⟩, q.2) := by
  unfold genGtOnly at h
  cases ht : readPointsInFrameGT f disk r with
  | error e => simp only [ht, bind, Except.bind] at h; cases h
  | ok t =>
    simp only [ht, bind, Except.bind] at h
    cases ha : allPoints r.table t.points t.colors with
    | error e => rw [ha] at h; cases h
    | ok all =>
      rw [ha] at h
      simp only at h
      obtain ⟨s, -, l1, l2, hall⟩ := C114_points ht hz
      obtain ⟨blocks, e1, e2, e3⟩ := allPoints_spec (by rw [l1, l2]) (fun i => by
        by_cases hi : i < getFrameCount r.table
        · obtain ⟨ha, hb⟩ := hall i hi
          by_cases hc : f.start ≤ i ∧ (i : Int) < f.start + f.count
          · obtain ⟨-, d, fr, o, -, -, q1, q2, -⟩ := ha hc
            rw [q1, q2]; simp
          · obtain ⟨q1, q2⟩ := hb hc
            rw [q1, q2]; rfl
        · rw [List.getElem?_eq_none (by omega), List.getElem?_eq_none (by omega)]; rfl) ho ha
      obtain ⟨out, p1, p2, p3⟩ := C04_prints_finite_points finite fmt hfmt (all.map fun a => toPt a.1) (all.map Prod.snd) (by simp)
      rw [p1] at h
      cases h
      refine ⟨t, rfl, blocks, by rw [e2, l1], fun i hi => e3 i (by rw [l1]; exact hi), ?_, ?_⟩
      · rw [p2, ← e1, List.filter_map, List.length_map]
        rfl
      · rw [p3, ← e1]
        have hzip : (all.map fun a => toPt a.1).zip (all.map Prod.snd) = all.map fun a => (toPt a.1, a.2) := by
          rw [List.zip_map']
        rw [hzip, List.filter_map, List.map_map]
        rfl

theorem worldPoints_defined {g : Motion3} {ps : List V3} {cs : List Vec3b} (hl : ps.length = cs.length) :
    ∃ out, worldPoints (some g) ps cs = .ok out := by
  induction ps generalizing cs with
  | nil => exact ⟨[], by cases cs <;> rfl⟩
  | cons p ps ih =>
    cases cs with
    | nil => cases hl
    | cons c cs =>
      obtain ⟨o, ho⟩ := ih (cs := cs) (by simpa using hl)
      exact ⟨_, by rw [worldPoints, ho]⟩

theorem allPoints_defined {table : List (Option Motion3)} {pss : List (List V3)} {css : List (List Vec3b)}
    (h1 : pss.length = table.length) (h2 : css.length = table.length)
    (h : ∀ i : Nat, (pss[i]?).map List.length = (css[i]?).map List.length)
    (hp : ∀ i : Nat, table[i]? = some none → pss[i]? = some []) : ∃ all, allPoints table pss css = .ok all := by
  induction table generalizing pss css with
  | nil =>
    rw [List.length_eq_zero_iff.1 h1]
    exact ⟨[], by cases css <;> rfl⟩
  | cons g gs ih =>
    cases pss with
    | nil => cases h1
    | cons ps pss =>
      cases css with
      | nil => cases h2
      | cons cs css =>
        obtain ⟨b, hb⟩ := ih (pss := pss) (css := css) (by simpa using h1) (by simpa using h2) (fun i => by simpa using h (i + 1))
          (fun i hi => by simpa using hp (i + 1) (by simpa using hi))
        have ha : ∃ a, worldPoints g ps cs = .ok a := by
          cases g with
          | none =>
            have := hp 0 rfl
            simp only [List.getElem?_cons_zero, Option.some.injEq] at this
            subst this
            exact ⟨[], by cases cs <;> rfl⟩
          | some g => exact worldPoints_defined (by simpa using h 0)
        obtain ⟨a, ha⟩ := ha
        exact ⟨a ++ b, by simp only [allPoints, ha, hb]⟩

/-- C117: the file is written whenever the points could be read and every frame asked for has a pose. -/
theorem C117_written {N : Type} (finite : ℝ → Bool) (fmt : ℝ → List Char) {f : Flags} {disk : Disk N (Pyr.Img Vec3b)}
    {r : MultiFovReader Motion3} {t : Tables} (hz : ∀ p, Cam.unmap r.cam p ≠ 0) (ht : readPointsInFrameGT f disk r = .ok t)
    (hp : ∀ i : Nat, f.start ≤ i → (i : Int) < f.start + f.count → r.table[i]? ≠ some none) :
    ∃ text, genGtOnly finite fmt f disk r = .ok text := by
  obtain ⟨s, -, l1, l2, hall⟩ := C114_points ht hz
  obtain ⟨all, ha⟩ := allPoints_defined (table := r.table) (pss := t.points) (css := t.colors) l1 l2
    (fun i => by
      by_cases hi : i < getFrameCount r.table
      · obtain ⟨ha, hb⟩ := hall i hi
        by_cases hc : f.start ≤ i ∧ (i : Int) < f.start + f.count
        · obtain ⟨-, d, fr, o, -, -, q1, q2, -⟩ := ha hc
          rw [q1, q2]; simp
        · obtain ⟨q1, q2⟩ := hb hc
          rw [q1, q2]; rfl
      · rw [List.getElem?_eq_none (by omega), List.getElem?_eq_none (by omega)]; rfl)
    (fun i hi => by
      have hlt : i < getFrameCount r.table := (List.getElem?_eq_some_iff.1 hi).1
      by_cases hc : f.start ≤ i ∧ (i : Int) < f.start + f.count
      · exact absurd hi (hp i hc.1 hc.2)
      · exact ((hall i hlt).2 hc).1)
  have hpr : ∃ out, printInPly finite fmt (all.map fun a => toPt a.1) (all.map Prod.snd) = .ok out :=
    ⟨_, by unfold printInPly; rw [filterFinite_ok finite _ _ (by simp)]⟩
  obtain ⟨out, hpr⟩ := hpr
  refine ⟨out, ?_⟩
  unfold genGtOnly
  simp only [ht, ha, hpr, bind, Except.bind]

/-! ## A concrete data set -/

/-- A camera with pictures of 3 rows and 3 columns. -/
def exCam : Cam.Cam := ⟨3, 3, 1, [], ⟨1, 1⟩, 1, 1, 0, 0, 0, []⟩

theorem exCam_rays (p : V2) : Cam.unmap exCam p ≠ 0 := by
  intro h
  have := congrArg V3.z h
  rw [Cam.C38_unmap] at this
  simp [CamSpec.ray, CamSpec.depthPoly, exCam] at this

/-- Two poses: the identity twice. -/
def exReader : MultiFovReader Motion3 := ⟨"d".toList, exCam, [some ⟨M3.one, 0⟩, some ⟨M3.one, 0⟩]⟩

/-- All depths are 2, all pictures are black. -/
def exDisk : Disk Unit (Pyr.Img Vec3b) :=
  ⟨fun _ => none, fun _ => none, fun _ => some (List.replicate 9 (some 2), false), fun _ => some ⟨3, 3, fun _ _ => ⟨0, 0, 0⟩⟩⟩

theorem exReadable (i : Int) (hi : i.natAbs ≤ 2 ^ 31) : Readable exDisk exReader i := by
  obtain ⟨-, -, hf, hd⟩ := C111_fits_partial (d := exReader.dir) (by decide) i hi
  obtain ⟨m, h1, -, -, h2⟩ := C112_depths_partial (disk := exDisk) (r := exReader) (n := i) (vs := List.replicate 9 2) (rest := []) (sp := false)
    hd (by rw [List.append_nil, List.map_replicate]; rfl) (by rw [List.length_replicate]; rfl)
  refine ⟨m, ⟨3, 3, fun _ _ => ⟨0, 0, 0⟩⟩, h1, ?_, fun y x hy hx => (h2 y x hy hx).2, le_refl _, le_refl _⟩
  simp only [getFrame, hf, bind, Except.bind, exDisk]

theorem exStep : step ⟨1, 1, 3⟩ 3 3 = .ok 2 := by
  obtain ⟨s, hs, hpos⟩ := step_defined (f := ⟨1, 1, 3⟩) (w := 3) (h := 3) (by decide) (by decide) (by decide) (by decide) (by norm_num)
  obtain ⟨h1, h2⟩ := C115_step (by decide) hs
  have := h2 2 (by decide) (by norm_num)
  norm_num at h1
  have : s ≠ 1 := by rintro rfl; norm_num at h1
  have h2' : s = 2 := by omega
  rw [hs, h2']

/-- C115 is violated: three points are asked for, four are made. -/
theorem C115_budget_violated : ∃ (f : Flags) (t : Tables), 0 < f.gtPoints ∧ readPointsInFrameGT f exDisk exReader = .ok t ∧ f.gtPoints < total t := by
  obtain ⟨t, ht⟩ := C116_defined_partial (f := ⟨1, 1, 3⟩) (disk := exDisk) (r := exReader) (by decide) (by decide) (by decide) (by decide)
    (by norm_num [exReader, exCam]) (by decide) (by decide) (fun i a b => exReadable i (by simp at a b; omega))
  refine ⟨⟨1, 1, 3⟩, t, by decide, ht, ?_⟩
  obtain ⟨s, hs, l1, l2, hall⟩ := C114_points ht exCam_rays
  have hs2 : s = 2 := by
    have h := exStep
    rw [show step ⟨1, 1, 3⟩ 3 3 = .ok s from hs] at h
    cases h; rfl
  subst hs2
  obtain ⟨-, d, fr, o, hd, -, hp, -, hF⟩ := (hall 1 (by decide)).1 (by decide)
  have hlen : (sampled d 2).length = 4 := by
    obtain ⟨-, -, -, hname⟩ := C111_fits_partial (d := exReader.dir) (by decide) 1 (by decide)
    obtain ⟨m, h1, h2, h3, h4⟩ := C112_depths_partial (disk := exDisk) (r := exReader) (n := 1) (vs := List.replicate 9 2) (rest := []) (sp := false)
      hname (by rw [List.append_nil, List.map_replicate]; rfl) (by rw [List.length_replicate]; rfl)
    have hdm : d = m := by
      rw [show ((1 : Nat) : Int) = 1 from rfl, h1] at hd
      cases hd; rfl
    subst hdm
    have hv : ∀ y x, y < 3 → x < 3 → d.px y x = some 2 := by
      intro y x hy hx
      rw [(h4 y x hy hx).1, List.getElem?_replicate, if_pos]
      show y * 3 + x < 9
      omega
    unfold sampled
    rw [List.filter_eq_self.2]
    · rw [h2, h3]; rfl
    · intro p hp
      simp only [List.mem_flatMap, List.mem_map, List.mem_filter, List.mem_range, h2, h3] at hp
      obtain ⟨y, ⟨hy, -⟩, x, ⟨hx, -⟩, rfl⟩ := hp
      simp only [decide_eq_true_eq]
      exact ⟨2, hv y x hy hx, by norm_num⟩
  have ho : o.length = 4 := by
    have := hF.length_eq
    rw [show Int.toNat 2 = 2 from rfl, hlen] at this
    exact this.symm
  have hle : 4 ≤ total t := by
    unfold total
    have hm : 4 ∈ t.points.map List.length := by
      rw [List.mem_map]
      exact ⟨_, List.mem_of_getElem? hp, by rw [List.length_map, ho]⟩
    exact List.single_le_sum (by simp) _ hm
  show (3 : Int) < total t
  omega

/-- The hypotheses of `C116_beyond_violated` are met: one frame more than there are poses. -/
example : readPointsInFrameGT ⟨1, 2, 3⟩ exDisk exReader = .error .ub :=
  C116_beyond_violated (by decide) (by decide) (by decide) (by decide) (by norm_num [exReader, exCam]) (by decide) (by decide)
    (fun i a b => exReadable i (by simp [getFrameCount, exReader] at a b; omega))

/-- The hypotheses of `C117_cloud` are met. -/
example : ∃ text, genGtOnly (fun _ => true) (fun _ => "1".toList) ⟨1, 1, 3⟩ exDisk exReader = .ok text ∧ ∃ n, declaredCount text = some n := by
  obtain ⟨t, ht⟩ := C116_defined_partial (f := ⟨1, 1, 3⟩) (disk := exDisk) (r := exReader) (by decide) (by decide) (by decide) (by decide)
    (by norm_num [exReader, exCam]) (by decide) (by decide) (fun i a b => exReadable i (by simp at a b; omega))
  obtain ⟨text, h⟩ := C117_written (fun _ => true) (fun _ => "1".toList) exCam_rays ht (by
    intro i h1 h2 hn
    have := List.mem_of_getElem? hn
    simp [exReader] at this)
  refine ⟨text, h, ?_⟩
  have ho : ∀ g, some g ∈ exReader.table → Base.Spec.Orthogonal g.rot := by
    intro g hg
    have : g = ⟨M3.one, 0⟩ := by simpa [exReader] using hg
    subst this
    intro v
    constructor <;> ext <;> simp [M3.one, M3.transpose, M3.mulVec, V3.dot]
  obtain ⟨-, -, blocks, -, -, hc, -⟩ := C117_cloud (by intro _; decide) exCam_rays ho h
  exact ⟨_, hc⟩

end Mdso.GenPly
