import Verif.Model.StereoMatcher
import Mathlib.Algebra.Order.Floor.Ring
import Mathlib.Tactic.NormNum
import Mathlib.Tactic.Linarith

/-!
# C50: still matches are filtered out, parallel lists stay aligned
-/

set_option autoImplicit false

namespace Mdso.Matcher

/-- Every match refers to existing key points. -/
def InRange (kp0 kp1 : List Pt) (ms : List DMatch) : Prop :=
  ∀ m ∈ ms, m.trainIdx < kp0.length ∧ m.queryIdx < kp1.length

/-- The match moves by more than `d` pixels. -/
def Moves (d : ℝ) (kp0 kp1 : List Pt) (m : DMatch) : Prop :=
  ∃ p q, kp0[m.trainIdx]? = some p ∧ kp1[m.queryIdx]? = some q ∧
    d < Real.sqrt ((p.x - q.x) ^ 2 + (p.y - q.y) ^ 2)

theorem ends_ok {kp0 kp1 : List Pt} {m : DMatch} (h : m.trainIdx < kp0.length ∧ m.queryIdx < kp1.length) :
    ∃ p q, ends kp0 kp1 m = .ok (p, q) ∧ kp0[m.trainIdx]? = some p ∧ kp1[m.queryIdx]? = some q :=
  ⟨kp0[m.trainIdx]'h.1, kp1[m.queryIdx]'h.2, by unfold ends; rw [at'_lt h.1, at'_lt h.2],
    List.getElem?_eq_getElem h.1, List.getElem?_eq_getElem h.2⟩

open Classical in
/-- C50. For all key points, all in-range matches and all thresholds, `filterOutStillMatches` keeps exactly
the matches that move by more than the threshold, and puts exactly the others among the still ones, both in
the original order. -/
theorem C50_filter (d : ℝ) {kp0 kp1 : List Pt} : ∀ {ms : List DMatch}, InRange kp0 kp1 ms →
    filterOutStillMatches d kp0 kp1 ms =
      .ok (ms.filter (fun m => decide (Moves d kp0 kp1 m)),
        ms.filter (fun m => decide (¬ Moves d kp0 kp1 m))) := by
  intro ms
  induction ms with
  | nil => intro _; rfl
  | cons m ms ih =>
    intro h
    obtain ⟨p, q, e, hp, hq⟩ := ends_ok (h m (by simp))
    have ih' := ih (fun m hm => h m (by simp [hm]))
    unfold filterOutStillMatches at ih' ⊢
    unfold partition
    simp only [e, ih']
    by_cases hm : Moves d kp0 kp1 m
    · have hd : dist p q > d := by
        obtain ⟨p', q', hp', hq', hh⟩ := hm
        rw [hp] at hp'; rw [hq] at hq'; cases hp'; cases hq'; exact hh
      rw [if_pos hd, List.filter_cons_of_pos (by simpa using hm),
        List.filter_cons_of_neg (by simpa using hm)]
    · have hd : ¬ dist p q > d := fun hh => hm ⟨p, q, hp, hq, hh⟩
      rw [if_neg hd, List.filter_cons_of_neg (by simpa using hm),
        List.filter_cons_of_pos (by simpa using hm)]

-- One still and one moving match, threshold 8.
example : filterOutStillMatches 8 [⟨0, 0⟩, ⟨5, 5⟩] [⟨30, 40⟩, ⟨6, 5⟩] [⟨1, 1⟩, ⟨0, 0⟩]
    = .ok ([⟨0, 0⟩], [⟨1, 1⟩]) := by
  have h1 : Moves 8 [⟨0, 0⟩, ⟨5, 5⟩] [⟨30, 40⟩, ⟨6, 5⟩] ⟨0, 0⟩ :=
    ⟨_, _, rfl, rfl, Real.lt_sqrt_of_sq_lt (by norm_num)⟩
  have h2 : ¬ Moves 8 [⟨0, 0⟩, ⟨5, 5⟩] [⟨30, 40⟩, ⟨6, 5⟩] ⟨1, 1⟩ := by
    rintro ⟨p, q, hp, hq, h⟩
    simp only [List.getElem?_cons_succ, List.getElem?_cons_zero, Option.some.injEq] at hp hq
    subst hp; subst hq
    have := (Real.lt_sqrt (by norm_num)).1 h
    norm_num at this
  rw [C50_filter _ (by intro m hm; simp at hm; rcases hm with rfl | rfl <;> simp)]
  simp [h1, h2]

theorem corresps_ok (round : ℝ → Int) {kp0 kp1 : List Pt} : ∀ {ms : List DMatch}, InRange kp0 kp1 ms →
    ∃ cs, correspsOf round kp0 kp1 ms = .ok cs ∧ cs.length = ms.length ∧
      ∀ (i : Nat) c, cs[i]? = some c → ∃ m p q, ms[i]? = some m ∧ kp0[m.trainIdx]? = some p ∧
        kp1[m.queryIdx]? = some q ∧ c = ((round p.x, round p.y), (round q.x, round q.y)) := by
  intro ms
  induction ms with
  | nil => intro _; exact ⟨[], rfl, rfl, by simp⟩
  | cons m ms ih =>
    intro h
    obtain ⟨p, q, e, hp, hq⟩ := ends_ok (h m (by simp))
    obtain ⟨cs, e2, hl, hc⟩ := ih (fun m hm => h m (by simp [hm]))
    refine ⟨(toVec2 round p, toVec2 round q) :: cs, by unfold correspsOf; simp only [e, e2], by simp [hl], ?_⟩
    intro i c hi
    cases i with
    | zero =>
      simp only [List.getElem?_cons_zero, Option.some.injEq] at hi
      exact ⟨m, p, q, rfl, hp, hq, hi.symm⟩
    | succ i => exact hc i c (by simpa using hi)

theorem collect_ok {cs : List ((Int × Int) × (Int × Int))} {ds : List (ℝ × ℝ)} :
    ∀ {is : List Nat}, (∀ i ∈ is, i < cs.length ∧ i < ds.length) →
    ∃ r, collect cs ds is = .ok r ∧ r.length = is.length ∧
      ∀ (k : Nat) e, r[k]? = some e → ∃ i, is[k]? = some i ∧ cs[i]? = some e.1 ∧ ds[i]? = some e.2 := by
  intro is
  induction is with
  | nil => intro _; exact ⟨[], rfl, rfl, by simp⟩
  | cons i is ih =>
    intro h
    obtain ⟨r, e, hl, hr⟩ := ih (fun i hi => h i (by simp [hi]))
    have h0 := h i (by simp)
    refine ⟨(cs[i]'h0.1, ds[i]'h0.2) :: r, ?_, by simp [hl], ?_⟩
    · unfold collect; rw [at'_lt h0.1, at'_lt h0.2]; simp only [e]
    · intro k e hk
      cases k with
      | zero =>
        simp only [List.getElem?_cons_zero, Option.some.injEq] at hk
        subst hk
        exact ⟨i, rfl, List.getElem?_eq_getElem h0.1, List.getElem?_eq_getElem h0.2⟩
      | succ k =>
        obtain ⟨j, h1, h2⟩ := hr k e (by simpa using hk)
        exact ⟨j, by simpa using h1, h2⟩

open Classical in
/-- C50, for the whole matcher: if the detector found key points and matches, the matches are in range, and
the estimator reports in-range inliers and a depth pair per correspondence, then the four result lists have
one entry per inlier, and the entries at each position are the key point coordinates (rounded to whole
pixels) and depths of one match, which moves by more than the threshold. -/
theorem C50_match_aligned {M : Type} (d : ℝ) (round : ℝ → Int) {kp0 kp1 : List Pt} {ms : List DMatch}
    (h0 : kp0 ≠ []) (h1 : kp1 ≠ []) (hm : ms ≠ []) (hr : InRange kp0 kp1 ms)
    (estimate : List ((Int × Int) × (Int × Int)) → Estimate M)
    (hest : ∀ cs, (∀ i ∈ (estimate cs).inliersInds, i < cs.length) ∧
      (estimate cs).depths.length = cs.length) :
    ∃ cs r, matchFrames d round kp0 kp1 ms estimate = .ok r ∧ r.motion = (estimate cs).motion ∧
      r.resPoints0.length = (estimate cs).inliersInds.length ∧
      r.resPoints1.length = r.resPoints0.length ∧ r.resDepths0.length = r.resPoints0.length ∧
      r.resDepths1.length = r.resPoints0.length ∧
      ∀ (k i : Nat), (estimate cs).inliersInds[k]? = some i → ∃ m p q d0 d1,
        (ms.filter (fun m => decide (Moves d kp0 kp1 m)))[i]? = some m ∧
        kp0[m.trainIdx]? = some p ∧ kp1[m.queryIdx]? = some q ∧
        cs[i]? = some ((round p.x, round p.y), (round q.x, round q.y)) ∧
        (estimate cs).depths[i]? = some (d0, d1) ∧
        r.resPoints0[k]? = some (round p.x, round p.y) ∧ r.resPoints1[k]? = some (round q.x, round q.y) ∧
        r.resDepths0[k]? = some d0 ∧ r.resDepths1[k]? = some d1 := by
  have hsub : InRange kp0 kp1 (ms.filter (fun m => decide (Moves d kp0 kp1 m))) :=
    fun m hm => hr m (List.mem_of_mem_filter hm)
  obtain ⟨cs, ec, hcl, hcs⟩ := corresps_ok round hsub
  obtain ⟨r, er, hrl, hrs⟩ := collect_ok (cs := cs) (ds := (estimate cs).depths)
    (is := (estimate cs).inliersInds) (fun i hi => ⟨(hest cs).1 i hi, by
      rw [(hest cs).2]; exact (hest cs).1 i hi⟩)
  refine ⟨cs, ⟨(estimate cs).motion, r.map (fun e => e.1.1), r.map (fun e => e.1.2),
    r.map (fun e => e.2.1), r.map (fun e => e.2.2)⟩, ?_, rfl, by simp [hrl], by simp, by simp, by simp, ?_⟩
  · unfold matchFrames
    rw [if_neg (by simp [h0, h1, hm]), C50_filter d hr]
    simp only [ec, er]
  · intro k i hk
    have hkl : k < r.length := by
      rw [hrl]; exact (List.getElem?_eq_some_iff.1 hk).1
    obtain ⟨i', hi', hc, hd⟩ := hrs k r[k] (List.getElem?_eq_getElem hkl)
    rw [hk] at hi'
    cases hi'
    obtain ⟨m, p, q, hm', hp, hq, hce⟩ := hcs i _ hc
    refine ⟨m, p, q, r[k].2.1, r[k].2.2, hm', hp, hq, by rw [hc, hce], hd, ?_, ?_, ?_, ?_⟩ <;>
      simp [List.getElem?_eq_getElem hkl, hce]

-- An estimator that accepts everything, on one moving match.
example := C50_match_aligned (M := Unit) 8 (fun _ => 0) (kp0 := [⟨0, 0⟩]) (kp1 := [⟨30, 40⟩]) (ms := [⟨0, 0⟩])
  (by simp) (by simp) (by simp) (by intro m hm; simp at hm; subst hm; simp)
  (fun cs => ⟨(), List.range cs.length, cs.map (fun _ => (1, 1))⟩) (by intro cs; simp)

/-- C50. Without key points or matches the matcher throws. -/
theorem C50_match_throws {M : Type} (d : ℝ) (round : ℝ → Int) {kp0 kp1 : List Pt} {ms : List DMatch}
    (h : kp0 = [] ∨ kp1 = [] ∨ ms = []) (estimate : List ((Int × Int) × (Int × Int)) → Estimate M) :
    matchFrames d round kp0 kp1 ms estimate = .error .exception := by
  unfold matchFrames
  rw [if_pos]
  rcases h with h | h | h <;> simp [h]

/-! ## C63 -/

/-- C63, the part that holds: if OpenCV rounds to a nearest integer, the coordinates handed to the
estimator (and returned) are within half a pixel of the key point's. -/
theorem C63_half_pixel_partial (round : ℝ → Int) (hround : ∀ x : ℝ, |(round x : ℝ) - x| ≤ 1 / 2)
    {kp0 kp1 : List Pt} {ms : List DMatch} (h : InRange kp0 kp1 ms) :
    ∃ cs, correspsOf round kp0 kp1 ms = .ok cs ∧ cs.length = ms.length ∧
      ∀ (i : Nat) c, cs[i]? = some c → ∃ m p q, ms[i]? = some m ∧ kp0[m.trainIdx]? = some p ∧
        kp1[m.queryIdx]? = some q ∧
        |(c.1.1 : ℝ) - p.x| ≤ 1 / 2 ∧ |(c.1.2 : ℝ) - p.y| ≤ 1 / 2 ∧
        |(c.2.1 : ℝ) - q.x| ≤ 1 / 2 ∧ |(c.2.2 : ℝ) - q.y| ≤ 1 / 2 := by
  obtain ⟨cs, e, hl, hc⟩ := corresps_ok round h
  refine ⟨cs, e, hl, fun i c hi => ?_⟩
  obtain ⟨m, p, q, hm, hp, hq, rfl⟩ := hc i c hi
  exact ⟨m, p, q, hm, hp, hq, hround _, hround _, hround _, hround _⟩

example := C63_half_pixel_partial (fun x => ⌊x + 1 / 2⌋) (fun x => by
    have h1 := Int.floor_le (x + 1 / 2); have h2 := Int.lt_floor_add_one (x + 1 / 2)
    rw [abs_le]; constructor <;> linarith)
  (kp0 := [⟨0.3, 0⟩]) (kp1 := [⟨30, 40.7⟩]) (ms := [⟨0, 0⟩]) (by intro m hm; simp at hm; subst hm; simp)

/-- C63 is violated: whatever the rounding, a key point with a fractional coordinate does not reach the
estimator with its coordinates. -/
theorem C63_subpixel_violated (round : ℝ → Int) : ∃ (kp0 kp1 : List Pt) (ms : List DMatch) (cs : _),
    InRange kp0 kp1 ms ∧ correspsOf round kp0 kp1 ms = .ok cs ∧
      ∃ m p c, ms[0]? = some m ∧ kp0[m.trainIdx]? = some p ∧ cs[0]? = some c ∧ (c.1.1 : ℝ) ≠ p.x := by
  refine ⟨[⟨1 / 2, 0⟩], [⟨30, 40⟩], [⟨0, 0⟩], _, by intro m hm; simp at hm; subst hm; simp, rfl,
    _, _, _, rfl, rfl, rfl, ?_⟩
  intro h
  have h2 : ((2 * round (1 / 2) : Int) : ℝ) = ((1 : Int) : ℝ) := by
    push_cast
    have : (round (1 / 2) : ℝ) = 1 / 2 := h
    rw [this]; norm_num
  have := Int.cast_injective h2
  omega

end Mdso.Matcher
