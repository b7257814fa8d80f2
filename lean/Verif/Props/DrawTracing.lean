import Verif.Spec.DrawTracing
import Verif.Props.ImmaturePoint
import Verif.Props.DepthColour

/-!
# C158: the picture of a search shows each position examined and marks the best one
-/

set_option autoImplicit false

namespace Mdso.TraceDraw

open Mdso.Geom Mdso.Trace Mdso.Util Mdso.Tri Mdso.TraceDraw.Spec

theorem minFrom_spec (es : List (V2 × ℝ)) : ∀ (pre : List (V2 × ℝ)) (b : Nat × ℝ),
    (∃ p, pre[b.1]? = some p ∧ p.2 = b.2) →
    (∀ (j : Nat) (q : V2 × ℝ), pre[j]? = some q → b.2 ≤ q.2 ∧ (j < b.1 → b.2 < q.2)) →
    (∃ p, (pre ++ es)[(minFrom pre.length es b).1]? = some p ∧ p.2 = (minFrom pre.length es b).2) ∧
    (∀ (j : Nat) (q : V2 × ℝ), (pre ++ es)[j]? = some q →
      (minFrom pre.length es b).2 ≤ q.2 ∧ (j < (minFrom pre.length es b).1 → (minFrom pre.length es b).2 < q.2)) := by
  induction es with
  | nil => intro pre b h1 h2; rw [List.append_nil]; exact ⟨h1, h2⟩
  | cons e es ih =>
    intro pre b ⟨p, h1, hp⟩ h2
    have hlt : b.1 < pre.length := by
      by_contra hc
      rw [List.getElem?_eq_none (by omega)] at h1
      cases h1
    have key := ih (pre ++ [e]) (if e.2 < b.2 then (pre.length, e.2) else b) (by
      by_cases hc : e.2 < b.2
      · rw [if_pos hc]; exact ⟨e, by simp, rfl⟩
      · rw [if_neg hc]; exact ⟨p, by rw [List.getElem?_append_left hlt]; exact h1, hp⟩) (by
      intro j q hq
      have hj : (j < pre.length ∧ pre[j]? = some q) ∨ (j = pre.length ∧ q = e) := by
        rcases Nat.lt_or_ge j pre.length with hj | hj
        · rw [List.getElem?_append_left hj] at hq; exact Or.inl ⟨hj, hq⟩
        · rw [List.getElem?_append_right hj] at hq
          rcases Nat.eq_or_lt_of_le hj with hj | hj
          · subst hj; simp at hq; exact Or.inr ⟨rfl, hq.symm⟩
          · rw [List.getElem?_eq_none (by simp; omega)] at hq; cases hq
      by_cases hc : e.2 < b.2
      · rw [if_pos hc]
        rcases hj with ⟨h, hq⟩ | ⟨rfl, rfl⟩
        · have := (h2 j q hq).1
          exact ⟨by simp only; linarith, fun _ => by simp only; linarith⟩
        · exact ⟨le_refl _, fun h => absurd h (lt_irrefl _)⟩
      · rw [if_neg hc]
        rcases hj with ⟨h, hq⟩ | ⟨rfl, rfl⟩
        · exact h2 j q hq
        · exact ⟨not_lt.1 hc, fun h => by omega⟩)
    have e1 : (pre ++ [e]) ++ es = pre ++ e :: es := by simp
    have e2 : (pre ++ [e]).length = pre.length + 1 := by simp
    rw [e1, e2] at key
    exact key

theorem maxFrom_spec (es : List (V2 × ℝ)) : ∀ b : ℝ, b ≤ maxFrom es b ∧ (∀ p ∈ es, p.2 ≤ maxFrom es b) ∧
    (maxFrom es b = b ∨ ∃ p ∈ es, p.2 = maxFrom es b) := by
  induction es with
  | nil => intro b; simp [maxFrom]
  | cons e es ih =>
    intro b
    obtain ⟨h1, h2, h3⟩ := ih (if b < e.2 then e.2 else b)
    have hm : maxFrom (e :: es) b = maxFrom es (if b < e.2 then e.2 else b) := rfl
    rw [hm]
    by_cases hc : b < e.2
    · rw [if_pos hc] at *
      refine ⟨by linarith, ?_, ?_⟩
      · intro p hp
        rcases List.mem_cons.1 hp with rfl | hp
        · exact h1
        · exact h2 p hp
      · rcases h3 with h3 | ⟨p, hp, h3⟩
        · exact Or.inr ⟨e, by simp, h3.symm⟩
        · exact Or.inr ⟨p, by simp [hp], h3⟩
    · rw [if_neg hc] at *
      refine ⟨h1, ?_, ?_⟩
      · intro p hp
        rcases List.mem_cons.1 hp with rfl | hp
        · push Not at hc; linarith
        · exact h2 p hp
      · rcases h3 with h3 | ⟨p, hp, h3⟩
        · exact Or.inl h3
        · exact Or.inr ⟨p, by simp [hp], h3⟩

theorem isBest_unique {found : List (V2 × ℝ)} {i j : Nat} (hi : IsBest found i) (hj : IsBest found j) : i = j := by
  obtain ⟨p, p1, p2⟩ := hi
  obtain ⟨q, q1, q2⟩ := hj
  rcases lt_trichotomy i j with h | h | h
  · have := (q2 i p p1).2 h; have := (p2 j q q1).1; linarith
  · exact h
  · have := (p2 j q q1).2 h; have := (q2 i p p1).1; linarith

theorem direction_spec {found : List (V2 × ℝ)} (hn : 2 ≤ found.length) {i : Nat} {p : V2 × ℝ} (hp : found[i]? = some p) :
    ∃ d, direction found i p.1 = .ok d ∧ ∀ t, IsTangent found i t → t = d := by
  have hi : i < found.length := by
    by_contra hc
    rw [List.getElem?_eq_none (by omega)] at hp
    cases hp
  unfold direction
  by_cases h1 : i + 1 = found.length
  · rw [if_pos h1, if_neg (by omega), at'_lt (by omega)]
    refine ⟨_, rfl, ?_⟩
    rintro t ⟨a, b, rfl, ⟨h2, h3⟩ | ⟨-, -, h2, h3⟩⟩
    · rw [List.getElem?_eq_none (by omega)] at h3; cases h3
    · rw [hp] at h3; obtain rfl := Option.some.inj h3
      rw [List.getElem?_eq_getElem (by omega)] at h2
      obtain rfl := Option.some.inj h2
      rfl
  · rw [if_neg h1, at'_lt (by omega)]
    refine ⟨_, rfl, ?_⟩
    rintro t ⟨a, b, rfl, ⟨h2, h3⟩ | ⟨h2, -⟩⟩
    · rw [hp] at h2; obtain rfl := Option.some.inj h2
      rw [List.getElem?_eq_getElem (by omega)] at h3
      obtain rfl := Option.some.inj h3
      rfl
    · exact absurd h2 h1

theorem across (p d : V2) (w : ℝ) (isBest : Bool) (s : Stroke) (ha : s.a = toPixel (p + (w / 2) • ortOf d isBest))
    (hb : s.b = toPixel (p - (w / 2) • ortOf d isBest)) : IsAcross s p d (if isBest then 2 * w else w) := by
  refine ⟨p + (w / 2) • ortOf d isBest, p - (w / 2) • ortOf d isBest, ?_, ?_, ?_, ?_, ?_, ?_, ?_⟩
  · rw [ha]; exact ⟨rfl, rfl⟩
  · rw [hb]; exact ⟨rfl, rfl⟩
  · simp; ring
  · simp; ring
  all_goals
    obtain ⟨x, y⟩ := d
    have hsq : sqNorm ⟨y, -x⟩ = x ^ 2 + y ^ 2 := by unfold sqNorm; ring
    unfold ortOf Cam.normalized2
    rw [hsq]
  · by_cases h : 0 < x ^ 2 + y ^ 2
    · rw [if_pos h]; cases isBest <;> simp <;> ring
    · rw [if_neg h]; cases isBest <;> simp <;> ring
  · intro hne
    have h : 0 < x ^ 2 + y ^ 2 := by
      by_contra hc
      have h1 : x = 0 := by nlinarith [sq_nonneg x, sq_nonneg y]
      have h2 : y = 0 := by nlinarith [sq_nonneg x, sq_nonneg y]
      exact hne (by rw [h1, h2])
    rw [if_pos h]
    unfold Cam.norm2
    rw [hsq]
    obtain ⟨r, hr⟩ : ∃ r, r = Real.sqrt (x ^ 2 + y ^ 2) := ⟨_, rfl⟩
    have hr2 : r ^ 2 = x ^ 2 + y ^ 2 := by rw [hr]; exact Real.sq_sqrt h.le
    have hr0 : r ≠ 0 := by intro h0; rw [h0] at hr2; simp at hr2; linarith
    rw [← hr]
    cases isBest
    · simp
      have : (w / 2 * (r⁻¹ * y) + w / 2 * (r⁻¹ * y)) ^ 2 + (-(w / 2 * (r⁻¹ * x)) - w / 2 * (r⁻¹ * x)) ^ 2 =
          w ^ 2 * ((x ^ 2 + y ^ 2) / r ^ 2) := by field_simp; ring
      rw [← hr2, div_self (pow_ne_zero 2 hr0), mul_one] at this
      linarith
    · simp
      have : (w / 2 * (2 * (r⁻¹ * y)) + w / 2 * (2 * (r⁻¹ * y))) ^ 2 + (-(w / 2 * (2 * (r⁻¹ * x))) - w / 2 * (2 * (r⁻¹ * x))) ^ 2 =
          (2 * w) ^ 2 * ((x ^ 2 + y ^ 2) / r ^ 2) := by field_simp; ring
      rw [← hr2, div_self (pow_ne_zero 2 hr0), mul_one] at this
      linarith
  · intro h0
    simp only [V2.mk.injEq] at h0
    obtain ⟨rfl, rfl⟩ := h0
    obtain ⟨px, py⟩ := p
    cases isBest <;> simp <;> constructor <;> ext <;> simp

theorem strokes_spec {found : List (V2 × ℝ)} {w : Int} {m : Nat} {lo hi : ℝ} (hn : 2 ≤ found.length) (ps : List (V2 × ℝ)) :
    ∀ i, (∀ (k : Nat) (p : V2 × ℝ), ps[k]? = some p → found[i + k]? = some p) →
    ∃ ss, strokes found w m lo hi i ps = .ok ss ∧ ss.length = ps.length ∧
      ∀ (k : Nat) (p : V2 × ℝ), ps[k]? = some p → ∃ s, ss[k]? = some s ∧ stroke found w m lo hi (i + k) p = .ok s := by
  induction ps with
  | nil => intro i _; exact ⟨[], rfl, rfl, by simp⟩
  | cons p ps ih =>
    intro i h
    obtain ⟨ss, h1, h2, h3⟩ := ih (i + 1) (by
      intro k q hq
      rw [show i + 1 + k = i + (k + 1) by omega]
      exact h (k + 1) q (by simpa using hq))
    obtain ⟨d, hd, -⟩ := direction_spec hn (h 0 p (by simp))
    obtain ⟨s, hs⟩ : ∃ s, stroke found w m lo hi i p = .ok s := by
      unfold stroke
      rw [Nat.add_zero] at hd
      rw [hd]
      exact ⟨_, rfl⟩
    refine ⟨s :: ss, ?_, by simp [h2], ?_⟩
    · unfold strokes
      rw [hs, h1]
      rfl
    · intro k q hq
      cases k with
      | zero =>
        simp at hq; subst hq
        exact ⟨s, by simp, by simpa using hs⟩
      | succ k =>
        obtain ⟨s', h4, h5⟩ := h3 k q (by simpa using hq)
        exact ⟨s', by simpa using h4, by rw [show i + (k + 1) = i + 1 + k by omega]; exact h5⟩

/-- The colours: the ramp where the energies differ. -/
theorem depthCol_ramp {lo hi e : ℝ} (h : lo < hi) (h1 : lo ≤ e) (h2 : e ≤ hi) : ∃ c, depthCol e lo hi = some c ∧ IsRamp lo hi e c := by
  obtain ⟨-, -, c1, c2⟩ := C53_colour_partial h
  have hp : 0 < (hi - lo) / 2 := by linarith
  obtain ⟨c, hc⟩ : ∃ c, depthCol e lo hi = some c := by
    rcases le_total e ((lo + hi) / 2) with h3 | h3
    · have := c1 ((e - lo) / ((hi - lo) / 2)) (div_nonneg (by linarith) hp.le) (by rw [div_le_one hp]; linarith)
      rw [div_mul_cancel₀ _ hp.ne', show lo + (e - lo) = e by ring] at this
      exact ⟨_, this⟩
    · have := c2 ((e - (lo + hi) / 2) / ((hi - lo) / 2)) (div_nonneg (by linarith) hp.le) (by rw [div_le_one hp]; linarith)
      rw [div_mul_cancel₀ _ hp.ne', show (lo + hi) / 2 + (e - (lo + hi) / 2) = e by ring] at this
      exact ⟨_, this⟩
  refine ⟨c, hc, ?_, ?_⟩
  · rintro t t0 t1 rfl
    rw [c1 t t0 t1] at hc
    exact (Option.some.inj hc).symm
  · rintro t t0 t1 rfl
    rw [c2 t t0 t1] at hc
    exact (Option.some.inj hc).symm

/-- C158. For any two or more positions, any energies and any line width: the picture consists of one stroke for each position, in
order. It goes through the position, across the curve, with the given length. The first of the positions of least energy, and no other,
has a stroke of twice the length, black and three pixels thick; the others are one pixel thick and, unless all energies are equal,
coloured by their energy between the least and the greatest one. -/
theorem C158_strokes_partial {found : List (V2 × ℝ)} (hn : 2 ≤ found.length) (w : Int) :
    ∃ (ss : List Stroke) (best : Nat) (lo hi : ℝ), drawTracing found w = .ok ss ∧ ss.length = found.length ∧
      IsBest found best ∧ IsRange found lo hi ∧
      ∀ (i : Nat) (p : V2 × ℝ), found[i]? = some p → ∃ s, ss[i]? = some s ∧
        (i = best → s.thickness = 3 ∧ s.colour = some ⟨0, 0, 0⟩ ∧ ∀ t, IsTangent found i t → IsAcross s p.1 t (2 * w)) ∧
        (i ≠ best → s.thickness = 1 ∧ (lo < hi → ∃ c, s.colour = some c ∧ IsRamp lo hi p.2 c) ∧
          ∀ t, IsTangent found i t → IsAcross s p.1 t w) := by
  cases found with
  | nil => simp at hn
  | cons e es =>
    obtain ⟨m1, m2⟩ := minFrom_spec es [e] (0, e.2) ⟨e, rfl, rfl⟩ (by
      intro j q hq
      cases j with
      | zero => simp at hq; subst hq; simp
      | succ j => simp at hq)
    obtain ⟨x1, x2, x3⟩ := maxFrom_spec es e.2
    simp only [List.length_singleton, List.singleton_append] at m1 m2
    obtain ⟨m, hm⟩ : ∃ m, m = minFrom 1 es (0, e.2) := ⟨_, rfl⟩
    obtain ⟨hi, hhi⟩ : ∃ hi, hi = maxFrom es e.2 := ⟨_, rfl⟩
    rw [← hm] at m1 m2
    rw [← hhi] at x1 x2 x3
    obtain ⟨p0, hp0, hp0m⟩ := m1
    have hr : IsRange (e :: es) m.2 hi := by
      refine ⟨⟨p0, List.mem_of_getElem? hp0, hp0m⟩, ?_, ?_⟩
      · rcases x3 with x3 | ⟨p, hp, x3⟩
        · exact ⟨e, by simp, x3.symm⟩
        · exact ⟨p, by simp [hp], x3⟩
      · intro p hp
        obtain ⟨j, hj⟩ := List.getElem?_of_mem hp
        refine ⟨(m2 j p hj).1, ?_⟩
        rcases List.mem_cons.1 hp with rfl | hp
        · exact x1
        · exact x2 p hp
    obtain ⟨ss, s1, s2, s3⟩ := strokes_spec (w := w) (m := m.1) (lo := m.2) (hi := hi) hn (e :: es) 0 (by intro k p hp; simpa using hp)
    refine ⟨ss, m.1, m.2, hi, ?_, s2, ⟨p0, hp0, ?_⟩, hr, ?_⟩
    · unfold drawTracing
      simp only [← hm, ← hhi]
      exact s1
    · intro j q hq
      rw [hp0m]
      exact m2 j q hq
    · intro i p hp
      obtain ⟨s, hs, hst⟩ := s3 i p hp
      rw [Nat.zero_add] at hst
      obtain ⟨d, hd, hdt⟩ := direction_spec hn hp
      unfold stroke at hst
      simp only [hd, bind, Except.bind, Except.ok.injEq] at hst
      refine ⟨s, hs, ?_, ?_⟩
      · intro hi
        subst hi
        refine ⟨by rw [← hst]; simp, by rw [← hst]; simp [black], ?_⟩
        intro t ht
        rw [hdt t ht]
        have := across p.1 d w true s (by rw [← hst]; simp) (by rw [← hst]; simp)
        simpa using this
      · intro hi
        refine ⟨by rw [← hst]; simp [hi], ?_, ?_⟩
        · intro hlt
          obtain ⟨b1, b2⟩ := hr.2.2 p (List.mem_of_getElem? hp)
          obtain ⟨c, hc, hcr⟩ := depthCol_ramp hlt b1 b2
          exact ⟨c, by rw [← hst]; simp [hi, hc], hcr⟩
        · intro t ht
          rw [hdt t ht]
          have := across p.1 d w false s (by rw [← hst]; simp [hi]) (by rw [← hst]; simp [hi])
          simpa using this

/-- Not vacuous: three positions on a line, the second the best; the colours of the others are blue and green. -/
example : drawTracing [(⟨10, 10⟩, 9), (⟨20, 10⟩, 1), (⟨30, 10⟩, 5)] 5 = .ok
    [⟨⟨10, 7⟩, ⟨10, 12⟩, some blue, 1⟩, ⟨⟨20, 5⟩, ⟨20, 15⟩, some ⟨0, 0, 0⟩, 3⟩, ⟨⟨30, 7⟩, ⟨30, 12⟩, some green, 1⟩] := by
  have hq : Real.sqrt (10 ^ 2) = 10 := Real.sqrt_sq (by norm_num)
  have hq' : Real.sqrt 100 = 10 := by rw [← hq]; norm_num
  have f1 : truncInt (15 / 2 : ℝ) = 7 := by
    unfold truncInt; rw [if_pos (by norm_num), Int.floor_eq_iff]; norm_num
  have f2 : truncInt (25 / 2 : ℝ) = 12 := by
    unfold truncInt; rw [if_pos (by norm_num), Int.floor_eq_iff]; norm_num
  have f3 : ∀ n : Nat, truncInt (n : ℝ) = n := by
    intro n; unfold truncInt; rw [if_pos (by positivity)]; simp
  have f10 := f3 10
  have f20 := f3 20
  have f30 := f3 30
  have f5 := f3 5
  have f15 := f3 15
  norm_num at f10 f20 f30 f5 f15
  norm_num [drawTracing, strokes, stroke, direction, at', ortOf, Cam.normalized2, Cam.norm2, sqNorm, minFrom, maxFrom, toPixel,
    bind, Except.bind, Except.map, hq', f1, f2, f10, f20, f30, f5, f15, depthCol, fdiv, Colour.blend, black, blue, green, red]

/-- The picture of one position, or of none, is undefined: the position before the first one is read. -/
theorem C158_single_violated {found : List (V2 × ℝ)} (hn : found.length < 2) (w : Int) : drawTracing found w = .error .ub := by
  rcases found with _ | ⟨e, _ | ⟨e', es⟩⟩
  · rfl
  · rfl
  · simp at hn

/-- If all energies are equal, the colours of all strokes but the first are not defined. -/
theorem C158_equal_violated {found : List (V2 × ℝ)} (hn : 2 ≤ found.length) {x : ℝ} (hx : ∀ p ∈ found, p.2 = x) (w : Int) :
    ∃ ss, drawTracing found w = .ok ss ∧ ∀ i, 0 < i → i < found.length → ∃ s, ss[i]? = some s ∧ s.colour = none := by
  cases found with
  | nil => simp at hn
  | cons e es =>
    obtain ⟨m1, m2⟩ := minFrom_spec es [e] (0, e.2) ⟨e, rfl, rfl⟩ (by
      intro j q hq
      cases j with
      | zero => simp at hq; subst hq; simp
      | succ j => simp at hq)
    obtain ⟨x1, x2, x3⟩ := maxFrom_spec es e.2
    simp only [List.length_singleton, List.singleton_append] at m1 m2
    obtain ⟨p0, hp0, hp0m⟩ := m1
    have hm2 : (minFrom 1 es (0, e.2)).2 = x := by rw [← hp0m]; exact hx p0 (List.mem_of_getElem? hp0)
    have hm1 : (minFrom 1 es (0, e.2)).1 = 0 := by
      by_contra hc
      have := (m2 0 e rfl).2 (by omega)
      rw [hm2, hx e (by simp)] at this
      exact lt_irrefl _ this
    have hmx : maxFrom es e.2 = x := by
      rcases x3 with x3 | ⟨p, hp, x3⟩
      · rw [x3]; exact hx e (by simp)
      · rw [← x3]; exact hx p (by simp [hp])
    obtain ⟨ss, s1, s2, s3⟩ := strokes_spec (w := w) (m := 0) (lo := x) (hi := x) hn (e :: es) 0 (by intro k p hp; simpa using hp)
    refine ⟨ss, by unfold drawTracing; simp only [hm1, hm2, hmx]; exact s1, ?_⟩
    intro i h0 hi
    obtain ⟨p, hp⟩ : ∃ p, (e :: es)[i]? = some p := ⟨_, List.getElem?_eq_getElem hi⟩
    obtain ⟨s, hs, hst⟩ := s3 i p hp
    rw [Nat.zero_add] at hst
    obtain ⟨d, hd, -⟩ := direction_spec hn hp
    unfold stroke at hst
    simp only [hd, bind, Except.bind, Except.ok.injEq] at hst
    refine ⟨s, hs, ?_⟩
    rw [← hst]
    simp only [if_neg (show i ≠ 0 by omega), hx p (List.mem_of_getElem? hp)]
    simp [depthCol, fdiv]

/-- After a successful trace, with an `outlierQuality` above 1 and a `secondBestEnergyThresFactor` not below 0 (they are 3 and 0.004
unless the user changes them), neither case occurs: the picture is defined, with one stroke for each position the search examined, all
in proper colours, and the black one is at the position whose energy is reported. -/
theorem C158_trace {e : Trace.Env} {fuel : Nat} {p q : Point} (h : traceOn e fuel p = .ok (some (.ok, q))) (hq : q.state = .active)
    (h1 : 1 < e.s.outlierQuality) (h2 : 0 ≤ e.s.secondBestEnergyThresFactor) :
    ∃ (base : V3) (rest : List V3) (found : List (V2 × V3)) (cs : List Cand) (best : Nat) (ss : List Stroke),
      e.baseDirections = base :: rest ∧
      pointsToTrace e fuel (searchEnds e p base).1 (searchEnds e p base).2 = .ok (some found) ∧
      candidatesFrom e p 0 found = .ok cs ∧ drawn .ok q cs = .ok ss ∧ ss.length = found.length ∧
      ∀ (i : Nat) (f : V2 × V3), found[i]? = some f → ∃ s c, ss[i]? = some s ∧ s.colour = some c ∧
        (∃ t len, IsAcross s f.1 t len ∧ (i = best → len = 10) ∧ (i ≠ best → len = 5)) ∧
        (i = best → c = ⟨0, 0, 0⟩ ∧ s.thickness = 3 ∧ ∃ a, cs[i]? = some a ∧ q.lastEnergy = ((a.energy : ℝ) : WithTop ℝ) ∧
          q.depthBeforeSubpixel = some (e.tri (e.cam.unmap f.1))) ∧
        (i ≠ best → s.thickness = 1) := by
  rcases traceOn_ok h with h | h | h | ⟨_, base, rest, found, cs, hbase, hfound, hlen, hcs, hj⟩
  · exact absurd h.1 (by decide)
  · exact absurd h.1 (by decide)
  · exact absurd h.1 (by decide)
  · obtain ⟨i, best, hb, hq' | ⟨d, sec, _, hd, hs, hthr, hbig, hqual, hacc⟩⟩ := judge_ok hj
    · exact absurd rfl hq'.1
    · obtain ⟨_, _, _, _, _, hlev, hle, hbef, hdb, _, hdep, _, _⟩ := accept_ok hacc
      obtain ⟨hcl, hcand⟩ := candidatesFrom_ok hcs
      obtain ⟨hbi, hmin⟩ := bestFrom_spec hb
      obtain ⟨⟨second, hsm, hsd, hse⟩, hsmin⟩ := secondBest_some hs
      have hel : (energiesFound cs).length = found.length := by simp [energiesFound, hcl]
      have hget : ∀ (k : Nat) (a : Cand), cs[k]? = some a → (energiesFound cs)[k]? = some (a.point, a.energy) := by
        intro k a ha; simp [energiesFound, ha]
      obtain ⟨ss, bi, lo, hi, k1, k2, k3, k4, k5⟩ := C158_strokes_partial (found := energiesFound cs) (by omega) 5
      have hbest : IsBest (energiesFound cs) i := by
        refine ⟨_, hget i best hbi, ?_⟩
        intro j y hy
        simp only [energiesFound, List.getElem?_map, Option.map_eq_some_iff] at hy
        obtain ⟨c, hc, rfl⟩ := hy
        exact hmin j c hc
      obtain rfl := isBest_unique k3 hbest
      have hlt : lo < hi := by
        have hsec : 0 < second.energy := by
          rw [hse]
          refine lt_of_le_of_lt ?_ hthr
          rw [mul_assoc]
          exact mul_nonneg h2 (mul_nonneg (by positivity) (mul_self_nonneg _))
        have hbs : best.energy < second.energy := by
          rcases hqual with h0 | h0
          · rw [h0]; exact hsec
          · rw [← hse] at h0
            obtain ⟨j, hj'⟩ := List.getElem?_of_mem hsm
            refine lt_of_le_of_ne (hmin j second hj').1 ?_
            intro heq
            rw [heq, div_self hsec.ne'] at h0
            linarith
        have hlo := (k4.2.2 _ (List.mem_of_getElem? (hget bi best hbi))).1
        have hhi := (k4.2.2 (second.point, second.energy) (List.mem_map.2 ⟨second, hsm, rfl⟩)).2
        simp only at hlo hhi
        linarith
      refine ⟨base, rest, found, cs, bi, ss, hbase, hfound, hcs, ?_, by omega, ?_⟩
      · unfold drawn
        rw [if_pos ⟨rfl, hq⟩]
        exact k1
      · intro k f hf
        have hk : k < cs.length := by
          rw [hcl]
          by_contra hc
          rw [List.getElem?_eq_none (by omega)] at hf
          cases hf
        obtain ⟨a, ha⟩ : ∃ a, cs[k]? = some a := ⟨_, List.getElem?_eq_getElem hk⟩
        have hpt : a.point = f.1 := (candidate_ok (hcand k f a hf ha)).1
        obtain ⟨s, s1, s2, s3⟩ := k5 k _ (hget k a ha)
        obtain ⟨t, ht⟩ : ∃ t, IsTangent (energiesFound cs) k t := by
          by_cases hl : k + 1 = (energiesFound cs).length
          · exact ⟨_, (energiesFound cs)[k - 1]'(by omega), _, rfl,
              Or.inr ⟨hl, by omega, List.getElem?_eq_getElem (by omega), hget k a ha⟩⟩
          · exact ⟨_, _, (energiesFound cs)[k + 1]'(by omega), rfl, Or.inl ⟨hget k a ha, List.getElem?_eq_getElem (by omega)⟩⟩
        rw [← hpt]
        by_cases hkb : k = bi
        · obtain ⟨b1, b2, b3⟩ := s2 hkb
          refine ⟨s, _, s1, b2, ⟨t, 10, ?_, fun _ => rfl, fun h => absurd hkb h⟩, ?_, fun h => absurd hkb h⟩
          · have := b3 t ht; norm_num at this; exact this
          · intro _
            subst hkb
            rw [hbi] at ha
            obtain rfl := Option.some.inj ha
            exact ⟨rfl, b1, best, hbi, hle, hdb⟩
        · obtain ⟨b1, b2, b3⟩ := s3 hkb
          obtain ⟨c, hc, -⟩ := b2 hlt
          refine ⟨s, c, s1, hc, ⟨t, 5, ?_, fun h => absurd h hkb, fun _ => rfl⟩, fun h => absurd h hkb, fun _ => b1⟩
          have := b3 t ht; norm_num at this; exact this

/-- Not vacuous: a new point, traced successfully, is active. -/
example : ∃ q, traceOn (Demo.env ⟨2, 0, 10⟩) 6 (new true) = .ok (some (.ok, q)) ∧ q.state = .active ∧
    1 < (Demo.env ⟨2, 0, 10⟩).s.outlierQuality ∧ 0 ≤ (Demo.env ⟨2, 0, 10⟩).s.secondBestEnergyThresFactor := by
  obtain ⟨q, hq, _⟩ := Demo.traced ⟨2, 0, 10⟩ (by norm_num) (by rw [Demo.lvl_zero]; norm_num)
  refine ⟨q, hq, ?_, ?_, ?_⟩
  · rw [(C27_trace hq).1]; rfl
  · show (1 : ℝ) < 3; norm_num
  · show (0 : ℝ) ≤ 4 / 1000; norm_num

end Mdso.TraceDraw
