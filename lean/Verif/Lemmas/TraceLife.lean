import Verif.Lemmas.TraceDemo

/-!
# Lemmas on the search for candidates and on the lives of points
-/

set_option autoImplicit false

namespace Mdso.Trace

open Mdso.Geom Mdso.Cam Mdso.TraceSpec

/-! ## Where the candidates are -/

/-- The candidate is the projection of a direction on the searched segment. -/
def OnSegment (e : Env) (dirMax dirMin : V3) (f : V2 × V3) : Prop :=
  f.1 = e.cam.map f.2 ∧ Between dirMax dirMin f.2

theorem sweep_on {e : Env} {dirMax dirMin : V3} {fuel : Nat} {alpha : ℝ} {cnt : Nat}
    {r : List (V2 × V3) × Option ℝ} (h : sweep e dirMax dirMin fuel alpha cnt = some r)
    (h0 : 0 ≤ alpha) (h1 : alpha ≤ 1) :
    (∀ f ∈ r.1, OnSegment e dirMax dirMin f) ∧ (∀ a, r.2 = some a → alpha < a) := by
  induction fuel generalizing alpha cnt r with
  | zero => simp [sweep] at h
  | succ fuel ih =>
    unfold sweep at h
    simp only at h
    have hon : OnSegment e dirMax dirMin (e.cam.map (dirAt dirMax dirMin alpha), dirAt dirMax dirMin alpha) :=
      ⟨rfl, alpha, h0, h1, rfl⟩
    have hspeed : 0 ≤ norm2 (e.cam.jacobian (dirAt dirMax dirMin alpha) (dirMax - dirMin)) := Real.sqrt_nonneg _
    have hnext : ∀ a, (if norm2 (e.cam.jacobian (dirAt dirMax dirMin alpha) (dirMax - dirMin)) = 0 then none
        else some (alpha + 1 / norm2 (e.cam.jacobian (dirAt dirMax dirMin alpha) (dirMax - dirMin)))) = some a →
        alpha < a := by
      intro a ha
      split at ha
      · cases ha
      · rename_i hne
        cases ha
        have : 0 < norm2 (e.cam.jacobian (dirAt dirMax dirMin alpha) (dirMax - dirMin)) :=
          lt_of_le_of_ne hspeed (Ne.symm hne)
        have : 0 < 1 / norm2 (e.cam.jacobian (dirAt dirMax dirMin alpha) (dirMax - dirMin)) := by positivity
        linarith
    split at h
    · cases h
      exact ⟨by simpa using hon, hnext⟩
    · split at h
      · cases h
        exact ⟨by simpa using hon, by simp⟩
      · rename_i a ha
        have hlt := hnext a ha
        split at h
        · rename_i hin
          obtain ⟨r', hr', hrr⟩ := Option.map_eq_some_iff.1 h
          subst hrr
          obtain ⟨h2, h3⟩ := ih hr' hin.1 hin.2.1
          refine ⟨?_, fun b hb => lt_trans hlt (h3 b hb)⟩
          intro f hf
          rcases List.mem_cons.1 hf with rfl | hf
          · exact hon
          · exact h2 f hf
        · cases h
          refine ⟨by simpa using hon, ?_⟩
          intro b hb; cases hb; exact hlt

theorem searchLoop_on {e : Env} {dirMax dirMin : V3} (hcount : 2 ≤ e.s.onImageTestCount) {fuel : Nat}
    {alpha0 : Option ℝ} {found l : List (V2 × V3)} (h : searchLoop e dirMax dirMin fuel alpha0 found = some l)
    (h0 : ∀ a, alpha0 = some a → 0 ≤ a) (hf : ∀ f ∈ found, OnSegment e dirMax dirMin f) :
    ∀ f ∈ l, OnSegment e dirMax dirMin f := by
  induction fuel generalizing alpha0 found with
  | zero => simp [searchLoop] at h
  | succ fuel ih =>
    cases alpha0 with
    | none => simp only [searchLoop, Option.some.injEq] at h; subst h; exact hf
    | some a =>
      have ha := h0 a rfl
      have hstep : (0 : ℝ) < 1 / ((e.s.onImageTestCount - 1 : Int) : ℝ) := by
        have : (0 : ℝ) < ((e.s.onImageTestCount - 1 : Int) : ℝ) := by exact_mod_cast (by omega)
        positivity
      have hnext : ∀ b : Option ℝ, (∀ x, b = some x → 0 ≤ x) → ∀ x, stepFrom e b = some x → 0 ≤ x := by
        intro b hb x hx
        unfold stepFrom at hx
        rw [if_neg (by omega)] at hx
        obtain ⟨y, hy, hyx⟩ := Option.map_eq_some_iff.1 hx
        have := hb y hy
        linarith
      unfold searchLoop at h
      split at h
      · rename_i hle
        split at h
        · split at h
          · cases h
          · rename_i r hr
            obtain ⟨l', hl', hr1⟩ := sweeps_two hr
            obtain ⟨h2, h3⟩ := sweep_on hl' ha hle
            have hf' : ∀ f ∈ r.1, OnSegment e dirMax dirMin f := by
              intro f hfm
              rw [hr1] at hfm
              rcases List.mem_append.1 hfm with hfm | hfm
              · rcases List.mem_append.1 hfm with hfm | hfm
                · exact hf f hfm
                · exact h2 f hfm
              · exact h2 f hfm
            split at h
            · cases h; exact hf'
            · refine ih h (hnext _ ?_) hf'
              intro x hx
              have := h3 x hx
              linarith
        · split at h
          · cases h; exact hf
          · refine ih h (hnext _ ?_) hf
            intro x hx; cases hx; exact ha
      · cases h; exact hf

/-! ## Ending of the search with full tracing -/

theorem sweep_ends_full {e : Env} {dirMax dirMin : V3} {M : Nat}
    (hM : ∀ v : V3, Between dirMax dirMin v → norm2 (e.cam.jacobian v (dirMax - dirMin)) ≤ M) (k : Nat) (fuel : Nat)
    (alpha : ℝ) (cnt : Nat) (ha0 : 0 ≤ alpha) (ha1 : alpha ≤ 1) (hk : 1 - k / (M : ℝ) < alpha) (hfuel : k < fuel) :
    ∃ r, sweep e dirMax dirMin fuel alpha cnt = some r := by
  induction k generalizing fuel alpha cnt with
  | zero =>
    obtain ⟨fuel, rfl⟩ : ∃ n, fuel = n + 1 := ⟨fuel - 1, by omega⟩
    unfold sweep
    simp only
    split
    · exact ⟨_, rfl⟩
    · split
      · exact ⟨_, rfl⟩
      · rename_i a ha
        split at ha
        · cases ha
        · rename_i hne
          cases ha
          have hs : 0 ≤ norm2 (e.cam.jacobian (dirAt dirMax dirMin alpha) (dirMax - dirMin)) := Real.sqrt_nonneg _
          have : 0 ≤ 1 / norm2 (e.cam.jacobian (dirAt dirMax dirMin alpha) (dirMax - dirMin)) := by positivity
          rw [if_neg (by
            rintro ⟨_, h, _⟩
            simp only [Nat.cast_zero, zero_div, sub_zero] at hk
            linarith)]
          exact ⟨_, rfl⟩
  | succ k ih =>
    obtain ⟨fuel, rfl⟩ : ∃ n, fuel = n + 1 := ⟨fuel - 1, by omega⟩
    unfold sweep
    simp only
    split
    · exact ⟨_, rfl⟩
    · split
      · exact ⟨_, rfl⟩
      · rename_i a ha
        split at ha
        · cases ha
        · rename_i hne
          cases ha
          split
          · rename_i hin
            have hs : 0 < norm2 (e.cam.jacobian (dirAt dirMax dirMin alpha) (dirMax - dirMin)) :=
              lt_of_le_of_ne (Real.sqrt_nonneg _) (Ne.symm hne)
            have hle := one_div_le_one_div_of_le hs (hM (dirAt dirMax dirMin alpha) ⟨alpha, ha0, ha1, rfl⟩)
            have hkk : ((k + 1 : Nat) : ℝ) / M = k / M + 1 / M := by push_cast; ring
            obtain ⟨r, hr⟩ := ih fuel (alpha + 1 / norm2 (e.cam.jacobian (dirAt dirMax dirMin alpha)
              (dirMax - dirMin))) (cnt + 1) hin.1 hin.2.1 (by rw [hkk] at hk; linarith) (by omega)
            exact ⟨_, by rw [hr]; rfl⟩
          · exact ⟨_, rfl⟩

theorem searchLoop_ends_full {e : Env} {dirMax dirMin : V3} {M : Nat}
    (hM : ∀ v : V3, Between dirMax dirMin v → norm2 (e.cam.jacobian v (dirMax - dirMin)) ≤ M) (hM0 : 0 < M)
    (hcount : 2 ≤ e.s.onImageTestCount) (k : Nat) (fuel : Nat) (alpha0 : Option ℝ) (found : List (V2 × V3))
    (h0 : ∀ a, alpha0 = some a → 0 ≤ a ∧ 1 - k / ((e.s.onImageTestCount - 1 : Int) : ℝ) < a)
    (hfuel : k + M + 1 < fuel) :
    ∃ l, searchLoop e dirMax dirMin fuel alpha0 found = some l := by
  have hpos : (0 : ℝ) < ((e.s.onImageTestCount - 1 : Int) : ℝ) := by exact_mod_cast (by omega)
  have hMr : (0 : ℝ) < M := by exact_mod_cast hM0
  induction k generalizing fuel alpha0 found with
  | zero =>
    obtain ⟨fuel, rfl⟩ : ∃ n, fuel = n + 1 := ⟨fuel - 1, by omega⟩
    cases alpha0 with
    | none => exact ⟨_, rfl⟩
    | some a =>
      have := (h0 a rfl).2
      simp only [Nat.cast_zero, zero_div, sub_zero] at this
      unfold searchLoop
      rw [if_neg (by linarith)]
      exact ⟨_, rfl⟩
  | succ k ih =>
    obtain ⟨fuel, rfl⟩ : ∃ n, fuel = n + 1 := ⟨fuel - 1, by omega⟩
    cases alpha0 with
    | none => exact ⟨_, rfl⟩
    | some a =>
      obtain ⟨ha0, hak⟩ := h0 a rfl
      have hkk : ((k + 1 : Nat) : ℝ) / ((e.s.onImageTestCount - 1 : Int) : ℝ) =
          k / ((e.s.onImageTestCount - 1 : Int) : ℝ) + 1 / ((e.s.onImageTestCount - 1 : Int) : ℝ) := by
        push_cast; ring
      have hstep : (0 : ℝ) < 1 / ((e.s.onImageTestCount - 1 : Int) : ℝ) := by positivity
      have hnext : ∀ b : Option ℝ, (∀ x, b = some x → a ≤ x) → ∀ x, stepFrom e b = some x →
          0 ≤ x ∧ 1 - k / ((e.s.onImageTestCount - 1 : Int) : ℝ) < x := by
        intro b hb x hx
        unfold stepFrom at hx
        rw [if_neg (by omega)] at hx
        obtain ⟨y, hy, hyx⟩ := Option.map_eq_some_iff.1 hx
        have := hb y hy
        rw [hkk] at hak
        constructor <;> linarith
      unfold searchLoop
      split
      · rename_i hle
        split
        · obtain ⟨r, hr⟩ := sweep_ends_full hM (M + 1) (fuel + 1) a 0 ha0 hle (by
            push_cast
            rw [add_div, div_self hMr.ne']
            have : 0 < 1 / (M : ℝ) := by positivity
            linarith) (by omega)
          obtain ⟨_, h3⟩ := sweep_on hr ha0 hle
          have hs : sweeps e dirMax dirMin (fuel + 1) a 2 found none = some (found ++ r.1 ++ r.1, r.2) := by
            simp [sweeps, hr]
          rw [hs]
          simp only
          split
          · exact ⟨_, rfl⟩
          · exact ih fuel _ _ (hnext _ fun x hx => (h3 x hx).le) (by omega)
        · split
          · exact ⟨_, rfl⟩
          · exact ih fuel _ _ (hnext _ fun x hx => by cases hx; exact le_rfl) (by omega)
      · exact ⟨_, rfl⟩

/-! ## Traces -/

/-- A trace that does not succeed changes at most `lastEnergy` and `lastTraced`. -/
theorem traceOn_failed {e : Env} {fuel : Nat} {p q : Point} {st : Status}
    (h : traceOn e fuel p = .ok (some (st, q))) (hst : st ≠ .ok) :
    ∃ (le : WithTop ℝ) (lt : Bool), q = { p with lastEnergy := le, lastTraced := lt } := by
  rcases traceOn_ok h with h | h | h | ⟨_, base, rest, found, cs, _, _, _, _, hj⟩
  · exact ⟨p.lastEnergy, p.lastTraced, h.2.1⟩
  · exact ⟨p.lastEnergy, p.lastTraced, h.2.1⟩
  · exact ⟨p.lastEnergy, p.lastTraced, h.2.1⟩
  · obtain ⟨i, best, _, hq | ⟨_, _, _, _, _, _, _, _, hacc⟩⟩ := judge_ok hj
    · exact ⟨_, _, hq.2⟩
    · exact absurd (accept_ok hacc).1 hst

/-- A trace that succeeds. -/
theorem traceOn_succeeded {e : Env} {fuel : Nat} {p q : Point} (h : traceOn e fuel p = .ok (some (.ok, q))) :
    p.state ≠ .oob ∧ q.state = p.state ∧ q.numTraced = p.numTraced + 1 ∧ q.depth.isSome ∧
      0 ≤ q.tracedPyrLevel ∧ q.tracedPyrLevel < e.s.levelNum - 1 := by
  rcases traceOn_ok h with h | h | h | ⟨h0, base, rest, found, cs, _, _, _, hcs, hj⟩
  · exact absurd h.1 (by decide)
  · exact absurd h.1 (by decide)
  · exact absurd h.1 (by decide)
  · obtain ⟨i, best, hb, hq | ⟨_, _, hl, _, _, _, _, _, hacc⟩⟩ := judge_ok hj
    · exact absurd rfl hq.1
    · obtain ⟨_, h1, h2, _, _, h3, _, _, _, h4, _⟩ := accept_ok hacc
      obtain ⟨hlen, hcand⟩ := candidatesFrom_ok hcs
      have hbest := (bestFrom_spec hb).1
      have hi : i < found.length := by
        rw [← hlen]; exact (List.getElem?_eq_some_iff.1 hbest).1
      have hc := candidate_ok (hcand i _ _ (List.getElem?_eq_getElem hi) hbest)
      refine ⟨h0, h1, h2, h4, by rw [h3]; exact hc.2.1, ?_⟩
      have := hc.2.2.1
      have h5 := hc.2.1
      rw [h3]
      change best.level ≠ _ at hl
      change best.level < _ at this
      change 0 ≤ best.level at h5
      omega

end Mdso.Trace
