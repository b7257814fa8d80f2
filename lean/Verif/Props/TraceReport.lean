import Verif.Spec.TraceReport
import Verif.Props.ImmaturePoint

/-!
# C194: what is logged about tracing
-/

set_option autoImplicit false

namespace Mdso.Report

open Mdso.Trace Mdso.TraceSpec Mdso.ReportSpec

theorem number_cons {α : Type} (P : α → Prop) {a : α} [Decidable (P a)] (l : List α) : number P (a :: l) = (if P a then 1 else 0) + number P l := by
  classical
  unfold number
  by_cases h : P a
  · simp [h, Nat.add_comm]
  · simp [h]

theorem number_le {α : Type} (P : α → Prop) (l : List α) : number P l ≤ l.length := List.length_filter_le _ _

theorem bump_get {v w : List Nat} {i : Nat} (h : bump v i = .ok w) (k : Nat) : w[k]? = v[k]?.map (· + if i = k then 1 else 0) := by
  unfold bump at h
  cases hv : v[i]? with
  | none => rw [hv] at h; cases h
  | some n =>
    rw [hv] at h
    cases h
    rw [List.getElem?_set]
    by_cases hk : i = k
    · subst hk
      obtain ⟨hlt, he⟩ := List.getElem?_eq_some_iff.1 hv
      simp [hlt, he]
    · simp [hk]

theorem bumpNumber_get {v w : List Nat} {p : Point} (h : bumpNumber v p = .ok w) {k : Nat} (hk : k < maxTraced) :
    w[k]? = v[k]?.map (· + if p.numTraced = k then 1 else 0) := by
  unfold bumpNumber at h
  by_cases hp : p.numTraced < maxTraced
  · rw [if_pos hp] at h; exact bump_get h k
  · rw [if_neg hp] at h
    cases h
    have : p.numTraced ≠ k := by omega
    simp [this]

theorem bumpLevel_get {v w : List Nat} {p : Point} (h : bumpLevel v p = .ok w) (k : Nat) :
    w[k]? = v[k]?.map (· + if p.tracedPyrLevel = (k : Int) then 1 else 0) := by
  unfold bumpLevel at h
  by_cases hp : p.tracedPyrLevel ≥ 0
  · rw [if_pos hp] at h
    rw [bump_get h k]
    have : p.tracedPyrLevel.toNat = k ↔ p.tracedPyrLevel = (k : Int) := by omega
    simp only [this]
  · rw [if_neg hp] at h
    cases h
    have : p.tracedPyrLevel ≠ (k : Int) := by omega
    simp [this]

theorem bump_length {v w : List Nat} {i : Nat} (h : bump v i = .ok w) : w.length = v.length := by
  unfold bump at h
  cases hv : v[i]? with
  | none => rw [hv] at h; cases h
  | some n => rw [hv] at h; cases h; simp

theorem bumpNumber_length {v w : List Nat} {p : Point} (h : bumpNumber v p = .ok w) : w.length = v.length := by
  unfold bumpNumber at h
  split at h
  · exact bump_length h
  · cases h; rfl

theorem bumpLevel_length {v w : List Nat} {p : Point} (h : bumpLevel v p = .ok w) : w.length = v.length := by
  unfold bumpLevel at h
  split at h
  · exact bump_length h
  · cases h; rfl

open Classical in
theorem tally_ok {s : Settings} {r r' : Report} {st : Status} {q : Point} (h : tally s r st q = .ok r') :
    r'.traced = r.traced + (if st = .ok then 1 else 0) ∧ r'.good = r.good + (if isReady s q then 1 else 0) ∧
      bumpNumber r.byNumber q = .ok r'.byNumber ∧ bumpLevel r.onLevel q = .ok r'.onLevel := by
  unfold tally at h
  cases h1 : bumpNumber r.byNumber q with
  | error f => rw [h1] at h; cases h
  | ok n =>
    cases h2 : bumpLevel r.onLevel q with
    | error f => rw [h1, h2] at h; cases h
    | ok l =>
      rw [h1, h2] at h
      cases h
      exact ⟨rfl, rfl, rfl, rfl⟩

theorem loop_cons {fuel : Nat} {c : Env × Point} {cs : List (Env × Point)} {r : Report} {qs : List Point} {r' : Report}
    (h : loop fuel (c :: cs) r = .ok (some (qs, r'))) :
    ∃ o r1 qs', traceOn c.1 fuel c.2 = .ok (some o) ∧ tally c.1.s r o.1 o.2 = .ok r1 ∧ loop fuel cs r1 = .ok (some (qs', r')) ∧ qs = o.2 :: qs' := by
  rw [loop] at h
  cases h1 : traceOn c.1 fuel c.2 with
  | error f => rw [h1] at h; cases h
  | ok o =>
    cases o with
    | none => rw [h1] at h; cases h
    | some o =>
      rw [h1] at h
      simp only at h
      cases h2 : tally c.1.s r o.1 o.2 with
      | error f => rw [h2] at h; cases h
      | ok r1 =>
        rw [h2] at h
        simp only at h
        cases h3 : loop fuel cs r1 with
        | error f => rw [h3] at h; cases h
        | ok z =>
          cases z with
          | none => rw [h3] at h; cases h
          | some z =>
            rw [h3] at h
            cases h
            exact ⟨o, r1, z.1, rfl, h2, h3, rfl⟩

theorem loop_spec {fuel : Nat} {cs : List (Env × Point)} {r r' : Report} {qs : List Point} (h : loop fuel cs r = .ok (some (qs, r'))) :
    ∃ os, Outcomes fuel cs os ∧ qs = os.map Prod.snd ∧ r'.traced = r.traced + number (fun o : Status × Point => o.1 = .ok) os ∧
      r'.good = r.good + number (fun x : (Env × Point) × Status × Point => isReady x.1.1.s x.2.2) (cs.zip os) ∧
      r'.byNumber.length = r.byNumber.length ∧ r'.onLevel.length = r.onLevel.length ∧
      (∀ k, k < maxTraced → r'.byNumber[k]? = r.byNumber[k]?.map (· + number (fun o : Status × Point => o.2.numTraced = k) os)) ∧
      (∀ k : Nat, r'.onLevel[k]? = r.onLevel[k]?.map (· + number (fun o : Status × Point => o.2.tracedPyrLevel = (k : Int)) os)) := by
  classical
  induction cs generalizing r qs with
  | nil =>
    rw [loop] at h
    cases h
    exact ⟨[], .nil, rfl, rfl, rfl, rfl, rfl, fun k _ => by simp [number], fun k => by simp [number]⟩
  | cons c cs ih =>
    obtain ⟨o, r1, qs', h1, h2, h3, rfl⟩ := loop_cons h
    obtain ⟨os, i1, i2, i3, i4, i5, i6, i7, i8⟩ := ih h3
    obtain ⟨t1, t2, t3, t4⟩ := tally_ok h2
    refine ⟨o :: os, .cons h1 i1, by rw [i2]; rfl, ?_, ?_, ?_, ?_, ?_, ?_⟩
    · rw [i3, t1, number_cons]; omega
    · rw [i4, t2, List.zip_cons_cons, number_cons, Nat.add_assoc]
    · rw [i5, bumpNumber_length t3]
    · rw [i6, bumpLevel_length t4]
    · intro k hk
      rw [i7 k hk, bumpNumber_get t3 hk, number_cons, Option.map_map]
      congr 1
      funext n
      simp only [Function.comp]
      omega
    · intro k
      rw [i8 k, bumpLevel_get t4 k, number_cons, Option.map_map]
      congr 1
      funext n
      simp only [Function.comp]
      omega

/-- **C194, counts.** The counts logged after a frame are what their captions say about the outcomes of tracing: how many candidates were traced
successfully, how many are good enough for optimization, how many were traced 0, 1, …, 7 times so far, and for how many each level is the one remembered. -/
theorem C194_report_partial {L : Int} {fuel : Nat} {cs : List (Env × Point)} {qs : List Point} {r : Report} (h : traceWindow L fuel cs = .ok (some (qs, r))) :
    ∃ os, Outcomes fuel cs os ∧ qs = os.map Prod.snd ∧ r.traced = number (fun o : Status × Point => o.1 = .ok) os ∧
      r.good = number (fun x : (Env × Point) × Status × Point => isReady x.1.1.s x.2.2) (cs.zip os) ∧
      r.byNumber = (List.range 8).map (fun k => number (fun q : Point => q.numTraced = k) qs) ∧
      r.onLevel = (List.range L.toNat).map (fun l : Nat => number (fun q : Point => q.tracedPyrLevel = (l : Int)) qs) := by
  classical
  unfold traceWindow at h
  by_cases hL : L < 0
  · rw [if_pos hL] at h; cases h
  · rw [if_neg hL] at h
    obtain ⟨os, i1, i2, i3, i4, i5, i6, i7, i8⟩ := loop_spec h
    have hmap : ∀ P : Point → Prop, number P qs = number (fun o : Status × Point => P o.2) os := by
      intro P
      rw [i2]
      unfold number
      rw [List.filter_map, List.length_map]
      rfl
    refine ⟨os, i1, i2, by rw [i3]; simp [start], by rw [i4]; simp [start], ?_, ?_⟩
    · apply List.ext_getElem?
      intro k
      by_cases hk : k < 8
      · rw [i7 k hk, show (start L).byNumber = List.replicate 8 0 from rfl, List.getElem?_replicate, if_pos hk, List.getElem?_map, List.getElem?_range hk]
        simp [hmap]
      · rw [List.getElem?_eq_none (by rw [i5]; simp [start, maxTraced]; omega), List.getElem?_eq_none (by simp; omega)]
    · apply List.ext_getElem?
      intro k
      rw [i8 k]
      by_cases hk : k < L.toNat
      · simp [start, hk, hmap]
      · simp [start, hk]

theorem bump_lt {v : List Nat} {i : Nat} (h : i < v.length) : ∃ w, bump v i = .ok w := by
  unfold bump
  rw [List.getElem?_eq_getElem h]
  exact ⟨_, rfl⟩

theorem tally_defined {s : Settings} {r : Report} {st : Status} {q : Point} (hn : r.byNumber.length = maxTraced)
    (hl : q.tracedPyrLevel < (r.onLevel.length : Int)) :
    ∃ r', tally s r st q = .ok r' ∧ r'.byNumber.length = maxTraced ∧ r'.onLevel.length = r.onLevel.length := by
  obtain ⟨n, h1⟩ : ∃ n, bumpNumber r.byNumber q = .ok n := by
    unfold bumpNumber
    by_cases h : q.numTraced < maxTraced
    · rw [if_pos h]; exact bump_lt (by rw [hn]; exact h)
    · rw [if_neg h]; exact ⟨_, rfl⟩
  obtain ⟨l, h2⟩ : ∃ l, bumpLevel r.onLevel q = .ok l := by
    unfold bumpLevel
    by_cases h : q.tracedPyrLevel ≥ 0
    · rw [if_pos h]; exact bump_lt (by omega)
    · rw [if_neg h]; exact ⟨_, rfl⟩
  unfold tally
  rw [h1, h2]
  exact ⟨_, rfl, (bumpNumber_length h1).trans hn, bumpLevel_length h2⟩

theorem traced_history {L : Int} {fuel : Nat} {e : Env} {p : Point} {o : Status × Point} {t g : Bool} (he : e.s.levelNum = L)
    (h : History (fun e => e.s.levelNum = L) t g p) (ho : traceOn e fuel p = .ok (some o)) : ∃ t g, History (fun e => e.s.levelNum = L) t g o.2 := by
  obtain ⟨st, q⟩ := o
  by_cases hst : st = .ok
  · subst hst; exact ⟨_, _, .traceOk e fuel he h ho⟩
  · exact ⟨_, _, .traceFailed e fuel st he h ho hst⟩

/-- **C194, safety.** Counting never fails, whatever happened to the candidates before: if the whole fails then because tracing one of them does. -/
theorem C194_safe {L : Int} (hL : 1 ≤ L) {fuel : Nat} {cs : List (Env × Point)} (hc : Candidates L cs) {f : Fault} (h : traceWindow L fuel cs = .error f) :
    ∃ c ∈ cs, traceOn c.1 fuel c.2 = .error f := by
  unfold traceWindow at h
  rw [if_neg (by omega)] at h
  have key : ∀ r : Report, r.byNumber.length = maxTraced → (r.onLevel.length : Int) = L → loop fuel cs r = .error f →
      ∃ c ∈ cs, traceOn c.1 fuel c.2 = .error f := by
    clear h
    induction cs with
    | nil => intro r _ _ h; rw [loop] at h; cases h
    | cons c cs ih =>
      intro r hn hl h
      rw [loop] at h
      cases h1 : traceOn c.1 fuel c.2 with
      | error f' => rw [h1] at h; cases h; exact ⟨c, by simp, h1⟩
      | ok o =>
        cases o with
        | none => rw [h1] at h; cases h
        | some o =>
          obtain ⟨he, t, g, hh⟩ := hc c (by simp)
          obtain ⟨t', g', hh'⟩ := traced_history he hh h1
          obtain ⟨r1, h2, h3, h4⟩ := tally_defined (s := c.1.s) (st := o.1) hn (by rw [hl]; exact (C77_level hL hh').2)
          rw [h1] at h
          simp only [h2] at h
          cases h5 : loop fuel cs r1 with
          | error f' =>
            rw [h5] at h
            cases h
            obtain ⟨c', m, hc'⟩ := ih (fun c hm => hc c (by simp [hm])) r1 h3 (by rw [h4]; exact hl) h5
            exact ⟨c', by simp [m], hc'⟩
          | ok z => cases z <;> (rw [h5] at h; cases h)
  exact key _ (by simp [start]) (by simp [start]; omega) h

theorem outcomes_history {L : Int} {fuel : Nat} {cs : List (Env × Point)} {os : List (Status × Point)} (hc : Candidates L cs) (h : Outcomes fuel cs os) :
    ∀ o ∈ os, ∃ t g, History (fun e => e.s.levelNum = L) t g o.2 := by
  induction h with
  | nil => simp
  | @cons c o cs os h1 _ ih =>
    intro o' ho'
    rcases List.mem_cons.1 ho' with rfl | hm
    · obtain ⟨he, t, g, hh⟩ := hc c (by simp)
      exact traced_history he hh h1
    · exact ih (fun c hm => hc c (by simp [hm])) o' hm

theorem sum_indicator (n m : Nat) : (n ≤ m → ((List.range n).map fun k => if k = m then 1 else 0).sum = 0) ∧
    (m < n → ((List.range n).map fun k => if k = m then 1 else 0).sum = 1) := by
  induction n with
  | zero => simp
  | succ n ih =>
    simp only [List.range_succ, List.map_append, List.sum_append, List.map_cons, List.map_nil, List.sum_cons, List.sum_nil, Nat.add_zero]
    constructor
    · intro h
      rw [ih.1 (by omega), if_neg (by omega)]
    · intro h
      by_cases hm : m < n
      · rw [ih.2 hm, if_neg (by omega)]
      · rw [ih.1 (by omega), if_pos (by omega)]

theorem sum_number {α : Type} (f : α → Int) (n : Nat) (l : List α) (h : ∀ a ∈ l, 0 ≤ f a ∧ f a < n) :
    ((List.range n).map fun k : Nat => number (fun a => f a = (k : Int)) l).sum = l.length := by
  classical
  induction l with
  | nil => simp [number]
  | cons a l ih =>
    simp only [number_cons, List.sum_map_add, ih fun b hb => h b (by simp [hb]), List.length_cons]
    obtain ⟨h0, h1⟩ := h a (by simp)
    obtain ⟨m, hm⟩ := Int.eq_ofNat_of_zero_le h0
    have : ((List.range n).map fun k : Nat => if f a = (k : Int) then 1 else 0).sum = 1 := by
      rw [hm] at h1 ⊢
      have hmn : m < n := by exact_mod_cast h1
      have : (fun k : Nat => if ((m : Nat) : Int) = (k : Int) then 1 else 0) = fun k => if k = m then 1 else 0 := by
        funext k
        by_cases hk : k = m
        · simp [hk]
        · have : ¬ ((m : Int) = (k : Int)) := by omega
          simp [hk, this]
      rw [this]
      exact (sum_indicator n m).2 hmn
    omega

/-- **C194, levels.** Every candidate is counted on exactly one level. -/
theorem C194_levels {L : Int} (hL : 1 ≤ L) {fuel : Nat} {cs : List (Env × Point)} (hc : Candidates L cs) {qs : List Point} {r : Report}
    (h : traceWindow L fuel cs = .ok (some (qs, r))) : r.onLevel.length = L.toNat ∧ r.onLevel.sum = cs.length := by
  obtain ⟨os, h1, h2, -, -, -, h6⟩ := C194_report_partial h
  refine ⟨by rw [h6]; simp, ?_⟩
  rw [h6, sum_number (fun q : Point => q.tracedPyrLevel) L.toNat qs, h2, List.length_map, h1.length_eq]
  intro q hq
  rw [h2] at hq
  obtain ⟨o, ho, rfl⟩ := List.mem_map.1 hq
  obtain ⟨t, g, hh⟩ := outcomes_history hc h1 o ho
  have := C77_level hL hh
  omega

/-- **C194, progress.** The number of successes logged is by how much the numbers of traces of all candidates together have grown. -/
theorem C194_progress {L : Int} {fuel : Nat} {cs : List (Env × Point)} {qs : List Point} {r : Report} (h : traceWindow L fuel cs = .ok (some (qs, r))) :
    (qs.map fun q => q.numTraced).sum = (cs.map fun c => c.2.numTraced).sum + r.traced := by
  classical
  obtain ⟨os, h1, h2, h3, -⟩ := C194_report_partial h
  rw [h2, h3]
  clear h h2 h3
  induction h1 with
  | nil => simp [number]
  | @cons c o cs os h1 _ ih =>
    obtain ⟨st, q⟩ := o
    obtain ⟨-, h4, h5, -⟩ := C27_trace h1
    simp only [List.map_cons, List.sum_cons, number_cons, ih]
    by_cases hst : st = .ok
    · rw [if_pos hst, h5 hst]; omega
    · rw [if_neg hst, (h4 hst).2.2.2.2.2.1]; omega

/-- **C194, violated.** "Last traced on pyramid levels" counts candidates that were never traced as traced on the finest level. -/
theorem C194_level_violated (e : Env) (fuel : Nat) (L : Int) (hL : 1 ≤ L) :
    ∃ r, traceWindow L fuel [(e, new false)] = .ok (some ([new false], r)) ∧ r.traced = 0 ∧ r.byNumber = [1, 0, 0, 0, 0, 0, 0, 0] ∧ r.onLevel[0]? = some 1 := by
  obtain ⟨n, hn⟩ : ∃ n : Nat, L.toNat = n + 1 := ⟨L.toNat - 1, by omega⟩
  have h1 : traceOn e fuel (new false) = .ok (some (.wasOob, new false)) := by simp [traceOn, new]
  have h2 : ∃ r, loop fuel [(e, new false)] (start L) = .ok (some ([new false], r)) ∧ r.traced = 0 ∧ r.byNumber = [1, 0, 0, 0, 0, 0, 0, 0] ∧
      r.onLevel[0]? = some 1 := by
    have h3 : bumpNumber (start L).byNumber (new false) = .ok [1, 0, 0, 0, 0, 0, 0, 0] := rfl
    have h4 : bumpLevel (start L).onLevel (new false) = .ok (1 :: List.replicate n 0) := by
      show bumpLevel (List.replicate L.toNat 0) (new false) = _
      rw [hn, List.replicate_succ]
      rfl
    simp only [loop, h1, tally, h3, h4]
    exact ⟨_, rfl, by simp [start], rfl, rfl⟩
  unfold traceWindow
  rw [if_neg (by omega)]
  exact h2

/-- Not vacuous: two candidates, the one traced successfully on the finest level, the other out of bounds. -/
example : ∃ (cs : List (Env × Point)) (qs : List Point) (r : Report), Candidates 3 cs ∧ traceWindow 3 6 cs = .ok (some (qs, r)) ∧
    r.traced = 1 ∧ r.byNumber = [1, 1, 0, 0, 0, 0, 0, 0] ∧ r.onLevel = [2, 0, 0] := by
  obtain ⟨q, hq, -, -, h4, -⟩ := Demo.traced ⟨0, 0, 10⟩ (by norm_num) (by rw [Demo.lvl_zero]; norm_num)
  rw [Demo.lvl_zero] at h4
  have hn := (C27_trace hq).2.2.1 rfl
  refine ⟨[(Demo.env ⟨0, 0, 10⟩, new true), (Demo.env ⟨0, 0, 10⟩, new false)], ?_⟩
  have h1 : traceOn (Demo.env ⟨0, 0, 10⟩) 6 (new false) = .ok (some (.wasOob, new false)) := by simp [traceOn, new]
  have a1 : bumpNumber (start 3).byNumber q = .ok [0, 1, 0, 0, 0, 0, 0, 0] := by simp [bumpNumber, hn, new, start, maxTraced, bump]
  have a2 : bumpLevel (start 3).onLevel q = .ok [1, 0, 0] := by simp [bumpLevel, h4, start, bump]
  have b1 : bumpNumber [0, 1, 0, 0, 0, 0, 0, 0] (new false) = .ok [1, 1, 0, 0, 0, 0, 0, 0] := rfl
  have b2 : bumpLevel [1, 0, 0] (new false) = .ok [2, 0, 0] := rfl
  refine ⟨[q, new false], ?_⟩
  simp only [traceWindow, loop, hq, h1, tally, a1, a2, b1, b2]
  refine ⟨_, ?_, rfl, by simp [start], rfl, rfl⟩
  intro c hc
  simp only [List.mem_cons, List.not_mem_nil, or_false] at hc
  rcases hc with rfl | rfl
  · exact ⟨rfl, _, _, .create true⟩
  · exact ⟨rfl, _, _, .create false⟩

end Mdso.Report
