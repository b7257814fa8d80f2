import Verif.Spec.TraceResume
import Verif.Props.ImmaturePoint

/-!
# C198: candidates restored from a snapshot are traced as if the program had not been interrupted
-/

set_option autoImplicit false

namespace Mdso.Trace

open Mdso.Geom Mdso.Cam Mdso.TraceSpec

/-- Other values for output only. -/
def relabel (lt : Bool) (n : Nat) (a : Option ℝ) (l : Int) (b : Option ℝ) (c : Option (WithTop ℝ)) (p : Point) : Point :=
  { p with lastTraced := lt, numTraced := n, depthBeforeSubpixel := a, tracedPyrLevel := l, eBeforeSubpixel := b, eAfterSubpixel := c }

theorem relabel_of {p q : Point} (h : estimate p = estimate q) :
    q = relabel q.lastTraced q.numTraced q.depthBeforeSubpixel q.tracedPyrLevel q.eBeforeSubpixel q.eAfterSubpixel p := by
  obtain ⟨⟩ := p
  obtain ⟨⟩ := q
  simp only [estimate, Prod.mk.injEq] at h
  obtain ⟨rfl, rfl, rfl, rfl, rfl, rfl, rfl⟩ := h
  rfl

section
variable (lt : Bool) (n : Nat) (a : Option ℝ) (l : Int) (b : Option ℝ) (c : Option (WithTop ℝ))

theorem candidates_relabel (e : Env) (p : Point) (i : Nat) (found : List (V2 × V3)) :
    candidatesFrom e (relabel lt n a l b c p) i found = candidatesFrom e p i found := by
  induction found generalizing i with
  | nil => rfl
  | cons f fs ih =>
    have h : candidate e (relabel lt n a l b c p) i f = candidate e p i f := rfl
    rw [candidatesFrom, candidatesFrom, ih, h]

theorem accept_relabel (e : Env) (p : Point) (points : List V2) (dev : WithTop ℝ) (i : Nat) (best : Cand) (d : ℝ) (q : Option (WithTop ℝ)) :
    (accept e (relabel lt n a l b c p) points dev i best d q).map (fun o => (o.1, estimate o.2)) =
      (accept e p points dev i best d q).map (fun o => (o.1, estimate o.2)) := by
  unfold accept
  generalize (if e.s.gnIter > 0 then
      (refine e points i best.point d best.level).map fun r => (e.tri (e.cam.unmap r.1), r.2)
    else .ok (d, ((best.energy : ℝ) : WithTop ℝ)) : Except Fault (ℝ × WithTop ℝ)) = x
  cases x with
  | error f => rfl
  | ok r => cases interval e points i dev <;> rfl

theorem judge_relabel (e : Env) (p : Point) (points : List V2) (dev : WithTop ℝ) (cs : List Cand) :
    (judge e (relabel lt n a l b c p) points dev cs).map (fun o => (o.1, estimate o.2)) = (judge e p points dev cs).map (fun o => (o.1, estimate o.2)) := by
  unfold judge
  cases bestFrom 0 cs none with
  | none => rfl
  | some x =>
    obtain ⟨i, best⟩ := x
    simp only
    by_cases h1 : best.level = e.s.levelNum - 1
    · rw [if_pos h1, if_pos h1]; rfl
    · rw [if_neg h1, if_neg h1]
      rcases best.depth with _ | d
      · rfl
      · simp only
        rcases secondBest e.s.minSecondBestDistance best.point cs with _ | s
        · rfl
        · simp only
          split
          · rfl
          · split
            · rfl
            · split
              · rfl
              · exact accept_relabel lt n a l b c e p points dev i best d _

end

theorem seen_some (r : Except Fault (Status × Point)) : seen (r.map some) = (r.map fun o => (o.1, estimate o.2)).map some := by
  cases r <;> rfl

theorem trace_alike {e : Env} {fuel : Nat} {p q : Point} (h : estimate p = estimate q)
    (hn : e.s.performFullTracing = true ∨ (0 < p.numTraced ↔ 0 < q.numTraced) ∨ p.stddev = ⊤ ∨ p.state = .oob) : seen (traceOn e fuel q) = seen (traceOn e fuel p) := by
  obtain ⟨n, hq⟩ : ∃ n, n = q.numTraced := ⟨_, rfl⟩
  rw [relabel_of h, ← hq]
  rw [← hq] at hn
  generalize q.lastTraced = lt, q.depthBeforeSubpixel = a, q.tracedPyrLevel = l, q.eBeforeSubpixel = b, q.eAfterSubpixel = c
  clear h hq
  obtain ⟨r, hr⟩ : ∃ r, r = relabel lt n a l b c p := ⟨_, rfl⟩
  have e1 : r.state = p.state := by rw [hr]; rfl
  have e2 : ∀ base, searchEnds e r base = searchEnds e p base := fun base => by rw [hr]; rfl
  have e3 : r.stddev = p.stddev := by rw [hr]; rfl
  have e4 : r.numTraced = n := by rw [hr]; rfl
  have e5 : ∀ found, candidatesFrom e r 0 found = candidatesFrom e p 0 found := fun found => by rw [hr]; exact candidates_relabel _ _ _ _ _ _ e p 0 found
  have e6 : ∀ points dev cs, (judge e r points dev cs).map (fun o => (o.1, estimate o.2)) = (judge e p points dev cs).map (fun o => (o.1, estimate o.2)) :=
    fun points dev cs => by rw [hr]; exact judge_relabel _ _ _ _ _ _ e p points dev cs
  have e7 : estimate r = estimate p := by rw [hr]; rfl
  rw [← hr]
  unfold traceOn
  by_cases h0 : p.state = .oob
  · rw [if_pos h0, if_pos (e1.trans h0)]; simp [seen, Except.map, e7]
  · rw [if_neg h0, if_neg fun h => h0 (e1.symm.trans h)]
    cases e.baseDirections with
    | nil => rfl
    | cons base rest =>
      simp only
      obtain ⟨dev, hdev⟩ : ∃ dev, dev = deviation e (normalized2 (e.cam.jacobian (searchEnds e p base).2 ((searchEnds e p base).1 - (searchEnds e p base).2))) :=
        ⟨_, rfl⟩
      rw [e2, ← hdev]
      have hc : (e.s.performFullTracing = false ∧ r.numTraced > 0 ∧ isWorse dev e.s.imprFactor r.stddev) ↔
          (e.s.performFullTracing = false ∧ p.numTraced > 0 ∧ isWorse dev e.s.imprFactor p.stddev) := by
        rw [e3, e4]
        rcases hn with h | h | h | h
        · simp [h]
        · have h' : n > 0 ↔ p.numTraced > 0 := h.symm
          rw [h']
        · have h' : ¬ isWorse dev e.s.imprFactor p.stddev := by
            unfold isWorse
            rw [h]
            exact not_top_lt
          simp only [h', and_false]
        · exact absurd h h0
      by_cases h1 : e.s.performFullTracing = false ∧ p.numTraced > 0 ∧ isWorse dev e.s.imprFactor p.stddev
      · rw [if_pos h1, if_pos (hc.2 h1)]; simp [seen, Except.map, e7]
      · rw [if_neg h1, if_neg fun h => h1 (hc.1 h)]
        cases pointsToTrace e fuel (searchEnds e p base).1 (searchEnds e p base).2 with
        | error f => rfl
        | ok x =>
          cases x with
          | none => rfl
          | some found =>
            simp only
            by_cases h2 : found.length > 1
            · rw [if_pos h2, if_pos h2, e5]
              cases candidatesFrom e p 0 found with
              | error f => rfl
              | ok cs =>
                simp only
                rw [seen_some, seen_some, e6]
            · rw [if_neg h2, if_neg h2]; simp [seen, Except.map, e7]

theorem count_positive {e : Env} {fuel : Nat} {p q : Point} {o o' : Status × Point} (h : traceOn e fuel p = .ok (some o)) (h' : traceOn e fuel q = .ok (some o'))
    (hs : o.1 = o'.1) (hn : 0 < p.numTraced ↔ 0 < q.numTraced) : 0 < o.2.numTraced ↔ 0 < o'.2.numTraced := by
  obtain ⟨st, r⟩ := o
  obtain ⟨st', r'⟩ := o'
  obtain rfl : st = st' := hs
  obtain ⟨-, h1, h2, -⟩ := C27_trace h
  obtain ⟨-, h3, h4, -⟩ := C27_trace h'
  by_cases hst : st = .ok
  · show 0 < r.numTraced ↔ 0 < r'.numTraced
    rw [h2 hst, h4 hst]; omega
  · show 0 < r.numTraced ↔ 0 < r'.numTraced
    rw [(h1 hst).2.2.2.2.2.1, (h3 hst).2.2.2.2.2.1]; exact hn

theorem still_alike {e : Env} {fuel : Nat} {p q : Point} {o o' : Status × Point} (h : traceOn e fuel p = .ok (some o)) (h' : traceOn e fuel q = .ok (some o'))
    (hs : o.1 = o'.1) (hn : (0 < p.numTraced ↔ 0 < q.numTraced) ∨ p.stddev = ⊤ ∨ p.state = .oob) :
    (0 < o.2.numTraced ↔ 0 < o'.2.numTraced) ∨ o.2.stddev = ⊤ ∨ o.2.state = .oob := by
  rcases hn with hn | hn | hn
  · exact Or.inl (count_positive h h' hs hn)
  · obtain ⟨st, r⟩ := o
    obtain ⟨st', r'⟩ := o'
    obtain rfl : st = st' := hs
    by_cases hst : st = .ok
    · left
      show 0 < r.numTraced ↔ 0 < r'.numTraced
      rw [(C27_trace h).2.2.1 hst, (C27_trace h').2.2.1 hst]; omega
    · right; left
      exact ((C27_trace h).2.1 hst).2.2.2.1.trans hn
  · exact Or.inr (Or.inr ((C27_trace (st := o.1) (q := o.2) h).1.trans hn))

theorem traceAll_alike {fuel : Nat} {es : List Env} {p q : Point} (h : estimate p = estimate q)
    (hn : (∀ e ∈ es, e.s.performFullTracing = true) ∨ (0 < p.numTraced ↔ 0 < q.numTraced) ∨ p.stddev = ⊤ ∨ p.state = .oob) : seen (traceAll fuel es q) = seen (traceAll fuel es p) := by
  induction es generalizing p q with
  | nil => simp only [traceAll, seen, Except.map, Option.map_some, h]
  | cons e es ih =>
    have h1 := trace_alike (e := e) (fuel := fuel) h (hn.imp (fun h => h e (by simp)) id)
    rw [traceAll, traceAll]
    cases hp : traceOn e fuel p with
    | error f =>
      cases hq : traceOn e fuel q with
      | error f' => rw [hp, hq] at h1; cases h1; rfl
      | ok o => rw [hp, hq] at h1; cases h1
    | ok o =>
      cases hq : traceOn e fuel q with
      | error f' => rw [hp, hq] at h1; cases h1
      | ok o' =>
        rw [hp, hq] at h1
        cases o with
        | none =>
          cases o' with
          | none => rfl
          | some o' => simp [seen, Except.map] at h1
        | some o =>
          cases o' with
          | none => simp [seen, Except.map] at h1
          | some o' =>
            simp only [seen, Except.map, Option.map_some, Except.ok.injEq, Option.some.injEq, Prod.mk.injEq] at h1
            obtain ⟨h2, h3⟩ := h1
            have h4 := ih h3.symm (hn.imp (fun h e' hm => h e' (by simp [hm])) fun h => still_alike hp hq h2.symm h)
            simp only [h2]
            cases hp' : traceAll fuel es o.2 with
            | error f =>
              cases hq' : traceAll fuel es o'.2 with
              | error f' => rw [hp', hq'] at h4; cases h4; rfl
              | ok z => rw [hp', hq'] at h4; cases h4
            | ok z =>
              cases hq' : traceAll fuel es o'.2 with
              | error f' => rw [hp', hq'] at h4; cases h4
              | ok z' =>
                rw [hp', hq'] at h4
                cases z with
                | none =>
                  cases z' with
                  | none => rfl
                  | some z' => simp [seen, Except.map] at h4
                | some z =>
                  cases z' with
                  | none => simp [seen, Except.map] at h4
                  | some z' =>
                    simp only [seen, Except.map, Option.map_some, Except.ok.injEq, Option.some.injEq, Prod.mk.injEq] at h4 ⊢
                    exact ⟨by rw [h4.1], h4.2⟩

/-- **C198, what holds.** A candidate restored from a snapshot is traced on any further frames as the one that was saved: all outcomes are the same, and so is all
that is known of its depth at the end, if the search covers the whole curve each time, or if the greatest depth is known exactly for candidates traced before. -/
theorem C198_resume_partial {fuel : Nat} {es : List Env} {p : Point}
    (h : (∀ e ∈ es, e.s.performFullTracing = true) ∨ (0 < p.numTraced ↔ p.maxDepth ≠ ⊤)) : seen (traceAll fuel es (restore p)) = seen (traceAll fuel es p) := by
  classical
  refine traceAll_alike rfl (h.imp id fun h => Or.inl (h.trans ?_))
  by_cases hm : p.maxDepth = ⊤ <;> simp [restore, hm]

/-- **C198, new candidates.** This is so for all candidates that were never traced successfully, whatever else happened to them. -/
theorem C198_untraced {E : Env → Prop} {t g : Bool} {p : Point} (hp : History E t g p) (ht : t = false) (fuel : Nat) (es : List Env) :
    seen (traceAll fuel es (restore p)) = seen (traceAll fuel es p) := by
  have key : p.numTraced = 0 ∧ p.maxDepth = ⊤ := by
    induction hp with
    | create _ => exact ⟨rfl, rfl⟩
    | traceOk => cases ht
    | traceFailed e fuel st _ _ h hst ih =>
      obtain ⟨h1, h2⟩ := ih ht
      have := (C27_trace h).2.1 hst
      unfold SameEstimate at this
      exact ⟨by rw [this.2.2.2.2.2.1]; exact h1, by simp only [this, h2]⟩
    | initialise ready depth _ ih => exact ih ht
    | putOut ready _ ih => exact ih ht
    | deactivate => exact ⟨rfl, rfl⟩
    | reload _ ih =>
      obtain ⟨-, h2⟩ := ih ht
      exact ⟨by simp [restore, h2], h2⟩
  exact C198_resume_partial (Or.inr (by simp [key]))

theorem judge_never {e : Env} {p q : Point} {points : List V2} {dev : WithTop ℝ} {cs : List Cand} {st : Status} (h : judge e p points dev cs = .ok (st, q)) :
    st ≠ .bigPredictedError := by
  unfold judge at h
  split at h
  · cases h
  · simp only at h
    split at h
    · cases h; simp
    · split at h
      · cases h; simp
      · split at h
        · cases h; simp
        · split at h
          · cases h; simp
          · split at h
            · cases h; simp
            · split at h
              · cases h; simp
              · rw [(accept_ok h).1]; simp

theorem of_map_some {x : Except Fault (Status × Point)} {o : Status × Point} (h : x.map some = .ok (some o)) : x = .ok o := by
  cases x with
  | error f => cases h
  | ok y => cases h; rfl

/-- A candidate traced before is given up for this frame, because nothing better can be expected. -/
theorem predicted {e : Env} {fuel : Nat} {p : Point} {base : V3} {rest : List V3} (h0 : p.state ≠ .oob) (hb : e.baseDirections = base :: rest)
    (hf : e.s.performFullTracing = false) (hn : 0 < p.numTraced)
    (hw : isWorse (deviation e (normalized2 (e.cam.jacobian (searchEnds e p base).2 ((searchEnds e p base).1 - (searchEnds e p base).2)))) e.s.imprFactor p.stddev) :
    traceOn e fuel p = .ok (some (.bigPredictedError, p)) := by
  unfold traceOn
  rw [if_neg h0, hb]
  simp only
  rw [if_pos ⟨hf, hn, hw⟩]

/-- A candidate never traced is never given up for this reason. -/
theorem not_predicted {e : Env} {fuel : Nat} {p q : Point} (hn : p.numTraced = 0) : traceOn e fuel p ≠ .ok (some (.bigPredictedError, q)) := by
  intro h
  unfold traceOn at h
  by_cases h0 : p.state = .oob
  · rw [if_pos h0] at h; cases h
  · rw [if_neg h0] at h
    split at h
    · cases h
    · simp only at h
      rw [if_neg (by omega)] at h
      split at h
      · cases h
      · cases h
      · split at h
        · split at h
          · cases h
          · exact judge_never (of_map_some h) rfl
        · cases h

namespace Demo

open Classical in
/-- After the frame of `env` another one, taken from a place above instead of one to the right. -/
noncomputable def above : Env :=
  { env ⟨0, 0, 10⟩ with
    baseToRef := ⟨⟨⟨1, 0, 0⟩, ⟨0, 1, 0⟩, ⟨0, 0, 1⟩⟩, ⟨0, 10, 0⟩⟩
    tri := fun ray => if ray.y = 0 then 20 else 10 * ray.z / ray.y }

end Demo

/-- The frame from above promises nothing. -/
theorem above_predicted {p : Point} (h0 : p.state ≠ .oob) (hn : 0 < p.numTraced) (hmax : p.maxDepth = ⊤) (hs : p.stddev ≠ ⊤) (fuel : Nat) :
    traceOn Demo.above fuel p = .ok (some (.bigPredictedError, p)) := by
  refine predicted (base := ⟨0, 0, 1⟩) (rest := [⟨0, 1, 1⟩]) h0 rfl rfl hn ?_
  have h1 : searchEnds Demo.above p ⟨0, 0, 1⟩ = ((⟨0, 10, p.minDepth⟩ : V3).normalized, ⟨0, 0, 1⟩) := by
    unfold searchEnds
    rw [hmax]
    refine Prod.ext ?_ ?_
    · show V3.normalized _ = _
      congr 1
      simp [Demo.above, Motion3.act, M3.mulVec, V3.dot]
      ext <;> simp
    · show M3.mulVec _ _ = _
      simp [Demo.above, M3.mulVec, V3.dot]
  have h2 : deviation Demo.above (normalized2 (Demo.above.cam.jacobian (searchEnds Demo.above p ⟨0, 0, 1⟩).2
      ((searchEnds Demo.above p ⟨0, 0, 1⟩).1 - (searchEnds Demo.above p ⟨0, 0, 1⟩).2))) = ⊤ := by
    rw [h1]
    have h3 : (⟨0, 10, p.minDepth⟩ : V3).normalized.x = 0 := by
      unfold V3.normalized
      split <;> simp
    have h4 : (Demo.above.cam.jacobian ⟨0, 0, 1⟩ ((⟨0, 10, p.minDepth⟩ : V3).normalized - ⟨0, 0, 1⟩)).x = 0 := by
      simp [Demo.above, Demo.env, Demo.camera, h3]
    have h5 : ∀ v : V2, v.x = 0 → (normalized2 v).x = 0 := by
      intro v hv
      unfold normalized2
      split <;> simp [hv]
    unfold deviation
    rw [if_pos]
    simp only [Demo.above, Demo.env, List.foldl_cons, List.foldl_nil, Geom.dot] at h4 ⊢
    rw [h5 _ h4]
    ring
  rw [h2]
  show p.stddev < ⊤
  exact lt_top_iff_ne_top.2 hs

/-- **C198, violated.** A candidate that was traced successfully but for which no greatest depth is known, counts as never traced once it was saved and loaded: it
is no longer shown in clouds of points, and frames that promise nothing better are no longer skipped. -/
theorem C198_infinite_violated : ∃ (e e' : Env) (q : Point), History (fun e => e.s.levelNum = 3) true false q ∧ traceOn e 6 (new true) = .ok (some (.ok, q)) ∧
    0 < q.numTraced ∧ (restore q).numTraced = 0 ∧
    e'.s = e.s ∧ e'.cam = e.cam ∧ e'.baseDirections = e.baseDirections ∧ e'.baseIntencities = e.baseIntencities ∧ e'.baseGradNorm = e.baseGradNorm ∧
    ∀ fuel, traceOn e' fuel q = .ok (some (.bigPredictedError, q)) ∧ ∀ r, traceOn e' fuel (restore q) ≠ .ok (some (.bigPredictedError, r)) := by
  obtain ⟨q, hq, -, hmax, -, hs, -⟩ := Demo.traced ⟨0, 0, 10⟩ (by norm_num) (by rw [Demo.lvl_zero]; norm_num)
  have hn : q.numTraced = 1 := (C27_trace hq).2.2.1 rfl
  have hr : (restore q).numTraced = 0 := by simp [restore, hmax]
  refine ⟨Demo.env ⟨0, 0, 10⟩, Demo.above, q, .traceOk _ _ rfl (.create true) hq, hq, by omega, hr, rfl, rfl, rfl, rfl, rfl, fun fuel =>
    ⟨above_predicted ?_ (by omega) hmax (by rw [hs]; exact WithTop.coe_ne_top) fuel, fun r => not_predicted hr⟩⟩
  rw [(C27_trace hq).1]; simp [new]

/-- Greatest depths are found by successful traces only. -/
theorem history_maxDepth {E : Env → Prop} {t g : Bool} {p : Point} (hp : History E t g p) (h0 : p.numTraced = 0) : p.maxDepth = ⊤ := by
  classical
  induction hp with
  | create _ => rfl
  | traceOk e fuel _ _ h _ => rw [(C27_trace h).2.2.1 rfl] at h0; omega
  | traceFailed e fuel st _ _ h hst ih =>
    have := (C27_trace h).2.1 hst
    unfold SameEstimate at this
    rw [this.2.2.2.2.2.1] at h0
    simp only [this, ih h0]
  | initialise ready depth _ ih => exact ih h0
  | putOut ready _ ih => exact ih h0
  | deactivate => rfl
  | @reload t g p _ ih =>
    by_cases hm : p.maxDepth = ⊤
    · exact hm
    · simp [restore, hm] at h0

/-- **C198, exactly.** The candidates for which an interruption can make a difference to tracing are those on the image that were traced successfully with a finite
deviation and have no greatest depth. -/
theorem C198_exact {E : Env → Prop} {t g : Bool} {p : Point} (hp : History E t g p) :
    (∀ fuel es, seen (traceAll fuel es (restore p)) = seen (traceAll fuel es p)) ↔ (p.state = .oob ∨ p.numTraced = 0 ∨ p.maxDepth ≠ ⊤ ∨ p.stddev = ⊤) := by
  classical
  constructor
  · intro h
    by_contra hc
    simp only [not_or, not_not] at hc
    obtain ⟨h0, hn, hmax, hs⟩ := hc
    have hr : (restore p).numTraced = 0 := by simp [restore, hmax]
    have h1 := above_predicted h0 (by omega) hmax hs 0
    have h2 := h 0 [Demo.above]
    simp only [traceAll, h1] at h2
    cases h3 : traceOn Demo.above 0 (restore p) with
    | error f => rw [h3] at h2; cases h2
    | ok o =>
      rw [h3] at h2
      cases o with
      | none => simp [seen, Except.map] at h2
      | some o =>
        obtain ⟨st, q⟩ := o
        simp only [seen, Except.map, Option.map_some, Except.ok.injEq, Option.some.injEq, Prod.mk.injEq, List.cons.injEq, and_true] at h2
        rw [h2.1] at h3
        exact not_predicted hr h3
  · rintro (h | h | h | h) fuel es
    · exact traceAll_alike rfl (Or.inr (Or.inr (Or.inr h)))
    · exact C198_resume_partial (Or.inr (by simp [h, history_maxDepth hp h]))
    · refine C198_resume_partial (Or.inr ⟨fun _ => h, fun _ => ?_⟩)
      by_contra hn
      exact h (history_maxDepth hp (by omega))
    · exact traceAll_alike rfl (Or.inr (Or.inr (Or.inl h)))

/-- Not vacuous: a new candidate is saved and loaded, and then traced successfully. -/
example : ∃ q, seen (traceAll 6 [Demo.env ⟨0, 0, 10⟩] (restore (new true))) = .ok (some ([.ok], estimate q)) ∧ q.numTraced = 1 := by
  obtain ⟨q, hq, -⟩ := Demo.traced ⟨0, 0, 10⟩ (by norm_num) (by rw [Demo.lvl_zero]; norm_num)
  refine ⟨q, ?_, (C27_trace hq).2.2.1 rfl⟩
  rw [C198_untraced (E := fun _ => True) (.create true) rfl]
  simp [traceAll, hq, seen, Except.map]

/-- Not vacuous: a candidate traced with a known greatest depth, out of bounds. -/
example : ∃ p : Point, 0 < p.numTraced ∧ p.maxDepth ≠ ⊤ ∧
    seen (traceAll 6 [Demo.env ⟨0, 0, 10⟩] (restore p)) = .ok (some ([.wasOob], estimate p)) := by
  refine ⟨{ new false with maxDepth := ((5 : ℝ) : WithTop ℝ), numTraced := 2 }, by simp, WithTop.coe_ne_top, ?_⟩
  rw [C198_resume_partial (Or.inr ⟨fun _ => WithTop.coe_ne_top, fun _ => by simp⟩)]
  simp [traceAll, traceOn, new, seen, Except.map, estimate]

end Mdso.Trace
