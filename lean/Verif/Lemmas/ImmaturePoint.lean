import Verif.Spec.ImmaturePoint

/-! # Lemmas about tracing a point -/

set_option autoImplicit false

namespace Mdso.Trace

open Mdso.Geom Mdso.Cam Mdso.TraceSpec

/-! ## Choice of the best candidate -/

theorem bestFrom_some (i : Nat) (cs : List Cand) (b : Nat × Cand) : ∃ r, bestFrom i cs (some b) = some r := by
  induction cs generalizing i b with
  | nil => exact ⟨b, rfl⟩
  | cons c cs ih =>
    unfold bestFrom
    split
    · exact ih _ _
    · exact ih _ _

theorem bestFrom_acc (i : Nat) (cs : List Cand) (b r : Nat × Cand) (hb : b.1 < i) (h : bestFrom i cs (some b) = some r) :
    (r = b ∨ (i ≤ r.1 ∧ cs[r.1 - i]? = some r.2 ∧ r.2.energy < b.2.energy)) ∧ r.2.energy ≤ b.2.energy ∧
      ∀ (j : Nat) (c : Cand), cs[j]? = some c → r.2.energy ≤ c.energy ∧ (i + j < r.1 → r.2.energy < c.energy) := by
  induction cs generalizing i b with
  | nil =>
    simp only [bestFrom, Option.some.injEq] at h
    subst h
    simp
  | cons c cs ih =>
    unfold bestFrom at h
    by_cases hc : c.energy < b.2.energy
    · rw [if_pos hc] at h
      obtain ⟨h1, h2, h3⟩ := ih _ _ (by simp) h
      refine ⟨Or.inr ?_, by linarith, ?_⟩
      · rcases h1 with h1 | ⟨h1, h4, h5⟩
        · subst h1; simp [hc]
        · refine ⟨by omega, ?_, by simp only at h5; linarith⟩
          obtain ⟨k, hk⟩ : ∃ k, r.1 - i = k + 1 := ⟨r.1 - i - 1, by omega⟩
          rw [hk, List.getElem?_cons_succ, ← h4]; congr 1; omega
      · intro j c' hj
        cases j with
        | zero =>
          simp only [List.getElem?_cons_zero, Option.some.injEq] at hj; subst hj
          refine ⟨h2, fun hlt => ?_⟩
          rcases h1 with h1 | ⟨_, _, h5⟩
          · subst h1; simp at hlt
          · exact h5
        | succ j =>
          rw [List.getElem?_cons_succ] at hj
          obtain ⟨h6, h7⟩ := h3 j c' hj
          exact ⟨h6, fun hlt => h7 (by omega)⟩
    · rw [if_neg hc] at h
      obtain ⟨h1, h2, h3⟩ := ih _ _ (by omega) h
      push Not at hc
      refine ⟨?_, h2, ?_⟩
      · rcases h1 with h1 | ⟨h1, h4, h5⟩
        · exact Or.inl h1
        · refine Or.inr ⟨by omega, ?_, h5⟩
          obtain ⟨k, hk⟩ : ∃ k, r.1 - i = k + 1 := ⟨r.1 - i - 1, by omega⟩
          rw [hk, List.getElem?_cons_succ, ← h4]; congr 1; omega
      · intro j c' hj
        cases j with
        | zero =>
          simp only [List.getElem?_cons_zero, Option.some.injEq] at hj; subst hj
          refine ⟨by linarith, fun hlt => ?_⟩
          rcases h1 with h1 | ⟨_, _, h5⟩
          · subst h1; omega
          · linarith
        | succ j =>
          rw [List.getElem?_cons_succ] at hj
          obtain ⟨h6, h7⟩ := h3 j c' hj
          exact ⟨h6, fun hlt => h7 (by omega)⟩

/-- The chosen candidate is the first of those with the least energy. -/
theorem bestFrom_spec {cs : List Cand} {r : Nat × Cand} (h : bestFrom 0 cs none = some r) :
    cs[r.1]? = some r.2 ∧
      ∀ (j : Nat) (c : Cand), cs[j]? = some c → r.2.energy ≤ c.energy ∧ (j < r.1 → r.2.energy < c.energy) := by
  cases cs with
  | nil => simp [bestFrom] at h
  | cons c cs =>
    unfold bestFrom at h
    obtain ⟨h1, h2, h3⟩ := bestFrom_acc 1 cs (0, c) r (by simp) h
    constructor
    · rcases h1 with h1 | ⟨h1, h4, _⟩
      · subst h1; simp
      · obtain ⟨k, hk⟩ : ∃ k, r.1 = k + 1 := ⟨r.1 - 1, by omega⟩
        rw [hk, List.getElem?_cons_succ, ← h4]; congr 1; omega
    · intro j c' hj
      cases j with
      | zero =>
        simp only [List.getElem?_cons_zero, Option.some.injEq] at hj; subst hj
        refine ⟨h2, fun hlt => ?_⟩
        rcases h1 with h1 | ⟨_, _, h5⟩
        · subst h1; simp at hlt
        · exact h5
      | succ j =>
        rw [List.getElem?_cons_succ] at hj
        obtain ⟨h6, h7⟩ := h3 j c' hj
        exact ⟨h6, fun hlt => h7 (by omega)⟩

theorem bestFrom_none {cs : List Cand} (h : bestFrom 0 cs none = none) : cs = [] := by
  cases cs with
  | nil => rfl
  | cons c cs =>
    unfold bestFrom at h
    obtain ⟨r, hr⟩ := bestFrom_some 1 cs (0, c)
    rw [hr] at h; cases h

/-! ## Second best -/

theorem norm2_sub (p q : V2) : norm2 (p - q) = distance p q := by
  unfold norm2 distance sqNorm; congr 1; simp; ring

/-- The fold of `secondBest` from any start. -/
theorem secondBest_acc (minDist : ℝ) (best : V2) (cs : List Cand) (acc : WithTop ℝ) :
    let r := cs.foldl (fun acc c =>
      if norm2 (c.point - best) < minDist then acc
      else if ((c.energy : ℝ) : WithTop ℝ) < acc then ((c.energy : ℝ) : WithTop ℝ) else acc) acc
    r ≤ acc ∧ (∀ c ∈ cs, minDist ≤ distance c.point best → r ≤ ((c.energy : ℝ) : WithTop ℝ)) ∧
      (r = acc ∨ ∃ c ∈ cs, minDist ≤ distance c.point best ∧ r = ((c.energy : ℝ) : WithTop ℝ)) := by
  induction cs generalizing acc with
  | nil => simp
  | cons c cs ih =>
    simp only [List.foldl_cons]
    by_cases h1 : norm2 (c.point - best) < minDist
    · simp only [if_pos h1]
      obtain ⟨h2, h3, h4⟩ := ih acc
      refine ⟨h2, ?_, ?_⟩
      · intro c' hc' hd
        rcases List.mem_cons.1 hc' with rfl | hc'
        · rw [norm2_sub] at h1; linarith
        · exact h3 c' hc' hd
      · rcases h4 with h4 | ⟨c', hc', h5⟩
        · exact Or.inl h4
        · exact Or.inr ⟨c', List.mem_cons_of_mem _ hc', h5⟩
    · simp only [if_neg h1]
      have hd : minDist ≤ distance c.point best := by rw [← norm2_sub]; linarith
      by_cases h2 : ((c.energy : ℝ) : WithTop ℝ) < acc
      · simp only [if_pos h2]
        obtain ⟨h3, h4, h5⟩ := ih ((c.energy : ℝ) : WithTop ℝ)
        refine ⟨h3.trans h2.le, ?_, Or.inr ?_⟩
        · intro c' hc' hd'
          rcases List.mem_cons.1 hc' with rfl | hc'
          · exact h3
          · exact h4 c' hc' hd'
        · rcases h5 with h5 | ⟨c', hc', h6⟩
          · exact ⟨c, List.mem_cons_self, hd, h5⟩
          · exact ⟨c', List.mem_cons_of_mem _ hc', h6⟩
      · simp only [if_neg h2]
        obtain ⟨h3, h4, h5⟩ := ih acc
        refine ⟨h3, ?_, ?_⟩
        · intro c' hc' hd'
          rcases List.mem_cons.1 hc' with rfl | hc'
          · exact h3.trans (not_lt.1 h2)
          · exact h4 c' hc' hd'
        · rcases h5 with h5 | ⟨c', hc', h6⟩
          · exact Or.inl h5
          · exact Or.inr ⟨c', List.mem_cons_of_mem _ hc', h6⟩

theorem secondBest_some {minDist : ℝ} {best : V2} {cs : List Cand} {s : ℝ}
    (h : secondBest minDist best cs = ((s : ℝ) : WithTop ℝ)) :
    (∃ c ∈ cs, minDist ≤ distance c.point best ∧ c.energy = s) ∧
      ∀ c ∈ cs, minDist ≤ distance c.point best → s ≤ c.energy := by
  have := secondBest_acc minDist best cs ⊤
  simp only at this
  obtain ⟨_, h2, h3⟩ := this
  change secondBest minDist best cs = ⊤ ∨ _ at h3
  constructor
  · rcases h3 with h3 | ⟨c, hc, hd, h4⟩
    · rw [h] at h3; exact absurd h3 (WithTop.coe_ne_top)
    · change secondBest minDist best cs = _ at h4
      rw [h] at h4
      exact ⟨c, hc, hd, (WithTop.coe_inj.1 h4).symm⟩
  · intro c hc hd
    have := h2 c hc hd
    change secondBest minDist best cs ≤ _ at this
    rw [h] at this
    exact WithTop.coe_le_coe.1 this

/-! ## Energies -/

theorem huber_eq (th r : ℝ) : Trace.huber th r = TraceSpec.huber th r := by
  unfold Trace.huber TraceSpec.huber
  by_cases h : r > th
  · rw [if_pos h, if_neg (by linarith)]
  · rw [if_neg h, if_pos (by linarith)]; ring

theorem foldl_add {α : Type} (f : α → ℝ) (l : List α) (a : ℝ) :
    l.foldl (fun acc b => acc + f b) a = a + (l.map f).sum := by
  induction l generalizing a with
  | nil => simp
  | cons b l ih => rw [List.foldl_cons, ih]; simp; ring

theorem energyOf_eq (e : Env) (level : Int) (reproj : List V2) :
    energyOf e level reproj = patchEnergy e.s.outlierDiff
      (fun x => (e.interp level ((1 / (2 : ℝ) ^ level) • x)).1)
      (List.zip (e.baseIntencities.map e.light) reproj) := by
  unfold energyOf patchEnergy
  rw [foldl_add (fun b : ℝ × V2 => Trace.huber e.s.outlierDiff
      |e.light b.1 - (e.interp level ((1 / (2 : ℝ) ^ level) • b.2)).1|)]
  rw [zero_add, List.zip_map_left, List.map_map]
  congr 1
  apply List.map_congr_left
  intro b _
  simp [huber_eq]

theorem pyrLevelOf_ok {e : Env} {d : ℝ} {l : Int} (h : pyrLevelOf e d = .ok l) :
    l ≤ max 0 (e.s.levelNum - 1) ∧ l ≤ e.s.levelNum - 1 := by
  unfold pyrLevelOf at h
  split at h
  · simp only [Except.ok.injEq] at h
    subst h
    constructor
    · split <;> split <;> omega
    · split <;> split <;> omega
  · cases h

theorem candidate_ok {e : Env} {p : Point} {k : Nat} {f : V2 × V3} {c : Cand} (h : candidate e p k f = .ok c) :
    IsCandidate e p k f c := by
  unfold candidate at h
  simp only at h
  split at h
  · cases h
  · rename_i level hl
    split at h
    · cases h
    · rename_i h0
      simp only [Except.ok.injEq] at h
      subst h
      refine ⟨rfl, not_lt.1 h0, by have := (pyrLevelOf_ok hl).2; change level < _; omega, fun hk => if_pos hk, fun hk => if_neg hk, ?_⟩
      intro d hd
      simp only at hd ⊢
      rw [hd, energyOf_eq]
      rfl

theorem candidatesFrom_ok {e : Env} {p : Point} {i : Nat} {found : List (V2 × V3)} {cs : List Cand}
    (h : candidatesFrom e p i found = .ok cs) :
    cs.length = found.length ∧ ∀ (k : Nat) (f : V2 × V3) (c : Cand), found[k]? = some f → cs[k]? = some c →
      candidate e p (i + k) f = .ok c := by
  induction found generalizing i cs with
  | nil => simp only [candidatesFrom, Except.ok.injEq] at h; subst h; simp
  | cons f fs ih =>
    unfold candidatesFrom at h
    split at h
    · rename_i a as ha has
      simp only [Except.ok.injEq] at h
      subst h
      obtain ⟨h1, h2⟩ := ih has
      refine ⟨by simp [h1], ?_⟩
      intro k f' c hf hc
      cases k with
      | zero =>
        simp only [List.getElem?_cons_zero, Option.some.injEq] at hf hc
        subst hf; subst hc; exact ha
      | succ k =>
        rw [List.getElem?_cons_succ] at hf hc
        have := h2 k f' c hf hc
        rw [← this]; congr 1; omega
    · cases h
    · cases h

/-! ## `traceOn` -/

/-- How a call can end before any candidate is examined, or by judging the candidates. -/
theorem traceOn_ok {e : Env} {fuel : Nat} {p q : Point} {st : Status} (h : traceOn e fuel p = .ok (some (st, q))) :
    (st = .wasOob ∧ q = p ∧ p.state = .oob) ∨ (st = .bigPredictedError ∧ q = p ∧ p.state ≠ .oob) ∨
    (st = .epipolarOob ∧ q = p ∧ p.state ≠ .oob) ∨
    (p.state ≠ .oob ∧ ∃ (base : V3) (rest : List V3) (found : List (V2 × V3)) (cs : List Cand),
      e.baseDirections = base :: rest ∧
      pointsToTrace e fuel (searchEnds e p base).1 (searchEnds e p base).2 = .ok (some found) ∧
      1 < found.length ∧ candidatesFrom e p 0 found = .ok cs ∧
      judge e p (found.map (·.1)) (deviation e (normalized2 (e.cam.jacobian (searchEnds e p base).2
        ((searchEnds e p base).1 - (searchEnds e p base).2)))) cs = .ok (st, q)) := by
  unfold traceOn at h
  by_cases h0 : p.state = .oob
  · rw [if_pos h0] at h
    cases h
    exact Or.inl ⟨rfl, rfl, h0⟩
  · rw [if_neg h0] at h
    split at h
    · cases h
    · rename_i base rest hb
      simp only at h
      split at h
      · cases h; exact Or.inr (Or.inl ⟨rfl, rfl, h0⟩)
      · split at h
        · cases h
        · cases h
        · rename_i found hf
          split at h
          · rename_i hlen
            split at h
            · cases h
            · rename_i cs hcs
              refine Or.inr (Or.inr (Or.inr ⟨h0, base, rest, found, cs, hb, hf, hlen, hcs, ?_⟩))
              cases hj : judge e p (found.map (·.1)) (deviation e (normalized2 (e.cam.jacobian (searchEnds e p base).2
                  ((searchEnds e p base).1 - (searchEnds e p base).2)))) cs with
              | error f => rw [hj] at h; cases h
              | ok r =>
                rw [hj] at h
                cases h
                rfl
          · cases h; exact Or.inr (Or.inr (Or.inl ⟨rfl, rfl, h0⟩))

/-- What `accept` does. -/
theorem accept_ok {e : Env} {p q : Point} {points : List V2} {curDev : WithTop ℝ} {bestInd : Nat} {best : Cand}
    {bestDepth : ℝ} {nq : Option (WithTop ℝ)} {st : Status}
    (h : accept e p points curDev bestInd best bestDepth nq = .ok (st, q)) :
    st = .ok ∧ q.state = p.state ∧ q.numTraced = p.numTraced + 1 ∧ q.lastTraced = true ∧ q.stddev = curDev ∧
    q.tracedPyrLevel = best.level ∧ q.lastEnergy = ((best.energy : ℝ) : WithTop ℝ) ∧
    q.eBeforeSubpixel = some best.energy ∧ q.depthBeforeSubpixel = some (e.tri (e.cam.unmap best.point)) ∧
    q.depth.isSome ∧ (e.s.gnIter = 0 → q.depth = some bestDepth) ∧
    (0 < e.s.gnIter → ∃ r, refine e points bestInd best.point bestDepth best.level = .ok r ∧
      q.depth = some (e.tri (e.cam.unmap r.1)) ∧ q.eAfterSubpixel = some r.2) ∧
    interval e points bestInd curDev = .ok (q.minDepth, q.maxDepth) := by
  unfold accept at h
  simp only at h
  split at h
  · cases h
  · cases h
  · rename_i r i hr hi
    simp only [Except.ok.injEq, Prod.mk.injEq] at h
    obtain ⟨h1, h2⟩ := h
    subst h1; subst h2
    refine ⟨rfl, rfl, rfl, rfl, rfl, rfl, rfl, rfl, rfl, rfl, ?_, ?_, ?_⟩
    · intro h0
      rw [if_neg (by omega)] at hr
      cases hr
      rfl
    · intro h0
      rw [if_pos h0] at hr
      cases hre : refine e points bestInd best.point bestDepth best.level with
      | error f => rw [hre] at hr; cases hr
      | ok r' => rw [hre] at hr; cases hr; exact ⟨r', rfl, rfl, rfl⟩
    · rw [hi]

/-- A judgement either rejects, changing only `lastEnergy` and `lastTraced`, or accepts the best candidate. -/
theorem judge_ok {e : Env} {p q : Point} {points : List V2} {curDev : WithTop ℝ} {cs : List Cand} {st : Status}
    (h : judge e p points curDev cs = .ok (st, q)) :
    ∃ bestInd best, bestFrom 0 cs none = some (bestInd, best) ∧
      ((st ≠ .ok ∧ q = { p with lastEnergy := ((best.energy : ℝ) : WithTop ℝ), lastTraced := false }) ∨
       (∃ bestDepth second : ℝ, best.level ≠ e.s.levelNum - 1 ∧ best.depth = ((bestDepth : ℝ) : WithTop ℝ) ∧
        secondBest e.s.minSecondBestDistance best.point cs = ((second : ℝ) : WithTop ℝ) ∧
        e.s.secondBestEnergyThresFactor * (e.baseDirections.length * e.s.outlierDiff * e.s.outlierDiff) < second ∧
        best.energy ≤ e.s.outlierEnergyFactor * (e.baseDirections.length * e.s.outlierDiff * e.s.outlierDiff) ∧
        (best.energy = 0 ∨ e.s.outlierQuality ≤ second / best.energy) ∧
        accept e p points curDev bestInd best bestDepth (quality second best.energy) = .ok (st, q))) := by
  unfold judge at h
  split at h
  · cases h
  · rename_i bestInd best hb
    refine ⟨bestInd, best, hb, ?_⟩
    simp only at h
    split at h
    · cases h; exact Or.inl ⟨by simp, rfl⟩
    · rename_i hl
      split at h
      · cases h; exact Or.inl ⟨by simp, rfl⟩
      · rename_i bestDepth hd
        split at h
        · cases h; exact Or.inl ⟨by simp, rfl⟩
        · rename_i second hs
          split at h
          · cases h; exact Or.inl ⟨by simp, rfl⟩
          · rename_i h1
            split at h
            · cases h; exact Or.inl ⟨by simp, rfl⟩
            · rename_i h2
              split at h
              · cases h; exact Or.inl ⟨by simp, rfl⟩
              · rename_i h3
                refine Or.inr ⟨bestDepth, second, hl, hd, hs, not_le.1 h1, not_lt.1 h2, ?_, h⟩
                by_cases h0 : best.energy = 0
                · exact Or.inl h0
                · refine Or.inr ?_
                  unfold quality at h3
                  simp only [if_neg h0] at h3
                  by_contra hcon
                  push Not at hcon
                  exact h3 ⟨_, rfl, WithTop.coe_lt_coe.2 hcon⟩

end Mdso.Trace
