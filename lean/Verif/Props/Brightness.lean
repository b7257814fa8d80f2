import Verif.Props.Symmetry3
import Verif.Spec.Brightness

/-!
# Tracing a point in another light: C179
-/

set_option autoImplicit false

namespace Mdso.Relit

open Mdso.Geom Mdso.Trace

theorem map_lt {k : ℝ} (hk : 0 < k) (a : ℝ) (b : WithTop ℝ) :
    ((k * a : ℝ) : WithTop ℝ) < b.map (fun x => k * x) ↔ ((a : ℝ) : WithTop ℝ) < b := by
  cases b with
  | top => exact ⟨fun _ => WithTop.coe_lt_top a, fun _ => WithTop.coe_lt_top _⟩
  | coe b =>
    show ((k * a : ℝ) : WithTop ℝ) < ((k * b : ℝ) : WithTop ℝ) ↔ _
    rw [WithTop.coe_lt_coe, WithTop.coe_lt_coe]
    exact mul_lt_mul_iff_right₀ hk

theorem huber_relit {γ : ℝ} (hγ : 0 < γ) (th r : ℝ) : huber (γ * th) (γ * r) = γ ^ 2 * huber th r := by
  unfold huber
  by_cases h : r > th
  · rw [if_pos h, if_pos (by exact mul_lt_mul_of_pos_left h hγ)]
    ring
  · rw [if_neg h, if_neg (by push Not at h ⊢; exact mul_le_mul_of_nonneg_left h hγ.le)]
    ring

theorem weight_relit {γ : ℝ} (hγ : 0 < γ) (th r : ℝ) : weight (γ * th) (γ * r) = weight th r := by
  unfold weight
  by_cases h : r > th
  · rw [if_pos h, if_pos (by exact mul_lt_mul_of_pos_left h hγ), mul_div_mul_left _ _ hγ.ne']
  · rw [if_neg h, if_neg (by push Not at h ⊢; exact mul_le_mul_of_nonneg_left h hγ.le)]

theorem abs_relit {γ : ℝ} (hγ : 0 < γ) (δ a b : ℝ) : |γ * a + δ - (γ * b + δ)| = γ * |a - b| := by
  rw [show γ * a + δ - (γ * b + δ) = γ * (a - b) by ring, abs_mul, abs_of_pos hγ]

theorem energy_fold {γ : ℝ} (hγ : 0 < γ) (δ : ℝ) (f light light' : ℝ → ℝ) (th : ℝ) (img : V2 → ℝ) : ∀ (bs : List ℝ) (rs : List V2) (acc : ℝ),
    (∀ b ∈ bs, light' (f b) = γ * light b + δ) →
    (List.zip (bs.map f) rs).foldl (fun acc b => acc + huber (γ * th) |light' b.1 - (γ * img b.2 + δ)|) (γ ^ 2 * acc) =
      γ ^ 2 * (List.zip bs rs).foldl (fun acc b => acc + huber th |light b.1 - img b.2|) acc
  | [], _, _, _ => rfl
  | _ :: _, [], _, _ => rfl
  | b :: bs, r :: rs, acc, h => by
    rw [List.map_cons, List.zip_cons_cons, List.zip_cons_cons, List.foldl_cons, List.foldl_cons]
    dsimp only
    rw [h b (List.mem_cons_self ..), abs_relit hγ, huber_relit hγ, ← mul_add]
    exact energy_fold hγ δ f light light' th img bs rs _ fun b hb => h b (List.mem_cons_of_mem _ hb)

theorem energy_relit {f light' : ℝ → ℝ} {γ δ : ℝ} (hγ : 0 < γ) {e : Env} (he : Follows f light' γ δ e) (l : Int) (rs : List V2) :
    energyOf (relight f light' γ δ e) l rs = γ ^ 2 * energyOf e l rs := by
  have h := energy_fold hγ δ f e.light light' e.s.outlierDiff (fun x => (e.interp l ((1 / (2 : ℝ) ^ l) • x)).1) e.baseIntencities rs 0 he
  rw [mul_zero] at h
  exact h

/-- A candidate whose energy is in the new unit. -/
noncomputable def recand (γ : ℝ) (c : Cand) : Cand := { c with energy := γ ^ 2 * c.energy }

theorem candidate_relit {f light' : ℝ → ℝ} {γ δ : ℝ} (hγ : 0 < γ) {e : Env} (he : Follows f light' γ δ e) (p : Point) (i : Nat) (c : V2 × V3) :
    candidate (relight f light' γ δ e) (recount γ p) i c = (candidate e p i c).map (recand γ) := by
  unfold candidate
  dsimp only
  simp only [energy_relit hγ he]
  show (match pyrLevelOf e (maxReprojDist c.1 (reprojections e (if p.maxDepth = ⊤ ∧ i = 0 then (⊤ : WithTop ℝ) else ((e.tri c.2.normalized : ℝ) : WithTop ℝ)))) with
    | .error f => Except.error f
    | .ok level => if level < 0 then .error .ub else .ok (Cand.mk c.1 (if p.maxDepth = ⊤ ∧ i = 0 then (⊤ : WithTop ℝ) else ((e.tri c.2.normalized : ℝ) : WithTop ℝ)) level
        (γ ^ 2 * energyOf e level (c.1 :: reprojections e (if p.maxDepth = ⊤ ∧ i = 0 then (⊤ : WithTop ℝ) else ((e.tri c.2.normalized : ℝ) : WithTop ℝ)))))) = _
  generalize (if p.maxDepth = ⊤ ∧ i = 0 then (⊤ : WithTop ℝ) else ((e.tri c.2.normalized : ℝ) : WithTop ℝ)) = d
  cases pyrLevelOf e (maxReprojDist c.1 (reprojections e d)) with
  | error f => rfl
  | ok level =>
    dsimp only
    split <;> rfl

theorem candidates_relit {f light' : ℝ → ℝ} {γ δ : ℝ} (hγ : 0 < γ) {e : Env} (he : Follows f light' γ δ e) (p : Point) : ∀ (cs : List (V2 × V3)) (i : Nat),
    candidatesFrom (relight f light' γ δ e) (recount γ p) i cs = (candidatesFrom e p i cs).map fun l => l.map (recand γ)
  | [], _ => rfl
  | c :: cs, i => by
    rw [candidatesFrom, candidatesFrom, candidate_relit hγ he, candidates_relit hγ he p cs (i + 1)]
    cases candidate e p i c with
    | error f => rfl
    | ok a => cases candidatesFrom e p (i + 1) cs <;> rfl

theorem best_relit {γ : ℝ} (hγ : 0 < γ) : ∀ (cs : List Cand) (i : Nat) (b : Option (Nat × Cand)),
    bestFrom i (cs.map (recand γ)) (b.map fun q => (q.1, recand γ q.2)) = (bestFrom i cs b).map fun q => (q.1, recand γ q.2)
  | [], _, _ => by simp [bestFrom]
  | c :: cs, i, none => by
    rw [List.map_cons, Option.map_none, bestFrom, bestFrom]
    exact best_relit hγ cs (i + 1) (some (i, c))
  | c :: cs, i, some b => by
    rw [List.map_cons, Option.map_some, bestFrom, bestFrom, ← best_relit hγ cs (i + 1)]
    congr 1
    have h : γ ^ 2 * c.energy < γ ^ 2 * b.2.energy ↔ c.energy < b.2.energy := mul_lt_mul_iff_right₀ (by positivity)
    by_cases hc : c.energy < b.2.energy
    · rw [if_pos hc]
      exact if_pos (h.2 hc)
    · rw [if_neg hc]
      exact if_neg (fun hh => hc (h.1 hh))

theorem second_fold {γ : ℝ} (hγ : 0 < γ) (δ : ℝ) (best : V2) : ∀ (cs : List Cand) (acc : WithTop ℝ),
    (cs.map (recand γ)).foldl (fun acc c => if Cam.norm2 (c.point - best) < δ then acc
      else if ((c.energy : ℝ) : WithTop ℝ) < acc then ((c.energy : ℝ) : WithTop ℝ) else acc) (acc.map fun x => γ ^ 2 * x) =
    (cs.foldl (fun acc c => if Cam.norm2 (c.point - best) < δ then acc
      else if ((c.energy : ℝ) : WithTop ℝ) < acc then ((c.energy : ℝ) : WithTop ℝ) else acc) acc).map fun x => γ ^ 2 * x
  | [], _ => rfl
  | c :: cs, acc => by
    rw [List.map_cons, List.foldl_cons, List.foldl_cons, ← second_fold hγ δ best cs]
    congr 1
    show (if Cam.norm2 (c.point - best) < δ then acc.map (fun x => γ ^ 2 * x)
      else if ((γ ^ 2 * c.energy : ℝ) : WithTop ℝ) < acc.map (fun x => γ ^ 2 * x) then ((γ ^ 2 * c.energy : ℝ) : WithTop ℝ) else acc.map (fun x => γ ^ 2 * x)) = _
    have h := map_lt (k := γ ^ 2) (by positivity) c.energy acc
    by_cases h1 : Cam.norm2 (c.point - best) < δ
    · rw [if_pos h1, if_pos h1]
    · rw [if_neg h1, if_neg h1]
      by_cases h2 : ((c.energy : ℝ) : WithTop ℝ) < acc
      · rw [if_pos h2, if_pos (h.2 h2)]
        rfl
      · rw [if_neg h2, if_neg (fun hh => h2 (h.1 hh))]

theorem second_relit {γ : ℝ} (hγ : 0 < γ) (δ : ℝ) (best : V2) (cs : List Cand) :
    secondBest δ best (cs.map (recand γ)) = (secondBest δ best cs).map fun x => γ ^ 2 * x :=
  second_fold hγ δ best cs ⊤

/-- The image in the new light. -/
noncomputable def reimg (γ δ : ℝ) (img : V2 → ℝ × V2) : V2 → ℝ × V2 := fun x => (γ * (img x).1 + δ, γ • (img x).2)

/-- The patch in the new light. -/
noncomputable def repatch (γ δ : ℝ) (patch : List (ℝ × V2)) : List (ℝ × V2) := patch.map fun q => (γ * q.1 + δ, q.2)

/-- The settings in the new unit. -/
noncomputable def reset (γ : ℝ) (s : Settings) : Settings := { s with outlierDiff := γ * s.outlierDiff }

theorem dot_relit (γ : ℝ) (a b : V2) : Geom.dot (γ • a) b = γ * Geom.dot a b := by
  simp only [Geom.dot, smul_x, smul_y]; ring

theorem gnTerm_relit {γ : ℝ} (hγ : 0 < γ) (δ : ℝ) (s : Settings) (img : V2 → ℝ × V2) (dir cur : V2) (i : ℝ × V2) :
    gnTerm (reset γ s) (reimg γ δ img) dir cur (γ * i.1 + δ, i.2) =
      (γ ^ 2 * (gnTerm s img dir cur i).1, γ ^ 2 * (gnTerm s img dir cur i).2.1, γ ^ 2 * (gnTerm s img dir cur i).2.2) := by
  unfold gnTerm reimg reset
  dsimp only
  rw [abs_relit hγ, weight_relit hγ, dot_relit]
  simp only [Prod.mk.injEq]
  refine ⟨by ring, by ring, ?_⟩
  split <;> ring

theorem gnSums_fold {γ : ℝ} (hγ : 0 < γ) (δ : ℝ) (s : Settings) (img : V2 → ℝ × V2) (dir cur : V2) : ∀ (patch : List (ℝ × V2)) (acc : ℝ × ℝ × ℝ),
    (repatch γ δ patch).foldl (fun acc i =>
      let t := gnTerm (reset γ s) (reimg γ δ img) dir cur i
      (acc.1 + t.1, acc.2.1 + t.2.1, acc.2.2 + t.2.2)) (γ ^ 2 * acc.1, γ ^ 2 * acc.2.1, γ ^ 2 * acc.2.2) =
    (γ ^ 2 * (patch.foldl (fun acc i =>
        let t := gnTerm s img dir cur i
        (acc.1 + t.1, acc.2.1 + t.2.1, acc.2.2 + t.2.2)) acc).1,
      γ ^ 2 * (patch.foldl (fun acc i =>
        let t := gnTerm s img dir cur i
        (acc.1 + t.1, acc.2.1 + t.2.1, acc.2.2 + t.2.2)) acc).2.1,
      γ ^ 2 * (patch.foldl (fun acc i =>
        let t := gnTerm s img dir cur i
        (acc.1 + t.1, acc.2.1 + t.2.1, acc.2.2 + t.2.2)) acc).2.2)
  | [], _ => rfl
  | i :: patch, acc => by
    unfold repatch
    rw [List.map_cons, List.foldl_cons, List.foldl_cons]
    rw [← gnSums_fold hγ δ s img dir cur patch]
    unfold repatch
    congr 1
    dsimp only
    rw [gnTerm_relit hγ]
    simp only [mul_add]

theorem gnSums_relit {γ : ℝ} (hγ : 0 < γ) (δ : ℝ) (s : Settings) (img : V2 → ℝ × V2) (dir cur : V2) (patch : List (ℝ × V2)) :
    gnSums (reset γ s) (reimg γ δ img) dir cur (repatch γ δ patch) =
      (γ ^ 2 * (gnSums s img dir cur patch).1, γ ^ 2 * (gnSums s img dir cur patch).2.1, γ ^ 2 * (gnSums s img dir cur patch).2.2) := by
  have h := gnSums_fold hγ δ s img dir cur patch (0, 0, 0)
  simp only [mul_zero] at h
  exact h

/-- The variables of the refinement with the energy in the new unit. -/
noncomputable def regn (γ : ℝ) (g : GN) : GN := { g with energy := g.energy.map fun x => γ ^ 2 * x }

theorem gnRound_relit {γ : ℝ} (hγ : 0 < γ) (δ : ℝ) (s : Settings) (img : V2 → ℝ × V2) (dir : V2) (patch : List (ℝ × V2)) (g : GN) :
    gnRound (reset γ s) (reimg γ δ img) dir (repatch γ δ patch) (regn γ g) = (gnRound s img dir patch g).map (regn γ) := by
  obtain ⟨pt, en, di, st⟩ := g
  unfold gnRound regn
  cases st with
  | none => rfl
  | some st =>
    dsimp only
    rw [gnSums_relit hγ]
    generalize gnSums s img dir (pt + st • dir) patch = t
    dsimp only
    have h2 : (0 : ℝ) < γ ^ 2 := by positivity
    have h := map_lt h2 t.1 en
    by_cases hc : ((t.1 : ℝ) : WithTop ℝ) < en
    · rw [if_pos hc, if_pos (h.2 hc)]
      have e1 : (γ ^ 2 * t.2.2 = 0) ↔ t.2.2 = 0 := by
        rw [mul_eq_zero]
        exact ⟨fun h => h.resolve_left h2.ne', Or.inr⟩
      have e2 : -(γ ^ 2 * t.2.1) / (γ ^ 2 * t.2.2) = -t.2.1 / t.2.2 := by
        rw [← mul_neg, mul_div_mul_left _ _ h2.ne']
      simp only [e1, e2]
      rfl
    · rw [if_neg hc, if_neg (fun hh => hc (h.1 hh))]
      rfl

theorem gnLoop_relit {γ : ℝ} (hγ : 0 < γ) (δ : ℝ) (s : Settings) (img : V2 → ℝ × V2) (dir : V2) (patch : List (ℝ × V2)) : ∀ (n : Nat) (g : GN),
    gnLoop (reset γ s) (reimg γ δ img) dir (repatch γ δ patch) n (regn γ g) = (gnLoop s img dir patch n g).map (regn γ)
  | 0, _ => rfl
  | n + 1, g => by
    rw [gnLoop, gnLoop, gnRound_relit hγ]
    cases gnRound s img dir patch g with
    | error f => rfl
    | ok g' => exact gnLoop_relit hγ δ s img dir patch n g'

theorem precise_relit {γ : ℝ} (hγ : 0 < γ) (δ : ℝ) (s : Settings) (img : V2 → ℝ × V2) (frm dst : V2) (patch : List (ℝ × V2)) :
    tracePrecise (reset γ s) (reimg γ δ img) frm dst (repatch γ δ patch) = (tracePrecise s img frm dst patch).map (regn γ) :=
  gnLoop_relit hγ δ s img _ patch (s.gnIter + 1) ⟨(1 / 2 : ℝ) • (frm + dst), ⊤, 0, some 0⟩

theorem patch_relit {f light' : ℝ → ℝ} {γ δ : ℝ} {e : Env} (he : Follows f light' γ δ e) (best : V2) (d : ℝ) (l : Int) :
    refinePatch (relight f light' γ δ e) best d l = repatch γ δ (refinePatch e best d l) := by
  unfold refinePatch relight repatch
  dsimp only
  rw [List.map_map]
  have h : e.baseIntencities.map (light' ∘ f) = (e.baseIntencities.map e.light).map fun v => γ * v + δ := by
    rw [List.map_map]
    exact List.map_congr_left fun b hb => he b hb
  rw [h, List.zip_map_left]
  rfl

theorem refine_relit {f light' : ℝ → ℝ} {γ δ : ℝ} (hγ : 0 < γ) {e : Env} (he : Follows f light' γ δ e) (points : List V2) (i : Nat) (best : V2) (d : ℝ) (l : Int) :
    refine (relight f light' γ δ e) points i best d l = (refine e points i best d l).map fun r => (r.1, r.2.map fun x => γ ^ 2 * x) := by
  unfold refine
  rw [patch_relit he, show (relight f light' γ δ e).s = reset γ e.s from rfl,
    show (relight f light' γ δ e).interp l = reimg γ δ (e.interp l) from rfl]
  cases at' points (i - 1) with
  | error f => rfl
  | ok frm =>
    cases at' points (min (points.length - 1) (i + 1)) with
    | error f => rfl
    | ok dst =>
      dsimp only
      rw [precise_relit hγ]
      cases tracePrecise e.s (e.interp l) frm dst (refinePatch e best d l) <;> rfl

theorem accept_relit {f light' : ℝ → ℝ} {γ δ : ℝ} (hγ : 0 < γ) {e : Env} (he : Follows f light' γ δ e) (p : Point) (points : List V2) (dev : WithTop ℝ)
    (i : Nat) (best : Cand) (d : ℝ) (q : Option (WithTop ℝ)) :
    accept (relight f light' γ δ e) (recount γ p) points dev i (recand γ best) d q =
      (accept e p points dev i best d q).map fun r => (r.1, recount γ r.2) := by
  unfold accept
  have e1 : interval (relight f light' γ δ e) points i dev = interval e points i dev := rfl
  have h : (if (relight f light' γ δ e).s.gnIter > 0 then
        (refine (relight f light' γ δ e) points i (recand γ best).point d (recand γ best).level).map
          fun r => ((relight f light' γ δ e).tri ((relight f light' γ δ e).cam.unmap r.1), r.2)
      else .ok (d, (((recand γ best).energy : ℝ) : WithTop ℝ))) =
      (if e.s.gnIter > 0 then (refine e points i best.point d best.level).map fun r => (e.tri (e.cam.unmap r.1), r.2)
        else .ok (d, ((best.energy : ℝ) : WithTop ℝ))).map fun r : ℝ × WithTop ℝ => (r.1, r.2.map fun x => γ ^ 2 * x) := by
    show (if e.s.gnIter > 0 then _ else _) = _
    by_cases hg : e.s.gnIter > 0
    · rw [if_pos hg, if_pos hg, refine_relit hγ he]
      show Except.map _ (Except.map _ (refine e points i best.point d best.level)) = _
      cases refine e points i best.point d best.level <;> rfl
    · rw [if_neg hg, if_neg hg]
      rfl
  dsimp only
  rw [h, e1]
  generalize (if e.s.gnIter > 0 then (refine e points i best.point d best.level).map fun r => (e.tri (e.cam.unmap r.1), r.2)
        else .ok (d, ((best.energy : ℝ) : WithTop ℝ))) = r
  cases r with
  | error f => rfl
  | ok r => cases interval e points i dev <;> rfl

theorem quality_relit {γ : ℝ} (hγ : 0 < γ) (a b : ℝ) : quality (γ ^ 2 * a) (γ ^ 2 * b) = quality a b := by
  have h2 : γ ^ 2 ≠ 0 := by positivity
  unfold quality
  simp only [mul_eq_zero, h2, false_or, mul_div_mul_left _ _ h2]

open Classical in
theorem judge_relit {f light' : ℝ → ℝ} {γ δ : ℝ} (hγ : 0 < γ) {e : Env} (he : Follows f light' γ δ e) (p : Point) (points : List V2) (dev : WithTop ℝ)
    (cs : List Cand) :
    judge (relight f light' γ δ e) (recount γ p) points dev (cs.map (recand γ)) = (judge e p points dev cs).map fun r => (r.1, recount γ r.2) := by
  have h2 : (0 : ℝ) < γ ^ 2 := by positivity
  unfold judge
  have h := best_relit hγ cs 0 none
  rw [Option.map_none] at h
  rw [h]
  cases bestFrom 0 cs none with
  | none => rfl
  | some b =>
    obtain ⟨i, best⟩ := b
    simp only [Option.map_some]
    rw [show (relight f light' γ δ e).s = reset γ e.s from rfl, show (relight f light' γ δ e).baseDirections = e.baseDirections from rfl,
      show (recand γ best).level = best.level from rfl, show (recand γ best).point = best.point from rfl,
      show (recand γ best).depth = best.depth from rfl, show (reset γ e.s).minSecondBestDistance = e.s.minSecondBestDistance from rfl,
      show (reset γ e.s).levelNum = e.s.levelNum from rfl]
    by_cases h1 : best.level = e.s.levelNum - 1
    · rw [if_pos h1, if_pos h1]
      rfl
    · rw [if_neg h1, if_neg h1]
      cases hd : best.depth with
      | top => rfl
      | coe d =>
        dsimp only
        rw [second_relit hγ]
        cases hsb : secondBest e.s.minSecondBestDistance best.point cs with
        | top => rfl
        | coe second =>
          have area : ∀ k : ℝ, k * (e.baseDirections.length * (γ * e.s.outlierDiff) * (γ * e.s.outlierDiff)) =
              γ ^ 2 * (k * (e.baseDirections.length * e.s.outlierDiff * e.s.outlierDiff)) := by intro k; ring
          have i1 := mul_le_mul_iff_right₀ h2 (b := second)
            (c := e.s.secondBestEnergyThresFactor * (e.baseDirections.length * e.s.outlierDiff * e.s.outlierDiff))
          have i2 := mul_lt_mul_iff_right₀ h2 (c := best.energy)
            (b := e.s.outlierEnergyFactor * (e.baseDirections.length * e.s.outlierDiff * e.s.outlierDiff))
          by_cases c1 : second ≤ e.s.secondBestEnergyThresFactor * (e.baseDirections.length * e.s.outlierDiff * e.s.outlierDiff)
          · refine (if_pos (?_ : γ ^ 2 * second ≤ (reset γ e.s).secondBestEnergyThresFactor *
              (e.baseDirections.length * (reset γ e.s).outlierDiff * (reset γ e.s).outlierDiff))).trans ?_
            · exact (i1.2 c1).trans_eq (area _).symm
            · refine Eq.trans ?_ (congrArg (Except.map _) (if_pos c1)).symm
              rfl
          · refine (if_neg (?_ : ¬ γ ^ 2 * second ≤ (reset γ e.s).secondBestEnergyThresFactor *
              (e.baseDirections.length * (reset γ e.s).outlierDiff * (reset γ e.s).outlierDiff))).trans ?_
            · exact fun hh => c1 (i1.1 (hh.trans_eq (area _)))
            refine Eq.trans ?_ (congrArg (Except.map _) (if_neg c1)).symm
            by_cases c2 : best.energy > e.s.outlierEnergyFactor * (e.baseDirections.length * e.s.outlierDiff * e.s.outlierDiff)
            · refine (if_pos (?_ : (recand γ best).energy > (reset γ e.s).outlierEnergyFactor *
                (e.baseDirections.length * (reset γ e.s).outlierDiff * (reset γ e.s).outlierDiff))).trans ?_
              · exact (area _).trans_lt (i2.2 c2)
              · refine Eq.trans ?_ (congrArg (Except.map _) (if_pos c2)).symm
                rfl
            · refine (if_neg (?_ : ¬ (recand γ best).energy > (reset γ e.s).outlierEnergyFactor *
                (e.baseDirections.length * (reset γ e.s).outlierDiff * (reset γ e.s).outlierDiff))).trans ?_
              · exact fun hh => c2 (i2.1 ((area _).symm.trans_lt hh))
              refine Eq.trans ?_ (congrArg (Except.map _) (if_neg c2)).symm
              have hq : quality (γ ^ 2 * second) (recand γ best).energy = quality second best.energy := quality_relit hγ second best.energy
              by_cases c3 : ∃ r, quality second best.energy = some r ∧ r < ((e.s.outlierQuality : ℝ) : WithTop ℝ)
              · refine (if_pos (?_ : ∃ r, quality (γ ^ 2 * second) (recand γ best).energy = some r ∧
                  r < (((reset γ e.s).outlierQuality : ℝ) : WithTop ℝ))).trans ?_
                · rw [hq]
                  exact c3
                · refine Eq.trans ?_ (congrArg (Except.map _) (if_pos c3)).symm
                  rfl
              · refine (if_neg (?_ : ¬ ∃ r, quality (γ ^ 2 * second) (recand γ best).energy = some r ∧
                  r < (((reset γ e.s).outlierQuality : ℝ) : WithTop ℝ))).trans ?_
                · rw [hq]
                  exact c3
                refine Eq.trans ?_ (congrArg (Except.map _) (if_neg c3)).symm
                have ha := accept_relit hγ he p points dev i best d (quality second best.energy)
                rw [← ha, ← hq]

theorem sweep_relit (f light' : ℝ → ℝ) (γ δ : ℝ) (e : Env) (a b : V3) : ∀ (fuel : Nat) (al : ℝ) (n : Nat),
    sweep (relight f light' γ δ e) a b fuel al n = sweep e a b fuel al n
  | 0, _, _ => rfl
  | fuel + 1, al, n => by
    rw [sweep, sweep]
    simp only [sweep_relit f light' γ δ e a b fuel]
    rfl

theorem sweeps_relit (f light' : ℝ → ℝ) (γ δ : ℝ) (e : Env) (a b : V3) (fuel : Nat) (al : ℝ) : ∀ (n : Nat) (g : List (V2 × V3)) (o : Option ℝ),
    sweeps (relight f light' γ δ e) a b fuel al n g o = sweeps e a b fuel al n g o
  | 0, _, _ => rfl
  | n + 1, g, o => by
    rw [sweeps, sweeps, sweep_relit]
    cases sweep e a b fuel al 0 with
    | none => rfl
    | some r => exact sweeps_relit f light' γ δ e a b fuel al n _ _

theorem search_relit (f light' : ℝ → ℝ) (γ δ : ℝ) (e : Env) (a b : V3) : ∀ (fuel : Nat) (al : Option ℝ) (g : List (V2 × V3)),
    searchLoop (relight f light' γ δ e) a b fuel al g = searchLoop e a b fuel al g
  | 0, _, _ => rfl
  | fuel + 1, none, _ => rfl
  | fuel + 1, some al, g => by
    rw [searchLoop, searchLoop]
    simp only [sweeps_relit, search_relit f light' γ δ e a b fuel]
    rfl

/-- **C179.** Tracing a point does not depend on brightness and contrast of the two pictures: if both are taken in another light, the light transform between
them follows, and the threshold between small and big differences of intensities is in the new unit, then the same is reported, and the point differs only in
that its recorded energies are in the new unit. -/
theorem C179_trace {f light' : ℝ → ℝ} {γ δ : ℝ} (hγ : 0 < γ) {e : Env} (he : Follows f light' γ δ e) (fuel : Nat) (p : Point) :
    traceOn (relight f light' γ δ e) fuel (recount γ p) = (traceOn e fuel p).map fun r => r.map fun q => (q.1, recount γ q.2) := by
  unfold traceOn
  rw [show (recount γ p).state = p.state from rfl, show (relight f light' γ δ e).baseDirections = e.baseDirections from rfl]
  by_cases h0 : p.state = .oob
  · rw [if_pos h0, if_pos h0]
    rfl
  · rw [if_neg h0, if_neg h0]
    cases e.baseDirections with
    | nil => rfl
    | cons b bs =>
      dsimp only
      have e0 : searchEnds (relight f light' γ δ e) (recount γ p) b = searchEnds e p b := rfl
      have e1 : ∀ v, deviation (relight f light' γ δ e) v = deviation e v := fun _ => rfl
      rw [e0, e1, show (relight f light' γ δ e).cam = e.cam from rfl,
        show (relight f light' γ δ e).s.performFullTracing = e.s.performFullTracing from rfl,
        show (relight f light' γ δ e).s.imprFactor = e.s.imprFactor from rfl,
        show (recount γ p).numTraced = p.numTraced from rfl, show (recount γ p).stddev = p.stddev from rfl]
      split
      · rfl
      · have e2 : ∀ a b, pointsToTrace (relight f light' γ δ e) fuel a b = pointsToTrace e fuel a b := by
          intro a b
          unfold pointsToTrace
          simp only [search_relit]
          rfl
        rw [e2]
        cases pointsToTrace e fuel (searchEnds e p b).1 (searchEnds e p b).2 with
        | error f => rfl
        | ok r =>
          cases r with
          | none => rfl
          | some found =>
            dsimp only
            split
            · rw [candidates_relit hγ he]
              cases candidatesFrom e p 0 found with
              | error f => rfl
              | ok cs =>
                simp only [Except.map]
                rw [judge_relit hγ he]
                cases judge e p (found.map (·.1)) _ cs <;> rfl
            · rfl

theorem recount_new (γ : ℝ) (b : Bool) : recount γ (Trace.new b) = Trace.new b := by
  simp [recount, Trace.new]

theorem recount_one (p : Point) : recount 1 p = p := by
  obtain ⟨a1, a2, a3, a4, a5, a6, a7, a8, a9, a10, a11, a12, a13⟩ := p
  have h1 : ∀ x : WithTop ℝ, x.map (fun y => (1 : ℝ) ^ 2 * y) = x := by
    intro x
    cases x with
    | top => rfl
    | coe x => simp
  unfold recount
  simp only [h1]
  cases a12 <;> cases a13 <;> simp

/-- **C179, a whole life.** A new point that is traced on one frame after the other, each with its own light, is reported and ends the same in every light. -/
theorem C179_life {γ : ℝ} (hγ : 0 < γ) (fuel : Nat) (f : ℝ → ℝ) : ∀ (es : List (Env × (ℝ → ℝ) × ℝ)) (_ : ∀ q ∈ es, Follows f q.2.1 γ q.2.2 q.1) (p : Point),
    Sym.traceAll fuel (es.map fun q => relight f q.2.1 γ q.2.2 q.1) (recount γ p) =
      (Sym.traceAll fuel (es.map (·.1)) p).map fun r => r.map fun q => (q.1, recount γ q.2)
  | [], _, _ => rfl
  | q :: es, h, p => by
    rw [List.map_cons, List.map_cons, Sym.traceAll, Sym.traceAll, C179_trace hγ (h q (List.mem_cons_self ..))]
    cases traceOn q.1 fuel p with
    | error f => rfl
    | ok r =>
      cases r with
      | none => rfl
      | some r =>
        simp only [Except.map, Option.map_some]
        rw [C179_life hγ fuel f es (fun e' h' => h e' (List.mem_cons_of_mem _ h')) r.2]
        cases Sym.traceAll fuel (es.map (·.1)) r.2 with
        | error f => rfl
        | ok q => cases q <;> rfl

/-- **C179, activation.** The same points are ready for activation in every light. -/
theorem C179_ready (γ : ℝ) (s : Settings) (p : Point) : isReady (reset γ s) (recount γ p) ↔ isReady s p := Iff.rfl

/-- **C179, brightness.** If the second picture gets brighter by a constant and the first picture changes in any way that the light transform accounts for, then
tracing gives exactly the same, with the same settings. -/
theorem C179_brightness {f light' : ℝ → ℝ} {δ : ℝ} {e : Env} (he : ∀ b ∈ e.baseIntencities, light' (f b) = e.light b + δ) (fuel : Nat) (p : Point) :
    traceOn { e with
      baseIntencities := e.baseIntencities.map f
      light := light'
      interp := fun l x => ((e.interp l x).1 + δ, (e.interp l x).2) } fuel p = traceOn e fuel p := by
  have h := C179_trace (f := f) (light' := light') (γ := 1) (δ := δ) one_pos (e := e) (fun b hb => by rw [he b hb, one_mul]) fuel p
  rw [recount_one] at h
  have e1 : relight f light' 1 δ e = { e with
      baseIntencities := e.baseIntencities.map f
      light := light'
      interp := fun l x => ((e.interp l x).1 + δ, (e.interp l x).2) } := by
    unfold relight
    have hs : ∀ v : V2, (1 : ℝ) • v = v := fun v => by ext <;> simp
    simp only [one_mul, hs]
  rw [e1] at h
  rw [h]
  cases traceOn e fuel p with
  | error f => rfl
  | ok r =>
    cases r with
    | none => rfl
    | some r => simp only [Except.map, Option.map_some, recount_one]

/-- **C179, the light transform.** The new light transform always exists in the system: for pictures whose intensities become `α * v + β` and `γ * v + δ` and
any light transform between them there is exactly one that follows. -/
theorem C179_transform {α γ : ℝ} (hα : 0 < α) (hγ : 0 < γ) (β δ : ℝ) (l : Light.AffLight) :
    ∃! l' : Light.AffLight, ∀ v, l'.apply (α * v + β) = γ * l.apply v + δ := by
  refine ⟨⟨l.a + Real.log γ - Real.log α, α * l.b - β + δ * α / γ * Real.exp (-l.a)⟩, ?_, ?_⟩
  · intro v
    simp only [Light.AffLight.apply]
    rw [Real.exp_sub, Real.exp_add, Real.exp_log hγ, Real.exp_log hα, Real.exp_neg]
    have := Real.exp_pos l.a
    field_simp
    ring
  · intro l' h
    have h0 := h 0
    have h1 := h 1
    simp only [Light.AffLight.apply] at h0 h1
    have hd : Real.exp l'.a * α = γ * Real.exp l.a := by linarith
    have he : Real.exp l'.a = Real.exp (l.a + Real.log γ - Real.log α) := by
      rw [Real.exp_sub, Real.exp_add, Real.exp_log hγ, Real.exp_log hα, eq_div_iff hα.ne', hd]
      ring
    have ha := Real.exp_injective he
    ext
    · exact ha
    · show l'.b = α * l.b - β + δ * α / γ * Real.exp (-l.a)
      have hp := Real.exp_pos l.a
      have hx : Real.exp l'.a = γ * Real.exp l.a / α := by rw [eq_div_iff hα.ne', hd]
      rw [hx] at h0
      rw [Real.exp_neg]
      field_simp at h0 ⊢
      linarith

/-- **C179, gradients.** The directions of the gradients, which is all that is used of the gradients in the first picture, are the same in every light. -/
theorem C179_gradient {α : ℝ} (hα : 0 < α) (g : V2) : Cam.normalized2 (α • g) = Cam.normalized2 g :=
  Cam.normalized2_smul hα g

theorem huber_le (th r : ℝ) : huber th r ≤ r * r := by
  unfold huber
  split
  · nlinarith [mul_self_nonneg (r - th)]
  · exact le_rfl

theorem energy_le (th w : ℝ) (l i : ℝ × V2 → ℝ) : ∀ (qs : List (ℝ × V2)) (acc : ℝ), (∀ q ∈ qs, |l q - i q| ≤ w) →
    qs.foldl (fun acc b => acc + huber th |l b - i b|) acc ≤ acc + qs.length * (w * w)
  | [], acc, _ => by simp
  | q :: qs, acc, h => by
    rw [List.foldl_cons]
    refine (energy_le th w l i qs _ fun q' hq => h q' (List.mem_cons_of_mem _ hq)).trans ?_
    have h1 := h q (List.mem_cons_self ..)
    have h2 := huber_le th |l q - i q|
    have h3 : |l q - i q| * |l q - i q| ≤ w * w := mul_self_le_mul_self (abs_nonneg _) h1
    rw [List.length_cons]
    push_cast
    nlinarith

theorem candidate_energy {e : Env} {p : Point} {i : Nat} {c : V2 × V3} {a : Cand} (h : candidate e p i c = .ok a) :
    ∃ l rs, a.energy = energyOf e l rs := by
  unfold candidate at h
  dsimp only at h
  split at h
  · cases h
  · split at h
    · cases h
    · cases h
      exact ⟨_, _, rfl⟩

theorem candidates_energy {e : Env} {p : Point} : ∀ (cs : List (V2 × V3)) (i : Nat) (as : List Cand), candidatesFrom e p i cs = .ok as →
    ∀ a ∈ as, ∃ l rs, a.energy = energyOf e l rs
  | [], _, as, h, a, ha => by
    cases h
    cases ha
  | c :: cs, i, as, h, a, ha => by
    rw [candidatesFrom] at h
    cases h1 : candidate e p i c with
    | error f =>
      rw [h1] at h
      cases h
    | ok a1 =>
      cases h2 : candidatesFrom e p (i + 1) cs with
      | error f =>
        rw [h1, h2] at h
        cases h
      | ok as1 =>
        rw [h1, h2] at h
        cases h
        rcases List.mem_cons.1 ha with rfl | ha
        · exact candidate_energy h1
        · exact candidates_energy cs (i + 1) as1 h2 a ha

/-- **C179, flat pictures.** The thresholds are differences of intensities, not fractions of the contrast: if all intensities of the second picture and of the
patch (seen in the light of the second picture) are within `w` of each other, and `w` is too small against the threshold, then no point is ever traced
successfully, wherever it is, however it moves and whatever the pictures show. -/
theorem C179_flat {w : ℝ} {e : Env} (hlen : e.baseIntencities.length ≤ e.baseDirections.length)
    (hflat : ∀ b ∈ e.baseIntencities, ∀ l x, |e.light b - (e.interp l x).1| ≤ w)
    (hw : w * w ≤ e.s.secondBestEnergyThresFactor * (e.s.outlierDiff * e.s.outlierDiff)) (fuel : Nat) (p : Point) :
    ∀ q, traceOn e fuel p ≠ .ok (some (.ok, q)) := by
  intro q h
  rcases traceOn_ok h with h | h | h | h
  · cases h.1
  · cases h.1
  · cases h.1
  · obtain ⟨_, base, rest, found, cs, _, _, _, hc, hj⟩ := h
    obtain ⟨i, best, _, h | h⟩ := judge_ok hj
    · exact h.1 rfl
    · obtain ⟨d, second, _, _, hs, hlt, _⟩ := h
      obtain ⟨⟨c, hcm, _, hce⟩, _⟩ := secondBest_some hs
      obtain ⟨l, rs, he⟩ := candidates_energy found 0 cs hc c hcm
      have hle : energyOf e l rs ≤ 0 + (List.zip e.baseIntencities rs).length * (w * w) := by
        refine energy_le e.s.outlierDiff w (fun b => e.light b.1) (fun b => (e.interp l ((1 / (2 : ℝ) ^ l) • b.2)).1) _ 0 ?_
        intro q hq
        exact hflat q.1 (List.of_mem_zip hq).1 l _
      have hn : ((List.zip e.baseIntencities rs).length : ℝ) ≤ e.baseDirections.length := by
        rw [List.length_zip]
        exact_mod_cast (Nat.min_le_left _ _).trans hlen
      have h1 : ((List.zip e.baseIntencities rs).length : ℝ) * (w * w) ≤ e.baseDirections.length * (w * w) :=
        mul_le_mul_of_nonneg_right hn (mul_self_nonneg w)
      have h2 : (e.baseDirections.length : ℝ) * (w * w) ≤
          e.baseDirections.length * (e.s.secondBestEnergyThresFactor * (e.s.outlierDiff * e.s.outlierDiff)) :=
        mul_le_mul_of_nonneg_left hw (Nat.cast_nonneg _)
      rw [← hce, he] at hlt
      nlinarith

/-- **C179, contrast.** Without the new unit for the threshold this is false: whatever two pictures with intensities in a bounded range are, if both are taken
with little enough contrast and the threshold is kept, no point is traced successfully any more. -/
theorem C179_contrast {B : ℝ} {e : Env} (hlen : e.baseIntencities.length ≤ e.baseDirections.length)
    (hrange : ∀ b ∈ e.baseIntencities, ∀ l x, |e.light b - (e.interp l x).1| ≤ B)
    {γ : ℝ} (hγ : 0 < γ) (hsmall : (γ * B) * (γ * B) ≤ e.s.secondBestEnergyThresFactor * (e.s.outlierDiff * e.s.outlierDiff))
    {f light' : ℝ → ℝ} {δ : ℝ} (he : Follows f light' γ δ e) (fuel : Nat) (p : Point) :
    ∀ q, traceOn { relight f light' γ δ e with s := e.s } fuel p ≠ .ok (some (.ok, q)) := by
  refine C179_flat (w := γ * B) (e := { relight f light' γ δ e with s := e.s }) ?_ ?_ hsmall fuel p
  · simpa [relight] using hlen
  · intro b hb l x
    obtain ⟨b0, hb0, rfl⟩ := List.mem_map.1 hb
    show |light' (f b0) - (γ * (e.interp l x).1 + δ)| ≤ γ * B
    rw [he b0 hb0, abs_relit hγ]
    exact mul_le_mul_of_nonneg_left (hrange b0 hb0 l x) hγ.le

/-- With the default settings and pictures of 256 grey values this is so at every contrast below 1/336 of the original one. -/
example : (1 / 336 * 255 : ℝ) * (1 / 336 * 255) ≤ 4 / 1000 * (12 * 12) := by norm_num

/-- Two pictures that the theorem about contrast applies to: the second picture of the example of
`Verif/Lemmas/TraceDemo.lean` is cut off at 255. -/
example : ∀ q, traceOn { relight (fun v => 1 / 336 * v) id (1 / 336) 0
      { Demo.env ⟨2, 0, 10⟩ with interp := fun l x => (min 255 ((Demo.env ⟨2, 0, 10⟩).interp l x).1, ((Demo.env ⟨2, 0, 10⟩).interp l x).2) } with
      s := (Demo.env ⟨2, 0, 10⟩).s } 6 (Trace.new true) ≠ .ok (some (.ok, q)) := by
  refine C179_contrast (B := 255) (e := { Demo.env ⟨2, 0, 10⟩ with interp := fun l x =>
    (min 255 ((Demo.env ⟨2, 0, 10⟩).interp l x).1, ((Demo.env ⟨2, 0, 10⟩).interp l x).2) }) ?_ ?_ (by norm_num) ?_ ?_ 6 (Trace.new true)
  · simp [Demo.env]
  · intro b hb l x
    have hb0 : b = 0 := by simpa [Demo.env] using hb
    subst hb0
    have h0 : 0 ≤ |(2 : ℝ) ^ l * x.x - 0 - 3| := abs_nonneg _
    simp only [Demo.env, id, zero_sub, abs_neg]
    rw [abs_of_nonneg (le_min (by norm_num) (by linarith))]
    exact min_le_left _ _
  · simp only [Demo.env, Demo.settings]
    norm_num
  · intro b hb
    simp [Demo.env]

/-- The example of `Verif/Lemmas/TraceDemo.lean` with twice the contrast and all pictures brighter: the point is still traced. -/
example : ∃ q, traceOn (Demo.env ⟨2, 0, 10⟩) 6 (Trace.new true) = .ok (some (.ok, q)) ∧
    traceOn (relight (fun v => 3 * v + 5) (fun v => 2 * ((v - 5) / 3) + 7) 2 7 (Demo.env ⟨2, 0, 10⟩)) 6 (Trace.new true) =
      .ok (some (.ok, recount 2 q)) := by
  obtain ⟨q, hq, _⟩ := Demo.traced ⟨2, 0, 10⟩ (by norm_num) (by rw [Demo.lvl_zero]; norm_num)
  have he : Follows (fun v => 3 * v + 5) (fun v => 2 * ((v - 5) / 3) + 7) 2 7 (Demo.env ⟨2, 0, 10⟩) := by
    intro b hb
    simp [Demo.env]
  have h := C179_trace (γ := 2) (by norm_num) he 6 (Trace.new true)
  rw [recount_new, hq] at h
  exact ⟨q, hq, h⟩

end Mdso.Relit
