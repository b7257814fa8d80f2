import Verif.Lemmas.ImmaturePoint

/-! # Lemmas about the search loops and the refinement of a traced point -/

set_option autoImplicit false

namespace Mdso.Trace

open Mdso.Geom Mdso.Cam Mdso.TraceSpec

/-! ## Search -/

/-- The `do`-`while` loop pushes at least one candidate. -/
theorem sweep_ne {e : Env} {dirMax dirMin : V3} {fuel : Nat} {alpha : ℝ} {cnt : Nat}
    {r : List (V2 × V3) × Option ℝ} (h : sweep e dirMax dirMin fuel alpha cnt = some r) : r.1 ≠ [] := by
  cases fuel with
  | zero => simp [sweep] at h
  | succ fuel =>
    unfold sweep at h
    simp only at h
    split at h
    · cases h; simp
    · split at h
      · cases h; simp
      · split at h
        · obtain ⟨r', _, hr'⟩ := Option.map_eq_some_iff.1 h
          subst hr'; simp
        · cases h; simp

/-- Without full tracing the `do`-`while` loop ends after at most `max 1 maxSearchCount` rounds. -/
theorem sweep_ends {e : Env} (hf : e.s.performFullTracing = false) (dirMax dirMin : V3) (fuel : Nat) (alpha : ℝ)
    (cnt : Nat) (hfuel : 0 < fuel) (hn : maxSearchCount e ≤ (cnt + fuel : Nat)) :
    ∃ r, sweep e dirMax dirMin fuel alpha cnt = some r ∧
      ((cnt + r.1.length : Nat) : Int) ≤ max ((cnt + 1 : Nat) : Int) (maxSearchCount e) := by
  induction fuel generalizing alpha cnt with
  | zero => omega
  | succ fuel ih =>
    unfold sweep
    simp only [hf, true_and]
    by_cases hc : ((cnt + 1 : Nat) : Int) ≥ maxSearchCount e
    · rw [if_pos hc]; refine ⟨_, rfl, ?_⟩; simp
    · rw [if_neg hc]
      have hpos : 0 < fuel := by
        rcases Nat.eq_zero_or_pos fuel with h0 | h0
        · subst h0; omega
        · exact h0
      split
      · refine ⟨_, rfl, ?_⟩; simp
      · rename_i a _
        split
        · obtain ⟨r, hr, hlen⟩ := ih a (cnt + 1) hpos (by omega)
          refine ⟨((_, _) :: r.1, r.2), by rw [hr]; rfl, ?_⟩
          simp only [List.length_cons]
          omega
        · refine ⟨_, rfl, ?_⟩; simp

/-- The loop over `i < 2` lists the same candidates twice. -/
theorem sweeps_two {e : Env} {dirMax dirMin : V3} {fuel : Nat} {alpha0 : ℝ} {found : List (V2 × V3)}
    {r : List (V2 × V3) × Option ℝ} (h : sweeps e dirMax dirMin fuel alpha0 2 found none = some r) :
    ∃ l, sweep e dirMax dirMin fuel alpha0 0 = some (l, r.2) ∧ r.1 = found ++ l ++ l := by
  unfold sweeps at h
  split at h
  · cases h
  · rename_i r1 h1
    unfold sweeps at h
    rw [h1] at h
    simp only [sweeps, Option.some.injEq] at h
    subst h
    exact ⟨r1.1, h1, rfl⟩

/-- Without full tracing the search ends and lists every candidate twice. -/
theorem searchLoop_short {e : Env} (hf : e.s.performFullTracing = false) (dirMax dirMin : V3) (fuel : Nat)
    (hfuel : 0 < fuel) (hn : maxSearchCount e ≤ (fuel : Nat)) :
    ∃ l : List (V2 × V3), searchLoop e dirMax dirMin fuel (some 0) [] = some (l ++ l) ∧
      ((l.length : Nat) : Int) ≤ max 1 (maxSearchCount e) ∧
      (e.cam.isOnImage (e.cam.map (dirAt dirMax dirMin 0)) → l ≠ []) := by
  cases fuel with
  | zero => omega
  | succ fuel =>
    unfold searchLoop
    rw [if_pos zero_le_one]
    by_cases hon : e.cam.isOnImage (e.cam.map (dirAt dirMax dirMin 0))
    · rw [if_pos hon]
      obtain ⟨r, hr, hlen⟩ := sweep_ends hf dirMax dirMin (fuel + 1) 0 0 (by omega) (by omega)
      have h2 : sweeps e dirMax dirMin (fuel + 1) 0 2 [] none = some (r.1 ++ r.1, r.2) := by
        simp [sweeps, hr]
      rw [h2]
      simp only [hf, if_true]
      refine ⟨r.1, rfl, ?_, fun _ => sweep_ne hr⟩
      simpa using hlen
    · rw [if_neg hon]
      simp only [hf, if_true]
      exact ⟨[], rfl, by simp, fun h => absurd h hon⟩

theorem pointsToTrace_short {e : Env} (hf : e.s.performFullTracing = false) (dirMin dirMax : V3) (fuel : Nat)
    (hfuel : 0 < fuel) (hn : maxSearchCount e ≤ (fuel : Nat)) :
    ∃ l : List (V2 × V3), pointsToTrace e fuel dirMin dirMax = .ok (some (l ++ l)) ∧
      ((l.length : Nat) : Int) ≤ max 1 (maxSearchCount e) := by
  unfold pointsToTrace
  split
  · exact ⟨[], rfl, by simp⟩
  · simp only [hf]
    obtain ⟨l, h, h2, _⟩ := searchLoop_short hf dirMax dirMin fuel hfuel hn
    exact ⟨l, by simp [h], h2⟩

/-! ## Refinement -/

/-- The energy the refinement minimises, at a position. -/
noncomputable def energyAt (s : Settings) (img : V2 → ℝ × V2) (patch : List (ℝ × V2)) (x : V2) : ℝ :=
  patchEnergy s.outlierDiff (fun y => (img y).1) (patch.map fun i => (i.1, x + i.2))

theorem weighted_eq {th : ℝ} (hth : 0 ≤ th) (r : ℝ) :
    weight th |r| * (2 - weight th |r|) * |r| * |r| = TraceSpec.huber th |r| := by
  unfold weight TraceSpec.huber
  by_cases h : |r| > th
  · rw [if_pos h, if_neg (by linarith)]
    have : |r| ≠ 0 := by linarith
    field_simp
  · rw [if_neg h, if_pos (by linarith)]; ring

theorem gnSums_acc (s : Settings) (img : V2 → ℝ × V2) (dir cur : V2) (patch : List (ℝ × V2)) (a : ℝ × ℝ × ℝ) :
    (patch.foldl (fun acc i =>
      let t := gnTerm s img dir cur i
      (acc.1 + t.1, acc.2.1 + t.2.1, acc.2.2 + t.2.2)) a) =
    (a.1 + (patch.map fun i => (gnTerm s img dir cur i).1).sum,
     a.2.1 + (patch.map fun i => (gnTerm s img dir cur i).2.1).sum,
     a.2.2 + (patch.map fun i => (gnTerm s img dir cur i).2.2).sum) := by
  induction patch generalizing a with
  | nil => simp
  | cons i l ih =>
    rw [List.foldl_cons, ih]
    simp only [List.map_cons, List.sum_cons, Prod.mk.injEq]
    refine ⟨by ring, by ring, by ring⟩

theorem gnSums_energy {s : Settings} (hth : 0 ≤ s.outlierDiff) (img : V2 → ℝ × V2) (dir cur : V2)
    (patch : List (ℝ × V2)) : (gnSums s img dir cur patch).1 = energyAt s img patch cur := by
  unfold gnSums
  rw [gnSums_acc]
  simp only [zero_add]
  unfold energyAt patchEnergy
  rw [List.map_map]
  congr 1
  apply List.map_congr_left
  intro i _
  simp only [gnTerm, Function.comp]
  rw [weighted_eq hth, abs_sub_comm]

theorem gnSums_hessian (s : Settings) (img : V2 → ℝ × V2) (dir cur : V2) (patch : List (ℝ × V2)) :
    (gnSums s img dir cur patch).2.2 = (patch.map fun i => (gnTerm s img dir cur i).2.2).sum := by
  unfold gnSums; rw [gnSums_acc]; simp

theorem clampStep_range (displ step : ℝ) (h : |displ| ≤ 1) : |displ + clampStep displ step| ≤ 1 := by
  rw [abs_le] at h ⊢
  unfold clampStep
  split
  · constructor <;> linarith [h.1, h.2]
  · split
    · constructor <;> linarith [h.1, h.2]
    · constructor <;> linarith

/-- The invariant of the Gauss-Newton loop. -/
structure GNInv (s : Settings) (img : V2 → ℝ × V2) (dir mid : V2) (patch : List (ℝ × V2)) (g : GN) : Prop where
  point : g.point = mid + g.displ • dir
  displ : |g.displ| ≤ 1
  step : ∀ st, g.step = some st → |g.displ + st| ≤ 1
  energy : (g.energy = ⊤ ∧ g.displ = 0 ∧ g.step = some 0) ∨
    (g.energy = ((energyAt s img patch g.point : ℝ) : WithTop ℝ) ∧
      energyAt s img patch g.point ≤ energyAt s img patch mid)

theorem gnRound_inv {s : Settings} (hth : 0 ≤ s.outlierDiff) {img : V2 → ℝ × V2} {dir mid : V2}
    {patch : List (ℝ × V2)} {g g' : GN} (hg : GNInv s img dir mid patch g)
    (h : gnRound s img dir patch g = .ok g') :
    GNInv s img dir mid patch g' ∧ g'.energy ≠ ⊤ := by
  unfold gnRound at h
  split at h
  · cases h
  · rename_i step hstep
    simp only at h
    have hpt : g.point + step • dir = mid + (g.displ + step) • dir := by
      rw [hg.point]; ext <;> simp <;> ring
    split at h
    · rename_i hlt
      cases h
      refine ⟨⟨hpt, hg.step step hstep, ?_, ?_⟩, by simp⟩
      · intro st hst
        simp only at hst ⊢
        split at hst
        · cases hst
        · cases hst
          exact clampStep_range _ _ (hg.step step hstep)
      · right
        simp only
        rw [gnSums_energy hth]
        refine ⟨rfl, ?_⟩
        rcases hg.energy with ⟨h1, h2, h3⟩ | ⟨h1, h2⟩
        · rw [h3] at hstep; cases hstep
          apply le_of_eq
          congr 1
          rw [hpt, h2]; ext <;> simp
        · rw [gnSums_energy hth, h1, WithTop.coe_lt_coe] at hlt
          linarith
    · rename_i hnlt
      cases h
      have hne : g.energy ≠ ⊤ := by
        intro htop
        apply hnlt
        rw [htop]; exact WithTop.coe_lt_top _
      refine ⟨⟨hg.point, hg.displ, ?_, ?_⟩, hne⟩
      · intro st hst
        simp only [Option.some.injEq] at hst
        subst hst
        have h1 := abs_le.1 hg.displ
        have h2 := abs_le.1 (hg.step step hstep)
        simp only
        rw [abs_le]; constructor <;> linarith [h1.1, h1.2, h2.1, h2.2]
      · rcases hg.energy with ⟨h1, _, _⟩ | h1
        · exact absurd h1 hne
        · exact Or.inr h1

theorem gnLoop_inv {s : Settings} (hth : 0 ≤ s.outlierDiff) {img : V2 → ℝ × V2} {dir mid : V2}
    {patch : List (ℝ × V2)} (n : Nat) {g g' : GN} (hg : GNInv s img dir mid patch g)
    (h : gnLoop s img dir patch n g = .ok g') :
    GNInv s img dir mid patch g' ∧ (0 < n ∨ g.energy ≠ ⊤ → g'.energy ≠ ⊤) := by
  induction n generalizing g with
  | zero => simp only [gnLoop, Except.ok.injEq] at h; subst h; exact ⟨hg, by simp⟩
  | succ n ih =>
    unfold gnLoop at h
    split at h
    · cases h
    · rename_i g1 h1
      obtain ⟨h2, h3⟩ := gnRound_inv hth hg h1
      obtain ⟨h4, h5⟩ := ih h2 h
      exact ⟨h4, fun _ => h5 (Or.inr h3)⟩

theorem normalized2_le (v : V2) : sqNorm (normalized2 v) ≤ 1 := by
  unfold normalized2
  split
  · rename_i h
    have h1 : norm2 v * norm2 v = sqNorm v := Real.mul_self_sqrt h.le
    have h2 : 0 < norm2 v := Real.sqrt_pos.2 h
    apply le_of_eq
    unfold sqNorm at h1 ⊢
    simp only [smul_x, smul_y]
    field_simp
    nlinarith [h1]
  · rename_i h; linarith

theorem distance_along (mid dir : V2) (d : ℝ) (hd : |d| ≤ 1) (hdir : sqNorm dir ≤ 1) :
    distance (mid + d • dir) mid ≤ 1 := by
  unfold distance
  rw [show (1 : ℝ) = Real.sqrt 1 by simp]
  apply Real.sqrt_le_sqrt
  simp only [add_x, add_y, smul_x, smul_y]
  unfold sqNorm at hdir
  have h2 : d * d ≤ 1 := by
    have := abs_le.1 hd; nlinarith [this.1, this.2]
  have hn : 0 ≤ dir.x * dir.x + dir.y * dir.y := add_nonneg (mul_self_nonneg _) (mul_self_nonneg _)
  nlinarith [mul_nonneg (mul_self_nonneg d) hn]

theorem tracePrecise_ok {s : Settings} (hth : 0 ≤ s.outlierDiff) {img : V2 → ℝ × V2} {frm dst : V2}
    {patch : List (ℝ × V2)} {g : GN} (h : tracePrecise s img frm dst patch = .ok g) :
    ∃ d : ℝ, |d| ≤ 1 ∧ g.point = (1 / 2 : ℝ) • (frm + dst) + d • normalized2 (dst - frm) ∧
      g.energy = ((energyAt s img patch g.point : ℝ) : WithTop ℝ) ∧
      energyAt s img patch g.point ≤ energyAt s img patch ((1 / 2 : ℝ) • (frm + dst)) := by
  unfold tracePrecise at h
  obtain ⟨h1, h2⟩ := gnLoop_inv hth (mid := (1 / 2 : ℝ) • (frm + dst)) _
    ⟨by ext <;> simp, by simp, by intro st hst; cases hst; simp, Or.inl ⟨rfl, rfl, rfl⟩⟩ h
  refine ⟨g.displ, h1.displ, h1.point, ?_⟩
  rcases h1.energy with h3 | h3
  · exact absurd h3.1 (h2 (Or.inl (by omega)))
  · exact h3

/-- With a positive threshold the terms of `H` are not negative, and positive where the image changes. -/
theorem gnTerm_hessian {s : Settings} (hth : 0 < s.outlierDiff) (img : V2 → ℝ × V2) (dir cur : V2) (i : ℝ × V2) :
    0 ≤ (gnTerm s img dir cur i).2.2 ∧
      (Geom.dot (img (cur + i.2)).2 dir ≠ 0 → 0 < (gnTerm s img dir cur i).2.2) := by
  have hw : 0 < weight s.outlierDiff |(img (cur + i.2)).1 - i.1| ∧
      weight s.outlierDiff |(img (cur + i.2)).1 - i.1| ≤ 1 := by
    unfold weight
    split
    · rename_i h
      have h0 : 0 < |(img (cur + i.2)).1 - i.1| := by linarith
      exact ⟨by positivity, by rw [div_le_one h0]; exact h.le⟩
    · simp
  simp only [gnTerm]
  obtain ⟨h1, h2⟩ := hw
  have h3 : 0 < weight s.outlierDiff |(img (cur + i.2)).1 - i.1| /
      (2 - weight s.outlierDiff |(img (cur + i.2)).1 - i.1|) := div_pos h1 (by linarith)
  split
  · rw [mul_assoc]
    exact ⟨mul_nonneg h3.le (mul_self_nonneg _), fun h => mul_pos h3 (mul_self_pos.2 h)⟩
  · rw [mul_assoc]
    exact ⟨mul_nonneg h1.le (mul_self_nonneg _), fun h => mul_pos h1 (mul_self_pos.2 h)⟩

theorem sum_pos_of {l : List ℝ} (h0 : ∀ x ∈ l, 0 ≤ x) (h1 : ∃ x ∈ l, 0 < x) : 0 < l.sum := by
  induction l with
  | nil => obtain ⟨x, hx, _⟩ := h1; cases hx
  | cons y l ih =>
    rw [List.sum_cons]
    have hy := h0 y List.mem_cons_self
    have hs : 0 ≤ l.sum := List.sum_nonneg fun x hx => h0 x (List.mem_cons_of_mem _ hx)
    obtain ⟨x, hx, hx0⟩ := h1
    rcases List.mem_cons.1 hx with rfl | hx
    · linarith
    · have := ih (fun x hx => h0 x (List.mem_cons_of_mem _ hx)) ⟨x, hx, hx0⟩
      linarith

/-- If the image changes along the direction somewhere in the patch, wherever that is put, the refinement returns. -/
theorem tracePrecise_returns {s : Settings} (hth : 0 < s.outlierDiff) {img : V2 → ℝ × V2} {frm dst : V2}
    {patch : List (ℝ × V2)}
    (h : ∀ x : V2, ∃ i ∈ patch, Geom.dot (img (x + i.2)).2 (normalized2 (dst - frm)) ≠ 0) :
    ∃ g, tracePrecise s img frm dst patch = .ok g := by
  have key : ∀ (n : Nat) (g : GN), g.step ≠ none →
      ∃ g', gnLoop s img (normalized2 (dst - frm)) patch n g = .ok g' := by
    intro n
    induction n with
    | zero => intro g _; exact ⟨g, rfl⟩
    | succ n ih =>
      intro g hg
      obtain ⟨st, hst⟩ := Option.ne_none_iff_exists'.1 hg
      have : ∃ g1, gnRound s img (normalized2 (dst - frm)) patch g = .ok g1 ∧ g1.step ≠ none := by
        unfold gnRound
        rw [hst]
        simp only
        split
        · refine ⟨_, rfl, ?_⟩
          have hH : (gnSums s img (normalized2 (dst - frm)) (g.point + st • normalized2 (dst - frm)) patch).2.2 ≠ 0 := by
            rw [gnSums_hessian]
            apply ne_of_gt
            apply sum_pos_of
            · intro x hx
              obtain ⟨i, _, rfl⟩ := List.mem_map.1 hx
              exact (gnTerm_hessian hth _ _ _ _).1
            · obtain ⟨i, hi, hne⟩ := h (g.point + st • normalized2 (dst - frm))
              exact ⟨_, List.mem_map.2 ⟨i, hi, rfl⟩, (gnTerm_hessian hth _ _ _ _).2 hne⟩
          simp [hH]
        · exact ⟨_, rfl, by simp⟩
      obtain ⟨g1, h1, h2⟩ := this
      obtain ⟨g', h3⟩ := ih g1 h2
      exact ⟨g', by unfold gnLoop; rw [h1]; exact h3⟩
  exact key _ _ (by simp)

/-- If the image does not change along the direction in the patch around the midpoint, every refinement of at least
one step evaluates the image at an undefined position. -/
theorem tracePrecise_flat {s : Settings} {img : V2 → ℝ × V2} {frm dst : V2} {patch : List (ℝ × V2)}
    (hn : 0 < s.gnIter)
    (h : ∀ i ∈ patch, Geom.dot (img ((1 / 2 : ℝ) • (frm + dst) + i.2)).2 (normalized2 (dst - frm)) = 0) :
    tracePrecise s img frm dst patch = .error .ub := by
  obtain ⟨n, hn'⟩ : ∃ n, s.gnIter = n + 1 := ⟨s.gnIter - 1, by omega⟩
  unfold tracePrecise
  rw [hn']
  have hcur : (1 / 2 : ℝ) • (frm + dst) + (0 : ℝ) • normalized2 (dst - frm) = (1 / 2 : ℝ) • (frm + dst) := by
    ext <;> simp
  have hH : (gnSums s img (normalized2 (dst - frm)) ((1 / 2 : ℝ) • (frm + dst)) patch).2.2 = 0 := by
    rw [gnSums_hessian]
    apply List.sum_eq_zero
    intro x hx
    obtain ⟨i, hi, rfl⟩ := List.mem_map.1 hx
    simp only [gnTerm, h i hi]
    split <;> ring
  unfold gnLoop
  unfold gnRound
  simp only [hcur, WithTop.coe_lt_top, if_true, hH]
  unfold gnLoop gnRound
  rfl

theorem distance_comm (p q : V2) : distance p q = distance q p := by
  unfold distance; congr 1; ring

theorem distance_eq_norm (p q : V2) : distance p q = Real.sqrt (sqNorm (p - q)) := by
  unfold distance sqNorm; congr 1; simp; ring

/-- Length of a sum. -/
theorem norm2_add_le (u v : V2) : norm2 (u + v) ≤ norm2 u + norm2 v := by
  unfold norm2
  have hu : 0 ≤ sqNorm u := by unfold sqNorm; nlinarith [mul_self_nonneg u.x, mul_self_nonneg u.y]
  have hv : 0 ≤ sqNorm v := by unfold sqNorm; nlinarith [mul_self_nonneg v.x, mul_self_nonneg v.y]
  have hsu := Real.mul_self_sqrt hu
  have hsv := Real.mul_self_sqrt hv
  have h1 := Real.sqrt_nonneg (sqNorm u)
  have h2 := Real.sqrt_nonneg (sqNorm v)
  apply Real.sqrt_le_iff.2
  refine ⟨by linarith, ?_⟩
  have hcs : u.x * v.x + u.y * v.y ≤ Real.sqrt (sqNorm u) * Real.sqrt (sqNorm v) := by
    rw [← Real.sqrt_mul hu]
    apply Real.le_sqrt_of_sq_le
    unfold sqNorm
    nlinarith [sq_nonneg (u.x * v.y - u.y * v.x)]
  have : sqNorm (u + v) = sqNorm u + sqNorm v + 2 * (u.x * v.x + u.y * v.y) := by
    unfold sqNorm; simp; ring
  rw [this]
  nlinarith

theorem distance_triangle (p q r : V2) : distance p r ≤ distance p q + distance q r := by
  rw [← norm2_sub, ← norm2_sub, ← norm2_sub]
  have : p - r = (p - q) + (q - r) := by ext <;> simp
  rw [this]
  exact norm2_add_le _ _

theorem norm2_smul {s : ℝ} (hs : 0 ≤ s) (v : V2) : norm2 (s • v) = s * norm2 v := by
  unfold norm2
  have : sqNorm (s • v) = s * s * sqNorm v := by unfold sqNorm; simp; ring
  rw [this, Real.sqrt_mul (mul_self_nonneg s), Real.sqrt_mul_self hs]

theorem distance_mid (a b c : V2) : distance ((1 / 2 : ℝ) • (a + b)) c ≤ (distance a c + distance b c) / 2 := by
  rw [← norm2_sub, ← norm2_sub, ← norm2_sub]
  have : (1 / 2 : ℝ) • (a + b) - c = (1 / 2 : ℝ) • ((a - c) + (b - c)) := by ext <;> simp <;> ring
  rw [this, norm2_smul (by norm_num)]
  have := norm2_add_le (a - c) (b - c)
  linarith

/-- What `refine` returns: a position near the midpoint of the neighbours, multiplied by the scale of the level. -/
theorem refine_ok {e : Env} (hth : 0 ≤ e.s.outlierDiff) {points : List V2} {bestInd : Nat} {best : V2}
    {bestDepth : ℝ} {level : Int} {r : V2 × WithTop ℝ} (h : refine e points bestInd best bestDepth level = .ok r) :
    ∃ frm dst x : V2, points[bestInd - 1]? = some frm ∧
      points[min (points.length - 1) (bestInd + 1)]? = some dst ∧
      distance x ((1 / 2 : ℝ) • (frm + dst)) ≤ 1 ∧ r.1 = (2 : ℝ) ^ level • x ∧
      r.2 = ((energyAt e.s (e.interp level) (refinePatch e best bestDepth level) x : ℝ) : WithTop ℝ) ∧
      energyAt e.s (e.interp level) (refinePatch e best bestDepth level) x ≤
        energyAt e.s (e.interp level) (refinePatch e best bestDepth level) ((1 / 2 : ℝ) • (frm + dst)) := by
  unfold refine at h
  split at h
  · rename_i frm dst hf hd
    split at h
    · cases h
    · rename_i g hg
      cases h
      obtain ⟨d, h1, h2, h3, h4⟩ := tracePrecise_ok hth hg
      refine ⟨frm, dst, g.point, at'_ok hf, at'_ok hd, ?_, rfl, h3, h4⟩
      rw [h2]
      exact distance_along _ _ _ h1 (normalized2_le _)
  · cases h

open Classical in
/-- The depth interval for a finite deviation. -/
theorem interval_coe (e : Env) (points : List V2) (bestInd : Nat) (dev : ℝ) :
    interval e points bestInd ((dev : ℝ) : WithTop ℝ) =
      (match approxOnCurve points (bestInd + 2 * dev) with
      | .error f => (.error f : Except Fault (ℝ × WithTop ℝ))
      | .ok minPos =>
        if (bestInd : ℝ) - 2 * dev ≤ 0 then .ok (e.tri (e.cam.unmap minPos), ⊤)
        else
          match approxOnCurve points (bestInd - 2 * dev) with
          | .error f => .error f
          | .ok maxPos => .ok (e.tri (e.cam.unmap minPos), ((e.tri (e.cam.unmap maxPos) : ℝ) : WithTop ℝ))) := rfl

end Mdso.Trace
