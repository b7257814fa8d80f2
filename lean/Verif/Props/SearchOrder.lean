import Verif.Spec.SearchOrder
import Verif.Props.ImmaturePoint
import Verif.Props.Geometry3
import Verif.Props.Symmetry

/-!
# C176: the search for a point goes through the depths of its interval from far to near
-/

set_option autoImplicit false

namespace Mdso.Trace

open Mdso.Geom Mdso.Cam Mdso.TraceSpec

/-! ## The depth at a place of the search -/

/-- The depth at which a point is seen in direction `(1 - α) dirMax + α dirMin`. -/
noncomputable def depthAlong (m : Motion3) (base : V3) (lo : ℝ) (hi : WithTop ℝ) (α : ℝ) : WithTop ℝ :=
  open Classical in
  match hi with
  | none => if α = 0 then ⊤ else ((lo + (1 - α) / (α * (1 / (m.act (lo • base)).norm)) : ℝ) : WithTop ℝ)
  | some h => ((((1 - α) * (1 / (m.act (h • base)).norm) * h + α * (1 / (m.act (lo • base)).norm) * lo) /
      ((1 - α) * (1 / (m.act (h • base)).norm) + α * (1 / (m.act (lo • base)).norm)) : ℝ) : WithTop ℝ)

theorem act_ne {m : Motion3} {base : V3} (hp : Parallax m base) (d : ℝ) : m.act (d • base) ≠ 0 := by
  intro h
  apply hp
  unfold Motion3.act at h
  rw [Sym.mulVec_smul] at h
  have hx := congrArg V3.x h
  have hy := congrArg V3.y h
  have hz := congrArg V3.z h
  simp only [V3.add_x, V3.add_y, V3.add_z, V3.smul_x, V3.smul_y, V3.smul_z, V3.zero_x, V3.zero_y, V3.zero_z] at hx hy hz
  have ex : m.t.x = -(d * (m.rot.mulVec base).x) := by linarith
  have ey : m.t.y = -(d * (m.rot.mulVec base).y) := by linarith
  have ez : m.t.z = -(d * (m.rot.mulVec base).z) := by linarith
  ext <;> simp only [V3.cross, ex, ey, ez, V3.zero_x, V3.zero_y, V3.zero_z] <;> ring

theorem weight_pos {a b α : ℝ} (ha : 0 < a) (hb : 0 < b) (h0 : 0 ≤ α) (h1 : α ≤ 1) : 0 < (1 - α) * a + α * b := by
  rcases eq_or_lt_of_le h0 with h | h
  · rw [← h]; linarith
  · have : 0 ≤ (1 - α) * a := mul_nonneg (by linarith) ha.le
    have := mul_pos h hb
    linarith

theorem depthAlong_seen {e : Env} {p : Point} {base : V3} (hp : Parallax e.baseToRef base) {α : ℝ} (h0 : 0 ≤ α) (h1 : α ≤ 1) :
    SeenIn e.baseToRef base (dirAt (searchEnds e p base).2 (searchEnds e p base).1 α)
      (depthAlong e.baseToRef base p.minDepth p.maxDepth α) := by
  obtain ⟨m, hm⟩ : ∃ m, m = e.baseToRef := ⟨_, rfl⟩
  obtain ⟨lo, hlo⟩ : ∃ lo, lo = p.minDepth := ⟨_, rfl⟩
  have hnl := V3.norm_pos (act_ne (m := m) (hm ▸ hp) lo)
  have hbl : 0 < 1 / (m.act (lo • base)).norm := by positivity
  unfold searchEnds
  rw [← hm, ← hlo]
  rw [V3.normalized_eq (act_ne (hm ▸ hp) lo)]
  cases hi : p.maxDepth with
  | top =>
    show SeenIn m base (dirAt (m.rot.mulVec base) ((1 / (m.act (lo • base)).norm) • m.act (lo • base)) α)
      (if α = 0 then ⊤ else ((lo + (1 - α) / (α * (1 / (m.act (lo • base)).norm)) : ℝ) : WithTop ℝ))
    generalize hb : 1 / (m.act (lo • base)).norm = b at hbl ⊢
    by_cases ha : α = 0
    · rw [if_pos ha, ha]
      refine ⟨1, one_pos, ?_⟩
      ext <;> simp [dirAt]
    · rw [if_neg ha]
      have hpos : 0 < α := lt_of_le_of_ne h0 (Ne.symm ha)
      have hab : 0 < α * b := mul_pos hpos hbl
      refine ⟨1 / (α * b), by positivity, ?_⟩
      rw [Sym.mulVec_smul]
      unfold Motion3.act dirAt
      rw [Sym.mulVec_smul]
      ext <;> simp only [V3.add_x, V3.add_y, V3.add_z, V3.smul_x, V3.smul_y, V3.smul_z] <;> field_simp <;> ring
  | coe h =>
    have hnh := V3.norm_pos (act_ne (m := m) (hm ▸ hp) h)
    have hbh : 0 < 1 / (m.act (h • base)).norm := by positivity
    show SeenIn m base (dirAt (m.act (h • base)).normalized ((1 / (m.act (lo • base)).norm) • m.act (lo • base)) α)
      ((((1 - α) * (1 / (m.act (h • base)).norm) * h + α * (1 / (m.act (lo • base)).norm) * lo) /
      ((1 - α) * (1 / (m.act (h • base)).norm) + α * (1 / (m.act (lo • base)).norm)) : ℝ) : WithTop ℝ)
    rw [V3.normalized_eq (act_ne (hm ▸ hp) h)]
    generalize hb : 1 / (m.act (lo • base)).norm = b at hbl ⊢
    generalize ha : 1 / (m.act (h • base)).norm = a at hbh ⊢
    have hw := weight_pos hbh hbl h0 h1
    refine ⟨1 / ((1 - α) * a + α * b), by positivity, ?_⟩
    rw [Sym.mulVec_smul]
    unfold Motion3.act dirAt
    rw [Sym.mulVec_smul, Sym.mulVec_smul]
    ext <;> simp only [V3.add_x, V3.add_y, V3.add_z, V3.smul_x, V3.smul_y, V3.smul_z] <;> field_simp <;> ring

theorem depthAlong_falls {m : Motion3} {base : V3} (hp : Parallax m base) {lo : ℝ} {hi : WithTop ℝ} (hlt : ((lo : ℝ) : WithTop ℝ) < hi)
    {α β : ℝ} (h0 : 0 ≤ α) (h : α < β) (h1 : β ≤ 1) : depthAlong m base lo hi β < depthAlong m base lo hi α := by
  have hnl := V3.norm_pos (act_ne hp lo)
  have hbl : 0 < 1 / (m.act (lo • base)).norm := by positivity
  have hβ : 0 < β := by linarith
  cases hi with
  | top =>
    show (if β = 0 then ⊤ else ((lo + (1 - β) / (β * (1 / (m.act (lo • base)).norm)) : ℝ) : WithTop ℝ)) <
      (if α = 0 then ⊤ else ((lo + (1 - α) / (α * (1 / (m.act (lo • base)).norm)) : ℝ) : WithTop ℝ))
    generalize 1 / (m.act (lo • base)).norm = b at hbl ⊢
    rw [if_neg hβ.ne']
    by_cases ha : α = 0
    · rw [if_pos ha]
      exact WithTop.coe_lt_top _
    · rw [if_neg ha, WithTop.coe_lt_coe]
      have hpos : 0 < α := lt_of_le_of_ne h0 (Ne.symm ha)
      have : (1 - β) / (β * b) < (1 - α) / (α * b) := by
        rw [div_lt_div_iff₀ (by positivity) (by positivity)]
        nlinarith [mul_pos hbl (sub_pos.2 h)]
      linarith
  | coe h' =>
    have hnh := V3.norm_pos (act_ne hp h')
    have hbh : 0 < 1 / (m.act (h' • base)).norm := by positivity
    show (((_ : ℝ) : ℝ) : WithTop ℝ) < ((_ : ℝ) : WithTop ℝ)
    rw [WithTop.coe_lt_coe]
    rw [WithTop.coe_lt_coe] at hlt
    generalize 1 / (m.act (lo • base)).norm = b at hbl ⊢
    generalize 1 / (m.act (h' • base)).norm = a at hbh ⊢
    rw [div_lt_div_iff₀ (weight_pos hbh hbl (by linarith) h1) (weight_pos hbh hbl h0 (by linarith))]
    nlinarith [mul_pos (mul_pos hbh hbl) (mul_pos (sub_pos.2 h) (sub_pos.2 hlt))]

theorem depthAlong_zero {m : Motion3} {base : V3} (hp : Parallax m base) (lo : ℝ) (hi : WithTop ℝ) : depthAlong m base lo hi 0 = hi := by
  cases hi with
  | top => exact if_pos rfl
  | coe h =>
    have hnh := (V3.norm_pos (act_ne hp h)).ne'
    show (((_ : ℝ) : ℝ) : WithTop ℝ) = _
    rw [WithTop.coe_eq_coe]
    field_simp
    ring

theorem depthAlong_one {m : Motion3} {base : V3} (hp : Parallax m base) (lo : ℝ) (hi : WithTop ℝ) : depthAlong m base lo hi 1 = ((lo : ℝ) : WithTop ℝ) := by
  have hnl := (V3.norm_pos (act_ne hp lo)).ne'
  cases hi with
  | top =>
    show (if (1 : ℝ) = 0 then ⊤ else ((_ : ℝ) : WithTop ℝ)) = _
    rw [if_neg one_ne_zero, WithTop.coe_eq_coe]
    simp
  | coe h =>
    show (((_ : ℝ) : ℝ) : WithTop ℝ) = _
    rw [WithTop.coe_eq_coe]
    field_simp
    ring

theorem depthAlong_within {m : Motion3} {base : V3} (hp : Parallax m base) {lo : ℝ} {hi : WithTop ℝ} (hlt : ((lo : ℝ) : WithTop ℝ) < hi)
    {α : ℝ} (h0 : 0 ≤ α) (h1 : α ≤ 1) : ((lo : ℝ) : WithTop ℝ) ≤ depthAlong m base lo hi α ∧ depthAlong m base lo hi α ≤ hi := by
  constructor
  · rcases eq_or_lt_of_le h1 with h | h
    · rw [h, depthAlong_one hp]
    · rw [← depthAlong_one hp lo hi]
      exact (depthAlong_falls hp hlt h0 h le_rfl).le
  · rcases eq_or_lt_of_le h0 with h | h
    · rw [← h, depthAlong_zero hp]
    · refine le_of_lt (lt_of_lt_of_eq (depthAlong_falls hp hlt le_rfl h h1) ?_)
      exact depthAlong_zero hp lo hi

/-! ## One sweep -/

theorem sweep_alphas {e : Env} {dirMax dirMin : V3} {fuel : Nat} {alpha : ℝ} {cnt : Nat} {r : List (V2 × V3) × Option ℝ}
    (h : sweep e dirMax dirMin fuel alpha cnt = some r) (h0 : 0 ≤ alpha) (h1 : alpha ≤ 1) :
    ∃ as : List ℝ, r.1 = (alpha :: as).map (fun a => (e.cam.map (dirAt dirMax dirMin a), dirAt dirMax dirMin a)) ∧
      (alpha :: as).Pairwise (· < ·) ∧ ∀ a ∈ alpha :: as, 0 ≤ a ∧ a ≤ 1 := by
  induction fuel generalizing alpha cnt r with
  | zero => simp [sweep] at h
  | succ fuel ih =>
    unfold sweep at h
    simp only at h
    have hspeed : 0 ≤ norm2 (e.cam.jacobian (dirAt dirMax dirMin alpha) (dirMax - dirMin)) := Real.sqrt_nonneg _
    have hnext : ∀ a, (if norm2 (e.cam.jacobian (dirAt dirMax dirMin alpha) (dirMax - dirMin)) = 0 then none
        else some (alpha + 1 / norm2 (e.cam.jacobian (dirAt dirMax dirMin alpha) (dirMax - dirMin)))) = some a →
        alpha < a := by
      intro a ha
      split at ha
      · cases ha
      · rename_i hne
        cases ha
        have : 0 < norm2 (e.cam.jacobian (dirAt dirMax dirMin alpha) (dirMax - dirMin)) :=
          lt_of_le_of_ne hspeed (Ne.symm hne)
        have : 0 < 1 / norm2 (e.cam.jacobian (dirAt dirMax dirMin alpha) (dirMax - dirMin)) := by positivity
        linarith
    have single : ∀ x : Option ℝ, ∃ as : List ℝ, ([(e.cam.map (dirAt dirMax dirMin alpha), dirAt dirMax dirMin alpha)], x).1 =
        (alpha :: as).map (fun a => (e.cam.map (dirAt dirMax dirMin a), dirAt dirMax dirMin a)) ∧
        (alpha :: as).Pairwise (· < ·) ∧ ∀ a ∈ alpha :: as, 0 ≤ a ∧ a ≤ 1 :=
      fun x => ⟨[], rfl, by simp, by simpa using ⟨h0, h1⟩⟩
    split at h
    · cases h
      exact single _
    · split at h
      · cases h
        exact single _
      · rename_i a ha
        have hlt := hnext a ha
        split at h
        · rename_i hin
          obtain ⟨r', hr', hrr⟩ := Option.map_eq_some_iff.1 h
          subst hrr
          obtain ⟨as, h2, h3, h4⟩ := ih hr' hin.1 hin.2.1
          refine ⟨a :: as, by rw [h2]; rfl, ?_, ?_⟩
          · refine List.pairwise_cons.2 ⟨?_, h3⟩
            intro b hb
            rcases List.mem_cons.1 hb with rfl | hb
            · exact hlt
            · exact lt_trans hlt ((List.pairwise_cons.1 h3).1 b hb)
          · intro b hb
            rcases List.mem_cons.1 hb with rfl | hb
            · exact ⟨h0, h1⟩
            · exact h4 b hb
        · cases h
          exact single _

theorem search_alphas {e : Env} (hfull : e.s.performFullTracing = false) {fuel : Nat} {dirMin dirMax : V3} {found : List (V2 × V3)}
    (h : pointsToTrace e fuel dirMin dirMax = .ok (some found)) :
    ∃ as : List ℝ, found = (as ++ as).map (fun a => (e.cam.map (dirAt dirMax dirMin a), dirAt dirMax dirMin a)) ∧
      as.Pairwise (· < ·) ∧ (∀ a ∈ as, 0 ≤ a ∧ a ≤ 1) ∧ (as = [] ∨ as.head? = some 0) := by
  unfold pointsToTrace at h
  split at h
  · cases h
    exact ⟨[], rfl, by simp, by simp, Or.inl rfl⟩
  · rw [hfull] at h
    simp only [Bool.false_eq_true, if_false, Except.ok.injEq] at h
    cases fuel with
    | zero => simp [searchLoop] at h
    | succ fuel =>
      rw [searchLoop, if_pos zero_le_one] at h
      split at h
      · split at h
        · cases h
        · rename_i r hr
          simp only [Option.some.injEq] at h
          obtain ⟨l, hl, hr1⟩ := sweeps_two hr
          obtain ⟨as, h1, h2, h3⟩ := sweep_alphas hl le_rfl zero_le_one
          refine ⟨0 :: as, ?_, h2, h3, Or.inr rfl⟩
          dsimp only at h1
          rw [← h, hr1, List.nil_append, List.map_append, h1]
      · simp only [Option.some.injEq] at h
        subst h
        exact ⟨[], rfl, by simp, by simp, Or.inl rfl⟩

/-! ## C176 -/

/-- **C176, where is searched.** Without full tracing the places examined are those where the point would be seen at certain depths: the first of them is
the upper bound of its depth interval, each is smaller than the one before, and none is below the lower bound. (All of them are then examined once more, see
C75.) -/
theorem C176_far_to_near {e : Env} (hfull : e.s.performFullTracing = false) {fuel : Nat} {p : Point} {base : V3} (hp : Parallax e.baseToRef base)
    (hlt : ((p.minDepth : ℝ) : WithTop ℝ) < p.maxDepth) {found : List (V2 × V3)}
    (h : pointsToTrace e fuel (searchEnds e p base).1 (searchEnds e p base).2 = .ok (some found)) :
    ∃ (places : List (V2 × V3)) (depths : List (WithTop ℝ)), found = places ++ places ∧
      List.Forall₂ (fun f d => f.1 = e.cam.map f.2 ∧ SeenIn e.baseToRef base f.2 d) places depths ∧
      depths.Pairwise (· > ·) ∧ (depths = [] ∨ depths.head? = some p.maxDepth) ∧
      ∀ d ∈ depths, ((p.minDepth : ℝ) : WithTop ℝ) ≤ d ∧ d ≤ p.maxDepth := by
  obtain ⟨as, h1, h2, h3, h4⟩ := search_alphas hfull h
  refine ⟨as.map (fun a => (e.cam.map (dirAt (searchEnds e p base).2 (searchEnds e p base).1 a), dirAt (searchEnds e p base).2 (searchEnds e p base).1 a)),
    as.map (depthAlong e.baseToRef base p.minDepth p.maxDepth), by rw [h1, List.map_append], ?_, ?_, ?_, ?_⟩
  · clear h1 h2 h4 h
    induction as with
    | nil => exact .nil
    | cons a as ih =>
      have := h3 a (List.mem_cons_self ..)
      exact .cons ⟨rfl, depthAlong_seen hp this.1 this.2⟩ (ih fun b hb => h3 b (List.mem_cons_of_mem _ hb))
  · rw [List.pairwise_map]
    refine List.Pairwise.imp_of_mem ?_ h2
    intro a b ha hb hab
    exact depthAlong_falls hp hlt (h3 a ha).1 hab (h3 b hb).2
  · rcases h4 with h4 | h4
    · exact Or.inl (by rw [h4]; rfl)
    · right
      rw [List.head?_map, h4, Option.map_some, depthAlong_zero hp]
  · intro d hd
    obtain ⟨a, ha, rfl⟩ := List.mem_map.1 hd
    exact depthAlong_within hp hlt (h3 a ha).1 (h3 a ha).2

/-- A direction in which a point at a finite depth is seen is triangulated to that depth, whatever its length. -/
theorem tri_seen {e : Env} {base v : V3} (hp : Parallax e.baseToRef base) (ht : Triangulates e base) {d : ℝ}
    (h : SeenIn e.baseToRef base v ((d : ℝ) : WithTop ℝ)) {s : ℝ} (hs : 0 < s) : e.tri (s • v) = d := by
  obtain ⟨y, hy, hv⟩ := h
  have hmeet : e.baseToRef.rot.mulVec (d • base) + e.baseToRef.t = (y / s) • s • v := by
    rw [hv]
    ext <;> simp only [V3.smul_x, V3.smul_y, V3.smul_z] <;> field_simp
  refine ht (s • v) d (y / s) (C69_triangulate e.baseToRef base (s • v) d (y / s) hmeet ?_) hmeet
  · intro hc
    apply hp
    have hv' : v = (1 / y) • (d • e.baseToRef.rot.mulVec base + e.baseToRef.t) := by
      rw [← Sym.mulVec_smul, hv]
      ext <;> simp only [V3.smul_x, V3.smul_y, V3.smul_z] <;> field_simp
    rw [hv'] at hc
    have hx := congrArg V3.x hc
    have hy' := congrArg V3.y hc
    have hz := congrArg V3.z hc
    simp only [V3.cross, V3.smul_x, V3.smul_y, V3.smul_z, V3.add_x, V3.add_y, V3.add_z, V3.zero_x, V3.zero_y, V3.zero_z] at hx hy' hz
    have hne : s * (1 / y) ≠ 0 := by positivity
    ext <;> simp only [V3.cross, V3.zero_x, V3.zero_y, V3.zero_z]
    · apply (mul_eq_zero.1 (show s * (1 / y) * _ = 0 from ?_)).resolve_left hne
      rw [← hx]; ring
    · apply (mul_eq_zero.1 (show s * (1 / y) * _ = 0 from ?_)).resolve_left hne
      rw [← hy']; ring
    · apply (mul_eq_zero.1 (show s * (1 / y) * _ = 0 from ?_)).resolve_left hne
      rw [← hz]; ring

theorem dirAt_zero (a b : V3) : dirAt a b 0 = a := by
  ext <;> simp [dirAt]

theorem ends_top {e : Env} {p : Point} (base : V3) (h : p.maxDepth = ⊤) : (searchEnds e p base).2 = e.baseToRef.rot.mulVec base := by
  unfold searchEnds
  rw [h]

/-- What is known of the depths of the candidates. -/
theorem depths_cases {e : Env} (hfull : e.s.performFullTracing = false) {fuel : Nat} {p : Point} {base : V3} (hp : Parallax e.baseToRef base)
    (ht : Triangulates e base) (hlt : ((p.minDepth : ℝ) : WithTop ℝ) < p.maxDepth) {found : List (V2 × V3)}
    (h : pointsToTrace e fuel (searchEnds e p base).1 (searchEnds e p base).2 = .ok (some found)) {cs : List Cand}
    (hcs : candidatesFrom e p 0 found = .ok cs) {k : Nat} {f : V2 × V3} {c : Cand} (hf : found[k]? = some f) (hc : cs[k]? = some c) :
    (((p.minDepth : ℝ) : WithTop ℝ) ≤ c.depth ∧ c.depth ≤ p.maxDepth ∧ SeenIn e.baseToRef base f.2 c.depth) ∨
      (p.maxDepth = ⊤ ∧ 0 < k ∧ f.2 = e.baseToRef.rot.mulVec base ∧
        c.depth = ((e.tri (e.baseToRef.rot.mulVec base).normalized : ℝ) : WithTop ℝ)) := by
  obtain ⟨as, h1, h2, h3, h4⟩ := search_alphas hfull h
  obtain ⟨hpt, _, _, hinf, hfin, _⟩ := candidate_ok ((candidatesFrom_ok hcs).2 k f c hf hc)
  rw [Nat.zero_add] at hinf hfin
  rw [h1, List.getElem?_map] at hf
  obtain ⟨α, hα, hfα⟩ := Option.map_eq_some_iff.1 hf
  have hmem : α ∈ as := by
    have := List.mem_of_getElem? hα
    simpa using this
  obtain ⟨h0, h1'⟩ := h3 α hmem
  have hf2 : f.2 = dirAt (searchEnds e p base).2 (searchEnds e p base).1 α := by rw [← hfα]
  have hseen := depthAlong_seen (e := e) (p := p) hp h0 h1'
  rw [← hf2] at hseen
  have hin := depthAlong_within hp hlt h0 h1'
  by_cases hk : p.maxDepth = ⊤ ∧ k = 0
  · have hc' := hinf hk
    have : α = 0 := by
      rw [hk.2] at hα
      rcases h4 with h4 | h4
      · rw [h4] at hα; cases hα
      · rw [← List.head?_eq_getElem?, List.head?_append, h4] at hα
        simpa using hα.symm
    subst this
    rw [depthAlong_zero hp] at hseen
    left
    rw [hc', ← hk.1]
    exact ⟨hlt.le, le_rfl, hseen⟩
  · rw [hfin hk]
    generalize hd : depthAlong e.baseToRef base p.minDepth p.maxDepth α = d at hseen hin
    cases d with
    | coe d =>
      left
      have hne : f.2 ≠ 0 := by
        intro hz
        rw [hz] at hseen
        obtain ⟨y, hy, hv⟩ := hseen
        refine act_ne hp d ?_
        unfold Motion3.act
        rw [hv]
        ext <;> simp
      have : e.tri f.2.normalized = d := by
        rw [V3.normalized_eq hne]
        exact tri_seen hp ht hseen (by have := V3.norm_pos hne; positivity)
      rw [this]
      exact ⟨hin.1, hin.2, hseen⟩
    | top =>
      right
      have htop : p.maxDepth = ⊤ := top_le_iff.1 hin.2
      have hα0 : α = 0 := by
        by_contra hα0
        have := depthAlong_falls hp hlt le_rfl (lt_of_le_of_ne h0 (Ne.symm hα0)) h1'
        rw [hd] at this
        exact absurd this (not_lt.2 le_top)
      have hdir : f.2 = e.baseToRef.rot.mulVec base := by
        rw [hf2, hα0, dirAt_zero, ends_top base htop]
      refine ⟨htop, ?_, hdir, by rw [hdir]⟩
      rcases Nat.eq_zero_or_pos k with hk0 | hk0
      · exact absurd ⟨htop, hk0⟩ hk
      · exact hk0

/-- **C176, the depths, partial.** If the depth interval of the point has an upper bound, then each candidate has a depth of that interval, and is the place
where the point would be seen at this depth. Missing: intervals without an upper bound, see `C176_start_again_violated`. -/
theorem C176_depths_partial {e : Env} (hfull : e.s.performFullTracing = false) {fuel : Nat} {p : Point} {base : V3} (hp : Parallax e.baseToRef base)
    (ht : Triangulates e base) (hlt : ((p.minDepth : ℝ) : WithTop ℝ) < p.maxDepth) (hb : p.maxDepth ≠ ⊤) {found : List (V2 × V3)}
    (h : pointsToTrace e fuel (searchEnds e p base).1 (searchEnds e p base).2 = .ok (some found)) {cs : List Cand}
    (hcs : candidatesFrom e p 0 found = .ok cs) {k : Nat} {f : V2 × V3} {c : Cand} (hf : found[k]? = some f) (hc : cs[k]? = some c) :
    ((p.minDepth : ℝ) : WithTop ℝ) ≤ c.depth ∧ c.depth ≤ p.maxDepth ∧ SeenIn e.baseToRef base f.2 c.depth := by
  rcases depths_cases hfull hp ht hlt h hcs hf hc with h | h
  · exact h
  · exact absurd h.1 hb

/-- **C176, the result, partial.** The depth found by a successful trace without refinement lies in the depth interval the point had before the trace, and so
does, if the camera is exact, the depth before the refinement. Missing: with an interval without upper bound it may instead be what triangulation makes of
two parallel rays. -/
theorem C176_traced_partial {e : Env} (hfull : e.s.performFullTracing = false) {fuel : Nat} {p q : Point} {base : V3} {rest : List V3}
    (hbase : e.baseDirections = base :: rest) (hp : Parallax e.baseToRef base)
    (ht : Triangulates e base) (hlt : ((p.minDepth : ℝ) : WithTop ℝ) < p.maxDepth)
    (h : traceOn e fuel p = .ok (some (.ok, q))) :
    (e.s.gnIter = 0 → ∃ d : ℝ, q.depth = some d ∧ ((p.minDepth ≤ d ∧ ((d : ℝ) : WithTop ℝ) ≤ p.maxDepth) ∨
      (p.maxDepth = ⊤ ∧ d = e.tri (e.baseToRef.rot.mulVec base).normalized))) ∧
    ((∀ v, Between (searchEnds e p base).2 (searchEnds e p base).1 v → ∃ s : ℝ, 0 < s ∧ e.cam.unmap (e.cam.map v) = s • v) →
      ∃ d : ℝ, q.depthBeforeSubpixel = some d ∧ ((p.minDepth ≤ d ∧ ((d : ℝ) : WithTop ℝ) ≤ p.maxDepth) ∨
        (p.maxDepth = ⊤ ∧ ∃ s : ℝ, 0 < s ∧ d = e.tri (s • e.baseToRef.rot.mulVec base)))) := by
  rcases traceOn_ok h with h | h | h | ⟨_, base', rest', found, cs, hbase', hfound, hlen, hcs, hj⟩
  · exact absurd h.1 (by decide)
  · exact absurd h.1 (by decide)
  · exact absurd h.1 (by decide)
  · rw [hbase] at hbase'
    cases hbase'
    obtain ⟨i, best, hb, hq | ⟨d, s, _, hd, hs, hthr, hbig, hqual, hacc⟩⟩ := judge_ok hj
    · exact absurd rfl hq.1
    · obtain ⟨_, _, _, _, _, _, _, _, hdb, _, hg0, _, _⟩ := accept_ok hacc
      obtain ⟨hbi, _⟩ := bestFrom_spec hb
      obtain ⟨hl, hcand⟩ := candidatesFrom_ok hcs
      obtain ⟨f, hf⟩ : ∃ f, found[i]? = some f := by
        have : i < cs.length := (List.getElem?_eq_some_iff.1 hbi).1
        exact ⟨found[i]'(by omega), List.getElem?_eq_getElem _⟩
      have hpt : best.point = f.1 := (candidate_ok (hcand i f best hf hbi)).1
      have hcase := depths_cases hfull hp ht hlt hfound hcs hf hbi
      rw [hd] at hcase
      constructor
      · intro h0
        refine ⟨d, hg0 h0, ?_⟩
        rcases hcase with ⟨h1, h2, _⟩ | ⟨h1, _, _, h2⟩
        · exact Or.inl ⟨WithTop.coe_le_coe.1 h1, h2⟩
        · exact Or.inr ⟨h1, WithTop.coe_eq_coe.1 h2⟩
      · intro hcam
        refine ⟨_, hdb, ?_⟩
        obtain ⟨as, h1, _, h3, _⟩ := search_alphas hfull hfound
        rw [h1, List.getElem?_map] at hf
        obtain ⟨α, hα, hfα⟩ := Option.map_eq_some_iff.1 hf
        have hmem : α ∈ as := by
          have := List.mem_of_getElem? hα
          simpa using this
        obtain ⟨s', hs', hum⟩ := hcam f.2 ⟨α, (h3 α hmem).1, (h3 α hmem).2, by rw [← hfα]; rfl⟩
        have hf1 : f.1 = e.cam.map f.2 := by rw [← hfα]
        rw [hpt, hf1, hum]
        rcases hcase with ⟨h1, h2, h4⟩ | ⟨h1, _, h2, _⟩
        · left
          rw [tri_seen hp ht h4 hs']
          exact ⟨WithTop.coe_le_coe.1 h1, h2⟩
        · right
          exact ⟨h1, s', hs', by rw [h2]⟩

/-- **C176, violated.** A point without upper bound for its depth is searched for in the direction of infinite depth twice. The second time this candidate is
given a finite depth, although at no finite depth the point would be seen there: it is what the solver makes of two parallel rays, which determine no point. -/
theorem C176_start_again_violated {e : Env} (hfull : e.s.performFullTracing = false) {fuel : Nat} {p : Point} {base : V3} (hp : Parallax e.baseToRef base)
    (hb : p.maxDepth = ⊤) {found : List (V2 × V3)}
    (h : pointsToTrace e fuel (searchEnds e p base).1 (searchEnds e p base).2 = .ok (some found)) (hne : found ≠ []) {cs : List Cand}
    (hcs : candidatesFrom e p 0 found = .ok cs) :
    ∃ f c, found[found.length / 2]? = some f ∧ cs[found.length / 2]? = some c ∧
      c.depth = ((e.tri (e.baseToRef.rot.mulVec base).normalized : ℝ) : WithTop ℝ) ∧ (∀ d : ℝ, ¬ SeenIn e.baseToRef base f.2 ((d : ℝ) : WithTop ℝ)) ∧
      triangulate e.baseToRef base (e.baseToRef.rot.mulVec base).normalized = none := by
  obtain ⟨as, h1, h2, h3, h4⟩ := search_alphas hfull h
  obtain ⟨hl, hcand⟩ := candidatesFrom_ok hcs
  cases as with
  | nil => exact absurd h1 hne
  | cons a as =>
    have ha : a = 0 := by
      rcases h4 with h4 | h4
      · cases h4
      · simpa using h4
    subst ha
    have hlen : found.length / 2 = as.length + 1 := by
      rw [h1]; simp; omega
    have hf : found[found.length / 2]? = some (e.cam.map (dirAt (searchEnds e p base).2 (searchEnds e p base).1 0),
        dirAt (searchEnds e p base).2 (searchEnds e p base).1 0) := by
      rw [hlen, h1, List.map_append, List.getElem?_append_right (by simp)]
      simp
    have hlt : found.length / 2 < cs.length := by
      rw [hl]
      have : 0 < found.length := List.length_pos_iff.2 hne
      omega
    have hc := List.getElem?_eq_getElem hlt
    obtain ⟨_, _, _, _, hfin, _⟩ := candidate_ok (hcand _ _ _ hf hc)
    have hdir : dirAt (searchEnds e p base).2 (searchEnds e p base).1 0 = e.baseToRef.rot.mulVec base := by
      rw [dirAt_zero, ends_top base hb]
    refine ⟨_, _, hf, hc, ?_, ?_, ?_⟩
    · rw [hfin (by omega)]
      simp only [hdir]
    · rintro d ⟨y, hy, hv⟩
      simp only [hdir] at hv
      rw [Sym.mulVec_smul] at hv
      apply hp
      have hx := congrArg V3.x hv
      have hy' := congrArg V3.y hv
      have hz := congrArg V3.z hv
      simp only [V3.smul_x, V3.smul_y, V3.smul_z, V3.add_x, V3.add_y, V3.add_z] at hx hy' hz
      have ex : e.baseToRef.t.x = (y - d) * (e.baseToRef.rot.mulVec base).x := by linarith
      have ey : e.baseToRef.t.y = (y - d) * (e.baseToRef.rot.mulVec base).y := by linarith
      have ez : e.baseToRef.t.z = (y - d) * (e.baseToRef.rot.mulVec base).z := by linarith
      ext <;> simp only [V3.cross, ex, ey, ez, V3.zero_x, V3.zero_y, V3.zero_z] <;> ring
    · unfold triangulate lsq2
      rw [if_pos]
      generalize e.baseToRef.rot.mulVec base = u
      unfold V3.normalized
      split
      · simp only [V3.dot, V3.neg_x, V3.neg_y, V3.neg_z, V3.smul_x, V3.smul_y, V3.smul_z]
        ring
      · simp only [V3.dot, V3.neg_x, V3.neg_y, V3.neg_z]
        ring

namespace Demo

theorem parallax (P : Par) : Parallax (env P).baseToRef ⟨0, 0, 1⟩ := by
  intro h
  have := congrArg V3.y h
  simp [V3.cross, env, M3.mulVec, V3.dot] at this

theorem triangulates (P : Par) : Triangulates (env P) ⟨0, 0, 1⟩ := by
  intro ray x y _ h
  have hx := congrArg V3.x h
  have hz := congrArg V3.z h
  simp only [env, M3.mulVec, V3.dot, V3.add_x, V3.add_z, V3.smul_x, V3.smul_y, V3.smul_z] at hx hz ⊢
  have h0 : ray.x ≠ 0 := by
    intro h0
    rw [h0] at hx
    norm_num at hx
  rw [if_neg h0, div_eq_iff h0]
  have e1 : (10 : ℝ) = y * ray.x := by linarith
  have e2 : x = y * ray.z := by linarith
  rw [e1, e2]
  ring

end Demo

/-- The hypotheses of `C176_far_to_near`, `C176_traced_partial` and `C176_start_again_violated` are met by the example of `Verif/Lemmas/TraceDemo.lean`: a
new point is found at depth 70/3, and the direction of infinite depth is given the depth 20. -/
example : ∃ (q : Point) (d : ℝ), traceOn (Demo.env ⟨0, 0, 10⟩) 6 (new true) = .ok (some (.ok, q)) ∧ q.depth = some d ∧
    ((0 ≤ d ∧ ((d : ℝ) : WithTop ℝ) ≤ ⊤) ∨ ((⊤ : WithTop ℝ) = ⊤ ∧ d = (Demo.env ⟨0, 0, 10⟩).tri ((Demo.env ⟨0, 0, 10⟩).baseToRef.rot.mulVec ⟨0, 0, 1⟩).normalized)) := by
  obtain ⟨q, hq, _⟩ := Demo.traced ⟨0, 0, 10⟩ (by norm_num) (by rw [Demo.lvl_zero]; norm_num)
  obtain ⟨d, h1, h2⟩ := (C176_traced_partial rfl rfl (Demo.parallax _) (Demo.triangulates _) (WithTop.coe_lt_top _) hq).1 rfl
  exact ⟨q, d, hq, h1, h2⟩

example : ∃ (found : List (V2 × V3)) (cs : List Cand) (f : V2 × V3) (c : Cand),
    candidatesFrom (Demo.env ⟨0, 0, 10⟩) (new true) 0 found = .ok cs ∧ found[6]? = some f ∧ cs[6]? = some c ∧
      ∀ d : ℝ, ¬ SeenIn (Demo.env ⟨0, 0, 10⟩).baseToRef ⟨0, 0, 1⟩ f.2 ((d : ℝ) : WithTop ℝ) := by
  obtain ⟨a, _, _, hcs⟩ := Demo.candidates ⟨0, 0, 10⟩ (by norm_num)
  have hfound : pointsToTrace (Demo.env ⟨0, 0, 10⟩) 6 (searchEnds (Demo.env ⟨0, 0, 10⟩) (new true) ⟨0, 0, 1⟩).1
      (searchEnds (Demo.env ⟨0, 0, 10⟩) (new true) ⟨0, 0, 1⟩).2 = .ok (some (Demo.found ⟨0, 0, 10⟩)) := by
    rw [Demo.ends]
    exact Demo.search _
  obtain ⟨f, c, hf, hc, _, h, _⟩ := C176_start_again_violated rfl (Demo.parallax _) rfl hfound (by simp [Demo.found]) hcs
  exact ⟨_, _, f, c, hcs, hf, hc, h⟩

/-- The hypotheses of `C176_depths_partial` are met: a point with depths between 1 and 100 is searched for in this example. -/
example : ∃ (p : Point) (found : List (V2 × V3)), ((p.minDepth : ℝ) : WithTop ℝ) < p.maxDepth ∧ p.maxDepth ≠ ⊤ ∧
    pointsToTrace (Demo.env ⟨0, 0, 10⟩) 6 (searchEnds (Demo.env ⟨0, 0, 10⟩) p ⟨0, 0, 1⟩).1
      (searchEnds (Demo.env ⟨0, 0, 10⟩) p ⟨0, 0, 1⟩).2 = .ok (some found) := by
  obtain ⟨l, hl, _⟩ := pointsToTrace_short (e := Demo.env ⟨0, 0, 10⟩) rfl
    (searchEnds (Demo.env ⟨0, 0, 10⟩) { new true with minDepth := 1, maxDepth := ((100 : ℝ) : WithTop ℝ) } ⟨0, 0, 1⟩).1
    (searchEnds (Demo.env ⟨0, 0, 10⟩) { new true with minDepth := 1, maxDepth := ((100 : ℝ) : WithTop ℝ) } ⟨0, 0, 1⟩).2 6 (by norm_num)
    (by rw [Demo.maxSearchCount_eq]; norm_num)
  exact ⟨{ new true with minDepth := 1, maxDepth := ((100 : ℝ) : WithTop ℝ) }, _, WithTop.coe_lt_coe.2 (by norm_num), WithTop.coe_ne_top, hl⟩

end Mdso.Trace
