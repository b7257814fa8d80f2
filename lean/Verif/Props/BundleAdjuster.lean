import Verif.Lemmas.BundleAdjuster2

/-!
# C97 to C102: what bundle adjustment changes, bounds, marks and reads

The keyframes `added` are added one after the other; `(construct added).keyFrames` are the keyframes as the adjuster holds them, sorted
by address. The result lists the same keyframes in the same order. The specification is `Verif/Spec/BundleAdjuster.lean`.
-/

set_option autoImplicit false

namespace Mdso.BA

open Mdso.Geom Mdso.Light Mdso.BA.Spec

/-! ### Before and after -/

theorem label_get (c : Cam.Cam) (s : Settings) (kfs : List Kf) (second : Nat) (bs : List RBlock) (k : Nat) :
    (label c s kfs second bs)[k]? = kfs[k]?.map fun kf =>
      if k = second then { kf with points := kf.points.mapIdx (labelPoint c s kfs k kf bs) } else kf := by
  unfold label
  rw [List.getElem?_mapIdx]

theorem move_get (v : Values) (kfs : List Kf) (k : Nat) : (kfs.mapIdx (moveKf v))[k]? = kfs[k]?.map (moveKf v k) :=
  List.getElem?_mapIdx

/-- A keyframe after a run. -/
theorem after_kf {c : Cam.Cam} {s : Settings} {kfs : List Kf} {v : Values} {second : Nat} {bs : List RBlock} {k : Nat} {kf kf' : Kf}
    (h : KfPair kfs (label c s (kfs.mapIdx (moveKf v)) second bs) k kf kf') :
    kf'.addr = kf.addr ∧ kf'.thisToWorld = v.pose k ∧ kf'.light = v.light k ∧ kf'.gradNorm = kf.gradNorm ∧ kf'.interp = kf.interp ∧
    kf'.points.length = kf.points.length ∧
    ∀ i op, kf.points[i]? = some op → kf'.points[i]? = some (if k = second then
      labelPoint c s (kfs.mapIdx (moveKf v)) k (moveKf v k kf) bs i (movePoint v k i op) else movePoint v k i op) := by
  obtain ⟨h1, h2⟩ := h
  rw [label_get, move_get, h1] at h2
  simp only [Option.map_some, Option.some.injEq] at h2
  by_cases hk : k = second
  · rw [if_pos hk] at h2
    subst h2
    refine ⟨rfl, rfl, rfl, rfl, rfl, by simp [moveKf], ?_⟩
    intro i op hop
    simp only [if_pos hk]
    rw [List.getElem?_mapIdx]
    show Option.map _ ((kf.points.mapIdx (movePoint v k))[i]?) = _
    rw [List.getElem?_mapIdx, hop]
    rfl
  · rw [if_neg hk] at h2
    subst h2
    refine ⟨rfl, rfl, rfl, rfl, rfl, by simp [moveKf], ?_⟩
    intro i op hop
    simp only [if_neg hk]
    show (kf.points.mapIdx (movePoint v k))[i]? = _
    rw [List.getElem?_mapIdx, hop]
    rfl

/-- A point after a run. -/
theorem after_point {c : Cam.Cam} {s : Settings} {kfs : List Kf} {v : Values} {second : Nat} {bs : List RBlock} {k i : Nat}
    {op op' : OptPoint} (h : PointPair kfs (label c s (kfs.mapIdx (moveKf v)) second bs) k i op op') :
    ∃ kf, kfs[k]? = some kf ∧ kf.points[i]? = some op ∧ op' = if k = second then
      labelPoint c s (kfs.mapIdx (moveKf v)) k (moveKf v k kf) bs i (movePoint v k i op) else movePoint v k i op := by
  obtain ⟨kf, kf', hk, h1, h2⟩ := h
  have := (after_kf hk).2.2.2.2.2.2 i op h1
  rw [h2] at this
  exact ⟨kf, hk.1, h1, by simpa using this⟩

theorem after_length (c : Cam.Cam) (s : Settings) (kfs : List Kf) (v : Values) (second : Nat) (bs : List RBlock) :
    (label c s (kfs.mapIdx (moveKf v)) second bs).length = kfs.length := by
  simp [label]

theorem newState_active {s : Settings} {values : List ℝ} {st : PState} (h : newState s values st = .active) : st = .active := by
  unfold newState at h
  split at h
  · cases h
  · split at h
    · cases h
    · split at h
      · cases h
      · exact h

/-- **C97.** The adjuster holds exactly the keyframes that were added, sorted by address. -/
theorem C97_set {added : List Kf} (hd : Distinct added) :
    (∀ kf, kf ∈ (construct added).keyFrames ↔ kf ∈ added) ∧ (construct added).keyFrames.Pairwise fun a b => a.addr < b.addr :=
  ⟨(construct_spec hd).1, (construct_spec hd).2.1⟩

/-- **C97.** Bundle adjustment keeps the keyframes and their pictures, and for every keyframe the number and order of its points, their
pixels and standard deviations; a depth that is not finite stays so and a finite one stays finite; no point becomes active again, and a
point that was out of bounds stays so; the pose and the light transform of the keyframe added first do not change, no light
transform changes if they are not to be optimized, and rotations stay rotations. -/
theorem C97_frame {c : Cam.Cam} {s : Settings} {solve : Solver} (hsolve : IsSolver solve) {added out : List Kf} (hd : Distinct added)
    (h : adjust c s solve (construct added) = .ok out) :
    out.length = (construct added).keyFrames.length ∧
    (∀ k kf kf', KfPair (construct added).keyFrames out k kf kf' →
      kf'.addr = kf.addr ∧ kf'.gradNorm = kf.gradNorm ∧ kf'.interp = kf.interp ∧ kf'.points.length = kf.points.length ∧
      (IsFirst added (construct added).keyFrames k → kf'.thisToWorld = kf.thisToWorld ∧ kf'.light = kf.light) ∧
      (s.gauge.optimizeAffineLight = false → kf'.light = kf.light) ∧
      (Base.Spec.Orthogonal kf.thisToWorld.rot → Base.Spec.Orthogonal kf'.thisToWorld.rot)) ∧
    (∀ k i op op', PointPair (construct added).keyFrames out k i op op' →
      op'.p = op.p ∧ op'.stddev = op.stddev ∧ (op'.logInvDepth = none ↔ op.logInvDepth = none) ∧
      (op'.state = .active → op.state = .active) ∧ (op.state = .oob → op'.state = .oob)) := by
  obtain ⟨f, first, sk, sp, bs, hf, h1, h2, h3, h4, hsp, hbs, rfl⟩ := adjust_ok hd h
  obtain ⟨kfs, hkfs⟩ : ∃ kfs, kfs = (construct added).keyFrames := ⟨_, rfl⟩
  simp only [← hkfs] at h1 h2 h3 h4 hbs ⊢
  refine ⟨after_length _ _ _ _ _ _, ?_, ?_⟩
  · intro k kf kf' hk
    obtain ⟨a1, a2, a3, a4, a5, a6, -⟩ := after_kf hk
    refine ⟨a1, a4, a5, a6, ?_, ?_, ?_⟩
    · intro hfirst
      have hk1 := (h3 k).1 hfirst
      subst hk1
      have hne : k ≠ secondIndex k := by unfold secondIndex; split <;> omega
      have hdecl : (problemOf c s kfs k sp bs).decl k = ⟨.constant, true, true⟩ := by
        simp [problemOf, Gauge.decl, hne]
      have t1 := hsolve.translation (problemOf c s kfs k sp bs) k kf hk.1
      have t2 := hsolve.rotation_constant (problemOf c s kfs k sp bs) k kf hk.1 (by rw [hdecl])
      have t3 := hsolve.light_constant (problemOf c s kfs k sp bs) k kf hk.1 (by rw [hdecl])
      rw [hdecl] at t1
      rw [a2, a3]
      refine ⟨?_, t3⟩
      obtain ⟨m, hm⟩ : ∃ m, m = (solve (problemOf c s kfs k sp bs)).pose k := ⟨_, rfl⟩
      rw [← hm] at t1 t2 ⊢
      cases m
      obtain ⟨w, hw⟩ : ∃ w, w = kf.thisToWorld := ⟨_, rfl⟩
      rw [← hw] at t1 t2 ⊢
      cases w
      simp only [Moves] at t1 t2
      rw [t1, t2]
    · intro hno
      rw [a3]
      refine hsolve.light_constant (problemOf c s kfs first sp bs) k kf hk.1 ?_
      show (Gauge.decl s.gauge kfs.length first (secondIndex first) sp k).lConst = true
      simp only [Gauge.decl, hno]
      split_ifs <;> rfl
    · intro ho
      rw [a2]
      exact hsolve.rotation (problemOf c s kfs first sp bs) k kf hk.1 ho
  · intro k i op op' hp
    obtain ⟨kf, -, -, rfl⟩ := after_point hp
    by_cases hk : k = secondIndex first
    · rw [if_pos hk]
      refine ⟨rfl, rfl, ?_, ?_, ?_⟩
      · show (op.logInvDepth.map _) = none ↔ _
        simp
      · exact fun h => newState_active h
      · intro ho
        show newState s _ op.state = _
        unfold newState
        rw [if_pos ho]
    · rw [if_neg hk]
      refine ⟨rfl, rfl, ?_, id, id⟩
      show (op.logInvDepth.map _) = none ↔ _
      simp

/-! ### Limits -/

theorem depth_limits {a b l : ℝ} (ha : 0 < a) (hb : 0 < b) :
    (-Real.log b ≤ l ∧ l ≤ -Real.log a) ↔ (a ≤ Real.exp (-l) ∧ Real.exp (-l) ≤ b) := by
  rw [← Real.log_le_iff_le_exp ha, ← Real.le_log_iff_exp_le hb]
  constructor <;> rintro ⟨h1, h2⟩ <;> constructor <;> linarith

theorem move_start {c : Cam.Cam} {s : Settings} {kfs : List Kf} {first : Nat} {sp : Gauge.SPlus} {bs : List RBlock} :
    kfs.mapIdx (moveKf (start (problemOf c s kfs first sp bs))) = kfs := by
  refine List.ext_getElem? fun k => ?_
  rw [move_get]
  cases hk : kfs[k]? with
  | none => rfl
  | some kf =>
    simp only [Option.map_some, Option.some.injEq]
    unfold moveKf start problemOf
    simp only [hk, Option.map_some, Option.getD_some]
    have : kf.points.mapIdx (movePoint ⟨fun k => (kfs[k]?.map Kf.thisToWorld).getD ⟨⟨0, 0, 0⟩, 0⟩,
        fun k => (kfs[k]?.map Kf.light).getD AffLight.identity,
        fun k i => (kfs[k]?.bind fun kf => kf.points[i]?.bind OptPoint.logInvDepth).getD 0⟩ k) = kf.points := by
      refine List.ext_getElem? fun i => ?_
      rw [List.getElem?_mapIdx]
      cases hi : kf.points[i]? with
      | none => rfl
      | some op =>
        simp only [Option.map_some, Option.some.injEq]
        unfold movePoint
        simp only [hk, hi, Option.bind_some]
        cases hl : op.logInvDepth with
        | none => cases op; simp_all
        | some l => cases op; simp_all
    rw [this]

theorem start_bounds {c : Cam.Cam} {s : Settings} {kfs : List Kf} {first : Nat} {sp : Gauge.SPlus} {bs : List RBlock}
    (h0 : 0 < s.depthMin) (h1 : 0 < s.depthMax) (h : ∀ kf ∈ kfs, WithinLimits s kf) :
    InBounds (problemOf c s kfs first sp bs) (start (problemOf c s kfs first sp bs)) := by
  constructor
  · intro k hk
    have hk' : kfs[k]? = some kfs[k] := List.getElem?_eq_getElem hk
    have := (h _ (List.mem_of_getElem? hk')).1
    unfold start problemOf
    simp only [hk', Option.map_some, Option.getD_some]
    exact this
  · intro k kf i op l hk hi hl
    have hk' : kfs[k]? = some kf := hk
    have := (h _ (List.mem_of_getElem? hk')).2 op (List.mem_of_getElem? hi) (Real.exp (-l)) (by unfold depthOf; rw [hl]; rfl)
    unfold start problemOf
    simp only [hk', Option.bind_some, hi, hl, Option.getD_some]
    exact (depth_limits h0 h1).2 this

/-- The keyframes after a run that ends within the bounds. -/
theorem within_after {c : Cam.Cam} {s : Settings} {kfs : List Kf} {first : Nat} {sp : Gauge.SPlus} {bs bs' : List RBlock} {v : Values}
    {second : Nat} (h0 : 0 < s.depthMin) (h1 : 0 < s.depthMax) (h : InBounds (problemOf c s kfs first sp bs) v) :
    ∀ kf' ∈ label c s (kfs.mapIdx (moveKf v)) second bs', WithinLimits s kf' := by
  intro kf' hm
  obtain ⟨k, hk'⟩ := List.getElem?_of_mem hm
  obtain ⟨hlt, -⟩ := List.getElem?_eq_some_iff.1 hk'
  rw [after_length] at hlt
  have hk : kfs[k]? = some kfs[k] := List.getElem?_eq_getElem hlt
  obtain ⟨-, -, a3, -, -, a6, a7⟩ := after_kf ⟨hk, hk'⟩
  refine ⟨?_, ?_⟩
  · rw [a3]; exact h.1 k hlt
  · intro op' hop d hdep
    obtain ⟨i, hi'⟩ := List.getElem?_of_mem hop
    obtain ⟨hil, -⟩ := List.getElem?_eq_some_iff.1 hi'
    rw [a6] at hil
    have hi : kfs[k].points[i]? = some kfs[k].points[i] := List.getElem?_eq_getElem hil
    have h2 := a7 i _ hi
    rw [hi'] at h2
    have h3 : op'.logInvDepth = (kfs[k].points[i]).logInvDepth.map fun _ => v.logInvDepth k i := by
      simp only [Option.some.injEq] at h2
      rw [h2]
      split <;> rfl
    unfold depthOf at hdep
    rw [h3] at hdep
    cases hl : (kfs[k].points[i]).logInvDepth with
    | none => rw [hl] at hdep; simp at hdep
    | some l =>
      rw [hl] at hdep
      simp only [Option.map_some, Option.some.injEq] at hdep
      rw [← hdep]
      exact (depth_limits h0 h1).1 (h.2 k _ i _ l hk hi hl)

theorem fold_plus {c i : V3} {r : ℝ} {p : Gauge.SPlus} (h : Gauge.mk' c r i = .ok p) (hr : 0 ≤ r) (steps : List (ℝ × ℝ)) :
    ∀ t : V3, ((t - c).norm = r ∨ t = c) →
      ((steps.foldl (Gauge.plus p) t - c).norm = r ∨ steps.foldl (Gauge.plus p) t = c) := by
  obtain ⟨hc, hr', -⟩ := Gauge.mk'_ok h
  induction steps with
  | nil => exact fun _ ht => ht
  | cons d steps ih =>
    intro t _
    rw [List.foldl_cons]
    apply ih
    by_cases hm : Gauge.moved p t d = 0
    · right
      unfold Gauge.plus
      rw [hm, V3.normalized_zero, hc]
      ext <;> simp
    · left
      have := Gauge.dist_plus p t d hm (by rw [hr']; exact hr)
      rw [hc, hr'] at this
      exact this

/-- **C97.** The keyframe with the lowest address of all but the first one keeps its distance to the first one or ends exactly there
(`C52_distance_violated` shows that the latter is possible). Its rotation does not change if that is asked for. If it is asked for, with
two keyframes no pose and no light transform changes at all. -/
theorem C97_gauge {c : Cam.Cam} {s : Settings} {solve : Solver} (hsolve : IsSolver solve) {added out : List Kf} (hd : Distinct added)
    (h : adjust c s solve (construct added) = .ok out) {j k : Nat} {f kf kf' : Kf} (hj : IsFirst added (construct added).keyFrames j)
    (hf : (construct added).keyFrames[j]? = some f) (hk : IsLowest added (construct added).keyFrames k)
    (hp : KfPair (construct added).keyFrames out k kf kf') :
    ((kf'.thisToWorld.t - f.thisToWorld.t).norm = (kf.thisToWorld.t - f.thisToWorld.t).norm ∨ kf'.thisToWorld.t = f.thisToWorld.t) ∧
    (s.gauge.fixedRotationOnSecondKF = true → kf'.thisToWorld.rot = kf.thisToWorld.rot) ∧
    (s.gauge.fixedMotionOnFirstAdjustent = true → added.length = 2 →
      kf'.thisToWorld = kf.thisToWorld ∧ kf'.light = kf.light) := by
  have hlen : (construct added).keyFrames.length = added.length := by
    have n1 : (construct added).keyFrames.Nodup := (construct_spec hd).2.1.imp fun h e => by rw [e] at h; exact lt_irrefl _ h
    have n2 : added.Nodup := List.Nodup.of_map _ hd
    exact ((List.perm_ext_iff_of_nodup n1 n2).2 (construct_spec hd).1).length_eq
  obtain ⟨f', first, sk, sp, bs, h0, h1, h2, h3, h4, hsp, hbs, rfl⟩ := adjust_ok hd h
  obtain ⟨kfs, hkfs⟩ : ∃ kfs, kfs = (construct added).keyFrames := ⟨_, rfl⟩
  simp only [← hkfs] at h1 h2 h3 h4 hbs hj hf hk hp hlen ⊢
  have e1 := (h3 j).1 hj
  subst e1
  rw [h1] at hf
  cases hf
  obtain ⟨e2, -⟩ := (h4 k).1 hk
  subst e2
  have e3 : kf = sk := by have := hp.1; rw [h2] at this; cases this; rfl
  subst e3
  obtain ⟨-, a2, a3, -⟩ := after_kf hp
  have hne : secondIndex j ≠ j := by unfold secondIndex; split <;> omega
  have hdecl : (problemOf c s kfs j sp bs).decl (secondIndex j) =
      if s.gauge.fixedMotionOnFirstAdjustent = true ∧ kfs.length = 2 then ⟨.constant, true, true⟩ else
        ⟨.sphere sp, s.gauge.fixedRotationOnSecondKF, !s.gauge.optimizeAffineLight⟩ := by
    simp [problemOf, Gauge.decl, hne]
  have t1 := hsolve.translation (problemOf c s kfs j sp bs) _ kf h2
  have t2 := hsolve.rotation_constant (problemOf c s kfs j sp bs) _ kf h2
  have t3 := hsolve.light_constant (problemOf c s kfs j sp bs) _ kf h2
  rw [hdecl] at t1 t2 t3
  rw [a2, a3]
  by_cases hfix : s.gauge.fixedMotionOnFirstAdjustent = true ∧ kfs.length = 2
  · rw [if_pos hfix] at t1 t2 t3
    have t2 := t2 rfl
    have t3 := t3 rfl
    have t1 : _ = _ := t1
    refine ⟨Or.inl (by rw [t1]), fun _ => t2, fun _ _ => ⟨?_, t3⟩⟩
    obtain ⟨m, hm⟩ : ∃ m, m = (solve (problemOf c s kfs j sp bs)).pose (secondIndex j) := ⟨_, rfl⟩
    rw [← hm] at t1 t2 ⊢
    cases m
    obtain ⟨w, hw⟩ : ∃ w, w = kf.thisToWorld := ⟨_, rfl⟩
    rw [← hw] at t1 t2 ⊢
    cases w
    simp only at t1 t2
    rw [t1, t2]
  · rw [if_neg hfix] at t1 t2 t3
    refine ⟨?_, t2, fun h1 h2 => absurd ⟨h1, hlen.trans h2⟩ hfix⟩
    obtain ⟨steps, hs⟩ := t1
    rw [hs]
    exact fold_plus hsp (V3.norm_nonneg _) steps _ (Or.inl rfl)

/-- **C98 (part).** If the solver does not give up, all light transforms and all finite depths are within the limits of the settings
afterwards; if it gives up, no pose, light transform or depth has changed. Missing: depths that are not finite, see
`C98_infinite_violated`. -/
theorem C98_partial {c : Cam.Cam} {s : Settings} {solve : Solver} (hsolve : IsSolver solve) (h0 : 0 < s.depthMin) (h1 : 0 < s.depthMax)
    {added out : List Kf} (hd : Distinct added) (h : adjust c s solve (construct added) = .ok out) :
    (∀ kf' ∈ out, WithinLimits s kf') ∨
    ((∀ k kf kf', KfPair (construct added).keyFrames out k kf kf' → kf'.thisToWorld = kf.thisToWorld ∧ kf'.light = kf.light) ∧
     ∀ k i op op', PointPair (construct added).keyFrames out k i op op' → op'.logInvDepth = op.logInvDepth) := by
  obtain ⟨f, first, sk, sp, bs, hf, -, -, -, -, -, -, rfl⟩ := adjust_ok hd h
  obtain ⟨kfs, hkfs⟩ : ∃ kfs, kfs = (construct added).keyFrames := ⟨_, rfl⟩
  simp only [← hkfs]
  rcases hsolve.bounds (problemOf c s kfs first sp bs) with hs | hs
  · right
    rw [hs, move_start]
    constructor
    · rintro k kf kf' ⟨hk, hk'⟩
      rw [label_get, hk] at hk'
      simp only [Option.map_some, Option.some.injEq] at hk'
      rw [← hk']
      split <;> exact ⟨rfl, rfl⟩
    · rintro k i op op' ⟨kf, kf', ⟨hk, hk'⟩, hi, hi'⟩
      rw [label_get, hk] at hk'
      simp only [Option.map_some, Option.some.injEq] at hk'
      rw [← hk'] at hi'
      split at hi'
      · simp only [List.getElem?_mapIdx, hi, Option.map_some, Option.some.injEq] at hi'
        rw [← hi']; rfl
      · rw [hi] at hi'; cases hi'; rfl
  · exact Or.inl (within_after h0 h1 hs)

/-- **C98.** What is within the limits before is within them afterwards. -/
theorem C98_limits {c : Cam.Cam} {s : Settings} {solve : Solver} (hsolve : IsSolver solve) (h0 : 0 < s.depthMin) (h1 : 0 < s.depthMax)
    {added out : List Kf} (hd : Distinct added) (hw : ∀ kf ∈ added, WithinLimits s kf)
    (h : adjust c s solve (construct added) = .ok out) : ∀ kf' ∈ out, WithinLimits s kf' := by
  obtain ⟨f, first, sk, sp, bs, hf, -, -, -, -, -, -, rfl⟩ := adjust_ok hd h
  have hw' : ∀ kf ∈ (construct added).keyFrames, WithinLimits s kf := fun kf hm => hw kf (((construct_spec hd).1 kf).1 hm)
  rcases hsolve.bounds (problemOf c s (construct added).keyFrames first sp bs) with hs | hs
  · refine within_after (first := first) (sp := sp) (bs := bs) h0 h1 ?_
    rw [hs]
    exact start_bounds h0 h1 hw'
  · exact within_after h0 h1 hs

/-! ### The photometric error -/

theorem obs_data {c : Cam.Cam} {s : Settings} {kfs : List Kf} {q : Obs} (h : IsObs c s kfs q) :
    ∃ base ref op l, kfs[q.base]? = some base ∧ kfs[q.ref]? = some ref ∧ base.points[q.idx]? = some op ∧ op.logInvDepth = some l ∧
      toBlock c s kfs q = blk c s base q.base q.idx q.ref op.p q.off := by
  obtain ⟨base, ref, op, l, h1, h2, h3, h4, -⟩ := h
  refine ⟨base, ref, op, l, h1, h2, h3, h4, ?_⟩
  unfold toBlock
  rw [h1, Option.bind_some, h3]
  rfl

theorem moved_point (v : Values) {base : Kf} {k i : Nat} {op : OptPoint} (h : base.points[i]? = some op) :
    (moveKf v k base).points[i]? = some (movePoint v k i op) := by
  show (base.points.mapIdx (movePoint v k))[i]? = _
  rw [List.getElem?_mapIdx, h]
  rfl

/-- The residual of an observation is its brightness error. -/
theorem value_eq {c : Cam.Cam} {s : Settings} {kfs : List Kf} {q : Obs} (h : IsObs c s kfs q) (v : Values) :
    (toBlock c s kfs q).base = q.base ∧ (toBlock c s kfs q).idx = q.idx ∧ (toBlock c s kfs q).ref = q.ref ∧
    (toBlock c s kfs q).weight = weightOf s (kfs.mapIdx (moveKf v)) q ∧
    (kfs[q.ref]?.map fun ref => residual c (toBlock c s kfs q) ref.interp (v.logInvDepth q.base q.idx) (v.pose q.base) (v.pose q.ref)
      (v.light q.base) (v.light q.ref)) = some (mismatch c (kfs.mapIdx (moveKf v)) q) := by
  obtain ⟨base, ref, op, l, h1, h2, h3, h4, h5⟩ := obs_data h
  rw [h5]
  refine ⟨rfl, rfl, rfl, ?_, ?_⟩
  · unfold weightOf
    rw [move_get, h1, Option.map_some, Option.bind_some, moved_point v h3]
    rfl
  · unfold mismatch
    rw [move_get, move_get, h1, h2]
    simp only [Option.map_some, Option.bind_some]
    rw [moved_point v h3, Option.bind_some]
    have : (movePoint v q.base q.idx op).logInvDepth = some (v.logInvDepth q.base q.idx) := by
      unfold movePoint; rw [h4]; rfl
    rw [this, Option.map_some, Option.getD_some]
    have e := residual_eq c s base (moveKf v q.base base) (moveKf v q.ref ref) q.base q.idx q.ref op.p q.off
      (v.logInvDepth q.base q.idx) rfl
    exact congrArg some e

theorem cost_eq {c : Cam.Cam} {s : Settings} {kfs : List Kf} {first : Nat} {sp : Gauge.SPlus} (v : Values) :
    cost (problemOf c s kfs first sp ((observations c s kfs).map (toBlock c s kfs))) v =
      photometricError c s (kfs.mapIdx (moveKf v)) (observations c s kfs) := by
  unfold cost photometricError
  congr 2
  show List.map _ ((observations c s kfs).map (toBlock c s kfs)) = _
  rw [List.map_map]
  refine List.map_congr_left fun q hq => ?_
  obtain ⟨b1, b2, b3, b4, b5⟩ := value_eq (mem_observations.1 hq) v
  simp only [Function.comp]
  rw [b4, b3, b1, b2]
  show _ * huber s.outlierDiff ((kfs[q.ref]?.map _).getD 0 ^ 2) = _
  rw [show problemOf c s kfs first sp ((observations c s kfs).map (toBlock c s kfs)) = _ from rfl]
  have b5' := congrArg (fun o => Option.getD o 0) b5
  simp only [Option.getD_some] at b5'
  rw [← b5']
  rfl

theorem label_mismatch (c : Cam.Cam) (s : Settings) (kfs : List Kf) (second : Nat) (bs : List RBlock) (q : Obs) :
    mismatch c (label c s kfs second bs) q = mismatch c kfs q ∧ weightOf s (label c s kfs second bs) q = weightOf s kfs q := by
  unfold mismatch weightOf
  rw [label_get, label_get]
  cases hb : kfs[q.base]? with
  | none => exact ⟨rfl, rfl⟩
  | some base =>
    simp only [Option.map_some, Option.bind_some]
    obtain ⟨base', hbase'⟩ : ∃ base', base' = if q.base = second then
      { base with points := base.points.mapIdx (labelPoint c s kfs q.base base bs) } else base := ⟨_, rfl⟩
    rw [← hbase']
    have e1 : base'.thisToWorld = base.thisToWorld ∧ base'.light = base.light ∧ base'.interp = base.interp ∧
        base'.gradNorm = base.gradNorm := by rw [hbase']; split <;> exact ⟨rfl, rfl, rfl, rfl⟩
    have e2 : ∀ op, base.points[q.idx]? = some op → ∃ op', base'.points[q.idx]? = some op' ∧ op'.p = op.p ∧
        op'.logInvDepth = op.logInvDepth := by
      intro op hop
      rw [hbase']
      split
      · simp only [List.getElem?_mapIdx, hop, Option.map_some]
        exact ⟨_, rfl, rfl, rfl⟩
      · exact ⟨op, hop, rfl, rfl⟩
    have e3 : base.points[q.idx]? = none → base'.points[q.idx]? = none := by
      intro hop
      rw [hbase']
      split
      · simp only [List.getElem?_mapIdx, hop, Option.map_none]
      · exact hop
    have hg : ∀ pos, gradAt base' pos = gradAt base pos := by intro pos; unfold gradAt; rw [e1.2.2.2]
    cases hop : base.points[q.idx]? with
    | none =>
      rw [e3 hop]
      constructor
      · cases kfs[q.ref]? <;> rfl
      · rfl
    | some op =>
      obtain ⟨op', o1, o2, o3⟩ := e2 op hop
      rw [o1]
      simp only [Option.bind_some, Option.map_some, o2, o3, hg]
      refine ⟨?_, trivial⟩
      cases kfs[q.ref]? with
      | none => rfl
      | some ref =>
        simp only [Option.map_some, Option.bind_some]
        cases op.logInvDepth with
        | none => rfl
        | some l =>
          simp only [Option.map_some, Option.getD_some]
          unfold brightnessError seenIn inWorld
          rw [e1.1, e1.2.1, e1.2.2.1]
          split <;> rfl

theorem label_error (c : Cam.Cam) (s : Settings) (kfs : List Kf) (second : Nat) (bs : List RBlock) (obs : List Obs) :
    photometricError c s (label c s kfs second bs) obs = photometricError c s kfs obs := by
  unfold photometricError
  simp only [label_mismatch]

/-- **C102.** From keyframes within the limits, the photometric error over all observations does not grow. -/
theorem C102_descent {c : Cam.Cam} {s : Settings} {solve : Solver} (hsolve : IsSolver solve) (h0 : 0 < s.depthMin) (h1 : 0 < s.depthMax)
    {added out : List Kf} (hd : Distinct added) (hw : ∀ kf ∈ added, WithinLimits s kf)
    (h : adjust c s solve (construct added) = .ok out) :
    ∃ obs, ListsObs c s (construct added).keyFrames obs ∧
      photometricError c s out obs ≤ photometricError c s (construct added).keyFrames obs := by
  obtain ⟨f, first, sk, sp, bs, hf, -, -, -, -, -, hbs, rfl⟩ := adjust_ok hd h
  have hw' : ∀ kf ∈ (construct added).keyFrames, WithinLimits s kf := fun kf hm => hw kf (((construct_spec hd).1 kf).1 hm)
  refine ⟨_, lists_observations c s _, ?_⟩
  rw [label_error]
  obtain ⟨-, rfl⟩ := allBlocks_ok.1 hbs
  have := hsolve.descent (problemOf c s (construct added).keyFrames first sp
    ((observations c s (construct added).keyFrames).map (toBlock c s (construct added).keyFrames))) (start_bounds h0 h1 hw')
  rw [cost_eq, cost_eq, move_start] at this
  exact this

theorem huber_nonneg {δ x : ℝ} (hδ : 0 < δ) : 0 ≤ huber δ (x ^ 2) ∧ (huber δ (x ^ 2) = 0 → x = 0) := by
  unfold huber
  by_cases h : x ^ 2 ≤ δ ^ 2
  · rw [if_pos h]
    exact ⟨sq_nonneg x, fun h => by simpa using h⟩
  · rw [if_neg h, Real.sqrt_sq_eq_abs]
    have hlt : δ < |x| := by
      have := sq_lt_sq.1 (not_le.1 h)
      rwa [abs_of_pos hδ] at this
    have : 0 < 2 * δ * |x| - δ ^ 2 := by nlinarith
    exact ⟨this.le, fun h0 => absurd h0 this.ne'⟩

/-- **C102.** If no brightness differs before, none differs afterwards. -/
theorem C102_exact {c : Cam.Cam} {s : Settings} {solve : Solver} (hsolve : IsSolver solve) (h0 : 0 < s.depthMin) (h1 : 0 < s.depthMax)
    (hc : 0 < s.gradWeightingC) (ho : 0 < s.outlierDiff)
    {added out : List Kf} (hd : Distinct added) (hw : ∀ kf ∈ added, WithinLimits s kf)
    (h : adjust c s solve (construct added) = .ok out)
    (hz : ∀ q, IsObs c s (construct added).keyFrames q → mismatch c (construct added).keyFrames q = 0) :
    ∀ q, IsObs c s (construct added).keyFrames q → mismatch c out q = 0 := by
  obtain ⟨obs, hobs, hle⟩ := C102_descent hsolve h0 h1 hd hw h
  have hstart : photometricError c s (construct added).keyFrames obs = 0 := by
    unfold photometricError
    have : (obs.map fun q => weightOf s (construct added).keyFrames q *
        huber s.outlierDiff (mismatch c (construct added).keyFrames q ^ 2)) = obs.map fun _ => (0 : ℝ) := by
      refine List.map_congr_left fun q hq => ?_
      rw [hz q ((hobs.1 q).1 hq)]
      unfold huber
      rw [if_pos (by nlinarith)]
      ring
    rw [this]; simp
  rw [hstart] at hle
  have hpos : ∀ q, IsObs c s (construct added).keyFrames q → 0 < weightOf s out q := by
    intro q hq
    obtain ⟨base, ref, op, l, b1, b2, b3, b4, -⟩ := obs_data hq
    obtain ⟨-, c2, c3⟩ := C97_frame hsolve hd h
    obtain ⟨hlen, -⟩ := C97_frame hsolve hd h
    obtain ⟨hlt, -⟩ := List.getElem?_eq_some_iff.1 b1
    have hk' : out[q.base]? = some (out[q.base]'(by omega)) := List.getElem?_eq_getElem _
    obtain ⟨-, -, -, d4, -⟩ := c2 q.base base _ ⟨b1, hk'⟩
    obtain ⟨hil, -⟩ := List.getElem?_eq_some_iff.1 b3
    have hi' := List.getElem?_eq_getElem (l := (out[q.base]'(by omega)).points) (i := q.idx) (by omega)
    unfold weightOf
    rw [hk', Option.bind_some, hi', Option.map_some, Option.getD_some]
    have : 0 < s.gradWeightingC ^ 2 := by positivity
    positivity
  have hnn : ∀ x ∈ obs.map (fun q => weightOf s out q * huber s.outlierDiff (mismatch c out q ^ 2)), 0 ≤ x := by
    intro x hx
    obtain ⟨q, hq, rfl⟩ := List.mem_map.1 hx
    exact mul_nonneg (hpos q ((hobs.1 q).1 hq)).le (huber_nonneg ho).1
  have hsum : (obs.map (fun q => weightOf s out q * huber s.outlierDiff (mismatch c out q ^ 2))).sum = 0 := by
    refine le_antisymm ?_ (List.sum_nonneg hnn)
    unfold photometricError at hle
    linarith
  intro q hq
  have hterm : weightOf s out q * huber s.outlierDiff (mismatch c out q ^ 2) = 0 := by
    refine le_antisymm ?_ (hnn _ (List.mem_map_of_mem ((hobs.1 q).2 hq)))
    rw [← hsum]
    exact List.single_le_sum hnn _ (List.mem_map_of_mem ((hobs.1 q).2 hq))
  exact (huber_nonneg ho).2 ((mul_eq_zero.1 hterm).resolve_left (hpos q hq).ne')

/-! ### Which points are marked -/

theorem values_eq {c : Cam.Cam} {s : Settings} {kfs : List Kf} (v : Values) {k i : Nat} {kf : Kf} {op : OptPoint} (hk : kfs[k]? = some kf)
    (hi : kf.points[i]? = some op) :
    pointValues c (kfs.mapIdx (moveKf v)) k (moveKf v k kf) ((observations c s kfs).map (toBlock c s kfs)) i (movePoint v k i op) =
      ((observations c s kfs).filter fun q => q.base == k && q.idx == i).map (mismatch c (kfs.mapIdx (moveKf v))) := by
  unfold pointValues
  cases hl : op.logInvDepth with
  | none =>
    have e1 : (movePoint v k i op).logInvDepth = none := by unfold movePoint; rw [hl]; rfl
    have e2 : (observations c s kfs).filter (fun q => q.base == k && q.idx == i) = [] := by
      rw [List.filter_eq_nil_iff]
      intro q hq
      obtain ⟨base, ref, op', l, b1, -, b3, b4, -⟩ := mem_observations.1 hq
      simp only [Bool.and_eq_true, beq_iff_eq, not_and]
      rintro rfl rfl
      rw [hk] at b1; cases b1
      rw [hi] at b3; cases b3
      rw [hl] at b4; cases b4
    rw [e1, e2]; rfl
  | some l =>
    have e1 : (movePoint v k i op).logInvDepth = some (v.logInvDepth k i) := by unfold movePoint; rw [hl]; rfl
    rw [e1]
    simp only [Option.elim_some]
    unfold valuesOf
    have e2 : ((observations c s kfs).map (toBlock c s kfs)).filter (fun b => b.base == k && b.idx == i) =
        ((observations c s kfs).filter fun q => q.base == k && q.idx == i).map (toBlock c s kfs) := by
      rw [List.filter_map]
      congr 1
      refine List.filter_congr fun q hq => ?_
      obtain ⟨b1, b2, -⟩ := value_eq (mem_observations.1 hq) v
      simp only [Function.comp, b1, b2]
    rw [e2, List.filterMap_map, ← List.filterMap_eq_map]
    refine List.filterMap_congr fun q hq => ?_
    obtain ⟨hq1, hq2⟩ := List.mem_filter.1 hq
    simp only [Bool.and_eq_true, beq_iff_eq] at hq2
    obtain ⟨-, -, b3, -, b5⟩ := value_eq (mem_observations.1 hq1) v
    simp only [Function.comp]
    rw [← b5, b3, move_get, Option.map_map, hq2.1, hq2.2]
    rfl

/-- **C99 (part).** The points that are marked are those of the keyframe with the lowest address of all but the first one. Such a point
that was out of bounds stays so. Any other one without observations is out of bounds afterwards. One with observations is an outlier
afterwards if the upper median of its brightness errors exceeds the threshold, otherwise it keeps its state. Missing: the error is
taken with its sign, see `C99_sign_violated`, and the points of the other keyframes are not marked, see `C99_other_violated`. -/
theorem C99_partial {c : Cam.Cam} {s : Settings} {solve : Solver} {added out : List Kf} (hd : Distinct added)
    (h : adjust c s solve (construct added) = .ok out) {k i : Nat} {op op' : OptPoint}
    (hk : IsLowest added (construct added).keyFrames k) (hp : PointPair (construct added).keyFrames out k i op op') :
    ∃ obs, ListsObsOf c s (construct added).keyFrames k i obs ∧ (op.state = .oob → op'.state = .oob) ∧
      (op.state ≠ .oob → obs = [] → op'.state = .oob) ∧
      (op.state ≠ .oob → obs ≠ [] → ∃ m, IsUpperMedian (obs.map (mismatch c out)) m ∧
        (s.outlierDiff < m → op'.state = .outlier) ∧ (m ≤ s.outlierDiff → op'.state = op.state)) := by
  obtain ⟨f, first, sk, sp, bs, hf, -, -, -, h4, -, hbs, rfl⟩ := adjust_ok hd h
  obtain ⟨-, rfl⟩ := allBlocks_ok.1 hbs
  have hk2 := ((h4 k).1 hk).1
  obtain ⟨kf, a1, a2, a3⟩ := after_point hp
  rw [if_pos hk2] at a3
  refine ⟨(observations c s (construct added).keyFrames).filter fun q => q.base == k && q.idx == i, ⟨?_, ?_⟩, ?_⟩
  · intro q
    rw [List.mem_filter, mem_observations]
    simp
  · intro hn
    exact (nodup_observations hn).filter _
  · have hst : op'.state = newState s (((observations c s (construct added).keyFrames).filter fun q => q.base == k && q.idx == i).map
        (mismatch c (label c s ((construct added).keyFrames.mapIdx (moveKf (solve (problemOf c s (construct added).keyFrames first sp
          ((observations c s (construct added).keyFrames).map (toBlock c s (construct added).keyFrames)))))) (secondIndex first)
          ((observations c s (construct added).keyFrames).map (toBlock c s (construct added).keyFrames))))) op.state := by
      rw [a3]
      have e := values_eq (c := c) (s := s) (solve (problemOf c s (construct added).keyFrames first sp
          ((observations c s (construct added).keyFrames).map (toBlock c s (construct added).keyFrames)))) a1 a2
      show newState s (pointValues _ _ _ _ _ _ _) op.state = _
      rw [e]
      congr 1
      refine List.map_congr_left fun q _ => ?_
      rw [(label_mismatch c s _ _ _ q).1]
    rw [hst]
    refine ⟨?_, ?_, ?_⟩
    · intro ho; unfold newState; rw [if_pos ho]
    · intro ho he
      unfold newState
      rw [if_neg ho, if_pos (by rw [he]; rfl)]
    · intro ho he
      have hne : ∀ g : Obs → ℝ, List.map g ((observations c s (construct added).keyFrames).filter
          fun q => q.base == k && q.idx == i) ≠ [] := by
        intro g hg
        exact he (List.map_eq_nil_iff.1 hg)
      refine ⟨_, upperMedian_spec (hne _), ?_, ?_⟩
      · intro hm
        unfold newState
        rw [if_neg ho, if_neg (hne _), if_pos hm]
      · intro hm
        unfold newState
        rw [if_neg ho, if_neg (hne _), if_neg (not_lt.2 hm)]

/-- **C99 (part).** The upper median is determined by the values, so `C99_partial` determines the state. -/
theorem C99_median {values : List ℝ} {m m' : ℝ} (h : IsUpperMedian values m) (h' : IsUpperMedian values m') : m = m' :=
  upperMedian_unique h h'

/-- **C99 (part).** The points of all other keyframes keep their state. -/
theorem C99_others {c : Cam.Cam} {s : Settings} {solve : Solver} {added out : List Kf} (hd : Distinct added)
    (h : adjust c s solve (construct added) = .ok out) {k i : Nat} {op op' : OptPoint}
    (hk : ¬ IsLowest added (construct added).keyFrames k) (hp : PointPair (construct added).keyFrames out k i op op') :
    op'.state = op.state := by
  obtain ⟨f, first, sk, sp, bs, hf, -, -, -, h4, -, hbs, rfl⟩ := adjust_ok hd h
  obtain ⟨kf, a1, a2, a3⟩ := after_point hp
  obtain ⟨hlt, -⟩ := List.getElem?_eq_some_iff.1 a1
  rw [if_neg fun e => hk ((h4 k).2 ⟨e, hlt⟩)] at a3
  rw [a3]; rfl

/-! ### When it is defined -/

/-- **C101.** Bundle adjustment of the keyframes is defined exactly if there are at least two of them, the one added first and the one
with the lowest address of the others are at different places, and every pixel that is used is in the gradient picture. If the two are
at the same place the process is aborted; otherwise the behaviour is undefined. -/
theorem C101_defined (c : Cam.Cam) (s : Settings) (solve : Solver) {added : List Kf} (hd : Distinct added) :
    ((∃ out, adjust c s solve (construct added) = .ok out) ↔
      ∃ j k f sk, IsFirst added (construct added).keyFrames j ∧ IsLowest added (construct added).keyFrames k ∧
        (construct added).keyFrames[j]? = some f ∧ (construct added).keyFrames[k]? = some sk ∧
        sk.thisToWorld.t ≠ f.thisToWorld.t ∧
        ∀ q base op, IsObs c s (construct added).keyFrames q → (construct added).keyFrames[q.base]? = some base →
          base.points[q.idx]? = some op → InPicture base (op.p + q.off)) ∧
    (∀ e, adjust c s solve (construct added) = .error e → e = .abort ∨ e = .ub) ∧
    (adjust c s solve (construct added) = .error .abort ↔
      ∃ j k f sk, IsFirst added (construct added).keyFrames j ∧ IsLowest added (construct added).keyFrames k ∧
        (construct added).keyFrames[j]? = some f ∧ (construct added).keyFrames[k]? = some sk ∧
        sk.thisToWorld.t = f.thisToWorld.t) := by
  cases hf : added.head? with
  | none =>
    have e : adjust c s solve (construct added) = .error .ub := by
      unfold adjust
      rw [(construct_spec hd).2.2, hf]
      rfl
    have hno : ∀ j, ¬ IsFirst added (construct added).keyFrames j := by
      rintro j ⟨f, hf', -⟩; rw [hf] at hf'; cases hf'
    rw [e]
    refine ⟨⟨fun ⟨_, h⟩ => (by cases h), fun ⟨j, _, _, _, h, _⟩ => absurd h (hno j)⟩, fun _ h => by cases h; exact Or.inr rfl,
      ⟨fun h => (by cases h), fun ⟨j, _, _, _, h, _⟩ => absurd h (hno j)⟩⟩
  | some f =>
    obtain ⟨first, h1, h2, h3, h4⟩ := positions hd hf
    have e0 : adjust c s solve (construct added) = adjustAt c s solve (construct added).keyFrames first := by
      unfold adjust
      rw [(construct_spec hd).2.2, hf]
      simp only [Option.map_some]
      rw [h2]
    rw [e0]
    have e1 : at' (construct added).keyFrames first = .ok f := by unfold at'; rw [h1]
    unfold adjustAt
    simp only [e1, bind, Except.bind]
    cases hs : (construct added).keyFrames[secondIndex first]? with
    | none =>
      have e2 : at' (construct added).keyFrames (secondIndex first) = .error .ub := by unfold at'; rw [hs]
      have hno : ∀ k, ¬ IsLowest added (construct added).keyFrames k := by
        intro k hk
        obtain ⟨rfl, hl⟩ := (h4 k).1 hk
        rw [List.getElem?_eq_getElem hl] at hs; cases hs
      rw [e2]
      refine ⟨⟨fun ⟨_, h⟩ => (by cases h), fun ⟨_, k, _, _, _, h, _⟩ => absurd h (hno k)⟩, fun _ h => by cases h; exact Or.inr rfl,
        ⟨fun h => (by cases h), fun ⟨_, k, _, _, _, h, _⟩ => absurd h (hno k)⟩⟩
    | some sk =>
      have e2 : at' (construct added).keyFrames (secondIndex first) = .ok sk := by unfold at'; rw [hs]
      obtain ⟨hl, -⟩ := List.getElem?_eq_some_iff.1 hs
      have huniq : ∀ j k f' sk', IsFirst added (construct added).keyFrames j → IsLowest added (construct added).keyFrames k →
          (construct added).keyFrames[j]? = some f' → (construct added).keyFrames[k]? = some sk' → f' = f ∧ sk' = sk := by
        intro j k f' sk' hj hk hjf hks
        rw [h3] at hj; subst hj
        obtain ⟨rfl, -⟩ := (h4 k).1 hk
        rw [h1] at hjf; rw [hs] at hks
        cases hjf; cases hks; exact ⟨rfl, rfl⟩
      have hfirst := (h3 first).2 rfl
      have hlow := (h4 (secondIndex first)).2 ⟨rfl, hl⟩
      rw [e2]
      simp only
      by_cases hne : sk.thisToWorld.t = f.thisToWorld.t
      · rw [mk_same hne]
        refine ⟨⟨fun ⟨_, h⟩ => (by cases h), ?_⟩, fun _ h => by cases h; exact Or.inl rfl,
          ⟨fun _ => ⟨first, secondIndex first, f, sk, hfirst, hlow, h1, hs, hne⟩, fun _ => rfl⟩⟩
        rintro ⟨j, k, f', sk', hj, hk, hjf, hks, hne', -⟩
        obtain ⟨rfl, rfl⟩ := huniq j k f' sk' hj hk hjf hks
        exact absurd hne hne'
      · obtain ⟨sp, hsp⟩ := mk_ok_of_ne hne
        rw [hsp]
        simp only
        have hab : ¬ ∃ j k f sk, IsFirst added (construct added).keyFrames j ∧ IsLowest added (construct added).keyFrames k ∧
            (construct added).keyFrames[j]? = some f ∧ (construct added).keyFrames[k]? = some sk ∧
            sk.thisToWorld.t = f.thisToWorld.t := by
          rintro ⟨j, k, f', sk', hj, hk, hjf, hks, hne'⟩
          obtain ⟨rfl, rfl⟩ := huniq j k f' sk' hj hk hjf hks
          exact hne hne'
        cases hb : allBlocks c s (construct added).keyFrames with
        | error e =>
          have := allBlocks_ub hb
          subst this
          simp only
          refine ⟨⟨fun ⟨_, h⟩ => (by cases h), ?_⟩, fun _ h => by cases h; exact Or.inr rfl, ⟨fun h => (by cases h), fun h => absurd h hab⟩⟩
          rintro ⟨j, k, f', sk', hj, hk, hjf, hks, hne', hin⟩
          have := allBlocks_ok.2 ⟨hin, rfl⟩
          rw [hb] at this; cases this
        | ok bs =>
          simp only
          refine ⟨⟨fun _ => ⟨first, secondIndex first, f, sk, hfirst, hlow, h1, hs, hne, (allBlocks_ok.1 hb).1⟩, fun _ => ⟨_, rfl⟩⟩,
            fun _ h => (by cases h), ⟨fun h => (by cases h), fun h => absurd h hab⟩⟩

theorem foldl_max_ge (ds : List V2) (m : ℝ) :
    m ≤ ds.foldl (fun m e => max m (infNorm e)) m ∧ ∀ d ∈ ds, infNorm d ≤ ds.foldl (fun m e => max m (infNorm e)) m := by
  induction ds generalizing m with
  | nil => simp
  | cons e ds ih =>
    obtain ⟨i1, i2⟩ := ih (max m (infNorm e))
    refine ⟨(le_max_left _ _).trans i1, ?_⟩
    intro d hd
    rcases List.mem_cons.1 hd with rfl | hd
    · exact (le_max_right _ _).trans i1
    · exact i2 d hd

/-- The height of a pattern bounds its offsets. -/
theorem height_bounds {pattern : List V2} {n : Int} (h : patternHeight pattern = .ok n) : ∀ d ∈ pattern, |d.x| ≤ n ∧ |d.y| ≤ n := by
  cases pattern with
  | nil => cases h
  | cons e ds =>
    simp only [patternHeight, Except.ok.injEq] at h
    intro d hd
    have h1 : infNorm d ≤ ds.foldl (fun m e => max m (infNorm e)) (infNorm e) := by
      rcases List.mem_cons.1 hd with rfl | hd
      · exact (foldl_max_ge ds _).1
      · exact (foldl_max_ge ds _).2 d hd
    have h2 : infNorm d ≤ n := by
      rw [← h]; exact h1.trans (Int.le_ceil _)
    exact ⟨(le_max_left _ _).trans h2, (le_max_right _ _).trans h2⟩

theorem trunc_in {x : ℝ} {n : Nat} (h0 : 0 ≤ x) (h1 : x < n) : 0 ≤ Util.truncInt x ∧ (Util.truncInt x).toNat < n := by
  unfold Util.truncInt
  rw [if_pos h0]
  have h2 : 0 ≤ ⌊x⌋ := Int.floor_nonneg.2 h0
  refine ⟨h2, ?_⟩
  have h3 : ⌊x⌋ < (n : Int) := Int.floor_lt.2 (by exact_mod_cast h1)
  omega

/-- **C101 (part).** With at least two keyframes at different places, and all points so far from the border that the pattern around
them is in the picture, bundle adjustment is defined. Missing: points exactly as far from the right or the lower border as
`isOnImage` asks for, see `C101_border_violated`. -/
theorem C101_partial (c : Cam.Cam) {s : Settings} (solve : Solver) {added : List Kf} (hd : Distinct added) (h2 : 2 ≤ added.length)
    (hne : ∀ f g, f ∈ added → g ∈ added → f.addr ≠ g.addr → f.thisToWorld.t ≠ g.thisToWorld.t)
    (hh : patternHeight s.pattern = .ok s.height)
    (hin : ∀ kf ∈ added, ∀ op ∈ kf.points, s.height ≤ op.p.x ∧ s.height ≤ op.p.y ∧ op.p.x + s.height < kf.gradNorm.cols ∧
      op.p.y + s.height < kf.gradNorm.rows) : ∃ out, adjust c s solve (construct added) = .ok out := by
  rw [(C101_defined c s solve hd).1]
  match added, h2 with
  | f :: g :: rest, _ =>
  obtain ⟨first, a1, -, a3, a4⟩ := positions hd (f := f) rfl
  obtain ⟨b1, b2, -⟩ := construct_spec hd
  obtain ⟨kfs, hkfs⟩ : ∃ kfs, kfs = (construct (f :: g :: rest)).keyFrames := ⟨_, rfl⟩
  simp only [← hkfs] at a1 a3 a4 b1 b2 ⊢
  obtain ⟨jg, hjg⟩ := List.getElem?_of_mem ((b1 g).2 (by simp))
  have hfg : f.addr ≠ g.addr := by
    unfold Distinct at hd
    simp only [List.map_cons, List.nodup_cons, List.mem_cons, not_or] at hd
    exact hd.1.1
  have hjne : jg ≠ first := by
    intro e
    subst e
    rw [a1] at hjg; cases hjg; exact hfg rfl
  obtain ⟨l1, -⟩ := List.getElem?_eq_some_iff.1 a1
  obtain ⟨l2, -⟩ := List.getElem?_eq_some_iff.1 hjg
  have hlt : secondIndex first < kfs.length := by
    unfold secondIndex; split <;> omega
  have hsi : secondIndex first ≠ first := by unfold secondIndex; split <;> omega
  have hsk := List.getElem?_eq_getElem hlt
  refine ⟨first, secondIndex first, f, _, (a3 _).2 rfl, (a4 _).2 ⟨rfl, hlt⟩, a1, hsk, ?_, ?_⟩
  · refine hne _ f ((b1 _).1 (List.mem_of_getElem? hsk)) (by simp) ?_
    intro e
    exact hsi ((addr_inj b2 hsk a1).2.1 e)
  · intro q base op hq hb hop
    obtain ⟨-, -, -, -, -, -, -, -, -, hoff, -⟩ := hq
    obtain ⟨o1, o2⟩ := height_bounds hh _ hoff
    obtain ⟨c1, c2, c3, c4⟩ := hin base ((b1 _).1 (List.mem_of_getElem? hb)) op (List.mem_of_getElem? hop)
    rw [abs_le] at o1 o2
    obtain ⟨t1, t2⟩ := trunc_in (x := (op.p + q.off).y) (n := base.gradNorm.rows) (by simp only [add_y]; linarith)
      (by simp only [add_y]; linarith)
    obtain ⟨t3, t4⟩ := trunc_in (x := (op.p + q.off).x) (n := base.gradNorm.cols) (by simp only [add_x]; linarith)
      (by simp only [add_x]; linarith)
    exact ⟨t1, t3, t2, t4⟩

/-- **C100 (part).** With two keyframes the one whose points are marked is the one added last, whatever the addresses are. -/
theorem C100_partial {f g : Kf} (h : f.addr ≠ g.addr) (k : Nat) :
    IsLowest [f, g] (construct [f, g]).keyFrames k ↔ (construct [f, g]).keyFrames[k]? = some g := by
  have hd : Distinct [f, g] := by unfold Distinct; simp [h]
  obtain ⟨first, a1, -, a3, a4⟩ := positions hd (f := f) rfl
  obtain ⟨b1, b2, -⟩ := construct_spec hd
  obtain ⟨kfs, hkfs⟩ : ∃ kfs, kfs = (construct [f, g]).keyFrames := ⟨_, rfl⟩
  simp only [← hkfs] at a1 a3 a4 b1 b2 ⊢
  constructor
  · rintro ⟨sk, hk, hn, -⟩
    have : sk ∈ [f, g] := (b1 sk).1 (List.mem_of_getElem? hk)
    simp only [List.mem_cons, List.not_mem_nil, or_false] at this
    rcases this with rfl | rfl
    · exact absurd ⟨sk, rfl, hk⟩ hn
    · exact hk
  · intro hk
    refine ⟨g, hk, ?_, ?_⟩
    · rintro ⟨f', hf', hk'⟩
      simp only [List.head?_cons, Option.some.injEq] at hf'
      subst hf'
      rw [hk] at hk'
      cases hk'; exact h rfl
    · intro j kf hj hn
      have : kf ∈ [f, g] := (b1 kf).1 (List.mem_of_getElem? hj)
      simp only [List.mem_cons, List.not_mem_nil, or_false] at this
      rcases this with rfl | rfl
      · exact absurd ⟨kf, rfl, hj⟩ hn
      · exact le_refl _

end Mdso.BA
