import Verif.Spec.BadPoints
import Verif.Props.Activation
import Verif.Props.BundleDemo

/-!
# C168: points found to be bad
-/

set_option autoImplicit false

namespace Mdso.Bad

open Mdso.Bad.Spec

/-! ### Activation -/

section Activation

open Mdso.Act

theorem optPoints_good (e : Env) (kfs : List KeyFrame) : ∀ k, optPoints e k (kfs.map onlyGood) = optPoints e k kfs := by
  induction kfs with
  | nil => intro k; rfl
  | cons kf kfs ih =>
    intro k
    rw [List.map_cons, optPoints, optPoints, ih]
    unfold onlyGood
    simp only [List.filter_filter, Bool.and_self]

theorem candidates_good (e : Env) (kfs : List KeyFrame) : ∀ k, candidates e k (kfs.map onlyGood) = candidates e k kfs := by
  induction kfs with
  | nil => intro k; rfl
  | cons kf kfs ih =>
    intro k
    rw [List.map_cons, candidates, candidates, ih]
    rfl

theorem count_good (kfs : List KeyFrame) : curOptPoints kfs = curOptPoints (kfs.map onlyGood) + badCount kfs := by
  unfold curOptPoints badCount
  induction kfs with
  | nil => rfl
  | cons kf kfs ih =>
    have h := List.length_eq_length_filter_add (l := kf.optimized) (fun op => decide (op.state = .active))
    simp only [List.map_cons, List.sum_cons]
    rw [ih, h]
    have : (List.filter (fun op : Optimized => !decide (op.state = .active)) kf.optimized) = List.filter (fun op => decide ¬ op.state = .active) kf.optimized := by
      congr 1; funext op; simp
    rw [this]
    have hg : (onlyGood kf).optimized.length = (List.filter (fun op => decide (op.state = .active)) kf.optimized).length := rfl
    rw [hg]
    omega

theorem activateOne_good (kf : KeyFrame) (ind : Nat) : activateOne (onlyGood kf) ind = (activateOne kf ind).map onlyGood := by
  unfold activateOne
  have : (onlyGood kf).immature = kf.immature := rfl
  rw [this]
  cases kf.immature[ind]? with
  | none => rfl
  | some ip =>
    simp only [Except.map, onlyGood, List.filter_append]
    congr 2

theorem activateAll_good : ∀ (l : List (Nat × Nat)) (kfs : List KeyFrame),
    activateAll l (kfs.map onlyGood) = (activateAll l kfs).map (List.map onlyGood) := by
  intro l
  induction l with
  | nil => intro kfs; rfl
  | cons q l ih =>
    intro kfs
    obtain ⟨k, ind⟩ := q
    rw [activateAll, activateAll, List.getElem?_map]
    cases kfs[k]? with
    | none => rfl
    | some kf =>
      simp only [Option.map_some]
      rw [activateOne_good]
      cases activateOne kf ind with
      | error f => rfl
      | ok kf' =>
        simp only [Except.map]
        rw [← List.map_set]
        exact ih _

/-- **C168** (part). The only effect of bad points on the activation of new ones is that each takes a place of the budget: with them the same points are activated
as without them and a budget smaller by their number. Missing: that they take no place, see `C168_budget_violated`. -/
theorem C168_activation_partial (nth : List (Nat × Int) → Nat → List (Nat × Int)) (sort : List Nat → (Nat → Nat) → List Nat) (fuel : Nat) (e : Env)
    (maxOptimizedPoints : Int) (kfs : List KeyFrame) :
    activate nth sort fuel e (maxOptimizedPoints - badCount kfs) (kfs.map onlyGood) =
      (activate nth sort fuel e maxOptimizedPoints kfs).map (Option.map (List.map onlyGood)) := by
  unfold activate
  rw [optPoints_good]
  cases DistMap.build e.width e.height ⟨480, 302⟩ (optPoints e 0 kfs) fuel with
  | error f => rfl
  | ok o =>
    cases o with
    | none => rfl
    | some m =>
      simp only [activateWith]
      rw [candidates_good, show maxOptimizedPoints - (badCount kfs : Int) - (curOptPoints (kfs.map onlyGood) : Int) = maxOptimizedPoints - (curOptPoints kfs : Int) by
        rw [count_good kfs]; push_cast; ring]
      cases DistMap.choose nth m ((candidates e 0 kfs).map Prod.fst) (maxOptimizedPoints - curOptPoints kfs) with
      | error f => rfl
      | ok chosen =>
        simp only [apply]
        cases (sort chosen (keyOf ((candidates e 0 kfs).map Prod.snd))).mapM (fun i => ((candidates e 0 kfs).map Prod.snd)[i]?) with
        | none => rfl
        | some l =>
          simp only
          rw [activateAll_good]
          cases activateAll l kfs with
          | error f => rfl
          | ok r => rfl

/-- **C168** is violated: when the budget is used up by bad points, no point is activated, however many are ready. -/
theorem C168_budget_violated (nth : List (Nat × Int) → Nat → List (Nat × Int)) (hn : DistMap.IsNthElement nth)
    (sort : List Nat → (Nat → Nat) → List Nat) (hs : IsSort sort) (fuel : Nat) (e : Env) (kfs kfs' : List KeyFrame)
    (hbad : ∀ kf ∈ kfs, ∀ op ∈ kf.optimized, op.state ≠ .active)
    (h : activate nth sort fuel e (badCount kfs) kfs = .ok (some kfs')) :
    (kfs'.map fun kf => kf.optimized.length).sum = (kfs.map fun kf => kf.optimized.length).sum := by
  have h0 : curOptPoints (kfs.map onlyGood) = 0 := by
    unfold curOptPoints
    rw [List.map_map]
    apply List.sum_eq_zero
    intro n hn
    obtain ⟨kf, hkf, rfl⟩ := List.mem_map.1 hn
    simp only [Function.comp, onlyGood]
    rw [List.filter_eq_nil_iff.2 (fun op hop => by simpa using hbad kf hkf op hop)]
    rfl
  have hc := count_good kfs
  rw [h0, Nat.zero_add] at hc
  unfold activate at h
  cases hm : DistMap.build e.width e.height ⟨480, 302⟩ (optPoints e 0 kfs) fuel with
  | error er => rw [hm] at h; simp only [activateWith] at h; cases h
  | ok o =>
    cases o with
    | none => rw [hm] at h; simp only [activateWith] at h; cases h
    | some m =>
      have h2 := h
      rw [hm] at h2
      simp only [activateWith] at h2
      cases hch : DistMap.choose nth m ((candidates e 0 kfs).map Prod.fst) ((badCount kfs : Int) - curOptPoints kfs) with
      | error er => rw [hch] at h2; cases h2
      | ok chosen =>
        obtain ⟨kfs2, e1, -, e3, -⟩ := C19_activation nth hn sort hs fuel e (badCount kfs) kfs m hm chosen hch
        unfold activate at e1
        rw [h] at e1
        cases e1
        have hl := (C20_budget nth hn sort hs fuel e (badCount kfs) kfs kfs' (by unfold activate; exact h)).2
        show curOptPoints kfs' = curOptPoints kfs
        omega

/-- A keyframe with an outlier, and points ready to be activated. -/
noncomputable def badWindow : List KeyFrame := [⟨[⟨(3, 4), 2, 1, .active⟩, ⟨(100, 100), 2, 1, .active⟩], [⟨(7, 8), 0, 1, .outlier⟩]⟩]

/-- The hypotheses of `C168_budget_violated` are met with two points ready: with room for one point, which the outlier takes, activation ends and none of them is
activated. -/
example : ∃ fuel kfs', activate (fun l _ => l.mergeSort (fun a b => decide (b.2 ≤ a.2))) (fun l key => l.mergeSort (fun a b => decide (key b ≤ key a))) fuel env
      (badCount badWindow) badWindow = .ok (some kfs') ∧ badCount badWindow = 1 ∧ (candidates env 0 badWindow).length = 2 ∧
      (∀ kf ∈ badWindow, ∀ op ∈ kf.optimized, op.state ≠ .active) ∧ (kfs'.map fun kf => kf.optimized.length).sum = 1 := by
  have hopt : optPoints env 0 badWindow = [] := by simp [optPoints, badWindow]
  have hcand : candidates env 0 badWindow = [((3, 4), (0, 0)), ((100, 100), (0, 1))] := by
    simp [candidates, readyOf, badWindow, env, Env.pos, Immature.isReady]
  have hbad : badCount badWindow = 1 := by simp [badCount, badWindow]
  have hcur : curOptPoints badWindow = 1 := by simp [curOptPoints, badWindow]
  have hall : ∀ kf ∈ badWindow, ∀ op ∈ kf.optimized, op.state ≠ .active := by simp [badWindow]
  have hpyr : DistMap.pyrDown 960 604 ⟨480, 302⟩ = 2 := by
    have h1 : DistMap.divisor 960 480 = 2 := by
      refine le_antisymm ((DistMap.divisor_spec (by norm_num) (by norm_num) 2).2 (by norm_num)) ?_
      by_contra h
      have := (DistMap.divisor_spec (by norm_num) (by norm_num) 1).1 (show DistMap.divisor 960 480 ≤ 1 by omega)
      norm_num at this
    have h2 : DistMap.divisor 604 302 = 2 := by
      refine le_antisymm ((DistMap.divisor_spec (by norm_num) (by norm_num) 2).2 (by norm_num)) ?_
      by_contra h
      have := (DistMap.divisor_spec (by norm_num) (by norm_num) 1).1 (show DistMap.divisor 604 302 ≤ 1 by omega)
      norm_num at this
    unfold DistMap.pyrDown
    simp only [h1, h2]
    decide
  obtain ⟨m, N, h1, h2, h3, h4, -⟩ := DistMap.C21_distance 960 604 ⟨480, 302⟩ [] (by rw [hpyr]; decide)
    (by
      rw [hpyr]
      exact fun p _ h => DistMap.C23_inside_partial 960 604 2 (by norm_num) (by norm_num) (by norm_num) p h)
  rw [hpyr] at h2
  rw [h2] at h3 h4
  have hcell : ∀ x y : ℝ, 0 ≤ x → 0 ≤ y → DistMap.cellOf m.pyr (x, y) = (⌊x / 2⌋, ⌊y / 2⌋) := by
    intro x y hx hy
    rw [DistMap.cellOf_nonneg hx hy, h2]
    simp [DistMapSpec.cell]
  have f1 : ⌊(3 : ℝ) / 2⌋ = 1 := by norm_num [Int.floor_eq_iff]
  have f2 : ⌊(4 : ℝ) / 2⌋ = 2 := by norm_num [Int.floor_eq_iff]
  have f3 : ⌊(100 : ℝ) / 2⌋ = 50 := by norm_num [Int.floor_eq_iff]
  have c1 := hcell 3 4 (by norm_num) (by norm_num)
  have c2 := hcell 100 100 (by norm_num) (by norm_num)
  rw [f1, f2] at c1
  rw [f3] at c2
  obtain ⟨c, g1, -⟩ := DistMap.C22_choose_partial _ DistMap.sort_isNth m [(3, 4), (100, 100)] 0
    (by norm_num) (by
      intro p hp
      simp only [List.mem_cons, List.not_mem_nil, or_false] at hp
      unfold DistMap.OnEdge
      rcases hp with rfl | rfl
      · rw [c1, h3, h4]; norm_num
      · rw [c2, h3, h4]; norm_num)
  obtain ⟨kfs', ha, -⟩ := C19_activation _ DistMap.sort_isNth _ mergeSort_isSort N env (badCount badWindow) badWindow m
    (by rw [hopt]; exact h1 N (le_refl _)) c (by rw [hbad, hcur, hcand]; exact g1)
  refine ⟨N, kfs', ha, hbad, by rw [hcand]; rfl, hall, ?_⟩
  rw [C168_budget_violated _ DistMap.sort_isNth _ mergeSort_isSort N env badWindow kfs' hall ha]
  exact hcur

end Activation

/-! ### Bundle adjustment -/

section Adjust

open Mdso.BA Mdso.BA.Spec

theorem insert_unmarked (kf : Kf) : ∀ kfs : List Kf, insertKf (unmarked kf) (kfs.map unmarked) = (insertKf kf kfs).map unmarked := by
  intro kfs
  induction kfs with
  | nil => rfl
  | cons k ks ih =>
    rw [List.map_cons, insertKf, insertKf, show (unmarked kf).addr = kf.addr from rfl, show (unmarked k).addr = k.addr from rfl, ih]
    split
    · rfl
    · split <;> rfl

theorem construct_unmarked (added : List Kf) : construct (added.map unmarked) =
    ⟨(construct added).keyFrames.map unmarked, (construct added).firstKeyFrame⟩ := by
  unfold construct
  suffices h : ∀ a : Adjuster, (added.map unmarked).foldl addKeyFrame ⟨a.keyFrames.map unmarked, a.firstKeyFrame⟩ =
      ⟨(added.foldl addKeyFrame a).keyFrames.map unmarked, (added.foldl addKeyFrame a).firstKeyFrame⟩ from h ⟨[], none⟩
  induction added with
  | nil => intro a; rfl
  | cons kf kfs ih =>
    intro a
    rw [List.map_cons, List.foldl_cons, List.foldl_cons, ← ih]
    congr 1
    unfold addKeyFrame
    simp only [insert_unmarked]
    rfl

theorem collect_map {α β : Type} (f g : Nat → α → Except Fault (List β)) (u : α → α) (hf : ∀ n a, f n (u a) = g n a) :
    ∀ (l : List α) (n : Nat), collectFrom f n (l.map u) = collectFrom g n l := by
  intro l
  induction l with
  | nil => intro n; rfl
  | cons a as ih =>
    intro n
    rw [List.map_cons, collectFrom, collectFrom, hf, ih]

theorem pattern_unmarked (c : Cam.Cam) (s : Settings) (base : Kf) (k i r : Nat) (p : Geom.V2) :
    ∀ l : List Geom.V2, patternBlocks c s (unmarked base) k i r p l = patternBlocks c s base k i r p l := by
  intro l
  induction l with
  | nil => rfl
  | cons d ds ih =>
    rw [patternBlocks, patternBlocks, ih]
    rfl

theorem blocks_unmarked (c : Cam.Cam) (s : Settings) (kfs : List Kf) : allBlocks c s (kfs.map unmarked) = allBlocks c s kfs := by
  unfold allBlocks
  refine collect_map _ _ unmarked ?_ kfs 0
  intro k base
  show collectFrom (pointStep c s (kfs.map unmarked) k (unmarked base)) 0 (base.points.map fun op => { op with state := .active }) = _
  refine collect_map _ _ (fun op : OptPoint => { op with state := .active }) ?_ base.points 0
  intro i op
  unfold pointStep
  cases op.logInvDepth with
  | none => rfl
  | some d =>
    refine collect_map _ _ unmarked ?_ kfs 0
    intro r ref
    unfold refStep
    rw [pattern_unmarked]
    rfl

theorem unmarked_label (c : Cam.Cam) (s : Settings) (kfs : List Kf) (second : Nat) (bs : List RBlock) :
    (label c s kfs second bs).map unmarked = kfs.map unmarked := by
  unfold label
  rw [List.mapIdx_eq_zipIdx_map, List.map_map]
  have : kfs.map unmarked = kfs.zipIdx.map (fun x => unmarked x.1) := by
    conv_lhs => rw [← List.zipIdx_map_fst 0 kfs]
    rw [List.map_map]
    rfl
  rw [this]
  apply List.map_congr_left
  rintro ⟨kf, k⟩ -
  simp only [Function.comp]
  split
  · unfold unmarked
    simp only
    congr 1
    rw [List.mapIdx_eq_zipIdx_map, List.map_map]
    have : (kf.points.map fun op => ({ op with state := .active } : OptPoint)) = kf.points.zipIdx.map (fun x => { x.1 with state := .active }) := by
      conv_lhs => rw [← List.zipIdx_map_fst 0 kf.points]
      rw [List.map_map]
      rfl
    rw [this]
    apply List.map_congr_left
    rintro ⟨op, i⟩ -
    rfl
  · rfl

theorem move_unmarked (v : Values) (kfs : List Kf) : (kfs.map unmarked).mapIdx (moveKf v) = (kfs.mapIdx (moveKf v)).map unmarked := by
  apply List.ext_getElem?
  intro k
  simp only [List.getElem?_mapIdx, List.getElem?_map]
  cases kfs[k]? with
  | none => rfl
  | some kf =>
    simp only [Option.map_some]
    congr 1
    unfold moveKf unmarked
    simp only
    congr 1
    apply List.ext_getElem?
    intro i
    simp only [List.getElem?_mapIdx, List.getElem?_map]
    cases kf.points[i]? <;> rfl

theorem unmarked_twice (kf : Kf) : unmarked (unmarked kf) = unmarked kf := by
  unfold unmarked
  simp only [List.map_map]
  rfl

/-- **C168** (what happens instead). Bundle adjustment does not look at the marks: all poses, light transforms and depths are afterwards as if every point were
active. -/
theorem C168_adjust_partial (c : Cam.Cam) (s : Settings) {solve : Solver} (hsolve : NotTold solve) (added : List Kf) :
    (adjust c s solve (construct added)).map (List.map unmarked) =
      (adjust c s solve (construct (added.map unmarked))).map (List.map unmarked) := by
  rw [construct_unmarked]
  unfold adjust
  cases (construct added).firstKeyFrame with
  | none => rfl
  | some addr =>
    simp only
    have hidx : ((construct added).keyFrames.map unmarked).findIdx (fun kf => kf.addr == addr) =
        (construct added).keyFrames.findIdx (fun kf => kf.addr == addr) := by
      rw [List.findIdx_map]
      rfl
    rw [hidx]
    generalize (construct added).keyFrames = kfs
    generalize kfs.findIdx (fun kf => kf.addr == addr) = first
    unfold adjustAt
    have hat : ∀ i, at' (kfs.map unmarked) i = (at' kfs i).map unmarked := by
      intro i
      unfold at'
      rw [List.getElem?_map]
      cases kfs[i]? <;> rfl
    rw [hat, hat, blocks_unmarked]
    simp only [bind]
    cases at' kfs first with
    | error f => simp only [Except.map, Except.bind]
    | ok fk =>
      cases at' kfs (secondIndex first) with
      | error f => simp only [Except.map, Except.bind]
      | ok sk =>
        simp only [Except.map, Except.bind]
        rw [show (unmarked fk).thisToWorld = fk.thisToWorld from rfl, show (unmarked sk).thisToWorld = sk.thisToWorld from rfl]
        cases Gauge.mk' fk.thisToWorld.t (sk.thisToWorld.t - fk.thisToWorld.t).norm sk.thisToWorld.t with
        | error f => simp only
        | ok sp =>
          simp only
          cases allBlocks c s kfs with
          | error f => simp only
          | ok bs =>
            simp only
            have hp : problemOf c s (kfs.map unmarked) first sp bs = { problemOf c s kfs first sp bs with kfs := (problemOf c s kfs first sp bs).kfs.map unmarked } := by
              unfold problemOf
              simp only [List.length_map]
            rw [hp, hsolve, unmarked_label, unmarked_label, move_unmarked, List.map_map]
            congr 1
            apply List.map_congr_left
            intro kf _
            exact (unmarked_twice kf).symm

/-- `C168_adjust_partial` applies: a solver that gives up at once is not told the marks. -/
theorem idle_notTold : NotTold idle := by
  intro P
  unfold idle start
  simp only [List.getElem?_map]
  congr 1
  · funext k
    cases P.kfs[k]? <;> rfl
  · funext k
    cases P.kfs[k]? <;> rfl
  · funext k i
    cases P.kfs[k]? with
    | none => rfl
    | some kf =>
      simp only [Option.map_some, Option.bind_some, unmarked, List.getElem?_map]
      cases kf.points[i]? <;> rfl

/-- An outlier at the centre of the picture. -/
def badPoint : OptPoint := ⟨⟨100, 100⟩, some 0, 1, .outlier⟩

example : ∃ out, adjust exCam exSettings idle (construct [exF 100 [], exG 200 [badPoint]]) = .ok out :=
  ex_defined idle 100 200 [] [badPoint] (by simp [badPoint])

/-- **C168** is violated: there are keyframes all points of which are outliers, and the problem given to the solver has residuals. -/
theorem C168_adjust_violated : ∃ (c : Cam.Cam) (s : Settings) (added : List Kf), Distinct added ∧ (∀ kf ∈ added, ∀ op ∈ kf.points, op.state = .outlier) ∧
    ∃ bs, allBlocks c s (construct added).keyFrames = .ok bs ∧ bs ≠ [] := by
  refine ⟨exCam, exSettings, [exF 100 [], exG 200 [badPoint]], ex_distinct _ _ _ _, ?_, ?_⟩
  · intro kf hkf op hop
    simp only [List.mem_cons, List.not_mem_nil, or_false] at hkf
    rcases hkf with rfl | rfl
    · simp [exF, exKf] at hop
    · simp only [exG, exKf, List.mem_singleton] at hop
      rw [hop]
      rfl
  · obtain ⟨out, hout⟩ := ex_defined idle 100 200 [] [badPoint] (by simp [badPoint])
    obtain ⟨f, first, sk, sp, bs, hf, -, -, -, -, -, hbs, rfl⟩ := adjust_ok (ex_distinct _ _ _ _) hout
    refine ⟨bs, hbs, ?_⟩
    obtain ⟨-, rfl⟩ := allBlocks_ok.1 hbs
    have h1 : (construct [exF 100 [], exG 200 [badPoint]]).keyFrames[1]? = some (exG 200 [badPoint]) := by rw [ex_construct]; rfl
    have h0 : (construct [exF 100 [], exG 200 [badPoint]]).keyFrames[0]? = some (exF 100 []) := by rw [ex_construct]; rfl
    have hq : IsObs exCam exSettings (construct [exF 100 [], exG 200 [badPoint]]).keyFrames ⟨1, 0, 0, ⟨0, 0⟩⟩ :=
      ⟨_, _, badPoint, 0, h1, h0, rfl, rfl, by decide, by unfold exSettings; simp, by
        show Cam.isOnImage exCam (seenIn exCam (exG 200 [badPoint]) (exF 100 []) ⟨100, 100⟩ (Real.exp (-0))) 2
        unfold exG exF
        rw [exSeen]; exact exOn⟩
    have := ((lists_observations exCam exSettings _).1 _).2 hq
    intro h
    rw [List.map_eq_nil_iff.1 h] at this
    cases this

end Adjust

end Mdso.Bad
