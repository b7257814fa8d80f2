import Verif.Spec.Renumber
import Verif.Props.AlignmentGauge
import Verif.Props.Motion

/-!
# C172: frame numbers matter only relative to each other, motions only by their composition
-/

set_option autoImplicit false

namespace Mdso.Renumber
open Mdso.Dso Mdso.Traj

variable {G H : Type} [Group G] [Group H]

/-- What is the same in two systems that were fed the same frames under different names. -/
structure Sim (φ : Int → Int) (σ : G →* H) (s : State G) (s' : State H) : Prop where
  hasFirst : s'.initializer.hasFirstFrame = s.initializer.hasFirstFrame
  skipped : s'.initializer.framesSkipped = s.initializer.framesSkipped
  num0 : s.initializer.hasFirstFrame = true → s'.initializer.globalFrameNum0 = φ s.initializer.globalFrameNum0
  isInit : s'.isInitialized = s.isInitialized
  kfs : s'.keyFrames = s.keyFrames.map (·.rename φ σ)
  nums : s'.frameNumbers = s.frameNumbers.map φ
  poses : ∀ n, s'.worldToFrame (φ n) = (s.worldToFrame n).map σ
  log : s'.log = s.log.map (·.rename φ σ)

variable {φ : Int → Int} {σ : G →* H}

theorem writePose_sim (hφ : StrictMono φ) {s : State G} {s' : State H} (h : Sim φ σ s s') {n : Int} {g : G} {t : State G} {t' : State H}
    (e : writePose s n g = .ok t) (e' : writePose s' (φ n) (σ g) = .ok t') : Sim φ σ t t' := by
  unfold writePose at e e'
  split at e
  · split at e'
    · cases e
      cases e'
      refine ⟨h.hasFirst, h.skipped, h.num0, h.isInit, h.kfs, h.nums, fun i => ?_, h.log⟩
      by_cases hi : i = n
      · simp [hi]
      · simp [hi, hφ.injective.ne hi, h.poses]
    · cases e'
  · cases e

theorem foldlM_sim {A A' : Type} {f : State G → A → Except Err (State G)} {f' : State H → A' → Except Err (State H)} (ρ : A → A')
    (hf : ∀ s s' a t t', Sim φ σ s s' → f s a = .ok t → f' s' (ρ a) = .ok t' → Sim φ σ t t') :
    ∀ (l : List A) {s : State G} {s' : State H} {t : State G} {t' : State H}, Sim φ σ s s' → l.foldlM f s = .ok t → (l.map ρ).foldlM f' s' = .ok t' → Sim φ σ t t'
  | [], s, s', t, t', h, e, e' => by
    simp only [List.foldlM_nil, List.map_nil, pure, Except.pure] at e e'
    cases e
    cases e'
    exact h
  | a :: l, s, s', t, t', h, e, e' => by
    rw [List.foldlM_cons] at e
    rw [List.map_cons, List.foldlM_cons] at e'
    cases h1 : f s a with
    | error _ => simp only [h1, bind, Except.bind] at e; cases e
    | ok u =>
      cases h2 : f' s' (ρ a) with
      | error _ => simp only [h2, bind, Except.bind] at e'; cases e'
      | ok u' =>
        simp only [h1, bind, Except.bind] at e
        simp only [h2, bind, Except.bind] at e'
        exact foldlM_sim ρ hf l (hf _ _ _ _ _ h h1 h2) e e'

theorem refresh_sim (hφ : StrictMono φ) {s : State G} {s' : State H} (h : Sim φ σ s s') {kf : KeyFrame G} {t : State G} {t' : State H}
    (e : refreshKeyFrame s kf = .ok t) (e' : refreshKeyFrame s' (kf.rename φ σ) = .ok t') : Sim φ σ t t' := by
  unfold refreshKeyFrame at e e'
  split at e
  · cases e
  · rename_i u hu
    split at e'
    · cases e'
    · rename_i u' hu'
      have hw : Sim φ σ u u' := by
        refine writePose_sim hφ h hu (n := kf.num) (g := kf.thisToWorld⁻¹) ?_
        rw [map_inv]; exact hu'
      refine foldlM_sim (fun f : Tracked G => (⟨φ f.num, σ f.baseToThis⟩ : Tracked H)) ?_ kf.trackedFrames hw e e'
      intro s s' a t t' h h1 h2
      refine writePose_sim hφ h h1 ?_
      rw [map_mul, map_inv]; exact h2

theorem mapInsert_rename (hφ : StrictMono φ) (kf : KeyFrame G) : ∀ l : List (KeyFrame G),
    mapInsert (kf.rename φ σ) (l.map (·.rename φ σ)) = (mapInsert kf l).map (·.rename φ σ)
  | [] => rfl
  | a :: l => by
    simp only [List.map_cons, mapInsert]
    have h1 : (kf.rename φ σ).num < (a.rename φ σ).num ↔ kf.num < a.num := hφ.lt_iff_lt
    have h2 : (kf.rename φ σ).num = (a.rename φ σ).num ↔ kf.num = a.num := hφ.injective.eq_iff
    by_cases c1 : kf.num < a.num
    · rw [if_pos c1, if_pos (h1.2 c1)]; rfl
    · rw [if_neg c1, if_neg (mt h1.1 c1)]
      by_cases c2 : kf.num = a.num
      · rw [if_pos c2, if_pos (h2.2 c2)]; rfl
      · rw [if_neg c2, if_neg (mt h2.1 c2), mapInsert_rename hφ kf l]; rfl

theorem foldl_mapInsert_rename (hφ : StrictMono φ) : ∀ (kf l : List (KeyFrame G)),
    (kf.map (·.rename φ σ)).foldl (fun m f => mapInsert f m) (l.map (·.rename φ σ)) = (kf.foldl (fun m f => mapInsert f m) l).map (·.rename φ σ)
  | [], l => rfl
  | a :: kf, l => by
    rw [List.map_cons, List.foldl_cons, List.foldl_cons, mapInsert_rename hφ, foldl_mapInsert_rename hφ kf]

variable {m : Int} {set set' : Settings}

theorem baseIndex_same (hs : SameSettings m set set') (n : Nat) : baseIndex set' n = baseIndex set n := by
  unfold baseIndex; rw [hs.fromLast]

theorem baseKeyFrame_rename (hs : SameSettings m set set') (l : List (KeyFrame G)) :
    baseKeyFrame set' (l.map (·.rename φ σ)) = (baseKeyFrame set l).map (·.rename φ σ) := by
  unfold baseKeyFrame
  rw [List.length_map, baseIndex_same hs]
  cases baseIndex set l.length with
  | none => rfl
  | some i =>
    dsimp only
    rw [List.getElem?_map]
    cases l[i]? <;> rfl

theorem lastKeyFrame_rename (l : List (KeyFrame G)) : lastKeyFrame (l.map (·.rename φ σ)) = (lastKeyFrame l).map (·.rename φ σ) := by
  unfold lastKeyFrame
  rw [List.getLast?_map]
  cases l.getLast? <;> rfl

theorem ba_sim (hφ : StrictMono φ) (hs : SameSettings m set set') {s : State G} {s' : State H} (h : Sim φ σ s s') {ba : Int → G} {ba' : Int → H}
    (hb : ∀ n, ba' (φ n) = σ (ba n)) {t : State G} {t' : State H}
    (e : runBundleAdjustment set s ba = .ok t) (e' : runBundleAdjustment set' s' ba' = .ok t') : Sim φ σ t t' := by
  unfold runBundleAdjustment at e e'
  rw [hs.ba] at e'
  by_cases h1 : set.runBA = true
  · simp only [h1, Bool.not_true, Bool.false_eq_true, if_false] at e e'
    rw [h.kfs, List.length_map] at e'
    by_cases h2 : s.keyFrames.length < 2
    · rw [if_pos h2] at e; cases e
    · rw [if_neg h2] at e e'
      have hk : (s.keyFrames.map (·.rename φ σ)).map (fun kf => { kf with thisToWorld := ba' kf.num }) =
          (s.keyFrames.map (fun kf => { kf with thisToWorld := ba kf.num })).map (·.rename φ σ) := by
        rw [List.map_map, List.map_map]
        refine List.map_congr_left fun kf _ => ?_
        simp only [Function.comp, KeyFrame.rename, hb]
      rw [hk] at e'
      refine foldlM_sim (·.rename φ σ) (fun s s' a t t' h e e' => refresh_sim hφ h e e') _ ?_ e e'
      exact ⟨h.hasFirst, h.skipped, h.num0, h.isInit, rfl, h.nums, h.poses, h.log⟩
  · simp only [h1, Bool.not_false, if_true] at e e'
    cases e
    cases e'
    exact h

theorem marg_sim (hs : SameSettings m set set') {s : State G} {s' : State H} (h : Sim φ σ s s') : Sim φ σ (marginalizeFrames set s) (marginalizeFrames set' s') := by
  unfold marginalizeFrames
  rw [hs.window, h.kfs, List.length_map]
  by_cases c : 0 ≤ set.maxKeyFrames ∧ (s.keyFrames.length : Int) > set.maxKeyFrames
  · rw [if_pos c, if_pos c]
    refine ⟨h.hasFirst, h.skipped, h.num0, h.isInit, ?_, h.nums, h.poses, ?_⟩
    · simp [List.map_drop]
    · simp [h.log, Event.rename, List.map_take]
  · rw [if_neg c, if_neg c]
    exact h

theorem addKeyFrame_sim (hφ : StrictMono φ) (hs : SameSettings m set set') {s : State G} {s' : State H} (h : Sim φ σ s s') {x : FrameIn G} {y : FrameIn H}
    (hx : Renamed φ σ x y) {base : KeyFrame G} {t : State G} {t' : State H}
    (e : addKeyFrame set s x base = .ok t) (e' : addKeyFrame set' s' y (base.rename φ σ) = .ok t') : Sim φ σ t t' := by
  unfold addKeyFrame at e e'
  have hn : (⟨y.num, (base.rename φ σ).thisToWorld * y.track⁻¹, []⟩ : KeyFrame H) = KeyFrame.rename φ σ ⟨x.num, base.thisToWorld * x.track⁻¹, []⟩ := by
    simp [KeyFrame.rename, hx.num, hx.track]
  have h0 : Sim φ σ { s with keyFrames := mapInsert ⟨x.num, base.thisToWorld * x.track⁻¹, []⟩ s.keyFrames }
      { s' with keyFrames := mapInsert ⟨y.num, (base.rename φ σ).thisToWorld * y.track⁻¹, []⟩ s'.keyFrames } := by
    refine ⟨h.hasFirst, h.skipped, h.num0, h.isInit, ?_, h.nums, h.poses, h.log⟩
    dsimp only
    rw [hn, h.kfs]
    exact mapInsert_rename hφ _ _
  have h1 := marg_sim hs h0
  dsimp only at e e'
  split at e
  · cases e
  · rename_i b hb
    split at e'
    · cases e'
    · rename_i b' hb'
      rw [h1.kfs, baseKeyFrame_rename hs, hb] at hb'
      cases hb'
      refine ba_sim hφ hs ?_ hx.ba e e'
      exact ⟨h1.hasFirst, h1.skipped, h1.num0, h1.isInit, h1.kfs, h1.nums, h1.poses, by simp [h1.log, Event.rename]⟩

theorem doNeedKf_rename {c : Int} (hm : 0 < m) (hφ : ∀ n, φ n = m * n + c) (hs : SameSettings m set set') (l : List (KeyFrame G)) (n : Int) :
    doNeedKf set' (l.map (·.rename φ σ)) (φ n) = doNeedKf set l n := by
  unfold doNeedKf
  rw [lastKeyFrame_rename]
  cases lastKeyFrame l with
  | error _ => rfl
  | ok last =>
    have e : φ n - (last.rename φ σ).num = m * (n - last.num) := by
      show φ n - φ last.num = _
      rw [hφ, hφ]; ring
    simp only [Except.map, e]
    have h1 : 0 < m * (n - last.num) ↔ 0 < n - last.num := by
      rw [mul_pos_iff_of_pos_left hm]
    have h2 : m * set.shiftBetweenKeyFrames = 0 ↔ set.shiftBetweenKeyFrames = 0 := by
      rw [mul_eq_zero]
      exact ⟨fun h => h.resolve_left hm.ne', Or.inr⟩
    rw [hs.shift]
    by_cases c1 : 0 < n - last.num
    · rw [if_pos c1, if_pos (h1.2 c1)]
      by_cases c2 : set.shiftBetweenKeyFrames = 0
      · rw [if_pos c2, if_pos (h2.2 c2)]
      · rw [if_neg c2, if_neg (mt h2.1 c2), Int.mul_tmod_mul_of_pos _ _ hm]
        congr 2
        rw [mul_eq_zero, eq_iff_iff]
        exact ⟨fun h => h.resolve_left hm.ne', Or.inr⟩
    · rw [if_neg c1, if_neg (mt h1.1 c1)]

theorem pushTracked_rename (hs : SameSettings m set set') (l : List (KeyFrame G)) (f : Tracked G) :
    pushTracked set' (l.map (·.rename φ σ)) ⟨φ f.num, σ f.baseToThis⟩ = (pushTracked set l f).map (List.map (·.rename φ σ)) := by
  unfold pushTracked
  rw [List.length_map, baseIndex_same hs]
  cases baseIndex set l.length with
  | none => rfl
  | some i =>
    simp only [Except.map]
    congr 1
    apply List.ext_getElem?
    intro j
    rw [List.getElem?_modify, List.getElem?_map, List.getElem?_map, List.getElem?_modify]
    cases l[j]? with
    | none => rfl
    | some kf =>
      by_cases hij : i = j
      · simp [hij, KeyFrame.rename]
      · simp [hij]

theorem addFrameTrack_sim {c : Int} (hm : 0 < m) (hφ : ∀ n, φ n = m * n + c) (hs : SameSettings m set set') {s : State G} {s' : State H} (h : Sim φ σ s s')
    {x : FrameIn G} {y : FrameIn H} (hx : Renamed φ σ x y) {t : State G} {t' : State H} {r r' : Option Int}
    (e : addFrameTrack set s x = .ok (t, r)) (e' : addFrameTrack set' s' y = .ok (t', r')) : Sim φ σ t t' ∧ r' = r.map φ := by
  have hmono : StrictMono φ := fun a b hab => by
    rw [hφ, hφ]
    have := mul_lt_mul_of_pos_left hab hm
    omega
  unfold addFrameTrack at e e'
  dsimp only at e e'
  split at e
  · cases e
  rename_i base hb
  split at e'
  · cases e'
  rename_i base' hb'
  rw [h.kfs, baseKeyFrame_rename hs, hb] at hb'
  cases hb'
  split at e
  · cases e
  split at e'
  · cases e'
  split at e
  · cases e
  rename_i u hu
  split at e'
  · cases e'
  rename_i u' hu'
  have hw : Sim φ σ u u' := by
    refine writePose_sim hmono (s := { s with log := s.log ++ [.newFrame x.num] }) (s' := { s' with log := s'.log ++ [.newFrame y.num] })
      ⟨h.hasFirst, h.skipped, h.num0, h.isInit, h.kfs, h.nums, h.poses, by simp [h.log, Event.rename, hx.num]⟩ hu ?_
    rw [hx.num, hx.track] at hu'
    rw [map_mul, map_inv]
    rw [hx.num]
    exact hu'
  rw [hw.kfs, hx.num, doNeedKf_rename hm hφ hs] at e'
  split at e
  · cases e
  rename_i need hneed
  rw [hneed] at e'
  dsimp only at e'
  by_cases hn : need = true
  · simp only [hn, Bool.not_true, Bool.false_eq_true, if_false] at e e'
    rw [hs.choose] at e'
    by_cases hc : set.continueChoosingKeyFrames = true
    · rw [if_pos hc] at e e'
      split at e
      · cases e
      rename_i v hv
      split at e'
      · cases e'
      rename_i v' hv'
      cases e
      cases e'
      exact ⟨addKeyFrame_sim hmono hs hw hx hv hv', rfl⟩
    · rw [if_neg hc] at e e'
      cases e
      cases e'
      exact ⟨hw, rfl⟩
  · simp only [hn, Bool.not_false, if_true] at e e'
    rw [hx.track, pushTracked_rename hs u.keyFrames ⟨x.num, x.track⟩] at e'
    split at e
    · cases e
    rename_i kfs hk
    rw [hk] at e'
    simp only [Except.map] at e'
    cases e
    cases e'
    exact ⟨⟨hw.hasFirst, hw.skipped, hw.num0, hw.isInit, rfl, hw.nums, hw.poses, hw.log⟩, rfl⟩

theorem addFrameInit_sim (hφ : StrictMono φ) (hs : SameSettings m set set') {s : State G} {s' : State H} (h : Sim φ σ s s')
    {x : FrameIn G} {y : FrameIn H} (hx : Renamed φ σ x y) {t : State G} {t' : State H} {r r' : Option Int}
    (e : addFrameInit set s x = .ok (t, r)) (e' : addFrameInit set' s' y = .ok (t', r')) : Sim φ σ t t' ∧ r' = r.map φ := by
  unfold addFrameInit at e e'
  dsimp only at e e'
  have hi : (s'.initializer.addFrame set' y.num).2 = (s.initializer.addFrame set x.num).2 ∧
      Sim φ σ { s with initializer := (s.initializer.addFrame set x.num).1, isInitialized := (s.initializer.addFrame set x.num).2 }
        { s' with initializer := (s'.initializer.addFrame set' y.num).1, isInitialized := (s'.initializer.addFrame set' y.num).2 } ∧
      (s.initializer.addFrame set x.num).1.hasFirstFrame = true := by
    unfold Initializer.addFrame
    rw [h.hasFirst, h.skipped, hs.skip]
    by_cases c1 : s.initializer.hasFirstFrame = true
    · have n0 := h.num0 c1
      simp only [c1, Bool.not_true, Bool.false_eq_true, if_false]
      by_cases c2 : s.initializer.framesSkipped < set.firstFramesSkip
      · rw [if_pos c2, if_pos c2]
        exact ⟨rfl, ⟨rfl, rfl, fun _ => n0, rfl, h.kfs, h.nums, h.poses, h.log⟩, rfl⟩
      · rw [if_neg c2, if_neg c2]
        exact ⟨rfl, ⟨h.hasFirst, h.skipped, fun _ => n0, rfl, h.kfs, h.nums, h.poses, h.log⟩, c1⟩
    · simp only [c1, Bool.not_false, if_true]
      exact ⟨trivial, ⟨rfl, rfl, fun _ => hx.num, rfl, h.kfs, h.nums, h.poses, h.log⟩, trivial⟩
  obtain ⟨h2, h3, h4⟩ := hi
  rw [h2] at e' h3
  by_cases c : (s.initializer.addFrame set x.num).2 = true
  · simp only [c, Bool.not_true, Bool.false_eq_true, if_false] at e e' h3
    have hk : (s'.initializer.addFrame set' y.num).1.createKeyFrames y.num y.stereo =
        ((s.initializer.addFrame set x.num).1.createKeyFrames x.num x.stereo).map (·.rename φ σ) := by
      have := h3.num0 h4
      simp only at this
      unfold Initializer.createKeyFrames
      rw [this, hx.num, hx.stereo]
      simp [KeyFrame.rename]
    rw [hk] at e'
    split at e
    · cases e
    rename_i u hu
    split at e'
    · cases e'
    rename_i u' hu'
    have hw : Sim φ σ u u' := by
      refine foldlM_sim (·.rename φ σ) ?_ _ h3 hu hu'
      intro s s' a t t' h h1 h2
      refine writePose_sim hφ h h1 ?_
      rw [map_inv]; exact h2
    rw [hw.kfs, foldl_mapInsert_rename hφ, baseKeyFrame_rename hs, lastKeyFrame_rename] at e'
    split at e
    · rename_i b l hb hl
      rw [hb, hl] at e'
      simp only [Except.map] at e'
      cases e
      cases e'
      exact ⟨⟨hw.hasFirst, hw.skipped, hw.num0, hw.isInit, rfl, hw.nums, hw.poses, by simp [hw.log, Event.rename]⟩, rfl⟩
    · cases e
  · simp only [c, Bool.not_false, if_true] at e e' h3
    cases e
    cases e'
    exact ⟨h3, rfl⟩

theorem addFrame_sim {c : Int} (hm : 0 < m) (hφ : ∀ n, φ n = m * n + c) (hs : SameSettings m set set') {s : State G} {s' : State H} (h : Sim φ σ s s')
    {x : FrameIn G} {y : FrameIn H} (hx : Renamed φ σ x y) {t : State G} {t' : State H} {r r' : Option Int}
    (e : addFrame set s x = .ok (t, r)) (e' : addFrame set' s' y = .ok (t', r')) : Sim φ σ t t' ∧ r' = r.map φ := by
  have hmono : StrictMono φ := fun a b hab => by
    rw [hφ, hφ]
    have := mul_lt_mul_of_pos_left hab hm
    omega
  have size : ∀ {K : Type} {s u : State K} {n : Int}, adjustWorldToFrameSizes s n = .ok u → ∃ z, u = { s with tableSize := z } := by
    intro K s u n hu
    unfold adjustWorldToFrameSizes at hu
    split at hu
    · cases hu
    · split at hu
      · split at hu
        · cases hu
        · cases hu; exact ⟨_, rfl⟩
      · cases hu; exact ⟨s.tableSize, rfl⟩
  unfold addFrame at e e'
  split at e
  · cases e
  rename_i u hu
  split at e'
  · cases e'
  rename_i u' hu'
  obtain ⟨z, rfl⟩ := size hu
  obtain ⟨z', rfl⟩ := size hu'
  dsimp only at e e'
  split at e
  · split at e'
    · have h1 : Sim φ σ { s with tableSize := z, frameNumbers := s.frameNumbers ++ [x.num] } { s' with tableSize := z', frameNumbers := s'.frameNumbers ++ [y.num] } :=
        ⟨h.hasFirst, h.skipped, h.num0, h.isInit, h.kfs, by simp [h.nums, hx.num], h.poses, h.log⟩
      by_cases ci : s.isInitialized = true
      · rw [if_neg (by simp [ci])] at e
        rw [if_neg (by simp [ci, h.isInit])] at e'
        exact addFrameTrack_sim hm hφ hs h1 hx e e'
      · rw [if_pos (by simp [ci])] at e
        rw [if_pos (by simp [ci, h.isInit])] at e'
        exact addFrameInit_sim hmono hs h1 hx e e'
    · cases e'
  · cases e

theorem run_sim {c : Int} (hm : 0 < m) (hφ : ∀ n, φ n = m * n + c) (hs : SameSettings m set set') : ∀ {xs : List (FrameIn G)} {ys : List (FrameIn H)},
    List.Forall₂ (Renamed φ σ) xs ys → ∀ {s : State G} {s' : State H}, Sim φ σ s s' → ∀ {t : State G} {t' : State H} {rs rs' : List (Option Int)},
    run set s xs = .ok (t, rs) → run set' s' ys = .ok (t', rs') → Sim φ σ t t' ∧ rs' = rs.map (Option.map φ) := by
  intro xs ys hxy
  induction hxy with
  | nil =>
    intro s s' h t t' rs rs' e e'
    cases e
    cases e'
    exact ⟨h, rfl⟩
  | @cons x y xs ys hx _ ih =>
    intro s s' h t t' rs rs' e e'
    rw [run] at e e'
    split at e
    · cases e
    rename_i u r hu
    split at e'
    · cases e'
    rename_i u' r' hu'
    obtain ⟨h1, h2⟩ := addFrame_sim hm hφ hs h hx hu hu'
    split at e
    · cases e
    rename_i v q hv
    split at e'
    · cases e'
    rename_i v' q' hv'
    obtain ⟨h3, h4⟩ := ih h1 hv hv'
    cases e
    cases e'
    exact ⟨h3, by rw [h2, h4]; rfl⟩

theorem create_sim {s0 : State G} {s0' : State H} (hc : create set = .ok s0) (hc' : create set' = .ok s0') : Sim φ σ s0 s0' := by
  unfold create at hc hc'
  split at hc
  · cases hc
  · split at hc'
    · cases hc'
    · cases hc
      cases hc'
      exact ⟨rfl, rfl, by simp, rfl, rfl, rfl, by simp, rfl⟩

/-- C172, system. Frame `n` is called `m n + c` and keyframes are `m` times as far apart, motions are described by `σ`. Then the same frames become keyframes, the
observers get the same calls, and the same poses are stored and returned, all under the new names. -/
theorem C172_run {c : Int} (hm : 0 < m) (hs : SameSettings m set set') (hv : Valid set) {s0 : State G} {s0' : State H} (hc : create set = .ok s0)
    (hc' : create set' = .ok s0') {xs : List (FrameIn G)} {ys : List (FrameIn H)} (hl : Legal (xs.map (·.num))) (hl' : Legal (ys.map (·.num)))
    (hxy : List.Forall₂ (Renamed (fun n => m * n + c) σ) xs ys) :
    ∃ s rs s' rs', run set s0 xs = .ok (s, rs) ∧ run set' s0' ys = .ok (s', rs') ∧
      rs' = rs.map (Option.map fun n => m * n + c) ∧
      destroy s' = (destroy s).map (·.rename (fun n => m * n + c) σ) ∧
      ∀ n, s'.worldToFrame (m * n + c) = (s.worldToFrame n).map σ := by
  have hv' : Valid set' := ⟨by rw [hs.window]; exact hv.window, by rw [hs.shift]; exact mul_ne_zero hm.ne' hv.shift⟩
  obtain ⟨s, rs, e, -, -⟩ := run_create hv hc hl.1 (by simpa using hl.2)
  obtain ⟨s', rs', e', -, -⟩ := run_create hv' hc' hl'.1 (by simpa using hl'.2)
  obtain ⟨h1, h2⟩ := run_sim hm (fun _ => rfl) hs hxy (create_sim hc hc') e e'
  refine ⟨s, rs, s', rs', e, e', h2, ?_, h1.poses⟩
  simp [destroy, h1.log, h1.kfs, Event.rename]

theorem setInsert_rename (hφ : StrictMono φ) (x : Int) : ∀ l : List Int, setInsert (φ x) (l.map φ) = (setInsert x l).map φ
  | [] => rfl
  | y :: l => by
    simp only [List.map_cons, setInsert, hφ.lt_iff_lt, hφ.injective.eq_iff]
    split
    · rfl
    · split
      · rfl
      · rw [setInsert_rename hφ x l]; rfl

theorem poolInsert_rename (hφ : StrictMono φ) (x : Int × G) : ∀ l : List (Int × G),
    poolInsert (Prod.map φ σ x) (l.map (Prod.map φ σ)) = (poolInsert x l).map (Prod.map φ σ)
  | [] => rfl
  | y :: l => by
    simp only [List.map_cons, poolInsert, Prod.map_fst, hφ.lt_iff_lt, hφ.injective.eq_iff]
    split
    · rfl
    · split
      · rfl
      · rw [poolInsert_rename hφ x l]; rfl

theorem foldl_poolInsert_rename (hφ : StrictMono φ) : ∀ l p : List (Int × G),
    (l.map (Prod.map φ σ)).foldl (fun p x => poolInsert x p) (p.map (Prod.map φ σ)) = (l.foldl (fun p x => poolInsert x p) p).map (Prod.map φ σ)
  | [], p => rfl
  | a :: l, p => by
    rw [List.map_cons, List.foldl_cons, List.foldl_cons, poolInsert_rename hφ, foldl_poolInsert_rename hφ l]

theorem poseEntries_rename (kf : KeyFrame G) : poseEntries (kf.rename φ σ) = (poseEntries kf).map (Prod.map φ σ) := by
  simp [poseEntries, KeyFrame.rename]

theorem poolInsert_keys {x e : Int × G} : ∀ {l : List (Int × G)}, e ∈ poolInsert x l → e = x ∨ e ∈ l
  | [], h => by simpa [poolInsert] using h
  | a :: l, h => by
    rw [poolInsert] at h
    split at h
    · simpa using h
    · split at h
      · exact Or.inr h
      · rcases List.mem_cons.1 h with rfl | h
        · exact Or.inr (by simp)
        · exact (poolInsert_keys h).imp id fun h => by simp [h]

theorem foldl_poolInsert_keys {e : Int × G} : ∀ (l p : List (Int × G)), e ∈ l.foldl (fun p x => poolInsert x p) p → e ∈ l ∨ e ∈ p
  | [], p, h => Or.inr h
  | a :: l, p, h => by
    rcases foldl_poolInsert_keys l _ h with h | h
    · exact Or.inl (by simp [h])
    · rcases poolInsert_keys h with rfl | h
      · exact Or.inl (by simp)
      · exact Or.inr h

/-- Two writers that have written the same under different names. -/
structure WSim (φ : Int → Int) (σ : G →* H) (P : Int → Prop) (w : Writer G) (w' : Writer H) : Prop where
  cur : w'.cur = w.cur.map φ
  pool : w'.pool = w.pool.map (Prod.map φ σ)
  lines : w'.lines = w.lines.map (Prod.map φ σ)
  keys : ∀ e ∈ w.pool, P e.1

theorem takeWhile_rename {A B : Type} (ρ : A → B) {p : A → Bool} {q : B → Bool} : ∀ {l : List A}, (∀ a ∈ l, q (ρ a) = p a) →
    (l.map ρ).takeWhile q = (l.takeWhile p).map ρ ∧ (l.map ρ).dropWhile q = (l.dropWhile p).map ρ
  | [], _ => ⟨rfl, rfl⟩
  | a :: l, h => by
    have ih := takeWhile_rename ρ (l := l) fun b hb => h b (by simp [hb])
    have ha := h a (by simp)
    rw [List.map_cons, List.takeWhile_cons, List.takeWhile_cons, List.dropWhile_cons, List.dropWhile_cons, ha]
    cases p a
    · exact ⟨rfl, rfl⟩
    · exact ⟨by simp [ih.1], by simp [ih.2]⟩

theorem marginalized_sim (hφ : StrictMono φ) {P : Int → Prop} {inf inf' : Int} (hinf : ∀ n, P n → (φ n < inf' ↔ n < inf)) {w : Writer G} {w' : Writer H} (h : WSim φ σ P w w')
    {kfs : List (KeyFrame G)} (hk : ∀ n ∈ framesOf kfs, P n) : WSim φ σ P (w.marginalized inf kfs) (w'.marginalized inf' (kfs.map (·.rename φ σ))) := by
  have hcur : w'.cur.filter (fun n => !((kfs.map (·.rename φ σ)).map (·.num)).contains n) = (w.cur.filter (fun n => !(kfs.map (·.num)).contains n)).map φ := by
    rw [h.cur, List.filter_map]
    congr 1
    refine List.filter_congr fun n _ => ?_
    have : φ n ∈ (kfs.map (·.rename φ σ)).map (·.num) ↔ n ∈ kfs.map (·.num) := by
      simp only [List.map_map, List.mem_map, Function.comp, KeyFrame.rename, hφ.injective.eq_iff]
    simp only [Function.comp, List.contains_eq_mem, this]
  have hpool : ((kfs.map (·.rename φ σ)).flatMap poseEntries).foldl (fun p x => poolInsert x p) w'.pool =
      ((kfs.flatMap poseEntries).foldl (fun p x => poolInsert x p) w.pool).map (Prod.map φ σ) := by
    rw [h.pool, ← foldl_poolInsert_rename hφ, List.map_flatMap, List.flatMap_map]
    simp only [poseEntries_rename]
  have hkeys : ∀ e ∈ (kfs.flatMap poseEntries).foldl (fun p x => poolInsert x p) w.pool, P e.1 := by
    intro e he
    rcases foldl_poolInsert_keys _ _ he with he | he
    · refine hk _ ?_
      obtain ⟨kf, hkf, he⟩ := List.mem_flatMap.1 he
      refine List.mem_flatMap.2 ⟨kf, hkf, ?_⟩
      unfold poseEntries at he
      rcases List.mem_cons.1 he with rfl | he
      · simp [framesOf]
      · obtain ⟨t, ht, rfl⟩ := List.mem_map.1 he
        simp
        exact Or.inr ⟨t, ht, rfl⟩
    · exact h.keys e he
  unfold Writer.marginalized
  dsimp only
  rw [hcur, hpool]
  clear hcur hpool
  revert hkeys
  generalize w.cur.filter (fun n => !(kfs.map (·.num)).contains n) = cur
  generalize (kfs.flatMap poseEntries).foldl (fun p x => poolInsert x p) w.pool = pool
  intro hkeys
  have key : ∀ k k' : Int, (∀ e ∈ pool, (φ e.1 < k' ↔ e.1 < k)) → WSim φ σ P
      (⟨cur, pool.dropWhile (fun e => decide (e.1 < k)), w.lines ++ pool.takeWhile (fun e => decide (e.1 < k))⟩ : Writer G)
      ⟨cur.map φ, (pool.map (Prod.map φ σ)).dropWhile (fun e => decide (e.1 < k')), w'.lines ++ (pool.map (Prod.map φ σ)).takeWhile (fun e => decide (e.1 < k'))⟩ := by
    intro k k' hkk
    obtain ⟨t1, t2⟩ := takeWhile_rename (Prod.map φ σ) (p := fun e : Int × G => decide (e.1 < k)) (q := fun e : Int × H => decide (e.1 < k')) (l := pool)
      fun e he => by simp only [Prod.map_fst, hkk e he]
    exact ⟨rfl, t2, by simp only [t1, h.lines, List.map_append], fun e he => hkeys e ((List.dropWhile_sublist _).subset he)⟩
  cases cur with
  | nil => exact key _ _ fun e he => hinf _ (hkeys e he)
  | cons k cur => exact key _ _ fun e _ => hφ.lt_iff_lt

theorem writer_sim (hφ : StrictMono φ) {P : Int → Prop} {inf inf' : Int} (hinf : ∀ n, P n → (φ n < inf' ↔ n < inf)) : ∀ (log : List (Event G)) {w : Writer G} {w' : Writer H},
    WSim φ σ P w w' → (∀ e ∈ log, ∀ n ∈ writtenBy e, P n) → WSim φ σ P (log.foldl (Writer.step inf) w) ((log.map (·.rename φ σ)).foldl (Writer.step inf') w')
  | [], w, w', h, _ => h
  | e :: log, w, w', h, hP => by
    rw [List.map_cons, List.foldl_cons, List.foldl_cons]
    refine writer_sim hφ hinf log ?_ fun e he => hP e (by simp [he])
    have he := hP e (by simp)
    cases e with
    | initialized kfs => exact h
    | newFrame n => exact h
    | newKeyFrame kf =>
      refine ⟨?_, h.pool, h.lines, h.keys⟩
      simp only [Event.rename, Writer.step, h.cur]
      exact setInsert_rename hφ _ _
    | marginalized kfs => exact marginalized_sim hφ hinf h he
    | destructed kfs => exact marginalized_sim hφ hinf h he

/-- C172, trajectory files. The lines are the same under the new names if the value the conversion of infinity yields is on the same side of all frame numbers. -/
theorem C172_trajectory {c : Int} (hm : 0 < m) (hs : SameSettings m set set') (hv : Valid set) {s0 : State G} {s0' : State H} (hc : create set = .ok s0)
    (hc' : create set' = .ok s0') {xs : List (FrameIn G)} {ys : List (FrameIn H)} (hl : Legal (xs.map (·.num))) (hl' : Legal (ys.map (·.num)))
    (hxy : List.Forall₂ (Renamed (fun n => m * n + c) σ) xs ys) {inf inf' : Int} (hinf : ∀ x ∈ xs, (m * x.num + c < inf' ↔ x.num < inf)) :
    ∃ s rs s' rs', run set s0 xs = .ok (s, rs) ∧ run set' s0' ys = .ok (s', rs') ∧
      (writerOf inf' (destroy s')).lines = (writerOf inf (destroy s)).lines.map fun l => (m * l.1 + c, σ l.2) := by
  obtain ⟨s, rs, s', rs', e, e', -, hd, -⟩ := C172_run hm hs hv hc hc' hl hl' hxy
  refine ⟨s, rs, s', rs', e, e', ?_⟩
  obtain ⟨s1, rs1, e1, hi, _, hdes⟩ := Cloud.run_create_logHead hv hc hl
  rw [e] at e1
  cases e1
  have hmono : StrictMono (fun n : Int => m * n + c) := fun a b hab => by
    have := mul_lt_mul_of_pos_left hab hm
    show m * a + c < m * b + c
    omega
  have hfr : ∀ n ∈ framesOf (createdOf s), n ∈ xs.map (·.num) := by
    intro n hn
    rw [created_frames hi] at hn
    exact FrameSpec.mem_frames hn
  have hP : ∀ ev ∈ destroy s, ∀ n ∈ writtenBy ev, n ∈ xs.map (·.num) := by
    intro ev hev n hn
    refine hfr n ?_
    rcases List.mem_append.1 hev with hev | hev
    · cases ev with
      | marginalized kfs =>
        obtain ⟨kf, hkf, hn⟩ := List.mem_flatMap.1 hn
        refine List.mem_flatMap.2 ⟨kf, List.mem_append_left _ ?_, hn⟩
        exact List.mem_flatMap.2 ⟨_, hev, hkf⟩
      | destructed kfs =>
        have : kfs = [] := by
          by_contra hne
          obtain ⟨kf, hkf⟩ := List.exists_mem_of_ne_nil _ hne
          have : kf ∈ destructedOf s.log := List.mem_flatMap.2 ⟨_, hev, hkf⟩
          rw [hdes] at this
          cases this
        subst this
        simp [writtenBy, framesOf] at hn
      | _ => simp [writtenBy] at hn
    · obtain rfl := List.mem_singleton.1 hev
      obtain ⟨kf, hkf, hn⟩ := List.mem_flatMap.1 hn
      exact List.mem_flatMap.2 ⟨kf, List.mem_append_right _ hkf, hn⟩
  have h := writer_sim (σ := σ) hmono (P := fun n => n ∈ xs.map (·.num)) (inf := inf) (inf' := inf') (by
    intro n hn
    obtain ⟨x, hx, rfl⟩ := List.mem_map.1 hn
    exact hinf x hx) (destroy s) (w := Writer.init) (w' := Writer.init) ⟨rfl, rfl, rfl, by simp [Writer.init]⟩ hP
  rw [hd]
  exact h.lines

/-- C172, prediction. The motion the tracker starts from is the same under the new names, if `σ` carries one prediction formula to the other. -/
theorem C172_prediction {c : Int} (hm : 0 < m) (hs : SameSettings m set set') (hv : Valid set) {s0 : State G} {s0' : State H} (hc : create set = .ok s0)
    (hc' : create set' = .ok s0') {xs : List (FrameIn G)} {ys : List (FrameIn H)} (hl : Legal (xs.map (·.num))) (hl' : Legal (ys.map (·.num)))
    (hxy : List.Forall₂ (Renamed (fun n => m * n + c) σ) xs ys) {predict : ℝ → G → G → G} {predict' : ℝ → H → H → H}
    (hp : ∀ r a b, predict' r (σ a) (σ b) = σ (predict r a b)) (n : Int) :
    ∃ s rs s' rs', run set s0 xs = .ok (s, rs) ∧ run set' s0' ys = .ok (s', rs') ∧
      Motion.predictBaseKfToCur predict' set' { s' with frameNumbers := s'.frameNumbers ++ [m * n + c] } =
        (Motion.predictBaseKfToCur predict set { s with frameNumbers := s.frameNumbers ++ [n] }).map σ := by
  have hv' : Valid set' := ⟨by rw [hs.window]; exact hv.window, by rw [hs.shift]; exact mul_ne_zero hm.ne' hv.shift⟩
  obtain ⟨s, rs, e, -, -⟩ := run_create hv hc hl.1 (by simpa using hl.2)
  obtain ⟨s', rs', e', -, -⟩ := run_create hv' hc' hl'.1 (by simpa using hl'.2)
  obtain ⟨h, -⟩ := run_sim hm (fun _ => rfl) hs hxy (create_sim hc hc') e e'
  refine ⟨s, rs, s', rs', e, e', ?_⟩
  have hn : s'.frameNumbers ++ [m * n + c] = (s.frameNumbers ++ [n]).map fun n => m * n + c := by simp [h.nums]
  unfold Motion.predictBaseKfToCur
  dsimp only
  rw [hn, h.kfs, baseKeyFrame_rename hs]
  obtain ⟨l, hll⟩ : ∃ l, l = s.frameNumbers ++ [n] := ⟨_, rfl⟩
  rw [← hll]
  have hpf : predictionFrames (l.map fun n => m * n + c) = (predictionFrames l).map fun q => (m * q.1 + c, m * q.2 + c) := by
    unfold predictionFrames
    rw [← List.map_reverse]
    rcases l.reverse with _ | ⟨a, _ | ⟨b, _ | ⟨d, r⟩⟩⟩ <;> rfl
  rw [hpf, List.getLast?_map]
  cases h1 : predictionFrames l with
  | error _ => rfl
  | ok q =>
    cases h2 : l.getLast? with
    | none => rfl
    | some cur =>
      cases h3 : baseKeyFrame set s.keyFrames with
      | error _ => rfl
      | ok base =>
        have hr : ∀ (t : State G) (t' : State H), t.worldToFrame = s.worldToFrame → t'.worldToFrame = s'.worldToFrame → ∀ k,
            Motion.readPose t' (m * k + c) = σ (Motion.readPose t k) := by
          intro t t' e1 e2 k
          have := h.poses k
          simp only [Motion.readPose, e1, e2] at this ⊢
          rw [this]
          cases s.worldToFrame k <;> simp
        have ht : ∀ a b d : Int, Motion.timeLastByLbo (m * a + c) (m * b + c) (m * d + c) = Motion.timeLastByLbo a b d := by
          intro a b d
          have hm' : (m : ℝ) ≠ 0 := by exact_mod_cast hm.ne'
          unfold Motion.timeLastByLbo
          push_cast
          rw [show (m * b + c - (m * d + c) : ℝ) = m * (b - d) by ring, show (m * a + c - (m * b + c) : ℝ) = m * (a - b) by ring, mul_div_mul_left _ _ hm']
        obtain ⟨lbo, last⟩ := q
        simp only [Except.map, Option.map_some, ht]
        rw [← hp, map_mul, map_mul]
        exact congrArg Except.ok (congrArg₂ _ (congrArg (· * σ base.thisToWorld) (hr _ _ rfl rfl _)) (congrArg (· * σ base.thisToWorld) (hr _ _ rfl rfl _)))

/-- The calls of a history under new names. -/
def renameCalls (m c : Int) (σ : G →* H) (xs : List (FrameIn G)) : List (FrameIn H) :=
  xs.map fun x => ⟨m * x.num + c, σ x.stereo, σ x.track, fun k => σ (x.ba ((k - c) / m))⟩

theorem renameCalls_renamed (hm : 0 < m) (c : Int) (σ : G →* H) : ∀ xs : List (FrameIn G), List.Forall₂ (Renamed (fun n => m * n + c) σ) xs (renameCalls m c σ xs)
  | [] => .nil
  | x :: xs => by
    refine .cons ⟨rfl, rfl, rfl, fun n => ?_⟩ (renameCalls_renamed hm c σ xs)
    show σ (x.ba ((m * n + c - c) / m)) = σ (x.ba n)
    rw [add_sub_cancel_right, Int.mul_ediv_cancel_left _ hm.ne']

/-- `exSettings` with keyframes three times as far apart. -/
def farSettings : Settings := { exSettings with shiftBetweenKeyFrames := 6 }

theorem far_same : SameSettings 3 exSettings farSettings := ⟨rfl, rfl, rfl, rfl, rfl, rfl⟩

theorem far_created : create farSettings = .ok exState := rfl

-- The history 1, ..., 7 as 7, 10, ..., 25 with keyframes three times as far apart.
example : ∃ s rs s' rs', run exSettings exState (exCalls [1, 2, 3, 4, 5, 6, 7]) = .ok (s, rs) ∧
    run farSettings exState (renameCalls 3 4 (MonoidHom.id _) (exCalls [1, 2, 3, 4, 5, 6, 7])) = .ok (s', rs') ∧
    rs' = rs.map (Option.map fun n => 3 * n + 4) ∧ destroy s' = (destroy s).map (·.rename (fun n => 3 * n + 4) (MonoidHom.id _)) ∧
    ∀ n, s'.worldToFrame (3 * n + 4) = (s.worldToFrame n).map (MonoidHom.id _) :=
  C172_run (m := 3) (by decide) far_same exValid exState_created far_created exLegal ⟨by decide, by decide⟩ (renameCalls_renamed (by decide) 4 (MonoidHom.id _) _)

example : ∃ s rs s' rs', run exSettings exState (exCalls [1, 2, 3, 4, 5, 6, 7]) = .ok (s, rs) ∧
    run farSettings exState (renameCalls 3 4 (MonoidHom.id _) (exCalls [1, 2, 3, 4, 5, 6, 7])) = .ok (s', rs') ∧
    (writerOf intMax (destroy s')).lines = (writerOf intMax (destroy s)).lines.map fun l => (3 * l.1 + 4, MonoidHom.id _ l.2) :=
  C172_trajectory (m := 3) (inf := intMax) (inf' := intMax) (by decide) far_same exValid exState_created far_created exLegal ⟨by decide, by decide⟩ (renameCalls_renamed (by decide) 4 (MonoidHom.id _) _)
    (by decide)

section unit
open Mdso.Motion Mdso.Align
variable {R V T : Type} [Group R] [NormedAddCommGroup V] [NormedSpace ℝ V] [DistribMulAction R V] [SMulCommClass R ℝ V] [AddCommGroup T] [Module ℝ T]

/-- Another unit of length, in which lengths are `k` times as large. -/
def unitHom (k : ℝ) : Rigid R V →* Rigid R V where
  toFun := scaleTrans k
  map_one' := by ext <;> simp [scaleTrans]
  map_mul' := scale_mul k

theorem predictSimple_unit (L : LogExp R T) (k r : ℝ) (a b : Rigid R V) :
    predictSimple L r (unitHom k a) (unitHom k b) = unitHom k (predictSimple L r a b) := by
  have h : ∀ g : Rigid R V, (unitHom k g).rot = g.rot := fun _ => rfl
  have h' : ∀ g : Rigid R V, (unitHom k g).trans = k • g.trans := fun _ => rfl
  have hr : unitHom k b * (unitHom k a)⁻¹ = unitHom k (b * a⁻¹) := by rw [map_mul, map_inv]
  unfold predictSimple
  rw [hr]
  generalize b * a⁻¹ = d
  simp only [h, h']
  ext
  · simp [h]
  · simp only [Rigid.mul_trans, h', smul_add]
    rw [smul_comm _ k b.trans, smul_comm _ k d.trans, smul_comm r k]

/-- C172, units. In another unit of length, and under other numbers, the tracker of a system that predicts rotation and translation separately starts from the same motion. -/
theorem C172_unit {c : Int} (hm : 0 < m) (hs : SameSettings m set set') (hv : Valid set) {s0 : State (Rigid R V)} {s0' : State (Rigid R V)} (hc : Dso.create set = .ok s0)
    (hc' : Dso.create set' = .ok s0') {xs : List (FrameIn (Rigid R V))} {ys : List (FrameIn (Rigid R V))} (hl : Legal (xs.map (·.num))) (hl' : Legal (ys.map (·.num)))
    (k : ℝ) (hxy : List.Forall₂ (Renamed (fun n => m * n + c) (scaleTrans k)) xs ys) (L : LogExp R T) (n : Int) :
    ∃ s rs s' rs', run set s0 xs = .ok (s, rs) ∧ run set' s0' ys = .ok (s', rs') ∧
      predictBaseKfToCur (predictSimple L) set' { s' with frameNumbers := s'.frameNumbers ++ [m * n + c] } =
        (predictBaseKfToCur (predictSimple L) set { s with frameNumbers := s.frameNumbers ++ [n] }).map (scaleTrans k) :=
  C172_prediction (σ := unitHom k) hm hs hv hc hc' hl hl' hxy (fun r a b => predictSimple_unit L k r a b) n

example (L : LogExp Circle T) : ∃ s rs s' rs',
    run exSettings ⟨⟨false, 0, 0⟩, false, [], [], exSettings.initialMaxFrame, fun _ => none, []⟩ planeCalls = .ok (s, rs) ∧
    run farSettings ⟨⟨false, 0, 0⟩, false, [], [], exSettings.initialMaxFrame, fun _ => none, []⟩
      (renameCalls 3 4 (unitHom 100) planeCalls) = .ok (s', rs') ∧
      predictBaseKfToCur (predictSimple L) farSettings { s' with frameNumbers := s'.frameNumbers ++ [3 * 4 + 4] } =
        (predictBaseKfToCur (predictSimple L) exSettings { s with frameNumbers := s.frameNumbers ++ [4] }).map (scaleTrans 100) :=
  C172_unit (m := 3) (xs := planeCalls) (by decide) far_same exValid rfl rfl ⟨by decide, by decide⟩ ⟨by decide, by decide⟩ 100
    (renameCalls_renamed (by decide) 4 (unitHom 100) _) L 4

end unit

end Mdso.Renumber
