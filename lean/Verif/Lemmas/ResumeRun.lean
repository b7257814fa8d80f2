import Verif.Lemmas.Resume
import Verif.Lemmas.Session

/-!
# Adding frames reads nothing of a system but its window and the last two frames
-/

set_option autoImplicit false

namespace Mdso.Dso

open Mdso.FrameSpec Mdso.ResumeSpec

variable {G : Type}

/-- What tracking one frame does to a window: the new window, the assignments to the pose table and the
calls to observers. -/
def effect [Group G] (set : Settings) (kfs : List (KeyFrame G)) (x : FrameIn G) :
    Except Err (List (KeyFrame G) × List (Int × G) × List (Event G)) :=
  match baseKeyFrame set kfs with
  | .error e => .error e
  | .ok base =>
    match doNeedKf set kfs x.num with
    | .error e => .error e
    | .ok need =>
      if !need then
        match pushTracked set kfs { num := x.num, baseToThis := x.track } with
        | .error e => .error e
        | .ok K => .ok (K, [(x.num, x.track * base.thisToWorld⁻¹)], [.newFrame x.num])
      else if set.continueChoosingKeyFrames then
        let k1 := mapInsert
          { num := x.num, thisToWorld := base.thisToWorld * x.track⁻¹, trackedFrames := [] } kfs
        let cut : Bool := 0 ≤ set.maxKeyFrames ∧ (k1.length : Int) > set.maxKeyFrames
        let k2 := if cut then k1.drop (k1.length - set.maxKeyFrames.toNat) else k1
        let ev := if cut then [Event.marginalized (k1.take (k1.length - set.maxKeyFrames.toNat))] else []
        match baseKeyFrame set k2 with
        | .error e => .error e
        | .ok b =>
          if !set.runBA then
            .ok (k2, [(x.num, x.track * base.thisToWorld⁻¹)], .newFrame x.num :: ev ++ [.newKeyFrame b])
          else if k2.length < 2 then .error .ub
          else
            let k3 := k2.map (fun kf => { kf with thisToWorld := x.ba kf.num })
            .ok (k3, (x.num, x.track * base.thisToWorld⁻¹) :: refreshWrites k3,
              .newFrame x.num :: ev ++ [.newKeyFrame b])
      else .ok (kfs, [(x.num, x.track * base.thisToWorld⁻¹)], [.newFrame x.num])

theorem mem_mapInsert {kf k : KeyFrame G} {kfs : List (KeyFrame G)} (h : k ∈ mapInsert kf kfs) :
    k = kf ∨ k ∈ kfs := by
  induction kfs with
  | nil => simpa [mapInsert] using h
  | cons a l ih =>
    unfold mapInsert at h
    by_cases h1 : kf.num < a.num
    · rw [if_pos h1] at h; simpa using h
    · rw [if_neg h1] at h
      by_cases h2 : kf.num = a.num
      · rw [if_pos h2] at h; exact .inr h
      · rw [if_neg h2] at h
        rcases List.mem_cons.1 h with rfl | h
        · exact .inr (by simp)
        · rcases ih h with e | e
          · exact .inl e
          · exact .inr (by simp [e])

theorem framesOf_ba (kfs : List (KeyFrame G)) (ba : Int → G) :
    framesOf (kfs.map (fun kf => { kf with thisToWorld := ba kf.num })) = framesOf kfs := by
  simp [framesOf, List.flatMap_map]

theorem framesOf_push {set : Settings} {kfs K : List (KeyFrame G)} {f : Tracked G}
    (h : pushTracked set kfs f = .ok K) : ∀ n ∈ framesOf K, n = f.num ∨ n ∈ framesOf kfs := by
  unfold pushTracked at h
  rcases hb : baseIndex set kfs.length with _ | i <;> rw [hb] at h
  · cases h
  cases h
  intro n hn
  obtain ⟨kf, hkf, hn⟩ := List.mem_flatMap.1 hn
  obtain ⟨j, hj, e⟩ := List.mem_iff_getElem.1 hkf
  rw [List.getElem_modify] at e
  have hj' : j < kfs.length := by simpa using hj
  have hm : kfs[j] ∈ kfs := List.getElem_mem hj'
  by_cases hij : i = j
  · rw [if_pos hij] at e
    subst e
    simp only [List.map_append, List.map_cons, List.map_nil, List.mem_cons, List.mem_append,
      List.not_mem_nil, or_false] at hn
    rcases hn with hn | hn | hn
    · exact .inr (List.mem_flatMap.2 ⟨_, hm, by simp [hn]⟩)
    · exact .inr (List.mem_flatMap.2 ⟨_, hm, by simp only [List.mem_cons]; exact .inr hn⟩)
    · exact .inl hn
  · rw [if_neg hij] at e
    subst e
    exact .inr (List.mem_flatMap.2 ⟨_, hm, hn⟩)

/-- The frames of the window after one step, and the frame that is assigned a pose. -/
theorem effect_frames [Group G] {set : Settings} {kfs : List (KeyFrame G)} {x : FrameIn G}
    {K : List (KeyFrame G)} {W : List (Int × G)} {E : List (Event G)}
    (h : effect set kfs x = .ok (K, W, E)) :
    (∀ n ∈ framesOf K, n = x.num ∨ n ∈ framesOf kfs) ∧ x.num ∈ W.map Prod.fst ∧
      ∀ w ∈ W, w.1 = x.num ∨ w.1 ∈ framesOf kfs := by
  unfold effect at h
  rcases hb : baseKeyFrame set kfs with e | base <;> rw [hb] at h
  · cases h
  rcases hd : doNeedKf set kfs x.num with e | need <;> rw [hd] at h
  · cases h
  rcases need with _ | _
  · rcases hp : pushTracked set kfs { num := x.num, baseToThis := x.track } with e | K' <;>
      simp only [hp] at h
    · cases h
    · cases h
      exact ⟨framesOf_push hp, by simp, by simp⟩
  · by_cases hc : set.continueChoosingKeyFrames = true
    · simp only [hc, Bool.not_true, Bool.false_eq_true, if_false, if_true] at h
      obtain ⟨k1, hk1⟩ : ∃ k1, k1 = mapInsert
        { num := x.num, thisToWorld := base.thisToWorld * x.track⁻¹, trackedFrames := [] } kfs := ⟨_, rfl⟩
      rw [← hk1] at h
      obtain ⟨cut, hcut⟩ : ∃ cut : Bool,
        cut = decide (0 ≤ set.maxKeyFrames ∧ (k1.length : Int) > set.maxKeyFrames) := ⟨_, rfl⟩
      rw [← hcut] at h
      obtain ⟨k2, hk2⟩ : ∃ k2, k2 = if cut = true then k1.drop (k1.length - set.maxKeyFrames.toNat) else k1 :=
        ⟨_, rfl⟩
      rw [← hk2] at h
      have hf1 : ∀ n ∈ framesOf k2, n = x.num ∨ n ∈ framesOf kfs := by
        intro n hn
        obtain ⟨kf, hkf, hn⟩ := List.mem_flatMap.1 hn
        have : kf ∈ k1 := by
          rw [hk2] at hkf
          by_cases h0 : cut = true
          · rw [if_pos h0] at hkf; exact List.mem_of_mem_drop hkf
          · rw [if_neg h0] at hkf; exact hkf
        rw [hk1] at this
        rcases mem_mapInsert this with rfl | hm
        · exact .inl (by simpa using hn)
        · exact .inr (List.mem_flatMap.2 ⟨_, hm, hn⟩)
      rcases hb2 : baseKeyFrame set k2 with e | b <;> rw [hb2] at h
      · cases h
      by_cases hr : set.runBA = true
      · simp only [hr, Bool.not_true, Bool.false_eq_true, if_false] at h
        by_cases hl : k2.length < 2
        · rw [if_pos hl] at h; cases h
        · rw [if_neg hl] at h
          cases h
          refine ⟨by rw [framesOf_ba]; exact hf1, by simp, ?_⟩
          intro w hw
          rcases List.mem_cons.1 hw with rfl | hw
          · exact .inl rfl
          · apply hf1
            rw [← framesOf_ba k2 x.ba, ← refreshWrites_fst]
            exact List.mem_map_of_mem hw
      · simp only [Bool.not_eq_true] at hr
        simp only [hr, Bool.not_false, if_true] at h
        cases h
        exact ⟨hf1, by simp, by simp⟩
    · simp only [Bool.not_eq_true] at hc
      simp only [hc, Bool.not_true, Bool.false_eq_true, if_false] at h
      cases h
      exact ⟨fun n hn => .inr hn, by simp, by simp⟩

/-- Tracking a frame in a state whose table is large enough. -/
theorem addFrameTrack_effect [Group G] {set : Settings} {s : State G} {x : FrameIn G} {A : List Int}
    {a b : Int} (hf : s.frameNumbers = A ++ [a, b, x.num]) (hx : 0 ≤ x.num ∧ x.num < s.tableSize)
    (hr : ∀ n ∈ framesOf s.keyFrames, 0 ≤ n ∧ n < s.tableSize)
    {K : List (KeyFrame G)} {W : List (Int × G)} {E : List (Event G)}
    (h : effect set s.keyFrames x = .ok (K, W, E)) :
    addFrameTrack set s x = .ok
      ({ s with
          keyFrames := K
          worldToFrame := applyWrites s.worldToFrame W
          log := s.log ++ E }, some x.num) := by
  have hWr := (effect_frames h).2.2
  unfold effect at h
  unfold addFrameTrack
  rcases hb : baseKeyFrame set s.keyFrames with e | base <;> rw [hb] at h
  · cases h
  have hpf : predictionFrames s.frameNumbers = .ok (a, b) := by
    rw [hf]; simp [predictionFrames]
  simp only [hpf]
  rw [writePose_ok (by exact hx)]
  simp only
  rcases hd : doNeedKf set s.keyFrames x.num with e | need <;> rw [hd] at h
  · cases h
  rcases need with _ | _
  · rcases hp : pushTracked set s.keyFrames { num := x.num, baseToThis := x.track } with e | K' <;>
      simp only [hp] at h
    · cases h
    · cases h
      simp [applyWrites]
  · by_cases hc : set.continueChoosingKeyFrames = true
    · simp only [hc, Bool.not_true, Bool.false_eq_true, if_false, if_true] at h ⊢
      unfold addKeyFrame
      simp only
      obtain ⟨k1, hk1⟩ : ∃ k1, k1 = mapInsert
        { num := x.num, thisToWorld := base.thisToWorld * x.track⁻¹, trackedFrames := [] } s.keyFrames :=
          ⟨_, rfl⟩
      rw [← hk1] at h
      simp only [← hk1]
      unfold marginalizeFrames
      by_cases hcut : 0 ≤ set.maxKeyFrames ∧ (k1.length : Int) > set.maxKeyFrames
      · simp only [hcut, decide_true, if_true, and_self] at h ⊢
        obtain ⟨k2, hk2⟩ : ∃ k2, k2 = k1.drop (k1.length - set.maxKeyFrames.toNat) := ⟨_, rfl⟩
        rw [← hk2] at h
        simp only [← hk2]
        rcases hb2 : baseKeyFrame set k2 with e | b' <;> rw [hb2] at h
        · cases h
        simp only
        unfold runBundleAdjustment
        by_cases hba : set.runBA = true
        · simp only [hba, Bool.not_true, Bool.false_eq_true, if_false] at h ⊢
          by_cases hl : k2.length < 2
          · rw [if_pos hl] at h; cases h
          · rw [if_neg hl] at h
            rw [if_neg hl]
            cases h
            rw [refresh_eq, foldlM_writePose_ok]
            · simp [applyWrites]
            · intro w hw
              rcases hWr w (List.mem_cons_of_mem _ hw) with e | e
              · rw [e]; exact hx
              · exact hr _ e
        · simp only [Bool.not_eq_true] at hba
          simp only [hba, Bool.not_false, if_true] at h ⊢
          cases h
          simp [applyWrites]
      · simp only [hcut, decide_false, if_false, Bool.false_eq_true] at h ⊢
        rcases hb2 : baseKeyFrame set k1 with e | b' <;> rw [hb2] at h
        · cases h
        simp only
        unfold runBundleAdjustment
        by_cases hba : set.runBA = true
        · simp only [hba, Bool.not_true, Bool.false_eq_true, if_false] at h ⊢
          by_cases hl : k1.length < 2
          · rw [if_pos hl] at h; cases h
          · rw [if_neg hl] at h
            rw [if_neg hl]
            cases h
            rw [refresh_eq, foldlM_writePose_ok]
            · simp [applyWrites]
            · intro w hw
              rcases hWr w (List.mem_cons_of_mem _ hw) with e | e
              · rw [e]; exact hx
              · exact hr _ e
        · simp only [Bool.not_eq_true] at hba
          simp only [hba, Bool.not_false, if_true] at h ⊢
          cases h
          simp [applyWrites]
    · simp only [Bool.not_eq_true] at hc
      simp only [hc, Bool.not_true, Bool.false_eq_true, if_false] at h ⊢
      cases h
      simp [applyWrites]

/-- Tracking fails if its effect on the window does. -/
theorem addFrameTrack_error [Group G] {set : Settings} {s : State G} {x : FrameIn G} {A : List Int}
    {a b : Int} (hf : s.frameNumbers = A ++ [a, b, x.num]) (hx : 0 ≤ x.num ∧ x.num < s.tableSize)
    {e : Err} (h : effect set s.keyFrames x = .error e) :
    ∃ e', addFrameTrack set s x = .error e' := by
  unfold effect at h
  unfold addFrameTrack
  rcases hb : baseKeyFrame set s.keyFrames with e | base <;> rw [hb] at h
  · exact ⟨_, rfl⟩
  have hpf : predictionFrames s.frameNumbers = .ok (a, b) := by
    rw [hf]; simp [predictionFrames]
  simp only [hpf]
  rw [writePose_ok (by exact hx)]
  simp only
  rcases hd : doNeedKf set s.keyFrames x.num with e | need <;> rw [hd] at h
  · exact ⟨_, rfl⟩
  rcases need with _ | _
  · rcases hp : pushTracked set s.keyFrames { num := x.num, baseToThis := x.track } with e | K' <;>
      simp only [hp] at h
    · exact ⟨e, by simp only [Bool.not_false, if_true]⟩
    · cases h
  · by_cases hc : set.continueChoosingKeyFrames = true
    · simp only [hc, Bool.not_true, Bool.false_eq_true, if_false, if_true] at h ⊢
      unfold addKeyFrame
      simp only
      obtain ⟨k1, hk1⟩ : ∃ k1, k1 = mapInsert
        { num := x.num, thisToWorld := base.thisToWorld * x.track⁻¹, trackedFrames := [] } s.keyFrames :=
          ⟨_, rfl⟩
      rw [← hk1] at h
      simp only [← hk1]
      unfold marginalizeFrames
      by_cases hcut : 0 ≤ set.maxKeyFrames ∧ (k1.length : Int) > set.maxKeyFrames
      · simp only [hcut, decide_true, if_true, and_self] at h ⊢
        obtain ⟨k2, hk2⟩ : ∃ k2, k2 = k1.drop (k1.length - set.maxKeyFrames.toNat) := ⟨_, rfl⟩
        rw [← hk2] at h
        simp only [← hk2]
        rcases hb2 : baseKeyFrame set k2 with e | b' <;> rw [hb2] at h
        · exact ⟨_, rfl⟩
        simp only
        unfold runBundleAdjustment
        by_cases hba : set.runBA = true
        · simp only [hba, Bool.not_true, Bool.false_eq_true, if_false] at h ⊢
          by_cases hl : k2.length < 2
          · rw [if_pos hl]; exact ⟨_, rfl⟩
          · rw [if_neg hl] at h; cases h
        · simp only [Bool.not_eq_true] at hba
          simp only [hba, Bool.not_false, if_true] at h
          cases h
      · simp only [hcut, decide_false, if_false, Bool.false_eq_true] at h ⊢
        rcases hb2 : baseKeyFrame set k1 with e | b' <;> rw [hb2] at h
        · exact ⟨_, rfl⟩
        simp only
        unfold runBundleAdjustment
        by_cases hba : set.runBA = true
        · simp only [hba, Bool.not_true, Bool.false_eq_true, if_false] at h ⊢
          by_cases hl : k1.length < 2
          · rw [if_pos hl]; exact ⟨_, rfl⟩
          · rw [if_neg hl] at h; cases h
        · simp only [Bool.not_eq_true] at hba
          simp only [hba, Bool.not_false, if_true] at h
          cases h
    · simp only [Bool.not_eq_true] at hc
      simp only [hc, Bool.not_true, Bool.false_eq_true, if_false] at h
      cases h

theorem applyWrites_congr (ws : List (Int × G)) (t t' : Int → Option G) (n : Int)
    (h : t' n = t n ∨ n ∈ ws.map Prod.fst) : applyWrites t' ws n = applyWrites t ws n := by
  induction ws generalizing t t' with
  | nil => simpa [applyWrites] using h
  | cons w ws ih =>
    unfold applyWrites
    apply ih
    simp only [List.map_cons, List.mem_cons] at h
    by_cases hn : n = w.1
    · exact .inl (by simp [hn])
    · rcases h with h | h | h
      · exact .inl (by simp [hn, h])
      · exact absurd h hn
      · exact .inr h

/-- Two initialized systems with the same window, the same last two frames, and the same poses of the
frames in `D`. -/
structure Alike (D : List Int) (s s' : State G) : Prop where
  kfs : s'.keyFrames = s.keyFrames
  init : s.isInitialized = true ∧ s'.isInitialized = true
  last : ∃ A A' a b, s.frameNumbers = A ++ [a, b] ∧ s'.frameNumbers = A' ++ [a, b] ∧ a ∈ D ∧ b ∈ D
  table : ∀ n ∈ D, s'.worldToFrame n = s.worldToFrame n
  size : ∀ n ∈ framesOf s.keyFrames, 0 ≤ n ∧ n < s.tableSize ∧ n < s'.tableSize

theorem addFrame_effect [Group G] {set : Settings} {s : State G} {x : FrameIn G} {A : List Int}
    {a b : Int} (hi : s.isInitialized = true) (hf : s.frameNumbers = A ++ [a, b])
    (hx : 0 < x.num ∧ x.num < intMax) (hb : b < x.num)
    (hr : ∀ n ∈ framesOf s.keyFrames, 0 ≤ n ∧ n < s.tableSize) :
    (∀ e, effect set s.keyFrames x = .error e → ∃ e', addFrame set s x = .error e') ∧
    ∀ K W E, effect set s.keyFrames x = .ok (K, W, E) → ∃ T, s.tableSize ≤ T ∧ x.num < T ∧
      addFrame set s x = .ok
        ({ s with
            frameNumbers := A ++ [a, b, x.num]
            tableSize := T
            keyFrames := K
            worldToFrame := applyWrites s.worldToFrame W
            log := s.log ++ E }, some x.num) := by
  obtain ⟨T, e, h1, h2⟩ := adjust_ok (s := s) hx.1 hx.2
  have hinc : increasing s.frameNumbers x.num = true := by
    rw [hf]; simp [increasing]; omega
  have hadd : addFrame set s x = addFrameTrack set
      { s with tableSize := T, frameNumbers := A ++ [a, b, x.num] } x := by
    unfold addFrame
    rw [e]
    simp only [hinc, if_true, hi, Bool.not_true, Bool.false_eq_true, if_false]
    simp [hf]
  refine ⟨fun e' h => ?_, fun K W E h => ⟨T, h1, h2, ?_⟩⟩
  · rw [hadd]
    exact addFrameTrack_error (s := { s with tableSize := T, frameNumbers := A ++ [a, b, x.num] })
      rfl ⟨by omega, h2⟩ h
  · rw [hadd]
    exact addFrameTrack_effect (s := { s with tableSize := T, frameNumbers := A ++ [a, b, x.num] })
      rfl ⟨by omega, h2⟩ (fun n hn => by have := hr n hn; exact ⟨this.1, by simp only; omega⟩) h

theorem addFrame_alike [Group G] {set : Settings} {D : List Int} {s s' : State G} (h : Alike D s s')
    {x : FrameIn G} (hx : 0 < x.num ∧ x.num < intMax) (hb : ∀ n ∈ s.frameNumbers, n < x.num)
    {t : State G} {r : Option Int} (e : addFrame set s x = .ok (t, r)) :
    ∃ t' E, addFrame set s' x = .ok (t', r) ∧ Alike (x.num :: D) t t' ∧ t.log = s.log ++ E ∧
      t'.log = s'.log ++ E ∧ t.frameNumbers = s.frameNumbers ++ [x.num] ∧
      t'.frameNumbers = s'.frameNumbers ++ [x.num] := by
  obtain ⟨hk, hi, ⟨A, A', a, b, hf, hf', ha, hbD⟩, ht, hs⟩ := h
  have hbx : b < x.num := hb b (by rw [hf]; simp)
  obtain ⟨h1, h2⟩ := addFrame_effect (set := set) hi.1 hf hx hbx (fun n hn => ⟨(hs n hn).1, (hs n hn).2.1⟩)
  obtain ⟨-, h2'⟩ := addFrame_effect (set := set) (s := s') hi.2 hf' hx hbx
    (fun n hn => by rw [hk] at hn; exact ⟨(hs n hn).1, (hs n hn).2.2⟩)
  rcases he : effect set s.keyFrames x with e' | ⟨K, W, E⟩
  · obtain ⟨e'', h⟩ := h1 _ he
    rw [h] at e; cases e
  obtain ⟨T, hT, hxT, e1⟩ := h2 K W E he
  obtain ⟨T', hT', hxT', e1'⟩ := h2' K W E (by rw [hk]; exact he)
  rw [e1] at e
  cases e
  obtain ⟨f1, f2, f3⟩ := effect_frames he
  refine ⟨_, E, e1', ⟨rfl, hi, ⟨A ++ [a], A' ++ [a], b, x.num, by simp, by simp, by simp [hbD], by simp⟩,
    ?_, ?_⟩, rfl, rfl, by simp [hf], by simp [hf']⟩
  · intro n hn
    refine applyWrites_congr _ _ _ _ ?_
    rcases List.mem_cons.1 hn with rfl | hn
    · exact .inr f2
    · exact .inl (ht n hn)
  · intro n hn
    rcases f1 n hn with rfl | hn
    · exact ⟨by omega, hxT, hxT'⟩
    · have := hs n hn
      exact ⟨this.1, by simp only; omega, by simp only; omega⟩

theorem run_alike [Group G] {set : Settings} : ∀ (ys : List (FrameIn G)) {D : List Int} {s s' : State G},
    Alike D s s' → (∀ y ∈ ys, 0 < y.num ∧ y.num < intMax) →
    (s.frameNumbers ++ ys.map (·.num)).Pairwise (· < ·) →
    ∀ {t : State G} {rs : List (Option Int)}, run set s ys = .ok (t, rs) →
    ∃ t' E, run set s' ys = .ok (t', rs) ∧ Alike ((ys.map (·.num)).reverse ++ D) t t' ∧
      t.log = s.log ++ E ∧ t'.log = s'.log ++ E := by
  intro ys
  induction ys with
  | nil =>
    intro D s s' h _ _ t rs e
    cases e
    exact ⟨s', [], rfl, by simpa using h, by simp, by simp⟩
  | cons x ys ih =>
    intro D s s' h hx hp t rs e
    unfold run at e
    rcases ha : addFrame set s x with e' | ⟨u, r⟩ <;> rw [ha] at e
    · cases e
    simp only at e
    rcases hr : run set u ys with e' | ⟨v, rs'⟩ <;> rw [hr] at e
    · cases e
    cases e
    obtain ⟨u', E, e1, hA, l1, l2, hf, hf'⟩ := addFrame_alike h (hx x (by simp))
      (fun n hn => (List.pairwise_append.1 hp).2.2 n hn x.num (by simp)) ha
    obtain ⟨t', E', e2, hA', l1', l2'⟩ := ih hA (fun y hy => hx y (by simp [hy]))
      (by rw [hf]; simpa using hp) hr
    refine ⟨t', E ++ E', ?_, by simpa using hA', by rw [l1', l1]; simp, by rw [l2', l2]; simp⟩
    unfold run
    rw [e1]; simp only [e2]

end Mdso.Dso
