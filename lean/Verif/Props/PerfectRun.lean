import Verif.Spec.PerfectRun
import Verif.Props.AlignmentGauge
import Verif.Props.Motion

/-!
# C171: a perfect run is reported as perfect
-/

set_option autoImplicit false

namespace Mdso.Perfect
open Mdso.Dso Mdso.Traj

variable {G : Type} [Group G]

/-- Pose and tracked motions of a keyframe are right. -/
def Good (T : Int → G) (f : Int) (kf : KeyFrame G) : Prop :=
  kf.thisToWorld = T f * (T kf.num)⁻¹ ∧ ∀ t ∈ kf.trackedFrames, t.baseToThis = T t.num * (T kf.num)⁻¹

/-- The keyframes passed to an observer call. -/
def kfsOf : Event G → List (KeyFrame G)
  | .initialized kfs => kfs
  | .newFrame _ => []
  | .newKeyFrame kf => [kf]
  | .marginalized kfs => kfs
  | .destructed kfs => kfs

def GoodPoses (T : Int → G) (f : Int) (s : State G) : Prop := ∀ n g, s.worldToFrame n = some g → g = T n * (T f)⁻¹

structure PInv (T : Int → G) (f : Int) (s : State G) : Prop where
  poses : GoodPoses T f s
  window : ∀ kf ∈ s.keyFrames, Good T f kf
  log : ∀ e ∈ s.log, ∀ kf ∈ kfsOf e, Good T f kf
  first : s.initializer.hasFirstFrame = true → s.initializer.globalFrameNum0 = f

theorem writePose_good {T : Int → G} {f : Int} {s s' : State G} {n : Int} {g : G} (h : writePose s n g = .ok s')
    (hs : GoodPoses T f s) (hg : g = T n * (T f)⁻¹) : GoodPoses T f s' ∧ s'.keyFrames = s.keyFrames ∧ s'.log = s.log ∧ s'.initializer = s.initializer := by
  unfold writePose at h
  split at h
  · cases h
    refine ⟨?_, rfl, rfl, rfl⟩
    intro m g' hm
    dsimp only at hm
    by_cases hmn : m = n
    · rw [if_pos hmn] at hm
      cases hm
      rw [hmn]; exact hg
    · rw [if_neg hmn] at hm
      exact hs m g' hm
  · cases h

theorem foldlM_good {α : Type} {T : Int → G} {f : Int} {step : State G → α → Except Err (State G)} :
    ∀ (l : List α) {s s' : State G}, l.foldlM step s = .ok s' → GoodPoses T f s →
    (∀ a ∈ l, ∀ s s', step s a = .ok s' → GoodPoses T f s → GoodPoses T f s' ∧ s'.keyFrames = s.keyFrames ∧ s'.log = s.log ∧ s'.initializer = s.initializer) →
    GoodPoses T f s' ∧ s'.keyFrames = s.keyFrames ∧ s'.log = s.log ∧ s'.initializer = s.initializer
  | [], s, s', h, hs, _ => by
    cases h
    exact ⟨hs, rfl, rfl, rfl⟩
  | a :: l, s, s', h, hs, hstep => by
    rw [List.foldlM_cons] at h
    cases h1 : step s a with
    | error e => rw [h1] at h; cases h
    | ok s1 =>
      rw [h1] at h
      obtain ⟨b1, b2, b3, b4⟩ := hstep a (by simp) s s1 h1 hs
      obtain ⟨c1, c2, c3, c4⟩ := foldlM_good l (s := s1) h b1 fun a ha => hstep a (by simp [ha])
      exact ⟨c1, c2.trans b2, c3.trans b3, c4.trans b4⟩

theorem refresh_good {T : Int → G} {f : Int} {s s' : State G} {kf : KeyFrame G} (hk : Good T f kf) (h : refreshKeyFrame s kf = .ok s') (hs : GoodPoses T f s) :
    GoodPoses T f s' ∧ s'.keyFrames = s.keyFrames ∧ s'.log = s.log ∧ s'.initializer = s.initializer := by
  unfold refreshKeyFrame at h
  split at h
  · cases h
  · rename_i s1 h1
    obtain ⟨b1, b2, b3, b4⟩ := writePose_good h1 hs (by rw [hk.1]; group)
    obtain ⟨c1, c2, c3, c4⟩ := foldlM_good (T := T) (f := f) _ h b1 fun t ht s s' h' hs' =>
      writePose_good h' hs' (by rw [hk.1, hk.2 t ht]; group)
    exact ⟨c1, c2.trans b2, c3.trans b3, c4.trans b4⟩

theorem mem_mapInsert {kf k : KeyFrame G} : ∀ {l : List (KeyFrame G)}, k ∈ mapInsert kf l → k = kf ∨ k ∈ l
  | [], h => by simpa [mapInsert] using h
  | a :: l, h => by
    rw [mapInsert] at h
    split at h
    · simpa using h
    · split at h
      · exact Or.inr h
      · rcases List.mem_cons.1 h with rfl | h
        · exact Or.inr (by simp)
        · exact (mem_mapInsert h).imp id fun h => by simp [h]

theorem ba_good {set : Settings} {T : Int → G} {f : Int} {s s' : State G} {ba : Int → G} (hba : ∀ n, ba n = T f * (T n)⁻¹)
    (hs : PInv T f s) (h : runBundleAdjustment set s ba = .ok s') : PInv T f s' := by
  unfold runBundleAdjustment at h
  split at h
  · cases h; exact hs
  · split at h
    · cases h
    · simp only at h
      have hk : ∀ kf ∈ s.keyFrames.map (fun kf => { kf with thisToWorld := ba kf.num }), Good T f kf := by
        intro kf hkf
        obtain ⟨k, hk, rfl⟩ := List.mem_map.1 hkf
        exact ⟨hba _, (hs.window k hk).2⟩
      obtain ⟨c1, c2, c3, c4⟩ := foldlM_good (T := T) (f := f) _ h hs.poses fun kf hkf s s' h' hs' => refresh_good (hk kf hkf) h' hs'
      refine ⟨c1, ?_, ?_, ?_⟩
      · rw [c2]; exact hk
      · rw [c3]; exact hs.log
      · rw [c4]; exact hs.first

theorem marg_good {set : Settings} {T : Int → G} {f : Int} {s : State G} (hs : PInv T f s) : PInv T f (marginalizeFrames set s) := by
  unfold marginalizeFrames
  split
  · refine ⟨hs.poses, fun kf h => hs.window kf (List.mem_of_mem_drop h), ?_, hs.first⟩
    intro e he kf hkf
    rcases List.mem_append.1 he with he | he
    · exact hs.log e he kf hkf
    · obtain rfl := List.mem_singleton.1 he
      exact hs.window kf (List.mem_of_mem_take hkf)
  · exact hs

theorem base_mem {set : Settings} {kfs : List (KeyFrame G)} {base : KeyFrame G} (h : baseKeyFrame set kfs = .ok base) : base ∈ kfs := by
  unfold baseKeyFrame at h
  split at h
  · cases h
  · split at h
    · rename_i kf hk
      cases h
      exact List.mem_of_getElem? hk
    · cases h

theorem logged {T : Int → G} {f : Int} {s : State G} {es : List (Event G)} (hs : PInv T f s) (he : ∀ e ∈ es, ∀ kf ∈ kfsOf e, Good T f kf) :
    PInv T f { s with log := s.log ++ es } := by
  refine ⟨hs.poses, hs.window, fun e h => ?_, hs.first⟩
  rcases List.mem_append.1 h with h | h
  · exact hs.log e h
  · exact he e h

theorem addKeyFrame_good {set : Settings} {T : Int → G} {f : Int} {s s' : State G} {x : FrameIn G} {base : KeyFrame G} (hs : PInv T f s)
    (hb : Good T f base) (ht : x.track = T x.num * (T base.num)⁻¹) (hba : ∀ n, x.ba n = T f * (T n)⁻¹)
    (h : addKeyFrame set s x base = .ok s') : PInv T f s' := by
  unfold addKeyFrame at h
  simp only at h
  have hins : PInv T f { s with keyFrames := mapInsert ⟨x.num, base.thisToWorld * x.track⁻¹, []⟩ s.keyFrames } := by
    refine ⟨hs.poses, fun kf hkf => ?_, hs.log, hs.first⟩
    rcases mem_mapInsert hkf with rfl | hkf
    · refine ⟨?_, by simp⟩
      show base.thisToWorld * x.track⁻¹ = _
      rw [hb.1, ht]; group
    · exact hs.window kf hkf
  have hm := marg_good (set := set) hins
  split at h
  · cases h
  · rename_i base' hb'
    refine ba_good hba (logged hm ?_) h
    intro e he kf hkf
    obtain rfl := List.mem_singleton.1 he
    obtain rfl := List.mem_singleton.1 hkf
    exact hm.window _ (base_mem hb')

theorem addFrameTrack_good {set : Settings} {T : Int → G} {f : Int} {s : State G} {x : FrameIn G} {r : State G × Option Int} (hs : PInv T f s)
    (ht : ∀ base, baseKeyFrame set s.keyFrames = .ok base → x.track = T x.num * (T base.num)⁻¹) (hba : ∀ n, x.ba n = T f * (T n)⁻¹)
    (h : addFrameTrack set s x = .ok r) : PInv T f r.1 := by
  unfold addFrameTrack at h
  split at h
  · cases h
  rename_i base hb
  have hbg := hs.window base (base_mem hb)
  have htr := ht base hb
  simp only at h
  split at h
  · cases h
  split at h
  · cases h
  rename_i s2 h2
  have hl : PInv T f { s with log := s.log ++ [.newFrame x.num] } := logged hs (by
    intro e he kf hkf
    obtain rfl := List.mem_singleton.1 he
    simp [kfsOf] at hkf)
  obtain ⟨b1, b2, b3, b4⟩ := writePose_good (T := T) (f := f) h2 hl.poses (by rw [hbg.1, htr]; group)
  have hs2 : PInv T f s2 := ⟨b1, by rw [b2]; exact hl.window, by rw [b3]; exact hl.log, by rw [b4]; exact hl.first⟩
  split at h
  · cases h
  split at h
  · split at h
    · cases h
    · rename_i kfs hp
      cases h
      refine ⟨hs2.poses, ?_, hs2.log, hs2.first⟩
      unfold pushTracked at hp
      split at hp
      · cases hp
      · rename_i i hi
        cases hp
        intro kf hkf
        obtain ⟨j, hj⟩ := List.mem_iff_getElem?.1 hkf
        dsimp only at hj
        rw [List.getElem?_modify] at hj
        cases hk : s2.keyFrames[j]? with
        | none => rw [hk] at hj; cases hj
        | some k =>
          rw [hk] at hj
          have hkg := hs2.window k (List.mem_of_getElem? hk)
          by_cases hij : i = j
          · simp only [if_pos hij, Option.map_eq_map, Option.map_some] at hj
            cases hj
            refine ⟨hkg.1, fun t ht' => ?_⟩
            rcases List.mem_append.1 ht' with ht' | ht'
            · exact hkg.2 t ht'
            · obtain rfl := List.mem_singleton.1 ht'
              dsimp only
              rw [htr]
              have : base = k := by
                unfold baseKeyFrame at hb
                rw [b2] at hi hk
                dsimp only at hi hk
                rw [hi] at hb
                simp only [hij, hk] at hb
                cases hb; rfl
              rw [this]
          · simp only [if_neg hij, Option.map_eq_map, Option.map_some] at hj
            cases hj
            exact hkg
  · split at h
    · split at h
      · cases h
      · rename_i s3 h3
        cases h
        exact addKeyFrame_good hs2 hbg htr hba h3
    · cases h; exact hs2

theorem foldl_mapInsert_mem {k : KeyFrame G} : ∀ (l m : List (KeyFrame G)), k ∈ l.foldl (fun m f => mapInsert f m) m → k ∈ l ∨ k ∈ m
  | [], m, h => Or.inr h
  | a :: l, m, h => by
    rcases foldl_mapInsert_mem l _ h with h | h
    · exact Or.inl (by simp [h])
    · rcases mem_mapInsert h with rfl | h
      · exact Or.inl (by simp)
      · exact Or.inr h

theorem addFrameInit_good {set : Settings} {T : Int → G} {f : Int} {s : State G} {x : FrameIn G} {r : State G × Option Int} (hs : PInv T f s)
    (hst : x.stereo = T x.num * (T f)⁻¹) (hf : s.initializer.hasFirstFrame = false → x.num = f)
    (h : addFrameInit set s x = .ok r) : PInv T f r.1 := by
  unfold addFrameInit at h
  simp only at h
  have hini : ∀ b : Bool, PInv T f { s with initializer := (s.initializer.addFrame set x.num).1, isInitialized := b } := by
    intro b
    refine ⟨hs.poses, hs.window, hs.log, ?_⟩
    dsimp only
    unfold Initializer.addFrame
    by_cases hh : s.initializer.hasFirstFrame = true
    · simp only [hh, Bool.not_true, Bool.false_eq_true, if_false]
      split
      · intro _; exact hs.first hh
      · intro _; exact hs.first hh
    · have hh' : s.initializer.hasFirstFrame = false := by simpa using hh
      simp only [hh', Bool.not_false, if_true]
      intro _; exact hf hh'
  split at h
  · cases h
    exact hini _
  · rename_i hr
    have hhas : s.initializer.hasFirstFrame = true := by
      by_contra hh
      have hh' : s.initializer.hasFirstFrame = false := by simpa using hh
      simp [Initializer.addFrame, hh'] at hr
    have hnum : (s.initializer.addFrame set x.num).1.globalFrameNum0 = f := by
      refine (hini true).first ?_
      dsimp only
      unfold Initializer.addFrame
      simp only [hhas, Bool.not_true, Bool.false_eq_true, if_false]
      split <;> simp [hhas]
    have hgood : ∀ kf ∈ (s.initializer.addFrame set x.num).1.createKeyFrames x.num x.stereo, Good T f kf := by
      intro kf hkf
      unfold Initializer.createKeyFrames at hkf
      simp only [List.mem_cons, List.not_mem_nil, or_false] at hkf
      rcases hkf with rfl | rfl
      · refine ⟨?_, by simp⟩
        dsimp only
        rw [hnum]; group
      · refine ⟨?_, by simp⟩
        dsimp only
        rw [hst]; group
    split at h
    · cases h
    · rename_i s1 h1
      obtain ⟨c1, c2, c3, c4⟩ := foldlM_good (T := T) (f := f) _ h1 (hini _).poses fun kf hkf s s' h' hs' =>
        writePose_good h' hs' (by rw [(hgood kf hkf).1]; group)
      have hwin : ∀ kf ∈ List.foldl (fun m f => mapInsert f m) s1.keyFrames ((s.initializer.addFrame set x.num).1.createKeyFrames x.num x.stereo), Good T f kf := by
        intro kf hkf
        rcases foldl_mapInsert_mem _ _ hkf with hkf | hkf
        · exact hgood kf hkf
        · rw [c2] at hkf; exact hs.window kf hkf
      split at h
      · rename_i base last hb hl
        cases h
        refine ⟨c1, hwin, ?_, ?_⟩
        · intro e he kf hkf
          dsimp only at he
          rcases List.mem_append.1 he with he | he
          · rw [c3] at he; exact hs.log e he kf hkf
          · simp only [List.mem_cons, List.not_mem_nil, or_false] at he
            rcases he with rfl | rfl
            · exact hwin kf hkf
            · obtain rfl := List.mem_singleton.1 hkf
              exact hwin _ (base_mem hb)
        · dsimp only
          rw [c4]; exact (hini true).first
      · cases h

theorem addFrame_good {set : Settings} {T : Int → G} {f : Int} {s : State G} {x : FrameIn G} {r : State G × Option Int} (hs : PInv T f s)
    (hx : TrueCall set T f s x) (hf : s.isInitialized = false → s.initializer.hasFirstFrame = false → x.num = f)
    (h : addFrame set s x = .ok r) : PInv T f r.1 := by
  have key : ∀ s1 : State G, s1.isInitialized = s.isInitialized → s1.worldToFrame = s.worldToFrame → s1.keyFrames = s.keyFrames → s1.log = s.log →
      s1.initializer = s.initializer → (if !s1.isInitialized then addFrameInit set s1 x else addFrameTrack set s1 x) = .ok r → PInv T f r.1 := by
    intro s1 a1 a2 a3 a4 a5 h
    have hs1 : PInv T f s1 := ⟨by unfold GoodPoses; rw [a2]; exact hs.poses, by rw [a3]; exact hs.window, by rw [a4]; exact hs.log, by rw [a5]; exact hs.first⟩
    cases hi : s.isInitialized with
    | true =>
      rw [a1, hi] at h
      simp only [Bool.not_true, Bool.false_eq_true, if_false] at h
      exact addFrameTrack_good hs1 (by rw [a3]; exact hx.track) hx.ba h
    | false =>
      rw [a1, hi] at h
      simp only [Bool.not_false, if_true] at h
      exact addFrameInit_good hs1 (hx.stereo hi) (by rw [a5]; exact hf hi) h
  unfold addFrame adjustWorldToFrameSizes at h
  split at h
  · cases h
  · rename_i s1 hs1
    split at hs1
    · cases hs1
    · split at hs1
      · split at hs1
        · cases hs1
        · cases hs1
          split at h
          · exact key { s with tableSize := x.num + 1, frameNumbers := s.frameNumbers ++ [x.num] } rfl rfl rfl rfl rfl h
          · cases h
      · cases hs1
        split at h
        · exact key { s with frameNumbers := s.frameNumbers ++ [x.num] } rfl rfl rfl rfl rfl h
        · cases h

theorem run_good {set : Settings} (hv : Valid set) {s0 : State G} (hc : create set = .ok s0) {xs : List (FrameIn G)} (hl : Legal (xs.map (·.num)))
    {T : Int → G} (ht : TrueRun set T s0 xs) {first : FrameIn G} (hf : xs.head? = some first) (b : List (FrameIn G)) :
    ∀ a, xs = a ++ b → ∃ s rs, run set s0 a = .ok (s, rs) ∧ PInv T first.num s := by
  intro a
  induction a using List.reverseRecOn generalizing b with
  | nil =>
    intro _
    refine ⟨s0, [], rfl, ?_⟩
    unfold create at hc
    split at hc
    · cases hc
    · cases hc
      exact ⟨fun n g h => by simp at h, by simp, by simp, by simp⟩
  | append_singleton a x ih =>
    intro hx
    have hx' : xs = a ++ x :: b := by simpa using hx
    obtain ⟨s, rs, hr, hp⟩ := ih (x :: b) hx'
    have hpair : ((a ++ [x]).map (·.num)).Pairwise (· < ·) := by
      have := hl.1
      rw [hx, List.map_append] at this
      exact (List.pairwise_append.1 this).1
    have hrange : ∀ y ∈ a ++ [x], 0 < y.num ∧ y.num < intMax := fun y hy =>
      hl.2 _ (List.mem_map_of_mem (f := fun x : FrameIn G => x.num) (by rw [hx]; exact List.mem_append_left _ hy))
    obtain ⟨s2, rs2, hr2, -, -⟩ := run_create hv hc hpair hrange
    have hpair1 : (a.map (·.num)).Pairwise (· < ·) := by
      rw [List.map_append] at hpair
      exact (List.pairwise_append.1 hpair).1
    obtain ⟨s1, rs1, hr1, hi, -⟩ := run_create hv hc hpair1 fun y hy => hrange y (by simp [hy])
    rw [hr] at hr1
    cases hr1
    rw [run_append, hr] at hr2
    simp only [run] at hr2
    cases h3 : addFrame set s x with
    | error e => rw [h3] at hr2; simp at hr2
    | ok r =>
      refine ⟨r.1, rs ++ [r.2], ?_, ?_⟩
      · rw [run_append, hr]
        simp only [run, h3]
      · refine addFrame_good hp (ht first a x b hf hx' s rs hr) ?_ h3
        intro h4 h5
        rw [hi.initd] at h4
        have h6 := (hi.ini (by simpa using h4)).2
        rw [h6] at h5
        have : a = [] := by
          cases a with
          | nil => rfl
          | cons y a => simp [iniSpec] at h5
        rw [this] at hx'
        rw [hx'] at hf
        simp at hf
        rw [hf]

/-! ## Files -/

theorem poolInsert_mem {x e : Int × G} : ∀ {l : List (Int × G)}, e ∈ poolInsert x l → e = x ∨ e ∈ l
  | [], h => by simpa [poolInsert] using h
  | a :: l, h => by
    rw [poolInsert] at h
    split at h
    · simpa using h
    · split at h
      · exact Or.inr h
      · rcases List.mem_cons.1 h with rfl | h
        · exact Or.inr (by simp)
        · exact (poolInsert_mem h).imp id fun h => by simp [h]

theorem foldl_poolInsert_mem {e : Int × G} : ∀ (l m : List (Int × G)), e ∈ l.foldl (fun p x => poolInsert x p) m → e ∈ l ∨ e ∈ m
  | [], m, h => Or.inr h
  | a :: l, m, h => by
    rcases foldl_poolInsert_mem l _ h with h | h
    · exact Or.inl (by simp [h])
    · rcases poolInsert_mem h with rfl | h
      · exact Or.inl (by simp)
      · exact Or.inr h

theorem entries_good {T : Int → G} {f : Int} {kf : KeyFrame G} (hk : Good T f kf) {e : Int × G} (he : e ∈ poseEntries kf) : e.2 = T f * (T e.1)⁻¹ := by
  unfold poseEntries at he
  rcases List.mem_cons.1 he with rfl | he
  · exact hk.1
  · obtain ⟨t, ht, rfl⟩ := List.mem_map.1 he
    dsimp only
    rw [hk.1, hk.2 t ht]; group

theorem writer_good {T : Int → G} {f : Int} (infInt : Int) : ∀ (log : List (Event G)) (w : Writer G), (∀ e ∈ log, ∀ kf ∈ kfsOf e, Good T f kf) →
    (∀ e ∈ w.pool ++ w.lines, e.2 = T f * (T e.1)⁻¹) → ∀ e ∈ (log.foldl (Writer.step infInt) w).pool ++ (log.foldl (Writer.step infInt) w).lines, e.2 = T f * (T e.1)⁻¹
  | [], w, _, hw => hw
  | ev :: log, w, hlog, hw => by
    have hmarg : ∀ kfs : List (KeyFrame G), (∀ kf ∈ kfs, Good T f kf) → ∀ e ∈ (w.marginalized infInt kfs).pool ++ (w.marginalized infInt kfs).lines, e.2 = T f * (T e.1)⁻¹ := by
      intro kfs hk e he
      have hpool : ∀ e ∈ (kfs.flatMap poseEntries).foldl (fun p x => poolInsert x p) w.pool, e.2 = T f * (T e.1)⁻¹ := by
        intro e he
        rcases foldl_poolInsert_mem _ _ he with he | he
        · obtain ⟨kf, hkf, he⟩ := List.mem_flatMap.1 he
          exact entries_good (hk kf hkf) he
        · exact hw e (by simp [he])
      unfold Writer.marginalized at he
      dsimp only at he
      rcases List.mem_append.1 he with he | he
      · exact hpool e ((List.dropWhile_sublist _).subset he)
      · rcases List.mem_append.1 he with he | he
        · exact hw e (by simp [he])
        · exact hpool e ((List.takeWhile_sublist _).subset he)
    refine writer_good infInt log (Writer.step infInt w ev) (fun e he => hlog e (by simp [he])) ?_
    have hev := hlog ev (by simp)
    cases ev with
    | initialized kfs => exact hw
    | newFrame n => exact hw
    | newKeyFrame kf => exact hw
    | marginalized kfs => exact hmarg kfs hev
    | destructed kfs => exact hmarg kfs hev

/-- C171, poses. If nothing is estimated wrongly, every pose the system stores is the true motion from the first frame to that frame, so is every pose of a keyframe
in the window or told to an observer, and every line of the trajectory file holds the true pose of its frame, in the coordinates of the first frame. -/
theorem C171_poses {set : Settings} (hv : Valid set) {s0 : State G} (hc : create set = .ok s0) {xs : List (FrameIn G)} (hl : Legal (xs.map (·.num)))
    {T : Int → G} (ht : TrueRun set T s0 xs) {first : FrameIn G} (hf : xs.head? = some first) (infInt : Int) :
    ∃ s rs, run set s0 xs = .ok (s, rs) ∧
      (∀ n g, s.worldToFrame n = some g → g = T n * (T first.num)⁻¹) ∧
      (∀ kf ∈ createdOf s, kf.thisToWorld = T first.num * (T kf.num)⁻¹) ∧
      (∀ l ∈ (writerOf infInt (destroy s)).lines, l.2 = T first.num * (T l.1)⁻¹) := by
  obtain ⟨s, rs, hr, hp⟩ := run_good hv hc hl ht hf [] xs (by simp)
  refine ⟨s, rs, hr, hp.poses, ?_, ?_⟩
  · intro kf hkf
    rcases List.mem_append.1 hkf with hkf | hkf
    · unfold marginalizedOf at hkf
      obtain ⟨e, he, hkf⟩ := List.mem_flatMap.1 hkf
      have := hp.log e he
      cases e with
      | marginalized kfs => exact (this kf hkf).1
      | _ => simp at hkf
    · exact (hp.window kf hkf).1
  · intro l hl
    refine writer_good (T := T) (f := first.num) infInt (destroy s) Writer.init ?_ (by simp [Writer.init]) l (List.mem_append_right _ hl)
    intro e he kf hkf
    rcases List.mem_append.1 he with he | he
    · exact hp.log e he kf hkf
    · obtain rfl := List.mem_singleton.1 he
      exact hp.window kf hkf

/-- For every motion and every sequence of frame numbers there is such a run. -/
theorem exists_trueRun (set : Settings) (s0 : State G) (T : Int → G) (f : Int) :
    ∀ ns : List Int, (∀ n, ns.head? = some n → n = f) → ∃ xs : List (FrameIn G), xs.map (·.num) = ns ∧ TrueRun set T s0 xs := by
  intro ns
  induction ns using List.reverseRecOn with
  | nil => exact fun _ => ⟨[], rfl, fun first a x b h => by simp at h⟩
  | append_singleton ns n ih =>
    intro hn
    obtain ⟨xs, hxs, ht⟩ := ih fun m hm => hn m (by simp [List.head?_append, hm])
    obtain ⟨g, hg⟩ : ∃ g : G, ∀ s rs base, run set s0 xs = .ok (s, rs) → baseKeyFrame set s.keyFrames = .ok base → g = T n * (T base.num)⁻¹ := by
      by_cases h : ∃ s rs base, run set s0 xs = .ok (s, rs) ∧ baseKeyFrame set s.keyFrames = .ok base
      · obtain ⟨s, rs, base, h1, h2⟩ := h
        refine ⟨T n * (T base.num)⁻¹, fun s' rs' base' h1' h2' => ?_⟩
        rw [h1] at h1'
        cases h1'
        rw [h2] at h2'
        cases h2'
        rfl
      · exact ⟨1, fun s rs base h1 h2 => (h ⟨s, rs, base, h1, h2⟩).elim⟩
    refine ⟨xs ++ [⟨n, T n * (T f)⁻¹, g, fun m => T f * (T m)⁻¹⟩], by simp [hxs], ?_⟩
    intro first a x b hf hab s rs hr
    have hff : first.num = f := by
      refine hn _ ?_
      cases xs with
      | nil =>
        simp at hf hxs
        subst hxs
        simp [← hf]
      | cons y xs =>
        simp at hf hxs
        subst hf
        simp [← hxs]
    rcases List.eq_nil_or_concat b with rfl | ⟨b', y, rfl⟩
    · have h := List.append_inj' hab (by simp)
      obtain ⟨rfl, h⟩ := h
      simp at h
      subst h
      rw [hff]
      exact ⟨fun _ => rfl, fun base hb => hg s rs base hr hb, fun _ => rfl⟩
    · have h : xs ++ [⟨n, T n * (T f)⁻¹, g, fun m => T f * (T m)⁻¹⟩] = (a ++ x :: b') ++ [y] := by simpa using hab
      have h' := (List.append_inj' h (by simp)).1
      refine ht first a x b' ?_ h' s rs hr
      rw [h'] at hf ⊢
      cases a with
      | nil => simpa using hf
      | cons z a => simpa using hf

-- Seven frames, moving by one from frame to frame.
example : ∃ xs : List (FrameIn (Multiplicative Int)), xs.map (·.num) = [1, 2, 3, 4, 5, 6, 7] ∧ ∃ s rs, run exSettings exState xs = .ok (s, rs) ∧
    (∀ n g, s.worldToFrame n = some g → g = Multiplicative.ofAdd n * (Multiplicative.ofAdd 1)⁻¹) := by
  obtain ⟨xs, h1, h2⟩ := exists_trueRun exSettings exState (fun n => Multiplicative.ofAdd n) 1 [1, 2, 3, 4, 5, 6, 7] (by simp)
  refine ⟨xs, h1, ?_⟩
  cases xs with
  | nil => simp at h1
  | cons first xs =>
    obtain ⟨s, rs, hr, hp, -, -⟩ := C171_poses exValid exState_created (by rw [h1]; exact ⟨by decide, by decide⟩) h2 (first := first) rfl intMax
    refine ⟨s, rs, hr, ?_⟩
    have : first.num = 1 := by simp at h1; exact h1.1
    rw [this] at hp
    exact hp

/-- C171, prediction. If besides the true motion is a screw motion of constant twist, the pose the tracker starts from is the true one, so that there is nothing left to
track, except on the first tracked frame after skipped frames. -/
theorem C171_prediction {B : Type} [AddCommGroup B] [Module ℝ B] {set : Settings} (hv : Valid set) {s0 : State G} (hc : create set = .ok s0) {xs : List (FrameIn G)}
    {a b x : FrameIn G} (hl : Legal ((xs ++ [a, b]).map (·.num))) (hx : b.num < x.num)
    (hk : set.firstFramesSkip.toNat + 2 ≤ (xs ++ [a, b]).length) (hk' : set.firstFramesSkip.toNat = 0 ∨ set.firstFramesSkip.toNat + 3 ≤ (xs ++ [a, b]).length)
    {T : Int → G} (ht : TrueRun set T s0 (xs ++ [a, b])) (L : Motion.LogExp G B) (ξ : B) (w : G) (hT : ∀ n, T n = L.exp ((n : ℝ) • ξ) * w)
    (hadd : ∀ a b : ℝ, L.exp ((a + b) • ξ) = L.exp (a • ξ) * L.exp (b • ξ))
    (hlog : L.log (L.exp (((b.num : ℝ) - a.num) • ξ)) = ((b.num : ℝ) - a.num) • ξ) :
    ∃ s rs base, run set s0 (xs ++ [a, b]) = .ok (s, rs) ∧ baseKeyFrame set s.keyFrames = .ok base ∧
      Motion.predictBaseKfToCur (Motion.predictScrew L) set { s with frameNumbers := s.frameNumbers ++ [x.num] } = .ok (T x.num * (T base.num)⁻¹) := by
  obtain ⟨first, hf⟩ : ∃ first, (xs ++ [a, b]).head? = some first := by cases xs <;> simp
  obtain ⟨s, rs, e, hp⟩ := run_good hv hc hl ht hf [] (xs ++ [a, b]) (by simp)
  obtain ⟨s1, rs1, e1, hi, _⟩ := Motion.run_create_known hv hc hl
  rw [e] at e1
  cases e1
  obtain ⟨s1, rs1, e1, h1, hb, ha⟩ := Motion.C18_estimated_partial hv hc hl hx hk
  rw [e] at e1
  cases e1
  obtain ⟨hW, _⟩ := window_facts hv hi (by simpa [policyOf] using hk)
  obtain ⟨base, hb1, hb2⟩ := baseKeyFrame_ok set hW
  have hab : a.num < b.num := by
    have := hl.1
    simp only [List.map_append, List.map_cons, List.map_nil] at this
    have := (List.pairwise_append.1 this).2.1
    simpa using this
  refine ⟨s, rs, base, e, hb1, ?_⟩
  obtain ⟨pa, epa⟩ := Option.isSome_iff_exists.1 (ha.2 hk')
  obtain ⟨pb, epb⟩ := Option.isSome_iff_exists.1 hb
  have ra : Motion.readPose { s with frameNumbers := s.frameNumbers ++ [x.num] } a.num = T a.num * (T first.num)⁻¹ := by
    rw [← hp.poses _ _ epa]; simp [Motion.readPose, epa]
  have rb : Motion.readPose { s with frameNumbers := s.frameNumbers ++ [x.num] } b.num = T b.num * (T first.num)⁻¹ := by
    rw [← hp.poses _ _ epb]; simp [Motion.readPose, epb]
  unfold Motion.predictBaseKfToCur
  simp only [h1, hb1, List.getLast?_append, List.getLast?_singleton, Option.some_or]
  rw [ra, rb, (hp.window base (List.mem_of_getElem? hb2)).1]
  have key := Motion.C18_screw_exact L ξ hadd hab hx hlog w (T base.num)⁻¹
  rw [← hT, ← hT, ← hT] at key
  rw [show T a.num * (T first.num)⁻¹ * (T first.num * (T base.num)⁻¹) = T a.num * (T base.num)⁻¹ by group,
    show T b.num * (T first.num)⁻¹ * (T first.num * (T base.num)⁻¹) = T b.num * (T base.num)⁻¹ by group, key]

-- Four frames on a line; the fifth, three numbers later, is predicted without error.
example : ∃ (xs : List (FrameIn (Multiplicative ℝ))) (s : _) (rs : _) (base : _), xs.map (·.num) = [1, 2, 3, 4] ∧
    run exSettings ⟨⟨false, 0, 0⟩, false, [], [], exSettings.initialMaxFrame, fun _ => none, []⟩ xs = .ok (s, rs) ∧ baseKeyFrame exSettings s.keyFrames = .ok base ∧
      Motion.predictBaseKfToCur (Motion.predictScrew ⟨Multiplicative.ofAdd, Multiplicative.toAdd⟩) exSettings { s with frameNumbers := s.frameNumbers ++ [7] } =
        .ok (Multiplicative.ofAdd (7 * (2 : ℝ)) * (Multiplicative.ofAdd (base.num * (2 : ℝ)))⁻¹) := by
  obtain ⟨xs, h1, h2⟩ := exists_trueRun exSettings ⟨⟨false, 0, 0⟩, false, [], [], exSettings.initialMaxFrame, fun _ => none, []⟩
    (fun n => Multiplicative.ofAdd ((n : ℝ) * 2)) 1 [1, 2, 3, 4] (by simp)
  obtain ⟨ys, a, b, rfl⟩ : ∃ ys a b, xs = ys ++ [a, b] := by
    have hlen : xs.length = 4 := by simpa using congrArg List.length h1
    exact ⟨xs.take 2, xs[2], xs[3], by
      apply List.ext_getElem
      · simp [hlen]
      · intro i hi _
        rw [List.getElem_append]
        split
        · simp
        · have : i = 2 ∨ i = 3 := by simp at *; omega
          rcases this with rfl | rfl <;> simp [hlen]⟩
  have hb : b.num = 4 := by
    have := congrArg List.getLast? h1
    simpa using this
  have hlen : (ys ++ [a, b]).length = 4 := by simpa using congrArg List.length h1
  obtain ⟨s, rs, base, r1, r2, r3⟩ := C171_prediction (x := ⟨7, 1, 1, fun _ => 1⟩) exValid rfl (by rw [h1]; exact ⟨by decide, by decide⟩) (by rw [hb]; decide)
    (by rw [hlen]; decide) (by rw [hlen]; decide) h2 (⟨Multiplicative.ofAdd, Multiplicative.toAdd⟩ : Motion.LogExp (Multiplicative ℝ) ℝ) 2 1
    (fun n => by simp) (fun a b => by rw [add_smul]; rfl) rfl
  refine ⟨_, s, rs, base, h1, r1, r2, ?_⟩
  rw [r3]
  push_cast
  rfl

section files
open Mdso.Motion Mdso.Traj Mdso.Align
variable {R V : Type} [Group R] [NormedAddCommGroup V] [NormedSpace ℝ V] [DistribMulAction R V] [SMulCommClass R ℝ V]

theorem align_self {a b : Rigid R V} (h1 : 1e-3 ≤ ‖(b * a⁻¹).trans‖) (g : Rigid R V) : (Align.create a b a b).alignWorldToFrameGT g = .ok g := by
  rw [create_moving h1 h1]
  have h0 : ‖(b * a⁻¹).trans‖ ≠ 0 := by linarith [show (0 : ℝ) < 1e-3 by norm_num]
  show Except.ok _ = Except.ok _
  rw [div_self h0, scale_one, scale_one]
  simp

theorem align_true {k : ℝ} (hk : 0 < k) (h : Rigid R V) {a b c : Rigid R V} (h1 : 1e-3 ≤ ‖(b * a⁻¹).trans‖) (h2 : 1e-3 ≤ k * ‖(b * a⁻¹).trans‖) (g : Rigid R V) :
    (Align.create (a * c⁻¹) (b * c⁻¹) (recoord k h a) (recoord k h b)).alignWorldToFrameGT (recoord k h g) = .ok (g * c⁻¹) := by
  rw [(C157_unit k hk h _ _ a b h1 h2 g 0).1, C157_estimate, align_self h1]
  rfl

/-- C171, files. The ground truth table holds the same motion in other coordinates and another unit, and covers the frames. If the first two keyframes are at least
0.001 apart in both units, every line of the ground truth pose file holds the true pose of its frame in the coordinates of the first frame; if frames are tracked
from the last keyframe, the two pose files agree line by line. -/
theorem C171_files {set : Settings} (hv : Valid set) {s0 : State (Rigid R V)} (hc : Dso.create set = .ok s0) {xs : List (FrameIn (Rigid R V))} (hl : Legal (xs.map (·.num)))
    {T : Int → Rigid R V} (ht : TrueRun set T s0 xs) {first : FrameIn (Rigid R V)} (hf : xs.head? = some first)
    (align : Rigid R V → Rigid R V → Rigid R V → Rigid R V → Rigid R V → Rigid R V)
    (hal : ∀ f l fGT lGT g a, (Align.create f l fGT lGT).alignWorldToFrameGT g = .ok a → align f l fGT lGT g = a)
    {k : ℝ} (hk : 0 < k) (h : Rigid R V) {gt : List (Rigid R V)} (hg : ∀ x ∈ xs, x.num < gt.length) (hgt : ∀ (n : Nat) g, gt[n]? = some g → g = recoord k h (T n))
    (hb : ∀ second, xs[set.firstFramesSkip.toNat + 1]? = some second →
      1e-3 ≤ ‖(T second.num * (T first.num)⁻¹).trans‖ ∧ 1e-3 ≤ k * ‖(T second.num * (T first.num)⁻¹).trans‖) (infInt : Int) :
    ∃ s rs w, run set s0 xs = .ok (s, rs) ∧ writerGTOf align gt (destroy s) = .ok w ∧
      (∀ l ∈ w.lines, l.2 = T l.1 * (T first.num)⁻¹) ∧
      (set.trackFromLastKf = true → (∀ x ∈ xs, x.num < infInt) → w.lines = (writerOf infInt (destroy s)).lines.map fun l => (l.1, l.2⁻¹)) := by
  obtain ⟨s, rs, w, e, ew, hw⟩ := C62_gt_poses hv hc hl align hg
  obtain ⟨s1, rs1, e1, hp⟩ := run_good hv hc hl ht hf [] xs (by simp)
  rw [e] at e1
  cases e1
  obtain ⟨s1, rs1, e1, hi, _, hd⟩ := Cloud.run_create_logHead hv hc hl
  rw [e] at e1
  cases e1
  obtain ⟨s1, rs1, e1, -, hini⟩ := C06_initialization hv hc hl rfl
  rw [e] at e1
  cases e1
  have hcov := covers_log hi (gt := gt) (by simpa using hg) hd
  have nums : w.lines.map Prod.fst = (destroy s).flatMap writtenBy := by
    obtain ⟨u', eu', hu⟩ := gsteps_ok (align := align) (destroy s)
      (⟨rfl, rfl, rfl, rfl, by simp [WriterGT.init]⟩ : GInv gt (WriterGT.init gt) []) hcov
    unfold writerGTOf at ew
    rw [ew] at eu'
    cases eu'
    simpa using hu.lines
  have nonneg : ∀ l ∈ w.lines, 0 ≤ l.1 := by
    intro l hl
    have hm : l.1 ∈ w.lines.map Prod.fst := List.mem_map_of_mem hl
    rw [nums] at hm
    obtain ⟨ev, hev, hn⟩ := List.mem_flatMap.1 hm
    have := hcov ev hev
    cases ev with
    | marginalized kfs => exact (this _ hn).1
    | destructed kfs => exact (this _ hn).1
    | _ => simp [writtenBy] at hn
  have true_lines : ∀ l ∈ w.lines, l.2 = T l.1 * (T first.num)⁻¹ := by
    rcases hw with ⟨_, hn⟩ | ⟨k0, k1, rest, gf, gl, hlog, hgf, hgl, hlines⟩
    · rw [hn]; simp
    · intro l hl
      obtain ⟨g, hg1, hg2⟩ := hlines l hl
      have hx0 : xs[0]? = some first := by rw [← List.head?_eq_getElem?]; exact hf
      rw [hx0] at hini
      cases hx1 : xs[set.firstFramesSkip.toNat + 1]? with
      | none => rw [hx1, hlog] at hini; simp [initializedOf] at hini
      | some second =>
        rw [hx1, hlog] at hini
        have hnum : k0.num = first.num ∧ k1.num = second.num := by
          simp [initializedOf] at hini
          exact hini.1
        obtain ⟨b1, b2⟩ := hb second hx1
        have c0 := hcov (.initialized [k0, k1]) (by rw [hlog]; simp)
        have g0 := hgt _ _ hgf
        have g1 := hgt _ _ hgl
        have gg := hgt _ _ hg1
        rw [Int.toNat_of_nonneg (c0.2 k0 (by simp)).1] at g0
        rw [Int.toNat_of_nonneg (c0.2 k1 (by simp)).1] at g1
        rw [Int.toNat_of_nonneg (nonneg l hl)] at gg
        have p0 := (hp.log (.initialized [k0, k1]) (by rw [hlog]; simp) k0 (by simp [kfsOf])).1
        have p1 := (hp.log (.initialized [k0, k1]) (by rw [hlog]; simp) k1 (by simp [kfsOf])).1
        rw [hg2, p0, p1, g0, g1, gg, hnum.1, hnum.2]
        refine hal _ _ _ _ _ _ ?_
        have := align_true hk h (a := T first.num) (b := T second.num) (c := T first.num) b1 b2 (T l.1)
        rw [show (T first.num * (T first.num)⁻¹)⁻¹ = T first.num * (T first.num)⁻¹ by group,
          show (T first.num * (T second.num)⁻¹)⁻¹ = T second.num * (T first.num)⁻¹ by group]
        exact this
  refine ⟨s, rs, w, e, ew, true_lines, fun hlast hinf => ?_⟩
  obtain ⟨s1, rs1, _, w1, e1, -, ew1, -, -, hlines, -⟩ := C14_lines_match_partial hv hlast hc hl infInt align hg
  rw [e] at e1
  cases e1
  rw [ew] at ew1
  cases ew1
  obtain ⟨s1, rs1, e1, -, -, hest⟩ := C171_poses hv hc hl ht hf infInt
  rw [e] at e1
  cases e1
  refine eq_of_keys ?_ ?_
  · rw [List.map_map]
    exact (hlines hinf).1
  · intro a ha b hb hab
    obtain ⟨l, hl, rfl⟩ := List.mem_map.1 hb
    have h1 := true_lines a ha
    have h2 := hest l hl
    refine Prod.ext hab ?_
    rw [h1, h2, hab]
    group

-- The camera moves by one unit from frame to frame; the ground truth is in other coordinates and in centimetres.
example (align : Rigid Circle ℂ → Rigid Circle ℂ → Rigid Circle ℂ → Rigid Circle ℂ → Rigid Circle ℂ → Rigid Circle ℂ)
    (hal : ∀ f l fGT lGT g a, (Align.create f l fGT lGT).alignWorldToFrameGT g = .ok a → align f l fGT lGT g = a) (h : Rigid Circle ℂ) :
    ∃ (xs : List (FrameIn (Rigid Circle ℂ))) (s : _) (rs : _) (w : _), xs.map (·.num) = [1, 2, 3, 4, 5] ∧
      run exSettings ⟨⟨false, 0, 0⟩, false, [], [], exSettings.initialMaxFrame, fun _ => none, []⟩ xs = .ok (s, rs) ∧
      writerGTOf align ((List.range 6).map fun (n : Nat) => recoord 100 h ⟨1, (((n : Int) : ℝ) : ℂ)⟩) (destroy s) = .ok w ∧
      w.lines = (writerOf intMax (destroy s)).lines.map fun l => (l.1, l.2⁻¹) := by
  obtain ⟨xs, h1, h2⟩ := exists_trueRun exSettings ⟨⟨false, 0, 0⟩, false, [], [], exSettings.initialMaxFrame, fun _ => none, []⟩
    (fun n => (⟨1, ((n : ℝ) : ℂ)⟩ : Rigid Circle ℂ)) 1 [1, 2, 3, 4, 5] (by simp)
  have hmem : ∀ x ∈ xs, x.num ∈ [(1 : Int), 2, 3, 4, 5] := fun x hx => h1 ▸ List.mem_map_of_mem hx
  cases xs with
  | nil => simp at h1
  | cons first xs =>
    obtain ⟨s, rs, w, hr, hw, -, hlines⟩ := C171_files exValid rfl (by rw [h1]; exact ⟨by decide, by decide⟩) h2 (first := first) rfl align hal
      (k := 100) (by norm_num) h (gt := (List.range 6).map fun (n : Nat) => recoord 100 h ⟨1, (((n : Int) : ℝ) : ℂ)⟩)
      (fun x hx => by have := hmem x hx; simp at this; simp; omega) (by
        intro n g hn
        rw [List.getElem?_map] at hn
        by_cases h6 : n < 6
        · rw [List.getElem?_range h6] at hn
          simpa using hn.symm
        · rw [List.getElem?_eq_none (by simpa using h6)] at hn
          simp at hn) (by
        intro second hs
        have f1 : first.num = 1 := by simp at h1; exact h1.1
        have f2 : second.num = 3 := by
          have h3 : ((first :: xs).map (·.num))[2]? = some second.num := by
            rw [List.getElem?_map]
            have hs' : (first :: xs)[2]? = some second := hs
            rw [hs']; rfl
          rw [h1] at h3
          simpa using h3.symm
        rw [f1, f2]
        have e2 : ((⟨1, (((3 : Int) : ℝ) : ℂ)⟩ : Rigid Circle ℂ) * (⟨1, (((1 : Int) : ℝ) : ℂ)⟩)⁻¹).trans = 2 := by simp; norm_num
        rw [e2]
        constructor <;> norm_num) intMax
    refine ⟨_, s, rs, w, h1, hr, hw, hlines rfl fun x hx => ?_⟩
    have := hmem x hx
    simp at this
    have : intMax = 2147483647 := by decide
    omega

end files

end Mdso.Perfect
