import Mathlib.Algebra.Group.TypeTags.Basic
import Mathlib.Algebra.Group.Int.Defs
import Verif.Lemmas.Resume
import Verif.Props.DsoSystem

/-!
# Properties of a system resumed from a snapshot (C35)
-/

set_option autoImplicit false

namespace Mdso.Dso

open Mdso.FrameSpec Mdso.ResumeSpec

variable {G : Type}

/-- **C35**, what is recorded, for any number of observers: the tracked frames of every keyframe once
for each observer. -/
theorem C35_recorded [Group G] {set : Settings} (hset : 0 ≤ set.initialMaxFrame) (observers : Nat)
    {kfs : List (KeyFrame G)} (h : Resumable kfs) :
    ∃ s, resume set observers kfs = .ok s ∧ s.keyFrames = kfs ∧
      s.frameNumbers = kfs.flatMap (fun kf => kf.num ::
        (List.replicate observers (kf.trackedFrames.map (·.num))).flatten) := by
  obtain ⟨s, T, e, hk, _, _, hf, _⟩ := resume_ok hset observers h
  exact ⟨s, e, hk, by rw [hf, resumeWrites_fst]⟩

/-- **C35, partial.** With exactly one observer, and a window listed in increasing order, the recorded
frames are those of the window, each once and increasing, their poses are restored, every observer is
told about them in this order, and `addFrame` aborts exactly for numbers that are not larger than all
of them. Missing: other numbers of observers (`C35_no_observer_violated`,
`C35_two_observers_violated`), windows of systems that do not track from the last keyframe
(`C35_order_violated`) and windows without tracked frames (`C35_just_initialized_violated`). -/
theorem C35_one_observer_partial [Group G] {set : Settings} (hset : 0 ≤ set.initialMaxFrame)
    {kfs : List (KeyFrame G)} (h : Resumable kfs) (hs : (windowFrames kfs).Pairwise (· < ·)) :
    ∃ s, resume set 1 kfs = .ok s ∧ s.keyFrames = kfs ∧ s.isInitialized = true ∧
      s.frameNumbers = windowFrames kfs ∧ PosesRestored kfs s.worldToFrame ∧
      announcedOf s.log = kfs.map (·.num) ∧
      newFramesOf s.log = kfs.flatMap (fun kf => kf.trackedFrames.map (·.num)) ∧
      ∀ x : FrameIn G, addFrame set s x = .error .abort ↔
        ¬ (0 < x.num ∧ ∀ n ∈ windowFrames kfs, n < x.num) := by
  obtain ⟨s, T, e, hk, hi, hlog, hf, ht, hT, hr⟩ := resume_ok hset 1 h
  have hfr : s.frameNumbers = windowFrames kfs := by
    rw [hf, resumeWrites_fst]
    simp [windowFrames]
  have hrw : kfs.flatMap (resumeWrites 1) = refreshWrites kfs := by
    unfold resumeWrites refreshWrites
    simp
  refine ⟨s, e, hk, hi, hfr, ?_, ?_, ?_, ?_⟩
  · rw [ht, hrw]
    exact posesOk_refresh kfs _ (hs.imp (fun h => by omega))
  · rw [hlog]
    clear * -
    induction kfs with
    | nil => rfl
    | cons kf kfs ih =>
      have hfl : ∀ l : List (Tracked G), announcedOf (l.map (fun f => Event.newFrame (G := G) f.num)) = [] := by
        intro l; induction l with
        | nil => rfl
        | cons a l ih => simpa [announcedOf] using ih
      simp only [announcedOf] at ih hfl ⊢
      simp [resumeEvents, hfl, ih]
  · rw [hlog]
    clear * -
    induction kfs with
    | nil => rfl
    | cons kf kfs ih =>
      have hfl : ∀ l : List (Tracked G),
          newFramesOf (l.map (fun f => Event.newFrame (G := G) f.num)) = l.map (·.num) := by
        intro l; induction l with
        | nil => rfl
        | cons a l ih => simpa [newFramesOf] using ih
      simp only [newFramesOf] at ih hfl ⊢
      simp [resumeEvents, hfl, ih]
  · intro x
    have h0 : Inv0 s (windowFrames kfs) := by
      refine ⟨hfr, hs, ?_⟩
      intro n hn
      rw [← hfr, hf] at hn
      obtain ⟨w, hw, rfl⟩ := List.mem_map.1 hn
      rw [hT]; exact hr w hw
    exact (addFrame_inv0 (set := set) h0 x).1

/-- **C35**: the poses are restored for any number of observers but zero, in any window whose frame
numbers are distinct. -/
theorem C35_poses [Group G] {set : Settings} (hset : 0 ≤ set.initialMaxFrame) {observers : Nat}
    (ho : 1 ≤ observers) {kfs : List (KeyFrame G)} (h : Resumable kfs)
    (hn : (windowFrames kfs).Nodup) :
    ∃ s, resume set observers kfs = .ok s ∧ PosesRestored kfs s.worldToFrame := by
  obtain ⟨s, T, e, hk, hi, hlog, hf, ht, hT, hr⟩ := resume_ok hset observers h
  refine ⟨s, e, ?_⟩
  have hmem : ∀ w, w ∈ kfs.flatMap (resumeWrites observers) ↔ w ∈ refreshWrites kfs := by
    intro w
    unfold refreshWrites
    simp only [List.mem_flatMap]
    refine exists_congr fun kf => and_congr_right fun _ => ?_
    unfold resumeWrites
    simp only [List.mem_cons, List.mem_flatten, List.mem_replicate]
    refine or_congr Iff.rfl ?_
    constructor
    · rintro ⟨l, ⟨-, rfl⟩, hw⟩; exact hw
    · intro hw; exact ⟨_, ⟨by omega, rfl⟩, hw⟩
  have hnd : ((refreshWrites kfs).map Prod.fst).Nodup := by
    rw [refreshWrites_fst]; exact hn
  have hfun : ∀ i g, (i, g) ∈ refreshWrites kfs → ∀ g', (i, g') ∈ refreshWrites kfs → g' = g := by
    intro i g hg g' hg'
    have h1 := applyWrites_mem _ (fun _ => none) i g hnd hg
    have h2 := applyWrites_mem _ (fun _ => none) i g' hnd hg'
    rw [h1] at h2
    exact (Option.some.inj h2).symm
  have key : ∀ i g, (i, g) ∈ refreshWrites kfs → s.worldToFrame i = some g := by
    intro i g hg
    rw [ht]
    exact applyWrites_fun _ _ _ _ (fun g' hg' => hfun i g hg g' ((hmem _).1 hg'))
      (.inl ((hmem _).2 hg))
  intro kf hkf
  refine ⟨key _ _ ?_, fun f hf => key _ _ ?_⟩
  · simp only [refreshWrites, List.mem_flatMap]
    exact ⟨kf, hkf, by simp⟩
  · simp only [refreshWrites, List.mem_flatMap]
    exact ⟨kf, hkf, by simp; right; exact ⟨f, hf, rfl, rfl⟩⟩

/-- The window of a running system, seen as something to resume. -/
theorem window_resumable [Group G] {set : Settings} (hv : Valid set) {s : State G} {ns : List Int}
    (hl : Legal ns) (hi : Inv set s ns) (hlen : set.firstFramesSkip.toNat + 2 ≤ ns.length)
    (ht : ∃ kf ∈ s.keyFrames.drop (s.keyFrames.length - 2), kf.trackedFrames ≠ []) :
    Resumable s.keyFrames := by
  obtain ⟨h2, _, _, hm, _⟩ := window_facts hv hi hlen
  exact ⟨h2, fun n hn => hl.2 n (hm n hn), ht⟩

/-- **C35**: a system that tracks from its last keyframe can be saved after any legal history whose two
newest keyframes have a tracked frame, and resumed with one observer: the recorded frames are those of
the saved window, in increasing order. -/
theorem C35_resume_running_partial [Group G] {set : Settings} (hv : Valid set)
    (hlast : set.trackFromLastKf = true) {s0 : State G} (hc : create set = .ok s0)
    {xs : List (FrameIn G)} (hl : Legal (xs.map (·.num)))
    (hlen : set.firstFramesSkip.toNat + 2 ≤ xs.length) :
    ∃ s rs, run set s0 xs = .ok (s, rs) ∧
      ((∃ kf ∈ s.keyFrames.drop (s.keyFrames.length - 2), kf.trackedFrames ≠ []) →
        ∃ s', resume set 1 s.keyFrames = .ok s' ∧ s'.keyFrames = s.keyFrames ∧
          s'.frameNumbers = windowFrames s.keyFrames ∧ s'.frameNumbers.Pairwise (· < ·) ∧
          PosesRestored s.keyFrames s'.worldToFrame ∧
          ∀ n ∈ windowFrames s.keyFrames, s'.worldToFrame n = s.worldToFrame n) := by
  obtain ⟨s, rs, e, hi, hr⟩ := run_create hv hc hl.1 (by simpa using hl.2)
  refine ⟨s, rs, e, fun ht => ?_⟩
  have hlen' : (policyOf set).skip + 2 ≤ (xs.map (·.num)).length := by simpa [policyOf] using hlen
  have hres := window_resumable hv hl hi hlen' ht
  obtain ⟨h2, hw, _, hm, hnd⟩ := window_facts hv hi hlen'
  have hsorted : (windowFrames s.keyFrames).Pairwise (· < ·) := by
    have h1 := frames_sorted (p := policyOf set) hlast (ns := xs.map (·.num)) hl.1
    have e1 : windowFrames s.keyFrames = Book.frames (s.keyFrames.map entry) := by
      simp [windowFrames, Book.frames, entry, List.flatMap_map]
    rw [e1, hw]
    refine h1.sublist ?_
    unfold Book.frames
    rw [List.flatMap_def, List.flatMap_def]
    conv_rhs => rw [← List.take_append_drop (marginalizedOf s.log).length
      (book (policyOf set) (xs.map (·.num)))]
    rw [List.map_append, List.flatten_append]
    exact List.sublist_append_right _ _
  have hset : 0 ≤ set.initialMaxFrame := by
    by_contra hneg
    unfold create at hc
    rw [if_pos (by omega)] at hc
    cases hc
  obtain ⟨s', e', hk, _, hf, hp, _⟩ := C35_one_observer_partial hset hres hsorted
  refine ⟨s', e', hk, hf, by rw [hf]; exact hsorted, hp, ?_⟩
  intro n hn
  obtain ⟨kf, hkf, hn⟩ := List.mem_flatMap.1 hn
  rcases List.mem_cons.1 hn with rfl | hn
  · rw [(hp kf hkf).1, (hi.poses kf hkf).1]
  · obtain ⟨f, hf', rfl⟩ := List.mem_map.1 hn
    rw [(hp kf hkf).2 f hf', (hi.poses kf hkf).2 f hf']

/-! ## Where C35 fails -/

/-- **C35, violated.** Without observers no tracked frame is recorded, and `addFrame` accepts the number
of a tracked frame again if it is larger than all keyframes. -/
theorem C35_no_observer_violated [Group G] {set : Settings} (hset : 0 ≤ set.initialMaxFrame)
    {kfs : List (KeyFrame G)} (h : Resumable kfs) (hs : (kfs.map (·.num)).Pairwise (· < ·))
    (f : Int) (hf : f ∈ windowFrames kfs) (hnew : ∀ kf ∈ kfs, kf.num < f) :
    ∃ s, resume set 0 kfs = .ok s ∧ s.frameNumbers = kfs.map (·.num) ∧ f ∉ s.frameNumbers ∧
      s.worldToFrame f = none ∧
      ∀ x : FrameIn G, x.num = f → addFrame set s x ≠ .error .abort := by
  obtain ⟨s, T, e, hk, hi, hlog, hfn, ht, hT, hr⟩ := resume_ok hset 0 h
  have hfr : s.frameNumbers = kfs.map (·.num) := by
    rw [hfn, resumeWrites_fst]
    clear * -
    induction kfs with
    | nil => rfl
    | cons a l ih => simpa using ih
  have hnot : f ∉ kfs.map (·.num) := by
    intro hm
    obtain ⟨kf, hkf, e⟩ := List.mem_map.1 hm
    have := hnew kf hkf
    omega
  refine ⟨s, e, hfr, by rw [hfr]; exact hnot, ?_, ?_⟩
  · rw [ht]
    refine applyWrites_not_mem _ _ _ ?_
    rw [← hfn, hfr]; exact hnot
  · intro x hx
    have h0 : Inv0 s (kfs.map (·.num)) := by
      refine ⟨hfr, hs, ?_⟩
      intro n hn
      rw [← hfr, hfn] at hn
      obtain ⟨w, hw, rfl⟩ := List.mem_map.1 hn
      rw [hT]; exact hr w hw
    rw [ne_eq, (addFrame_inv0 (set := set) h0 x).1, not_not]
    refine ⟨by rw [hx]; exact (h.range f hf).1, ?_⟩
    intro m hm
    obtain ⟨kf, hkf, rfl⟩ := List.mem_map.1 hm
    rw [hx]; exact hnew kf hkf

/-- **C35, violated.** With two or more observers every tracked frame is recorded several times. -/
theorem C35_two_observers_violated [Group G] {set : Settings} (hset : 0 ≤ set.initialMaxFrame)
    {observers : Nat} (ho : 2 ≤ observers) {kfs : List (KeyFrame G)} (h : Resumable kfs) :
    ∃ s, resume set observers kfs = .ok s ∧ ¬ s.frameNumbers.Nodup := by
  obtain ⟨s, e, hk, hf⟩ := C35_recorded hset observers h
  refine ⟨s, e, ?_⟩
  obtain ⟨kf, hkf, hne⟩ := h.tracked
  have hkf' := List.mem_of_mem_drop hkf
  obtain ⟨b, a, rfl⟩ := List.append_of_mem hkf'
  obtain ⟨f, l, hfl⟩ := List.exists_cons_of_ne_nil hne
  obtain ⟨m, rfl⟩ : ∃ m, observers = m + 2 := ⟨observers - 2, by omega⟩
  rw [hf, List.flatMap_append, List.flatMap_cons, List.replicate_succ, List.replicate_succ,
    List.flatten_cons, List.flatten_cons, hfl]
  intro hn
  have h1 := (List.nodup_append.1 hn).2.1
  have h2 := (List.nodup_append.1 h1).1
  have h3 := (List.nodup_cons.1 h2).2
  exact (List.nodup_append.1 h3).2.2 f.num (by simp) f.num (by simp) rfl

/-- Settings that track from the keyframe before the last. -/
def lboSettings : Settings := { exSettings with trackFromLastKf := false }

/-- **C35, violated.** A system that does not track from its last keyframe: after the frames 1, 2, 3, 4
the window is resumed, with one observer, with the frames 1, 4, 3 in this order, and frame 4 is accepted
once more. -/
theorem C35_order_violated :
    ∃ s rs, run lboSettings exState (exCalls [1, 2, 3, 4]) = .ok (s, rs) ∧
      ∃ s', resume lboSettings 1 s.keyFrames = .ok s' ∧ s'.frameNumbers = [1, 4, 3] ∧
        ∃ r, addFrame lboSettings s' ⟨4, 1, 1, fun _ => 1⟩ = .ok r ∧ r.1.frameNumbers = [1, 4, 3, 4] := by
  refine ⟨_, _, rfl, _, rfl, rfl, ?_⟩
  exact ⟨_, rfl, rfl⟩

/-- **C35, violated.** The window of a system that has just been initialized cannot be resumed: the
constructor reads the last element of an empty vector. -/
theorem C35_just_initialized_violated [Group G] {set : Settings} (hv : Valid set) {s0 : State G}
    (hc : create set = .ok s0) {xs : List (FrameIn G)} (hl : Legal (xs.map (·.num)))
    (hlen : xs.length = set.firstFramesSkip.toNat + 2) (observers : Nat) :
    ∃ s rs, run set s0 xs = .ok (s, rs) ∧ resume set observers s.keyFrames = .error .ub := by
  obtain ⟨s, rs, e, hi, hr⟩ := run_create hv hc hl.1 (by simpa using hl.2)
  refine ⟨s, rs, e, ?_⟩
  have hlen' : (policyOf set).skip + 2 ≤ (xs.map (·.num)).length := by simp [policyOf, hlen]
  obtain ⟨h2, hw, hlen2, hm, _⟩ := window_facts hv hi hlen'
  have hbk : ∀ en ∈ book (policyOf set) (xs.map (·.num)), en.2 = [] := by
    have hne : xs.map (·.num) ≠ [] := by intro h; rw [h] at hlen'; simp at hlen'
    obtain ⟨l, n, hln⟩ : ∃ l n, xs.map (·.num) = l ++ [n] :=
      ⟨_, _, (List.dropLast_append_getLast hne).symm⟩
    have hl1 : l.length = (policyOf set).skip + 1 := by
      have := congrArg List.length hln
      simp [policyOf, hlen] at this ⊢
      omega
    obtain ⟨f, l', rfl⟩ := List.exists_cons_of_ne_nil (l := l) (by
      intro h; subst h; simp at hl1)
    rw [hln, book_init (by simpa using hl1)]
    simp
  have hno : ∀ kf ∈ s.keyFrames, kf.trackedFrames = [] := by
    intro kf hkf
    have h1 : entry kf ∈ s.keyFrames.map entry := List.mem_map_of_mem hkf
    rw [hw] at h1
    have := hbk _ (List.mem_of_mem_drop h1)
    simpa [entry] using this
  have hset : 0 ≤ set.initialMaxFrame := by
    by_contra hneg
    unfold create at hc
    rw [if_pos (by omega)] at hc
    cases hc
  have hrange : ∀ w ∈ s.keyFrames.flatMap (resumeWrites observers), 0 < w.1 ∧ w.1 < intMax := by
    intro w hw'
    obtain ⟨kf, hkf, hw'⟩ := List.mem_flatMap.1 hw'
    have hw1 : w.1 = kf.num := by
      unfold resumeWrites at hw'
      rw [hno kf hkf] at hw'
      rcases List.mem_cons.1 hw' with rfl | hw'
      · rfl
      · simp at hw'
    rw [hw1]
    refine hl.2 _ (hm _ ?_)
    exact List.mem_flatMap.2 ⟨kf, hkf, by simp⟩
  obtain ⟨T, _, _, el⟩ := foldlM_register_ok _
    { initializer := { hasFirstFrame := false, framesSkipped := 0, globalFrameNum0 := 0 }
      isInitialized := true
      keyFrames := s.keyFrames
      frameNumbers := []
      tableSize := set.initialMaxFrame
      worldToFrame := fun _ => none
      log := s.keyFrames.flatMap resumeEvents } hrange
  have hnt : noTracked s.keyFrames = true := by
    rw [← Bool.not_eq_false, noTracked_iff _ h2]
    rintro ⟨kf, hkf, hne⟩
    exact hne (hno kf (List.mem_of_mem_drop hkf))
  unfold resume
  rw [if_neg (by omega), if_neg (by omega), resumeLoop_eq, el]
  simp only [hnt]
  rfl

/-! ## The hypotheses can be met -/

/-- The window after the frames 1 to 6: keyframe 3 with frame 4, keyframe 5 with frame 6. -/
def exWindow : List (KeyFrame (Multiplicative Int)) :=
  [⟨3, Multiplicative.ofAdd 103, [⟨4, Multiplicative.ofAdd 4⟩]⟩,
   ⟨5, Multiplicative.ofAdd 105, [⟨6, Multiplicative.ofAdd 6⟩]⟩]

theorem exWindow_reached :
    ∃ s rs, run exSettings exState (exCalls [1, 2, 3, 4, 5, 6]) = .ok (s, rs) ∧
      s.keyFrames = exWindow := ⟨_, _, rfl, rfl⟩

theorem exWindow_resumable : Resumable exWindow :=
  ⟨by decide, by decide, exWindow.head (by simp [exWindow]), by simp [exWindow], by simp [exWindow]⟩

example := C35_recorded (set := exSettings) (by decide) 3 exWindow_resumable
example := C35_one_observer_partial (set := exSettings) (by decide) exWindow_resumable (by decide)
example := C35_poses (set := exSettings) (by decide) (observers := 2) (by decide) exWindow_resumable
  (by decide)
example := C35_resume_running_partial (G := Multiplicative Int) exValid rfl exState_created
  (xs := exCalls [1, 2, 3, 4, 5, 6]) ⟨by decide, by decide⟩ (by decide)
example := C35_no_observer_violated (set := exSettings) (by decide) exWindow_resumable (by decide) 6
  (by decide) (by decide)
example := C35_two_observers_violated (set := exSettings) (by decide) (observers := 2) (by decide)
  exWindow_resumable
example := C35_just_initialized_violated (G := Multiplicative Int) exValid exState_created
  (xs := exCalls [1, 2, 3]) ⟨by decide, by decide⟩ (by decide) 1

end Mdso.Dso
