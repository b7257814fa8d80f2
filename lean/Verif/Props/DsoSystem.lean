import Verif.Lemmas.DsoSystem
import Mathlib.Algebra.Group.TypeTags.Basic
import Mathlib.Algebra.Group.Int.Defs

/-!
# Properties of the frame machine: C05–C11, C17

A life of a system is `create`, then `run` over a list of `addFrame` calls, then possibly `destroy`.
Theorems quantify over the settings, the list of calls and all numerical results in the calls.
-/

set_option autoImplicit false

namespace Mdso.Dso
open Mdso.FrameSpec

variable {G : Type}

/-! ## A concrete system used in the non-vacuity examples -/

/-- Window of two, a keyframe every 2 frames, one frame skipped. -/
def exSettings : Settings :=
  { shiftBetweenKeyFrames := 2, maxKeyFrames := 2, trackFromLastKf := true
    continueChoosingKeyFrames := true, firstFramesSkip := 1, initialMaxFrame := 3, runBA := true }

/-- Calls with the given numbers; the motions are elements of the additive integers. -/
def exCalls (l : List Int) : List (FrameIn (Multiplicative Int)) :=
  l.map (fun n => { num := n, stereo := Multiplicative.ofAdd 5, track := Multiplicative.ofAdd n
                    ba := fun k => Multiplicative.ofAdd (k + 100) })

/-- A freshly created system with these settings. -/
def exState : State (Multiplicative Int) :=
  { initializer := ⟨false, 0, 0⟩, isInitialized := false, keyFrames := [], frameNumbers := []
    tableSize := 3, worldToFrame := fun _ => none, log := [] }

theorem exState_created : create exSettings = .ok exState := rfl

theorem exValid : Valid exSettings := ⟨by decide, by decide⟩

theorem exLegal : Legal ((exCalls [1, 2, 3, 4, 5, 6, 7]).map (·.num)) := by
  constructor
  · decide
  · decide

/-! ## C05 -/

/-- C05. Whatever the settings: after any successful history the next `addFrame` aborts exactly if the
new number is not positive or not larger than all earlier ones. -/
theorem C05_abort_iff [Group G] {set : Settings} {s0 s : State G} (hc : create set = .ok s0)
    {xs : List (FrameIn G)} {rs : List (Option Int)} (h : run set s0 xs = .ok (s, rs))
    (x : FrameIn G) :
    addFrame set s x = .error .abort ↔ ¬ (0 < x.num ∧ ∀ y ∈ xs, y.num < x.num) := by
  have hi := run_inv0 xs (inv0_create hc) _ h
  have := (addFrame_inv0 (set := set) hi x).1
  rw [this]
  simp [Acceptable]

/-- C05. A history aborts only at a call with such a number. -/
theorem C05_run_abort [Group G] {set : Settings} {s0 : State G} (hc : create set = .ok s0)
    {xs : List (FrameIn G)} (h : run set s0 xs = .error .abort) :
    ∃ pre x post, xs = pre ++ x :: post ∧ (∃ s rs, run set s0 pre = .ok (s, rs)) ∧
      ¬ (0 < x.num ∧ ∀ y ∈ pre, y.num < x.num) := by
  have key : ∀ (ys pre : List (FrameIn G)) (s : State G) (rs : List (Option Int)),
      run set s0 pre = .ok (s, rs) → run set s ys = .error .abort →
      ∃ p x post, pre ++ ys = p ++ x :: post ∧ (∃ s rs, run set s0 p = .ok (s, rs)) ∧
        ¬ (0 < x.num ∧ ∀ y ∈ p, y.num < x.num) := by
    intro ys
    induction ys with
    | nil => intro pre s rs _ h; simp [run] at h
    | cons x ys ih =>
      intro pre s rs hp h
      unfold run at h
      cases ha : addFrame set s x with
      | error e =>
        rw [ha] at h
        cases h
        exact ⟨pre, x, ys, rfl, ⟨s, rs, hp⟩, (C05_abort_iff hc hp x).1 ha⟩
      | ok p =>
        obtain ⟨s1, o⟩ := p
        rw [ha] at h
        simp only at h
        have hy : run set s1 ys = .error .abort := by
          cases hr : run set s1 ys with
          | error e => rw [hr] at h; simpa using h
          | ok q => rw [hr] at h; cases h
        have hp1 : run set s0 (pre ++ [x]) = .ok (s1, rs ++ [o]) := by
          rw [run_append, hp]; simp [run, ha]
        obtain ⟨p, z, post, e, h1, h2⟩ := ih (pre ++ [x]) s1 _ hp1 hy
        exact ⟨p, z, post, by rw [← e]; simp, h1, h2⟩
  obtain ⟨p, x, post, e, h1, h2⟩ := key xs [] s0 [] rfl h
  exact ⟨p, x, post, by simpa using e, h1, h2⟩

/-- C05. With meaningful settings nothing else can go wrong: a legal history succeeds. -/
theorem C05_legal_succeeds [Group G] {set : Settings} (hv : Valid set) {s0 : State G}
    (hc : create set = .ok s0) {xs : List (FrameIn G)} (hl : Legal (xs.map (·.num))) :
    ∃ s rs, run set s0 xs = .ok (s, rs) := by
  obtain ⟨s, rs, e, _⟩ := run_create hv hc hl.1 (by simpa using hl.2)
  exact ⟨s, rs, e⟩

/-- C05, the boundary: the largest `int`, beyond the table, overflows instead of being accepted. -/
theorem C05_int_max_ub [Group G] {set : Settings} (s : State G) (hs : s.tableSize ≤ intMax)
    (x : FrameIn G) (hx : x.num = intMax) : addFrame set s x = .error .ub := by
  unfold addFrame adjustWorldToFrameSizes
  rw [if_neg (by rw [hx]; decide), if_pos (by omega), if_pos (by omega)]

example : ∃ s rs, run exSettings (G := Multiplicative Int)
    exState (exCalls [1, 2, 3, 4, 5, 6, 7])
      = .ok (s, rs) :=
  C05_legal_succeeds exValid exState_created exLegal

/-! ## C06 -/

/-- C06. The first `k + 1` frames return nothing, every later one returns itself; `initialized` is
called exactly once, from the `k + 2`-nd frame on, with the first and the `k + 2`-nd frame. -/
theorem C06_initialization [Group G] {set : Settings} (hv : Valid set) {s0 : State G}
    (hc : create set = .ok s0) {xs : List (FrameIn G)} (hl : Legal (xs.map (·.num)))
    {k : Nat} (hk : k = set.firstFramesSkip.toNat) :
    ∃ s rs, run set s0 xs = .ok (s, rs) ∧
      rs = (xs.take (k + 1)).map (fun _ => none) ++ (xs.drop (k + 1)).map (fun x => some x.num) ∧
      initializedOf s.log =
        (match xs[0]?, xs[k + 1]? with
         | some a, some b => [[a.num, b.num]]
         | _, _ => []) := by
  obtain ⟨s, rs, e, hi, hr⟩ := run_create hv hc hl.1 (by simpa using hl.2)
  have hk' : (policyOf set).skip = k := by rw [hk]; rfl
  refine ⟨s, rs, e, ?_, ?_⟩
  · rw [hr, hk']
    simp [returned, List.map_take, List.map_drop, Function.comp_def]
  · rw [hi.inits, hk']
    by_cases h : k + 2 ≤ xs.length
    · rw [if_pos (by simpa using h)]
      have h0 : 0 < xs.length := by omega
      have h1 : k + 1 < xs.length := by omega
      rw [List.getElem?_eq_getElem h0, List.getElem?_eq_getElem h1]
      simp only
      have e1 : (xs.map (·.num)).take 1 = [xs[0].num] := by
        cases xs with
        | nil => simp at h0
        | cons a l => rfl
      have e2 : ((xs.map (·.num)).drop (k + 1)).take 1 = [xs[k + 1].num] := by
        rw [List.drop_eq_getElem_cons (by simpa using h1)]; simp
      rw [e1, e2]; rfl
    · rw [if_neg (by simpa using h)]
      rw [List.getElem?_eq_none (by omega : xs.length ≤ k + 1)]
      cases xs[0]? <;> rfl

example := C06_initialization (k := 1) (G := Multiplicative Int) exValid exState_created exLegal rfl

/-! ## C07 -/

/-- C07. After initialization a frame becomes a keyframe if and only if keyframes are still being
chosen and its distance from the newest keyframe is a multiple of `shiftBetweenKeyFrames`. -/
theorem C07_keyframe_iff [Group G] {set : Settings} (hv : Valid set) {s0 : State G}
    (hc : create set = .ok s0) {xs : List (FrameIn G)} {x : FrameIn G}
    (hl : Legal ((xs ++ [x]).map (·.num))) (hk : set.firstFramesSkip.toNat + 2 ≤ xs.length) :
    ∃ s rs s' newest, run set s0 xs = .ok (s, rs) ∧ addFrame set s x = .ok (s', some x.num) ∧
      s.keyFrames.getLast? = some newest ∧ newest.num < x.num ∧
      (createdOf s').map (·.num) = (createdOf s).map (·.num) ++
        (if set.continueChoosingKeyFrames = true ∧ set.shiftBetweenKeyFrames ∣ x.num - newest.num
         then [x.num] else []) := by
  have hp : (xs.map (·.num)).Pairwise (· < ·) := by
    have := hl.1; rw [List.map_append] at this
    exact (List.pairwise_append.1 this).1
  have hb : ∀ y ∈ xs, 0 < y.num ∧ y.num < intMax := fun y hy => hl.2 _ (by
    rw [List.map_append]; exact List.mem_append_left _ (List.mem_map_of_mem hy))
  obtain ⟨s, rs, e, hi, hr⟩ := run_create hv hc hp hb
  have hacc : Acceptable (xs.map (·.num)) x.num := by
    refine ⟨(hl.2 _ (by simp)).1, ?_⟩
    have := hl.1; rw [List.map_append] at this
    intro m hm
    exact (List.pairwise_append.1 this).2.2 m hm x.num (by simp)
  have hlen : (policyOf set).skip + 2 ≤ (xs.map (·.num)).length := by simpa [policyOf] using hk
  obtain ⟨s', evs, e', hi', _⟩ := step_track hv hi hacc (hl.2 _ (by simp)).2 hlen
  obtain ⟨hW2, _, _, hWns, _⟩ := window_facts hv hi hlen
  have hWne : s.keyFrames ≠ [] := by intro h; rw [h] at hW2; simp at hW2
  have hlast := List.getLast?_eq_some_getLast hWne
  refine ⟨s, rs, s', s.keyFrames.getLast hWne, e, e', hlast, ?_, ?_⟩
  · refine hacc.2 _ (hWns _ ?_)
    simp only [framesOf, List.mem_flatMap]
    exact ⟨_, List.getLast_mem hWne, by simp⟩
  · have num_map : ∀ l : List (KeyFrame G), l.map (·.num) = Book.keyFrames (l.map entry) := by
      intro l; simp [Book.keyFrames, entry, Function.comp_def]
    have e1 : (createdOf s).map (·.num) = (book (policyOf set) (xs.map (·.num))).keyFrames := by
      rw [num_map]; unfold createdOf; rw [hi.book]
    have e2 : (createdOf s').map (·.num)
        = (book (policyOf set) (xs.map (·.num) ++ [x.num])).keyFrames := by
      rw [num_map]; unfold createdOf; rw [hi'.book]
    rw [e1, e2, book_snoc hlen]
    have hBlast : (book (policyOf set) (xs.map (·.num))).getLast?
        = some (entry (s.keyFrames.getLast hWne)) := by
      rw [← hi.book, List.map_append, List.getLast?_append, List.getLast?_map, hlast]; rfl
    unfold track
    rw [hBlast]
    simp only [entry]
    show Book.keyFrames (if set.shiftBetweenKeyFrames ∣ _ then
      (if set.continueChoosingKeyFrames = true then _ else _) else _) = _
    by_cases hd : set.shiftBetweenKeyFrames ∣ x.num - (s.keyFrames.getLast hWne).num
    · rw [if_pos hd]
      cases set.continueChoosingKeyFrames with
      | true => simp [hd, Book.keyFrames]
      | false => simp
    · rw [if_neg hd, attach_keyFrames]; simp [hd]

/-- C07. Keyframe numbers increase, and all keyframes but the very first are multiples of
`shiftBetweenKeyFrames` apart. -/
theorem C07_spacing [Group G] {set : Settings} (hv : Valid set) {s0 : State G}
    (hc : create set = .ok s0) {xs : List (FrameIn G)} (hl : Legal (xs.map (·.num))) :
    ∃ s rs, run set s0 xs = .ok (s, rs) ∧
      ((createdOf s).map (·.num)).Pairwise (· < ·) ∧
      (((createdOf s).map (·.num)).drop 1).Pairwise (fun a b => set.shiftBetweenKeyFrames ∣ b - a) := by
  obtain ⟨s, rs, e, hi, hr⟩ := run_create hv hc hl.1 (by simpa using hl.2)
  have e1 : (createdOf s).map (·.num) = (book (policyOf set) (xs.map (·.num))).keyFrames := by
    rw [← hi.book]; simp [createdOf, Book.keyFrames, entry, Function.comp_def]
  refine ⟨s, rs, e, ?_, ?_⟩
  · rw [e1]; exact keyFrames_sorted hl.1
  · rw [e1]; exact keyFrames_multiples (policyOf set) _

/-- C07. `shiftBetweenKeyFrames = 0`: whatever the state, the history can never be continued past
initialization: every call that reaches tracking with a newest keyframe below it is undefined. -/
theorem C07_zero_shift_ub [Group G] {set : Settings} (hs : set.shiftBetweenKeyFrames = 0)
    {s : State G} (hi : s.isInitialized = true) {newest : KeyFrame G}
    (hn : s.keyFrames.getLast? = some newest) {x : FrameIn G} (hlt : newest.num < x.num)
    (ha : 0 < x.num ∧ increasing s.frameNumbers x.num = true) : addFrame set s x = .error .ub := by
  unfold addFrame adjustWorldToFrameSizes
  rw [if_neg (by omega)]
  have key : ∀ T : Int, addFrameTrack set
      { s with tableSize := T, frameNumbers := s.frameNumbers ++ [x.num] } x = .error .ub := by
    intro T
    have hne : ∀ r, addFrameTrack set
      { s with tableSize := T, frameNumbers := s.frameNumbers ++ [x.num] } x ≠ .ok r := by
      intro r h
      unfold addFrameTrack at h
      split at h
      · cases h
      simp only at h
      split at h
      · cases h
      split at h
      · cases h
      rename_i s1 hw
      have hk1 : s1.keyFrames = s.keyFrames := by
        unfold writePose at hw
        split at hw <;> cases hw
        rfl
      have : doNeedKf set s1.keyFrames x.num = .error .ub := by
        unfold doNeedKf lastKeyFrame
        rw [hk1, hn]
        simp only
        rw [if_pos (by omega), if_pos hs]
      rw [this] at h
      cases h
    cases hr : addFrameTrack set
      { s with tableSize := T, frameNumbers := s.frameNumbers ++ [x.num] } x with
    | ok r => exact absurd hr (hne r)
    | error e => rw [addFrameTrack_frames.2 e hr]
  by_cases hT : x.num ≥ s.tableSize
  · rw [if_pos hT]
    by_cases hM : x.num ≥ intMax
    · rw [if_pos hM]
    · rw [if_neg hM]
      simp only [ha.2, if_true]
      rw [if_neg (by simp [hi])]
      exact key _
  · rw [if_neg hT]
    simp only [ha.2, if_true]
    rw [if_neg (by simp [hi])]
    exact key s.tableSize

example := C07_keyframe_iff (xs := exCalls [1, 2, 3]) (x := ⟨5, 1, 1, fun _ => 1⟩)
  (G := Multiplicative Int) exValid exState_created ⟨by decide, by decide⟩ (by decide)

/-- `C07_zero_shift_ub` applies to a reachable state: with shift 0 the third frame is undefined. -/
example : ∃ s rs, run { exSettings with shiftBetweenKeyFrames := 0, firstFramesSkip := 0 }
    (G := Multiplicative Int)
    exState (exCalls [1, 2]) = .ok (s, rs) ∧
    s.isInitialized = true ∧ (s.keyFrames.getLast?.map (·.num)) = some 2 ∧
    addFrame { exSettings with shiftBetweenKeyFrames := 0, firstFramesSkip := 0 } s
      ⟨3, 1, 1, fun _ => 1⟩ = .error .ub :=
  ⟨_, _, rfl, rfl, rfl, C07_zero_shift_ub rfl rfl rfl (by decide) (by decide)⟩

/-! ## C08 -/

/-- C08. The window holds at most `maxKeyFrames` keyframes: the newest ones, in order; it holds all
of them as long as they fit. -/
theorem C08_window [Group G] {set : Settings} (hv : Valid set) {s0 : State G}
    (hc : create set = .ok s0) {xs : List (FrameIn G)} (hl : Legal (xs.map (·.num))) :
    ∃ s rs, run set s0 xs = .ok (s, rs) ∧
      (s.keyFrames.length : Int) ≤ set.maxKeyFrames ∧
      s.keyFrames.map entry =
        (book (policyOf set) (xs.map (·.num))).drop
          ((book (policyOf set) (xs.map (·.num))).length - set.maxKeyFrames.toNat) := by
  obtain ⟨s, rs, e, hi, hr⟩ := run_create hv hc hl.1 (by simpa using hl.2)
  have hw := hi.window
  have hv1 := hv.window
  refine ⟨s, rs, e, by omega, ?_⟩
  have hbl : (book (policyOf set) (xs.map (·.num))).length
      = (marginalizedOf s.log).length + s.keyFrames.length := by rw [← hi.book]; simp
  have e2 : s.keyFrames.map entry
      = (book (policyOf set) (xs.map (·.num))).drop (marginalizedOf s.log).length := by
    rw [← hi.book, List.map_append]; simp
  rw [e2]; congr 1; omega

example := C08_window (G := Multiplicative Int) exValid exState_created exLegal

/-- C08. Why `maxKeyFrames ≥ 2` is needed: with a window of one and bundle adjustment, the first new
keyframe after initialization is undefined behaviour. -/
theorem C08_window_one_ub :
    ∃ set : Settings, set.maxKeyFrames = 1 ∧ set.runBA = true ∧ set.trackFromLastKf = true ∧
      ∃ s0 : State (Multiplicative Int), create set = .ok s0 ∧
        (∃ s rs, run set s0 (exCalls [1, 2]) = .ok (s, rs)) ∧
        run set s0 (exCalls [1, 2, 3]) = .error .ub :=
  ⟨{ exSettings with maxKeyFrames := 1, shiftBetweenKeyFrames := 1, firstFramesSkip := 0 },
    rfl, rfl, rfl, _, rfl, ⟨_, _, rfl⟩, rfl⟩

/-- C08. Likewise with a window of one when frames are tracked from the last keyframe but one. -/
theorem C08_window_one_lbo_ub :
    ∃ set : Settings, set.maxKeyFrames = 1 ∧ set.runBA = false ∧ set.trackFromLastKf = false ∧
      ∃ s0 : State (Multiplicative Int), create set = .ok s0 ∧
        (∃ s rs, run set s0 (exCalls [1, 2]) = .ok (s, rs)) ∧
        run set s0 (exCalls [1, 2, 3]) = .error .ub :=
  ⟨{ exSettings with
      maxKeyFrames := 1, shiftBetweenKeyFrames := 1, firstFramesSkip := 0, runBA := false
      trackFromLastKf := false },
    rfl, rfl, rfl, _, rfl, ⟨_, _, rfl⟩, rfl⟩

/-! ## C09 -/

/-- C09. Over the whole life the keyframes handed to `keyFramesMarginalized`, then those handed to
`destructed`, are exactly all keyframes of the history with all their tracked frames, in creation
order; no keyframe occurs twice. -/
theorem C09_handed_over_once [Group G] {set : Settings} (hv : Valid set) {s0 : State G}
    (hc : create set = .ok s0) {xs : List (FrameIn G)} (hl : Legal (xs.map (·.num))) :
    ∃ s rs, run set s0 xs = .ok (s, rs) ∧
      (marginalizedOf (destroy s) ++ destructedOf (destroy s)).map entry
        = book (policyOf set) (xs.map (·.num)) ∧
      ((marginalizedOf (destroy s) ++ destructedOf (destroy s)).map (·.num)).Nodup := by
  obtain ⟨s, rs, e, hi, hr⟩ := run_create hv hc hl.1 (by simpa using hl.2)
  have hnd : destructedOf s.log = [] := run_no_destructed _ e (by
    unfold create at hc; split at hc <;> cases hc; rfl)
  have e1 : marginalizedOf (destroy s) ++ destructedOf (destroy s)
      = marginalizedOf s.log ++ s.keyFrames := by
    unfold destroy
    have h1 : marginalizedOf (s.log ++ [.destructed s.keyFrames]) = marginalizedOf s.log := by
      simp [marginalizedOf]
    have h2 : destructedOf (s.log ++ [.destructed s.keyFrames]) = s.keyFrames := by
      have : destructedOf (s.log ++ [.destructed s.keyFrames])
        = destructedOf s.log ++ s.keyFrames := by simp [destructedOf]
      rw [this, hnd]; rfl
    rw [h1, h2]
  refine ⟨s, rs, e, by rw [e1]; exact hi.book, ?_⟩
  rw [e1]
  have e2 : (marginalizedOf s.log ++ s.keyFrames).map (·.num)
      = (book (policyOf set) (xs.map (·.num))).keyFrames := by
    rw [← hi.book]; simp [Book.keyFrames, entry, Function.comp_def]
  rw [e2]
  exact (keyFrames_sorted hl.1).imp (fun h => by omega)

example := C09_handed_over_once (G := Multiplicative Int) exValid exState_created exLegal

/-! ## C10 -/

/-- C10. With `continueChoosingKeyFrames`, the keyframes and tracked frames of all keyframes (live or
marginalized) are, each exactly once, the first frame and all frames from the initializing one on; the
frames skipped by the initializer are not among them. -/
theorem C10_partition [Group G] {set : Settings} (hv : Valid set)
    (hcc : set.continueChoosingKeyFrames = true) {s0 : State G}
    (hc : create set = .ok s0) {xs : List (FrameIn G)} (hl : Legal (xs.map (·.num)))
    (hk : set.firstFramesSkip.toNat + 2 ≤ xs.length) :
    ∃ s rs, run set s0 xs = .ok (s, rs) ∧
      (ownedOf s).Perm ((xs.take 1 ++ xs.drop (set.firstFramesSkip.toNat + 1)).map (·.num)) ∧
      ∀ x ∈ (xs.drop 1).take set.firstFramesSkip.toNat, x.num ∉ ownedOf s := by
  obtain ⟨s, rs, e, hi, hr⟩ := run_create hv hc hl.1 (by simpa using hl.2)
  have e1 : ownedOf s = (book (policyOf set) (xs.map (·.num))).frames := by
    rw [← hi.book]; simp [ownedOf, createdOf, Book.frames, entry, List.flatMap_map]
  have hperm : (ownedOf s).Perm
      ((xs.take 1 ++ xs.drop (set.firstFramesSkip.toNat + 1)).map (·.num)) := by
    rw [e1]
    cases xs with
    | nil => simp at hk
    | cons y ys =>
      have := frames_perm (p := policyOf set) hcc (f := y.num) (rest := ys.map (·.num))
        (by simp [policyOf] at hk ⊢; omega)
      simpa [List.map_take, List.map_drop, policyOf] using this
  refine ⟨s, rs, e, hperm, ?_⟩
  intro x hx hmem
  have h1 := hperm.subset hmem
  have hsplit : xs = xs.take 1 ++ (xs.drop 1).take set.firstFramesSkip.toNat
      ++ xs.drop (set.firstFramesSkip.toNat + 1) := by
    rw [List.append_assoc, show set.firstFramesSkip.toNat + 1 = 1 + set.firstFramesSkip.toNat by omega,
      ← List.drop_drop, List.take_append_drop, List.take_append_drop]
  have hs := hl.1
  rw [hsplit] at hs
  rw [List.map_append, List.map_append, List.pairwise_append, List.pairwise_append] at hs
  obtain ⟨⟨_, _, h2⟩, _, h3⟩ := hs
  rw [List.map_append] at h1
  rcases List.mem_append.1 h1 with h | h
  · have := h2 _ h _ (List.mem_map_of_mem hx); omega
  · have := h3 x.num (by
      rw [List.mem_append]; right; exact List.mem_map_of_mem hx) _ h
    omega

/-- C10. Without `continueChoosingKeyFrames` a tracked frame at a keyframe position is dropped: it is
returned to the caller but belongs to no keyframe. -/
theorem C10_dropped_without_choosing [Group G] {set : Settings} (hv : Valid set)
    (hcc : set.continueChoosingKeyFrames = false) {s0 : State G}
    (hc : create set = .ok s0) {xs : List (FrameIn G)} {x : FrameIn G}
    (hl : Legal ((xs ++ [x]).map (·.num))) (hk : set.firstFramesSkip.toNat + 2 ≤ xs.length) :
    ∃ s rs s' newest, run set s0 xs = .ok (s, rs) ∧ addFrame set s x = .ok (s', some x.num) ∧
      s.keyFrames.getLast? = some newest ∧
      (set.shiftBetweenKeyFrames ∣ x.num - newest.num → ownedOf s' = ownedOf s ∧ x.num ∉ ownedOf s') := by
  have hp : (xs.map (·.num)).Pairwise (· < ·) := by
    have := hl.1; rw [List.map_append] at this
    exact (List.pairwise_append.1 this).1
  have hb : ∀ y ∈ xs, 0 < y.num ∧ y.num < intMax := fun y hy => hl.2 _ (by
    rw [List.map_append]; exact List.mem_append_left _ (List.mem_map_of_mem hy))
  obtain ⟨s, rs, e, hi, hr⟩ := run_create hv hc hp hb
  have hacc : Acceptable (xs.map (·.num)) x.num := by
    refine ⟨(hl.2 _ (by simp)).1, ?_⟩
    have := hl.1; rw [List.map_append] at this
    intro m hm
    exact (List.pairwise_append.1 this).2.2 m hm x.num (by simp)
  have hlen : (policyOf set).skip + 2 ≤ (xs.map (·.num)).length := by simpa [policyOf] using hk
  obtain ⟨s', evs, e', hi', _⟩ := step_track hv hi hacc (hl.2 _ (by simp)).2 hlen
  obtain ⟨hW2, _, _, hWns, _⟩ := window_facts hv hi hlen
  have hWne : s.keyFrames ≠ [] := by intro h; rw [h] at hW2; simp at hW2
  have hlast := List.getLast?_eq_some_getLast hWne
  refine ⟨s, rs, s', s.keyFrames.getLast hWne, e, e', hlast, ?_⟩
  intro hd
  have hBlast : (book (policyOf set) (xs.map (·.num))).getLast?
      = some (entry (s.keyFrames.getLast hWne)) := by
    rw [← hi.book, List.map_append, List.getLast?_append, List.getLast?_map, hlast]; rfl
  have hbk : book (policyOf set) (xs.map (·.num) ++ [x.num]) = book (policyOf set) (xs.map (·.num)) := by
    rw [book_snoc hlen]
    unfold track
    rw [hBlast]
    simp only [entry]
    show (if set.shiftBetweenKeyFrames ∣ _ then
      (if set.continueChoosingKeyFrames = true then _ else _) else _) = _
    rw [if_pos hd, hcc]; simp
  have o1 : ∀ t : State G, ownedOf t = Book.frames ((marginalizedOf t.log ++ t.keyFrames).map entry) := by
    intro t; simp [ownedOf, createdOf, Book.frames, entry, List.flatMap_map]
  have o2 : ownedOf s' = ownedOf s := by rw [o1, o1, hi.book, hi'.book, hbk]
  refine ⟨o2, ?_⟩
  rw [o2, o1, hi.book]
  intro hmem
  have := hacc.2 _ ((frames_subperm (p := policyOf set) (ns := xs.map (·.num))).subset hmem)
  omega

example := C10_partition (G := Multiplicative Int) exValid rfl exState_created exLegal (by decide)
example := C10_dropped_without_choosing (G := Multiplicative Int)
  (set := { exSettings with continueChoosingKeyFrames := false }) ⟨by decide, by decide⟩ rfl (s0 := _) rfl
  (xs := exCalls [1, 2, 3, 4]) (x := ⟨5, 1, 1, fun _ => 1⟩) ⟨by decide, by decide⟩ (by decide)

/-! ## C11 -/

/-- C11. `newFrame` is called for exactly the tracked frames, in order; keyframes are announced with
increasing numbers (hence at most once): all but the first keyframe when tracking from the last
keyframe, all but the newest one otherwise; every `keyFramesMarginalized` call is non-empty and
names only keyframes that were announced before it, or the very first frame. -/
theorem C11_protocol [Group G] {set : Settings} (hv : Valid set) {s0 : State G}
    (hc : create set = .ok s0) {xs : List (FrameIn G)} (hl : Legal (xs.map (·.num))) :
    ∃ s rs, run set s0 xs = .ok (s, rs) ∧
      newFramesOf s.log = (xs.drop (set.firstFramesSkip.toNat + 2)).map (·.num) ∧
      (announcedOf s.log).Pairwise (· < ·) ∧
      announcedOf s.log = (if set.trackFromLastKf then ((createdOf s).map (·.num)).drop 1
        else ((createdOf s).map (·.num)).dropLast) ∧
      ∀ pre kfs post, s.log = pre ++ .marginalized kfs :: post →
        kfs ≠ [] ∧ ∀ kf ∈ kfs, (xs.head?.map (·.num)) = some kf.num ∨ kf.num ∈ announcedOf pre := by
  obtain ⟨s, rs, e, hi, hr⟩ := run_create hv hc hl.1 (by simpa using hl.2)
  have e1 : (createdOf s).map (·.num) = (book (policyOf set) (xs.map (·.num))).keyFrames := by
    rw [← hi.book]; simp [createdOf, Book.keyFrames, entry, Function.comp_def]
  refine ⟨s, rs, e, ?_, ?_, ?_, ?_⟩
  · rw [hi.newFrames, List.map_drop]; rfl
  · rw [hi.announced]
    have := keyFrames_sorted (p := policyOf set) hl.1
    split
    · exact this.sublist (List.drop_sublist _ _)
    · exact this.sublist (List.dropLast_sublist _)
  · rw [e1]; exact hi.announced
  · intro pre kfs post h
    have := hi.order pre kfs post h
    rw [List.head?_map] at this
    exact this

/-- C11. What one `addFrame` call on an initialized system tells observers: first `newFrame` for this
frame, then, if anything, at most one `keyFramesMarginalized` and then one `newKeyFrame`. -/
theorem C11_one_call [Group G] {set : Settings} (hv : Valid set) {s0 : State G}
    (hc : create set = .ok s0) {xs : List (FrameIn G)} {x : FrameIn G}
    (hl : Legal ((xs ++ [x]).map (·.num))) (hk : set.firstFramesSkip.toNat + 2 ≤ xs.length) :
    ∃ s rs s' evs, run set s0 xs = .ok (s, rs) ∧ addFrame set s x = .ok (s', some x.num) ∧
      s'.log = s.log ++ .newFrame x.num :: evs ∧
      (evs = [] ∨ (∃ base, evs = [.newKeyFrame base]) ∨
        ∃ marg base, marg ≠ [] ∧ evs = [.marginalized marg, .newKeyFrame base]) := by
  have hp : (xs.map (·.num)).Pairwise (· < ·) := by
    have := hl.1; rw [List.map_append] at this
    exact (List.pairwise_append.1 this).1
  have hb : ∀ y ∈ xs, 0 < y.num ∧ y.num < intMax := fun y hy => hl.2 _ (by
    rw [List.map_append]; exact List.mem_append_left _ (List.mem_map_of_mem hy))
  obtain ⟨s, rs, e, hi, hr⟩ := run_create hv hc hp hb
  have hacc : Acceptable (xs.map (·.num)) x.num := by
    refine ⟨(hl.2 _ (by simp)).1, ?_⟩
    have := hl.1; rw [List.map_append] at this
    intro m hm
    exact (List.pairwise_append.1 this).2.2 m hm x.num (by simp)
  obtain ⟨s', evs, e', hi', hlog, hev⟩ := step_track hv hi hacc (hl.2 _ (by simp)).2
    (by simpa [policyOf] using hk)
  refine ⟨s, rs, s', evs, e, e', hlog, ?_⟩
  rcases hev with h | ⟨marg, base, h⟩
  · exact Or.inl h
  · right
    by_cases hm : marg = []
    · left; rw [if_pos hm] at h; exact ⟨base, by simpa using h⟩
    · right; rw [if_neg hm] at h; exact ⟨marg, base, hm, by simpa using h⟩

example := C11_protocol (G := Multiplicative Int) exValid exState_created exLegal
example := C11_one_call (xs := exCalls [1, 2, 3]) (x := ⟨5, 1, 1, fun _ => 1⟩)
  (G := Multiplicative Int) exValid exState_created ⟨by decide, by decide⟩ (by decide)

/-! ## C17 -/

/-- C17. After every history, whatever the solvers returned: the pose table's entry of every keyframe in
the window is the inverse of the keyframe's pose, and the entry of each of its tracked frames is the
tracked motion composed with that inverse. -/
theorem C17_poses [Group G] {set : Settings} (hv : Valid set) {s0 : State G}
    (hc : create set = .ok s0) {xs : List (FrameIn G)} (hl : Legal (xs.map (·.num))) :
    ∃ s rs, run set s0 xs = .ok (s, rs) ∧
      ∀ kf ∈ s.keyFrames, s.worldToFrame kf.num = some kf.thisToWorld⁻¹ ∧
        ∀ f ∈ kf.trackedFrames, s.worldToFrame f.num = some (f.baseToThis * kf.thisToWorld⁻¹) := by
  obtain ⟨s, rs, e, hi, hr⟩ := run_create hv hc hl.1 (by simpa using hl.2)
  exact ⟨s, rs, e, hi.poses⟩

/-- The concrete life ends with two keyframes, one with a tracked frame. -/
example : ∃ s rs, run exSettings (G := Multiplicative Int)
    exState (exCalls [1, 2, 3, 4, 5, 6, 7, 8])
      = .ok (s, rs) ∧ s.keyFrames.map entry = [(5, [6]), (7, [8])] ∧
      marginalizedOf s.log ≠ [] :=
  ⟨_, _, rfl, by decide, by decide⟩

theorem writePose_other {s s' : State G} {n : Int} {g : G} (h : writePose s n g = .ok s') :
    s'.isInitialized = s.isInitialized ∧ ∀ m ≠ n, s'.worldToFrame m = s.worldToFrame m := by
  unfold writePose at h
  split at h
  · cases h
    exact ⟨rfl, fun m hm => by simp [hm]⟩
  · cases h

/-- One frame after initialization without bundle adjustment: no other entry of the pose table changes. -/
theorem addFrame_without_ba [Group G] {set : Settings} (hb : set.runBA = false) {s : State G} {x : FrameIn G}
    {r : State G × Option Int} (hin : s.isInitialized = true) (h : addFrame set s x = .ok r) :
    r.1.isInitialized = true ∧ ∀ m ≠ x.num, r.1.worldToFrame m = s.worldToFrame m := by
  unfold addFrame adjustWorldToFrameSizes at h
  have key : ∀ s1 : State G, s1.isInitialized = true → s1.worldToFrame = s.worldToFrame →
      (if !s1.isInitialized then addFrameInit set s1 x else addFrameTrack set s1 x) = .ok r →
      r.1.isInitialized = true ∧ ∀ m ≠ x.num, r.1.worldToFrame m = s.worldToFrame m := by
    intro s1 hi1 hw1 h
    rw [hi1] at h
    simp only [Bool.not_true, Bool.false_eq_true, if_false] at h
    rw [← hw1]
    unfold addFrameTrack at h
    split at h
    · cases h
    simp only at h
    split at h
    · cases h
    split at h
    · cases h
    rename_i s2 h2
    obtain ⟨a1, a2⟩ := writePose_other h2
    have a1' : s2.isInitialized = true := a1.trans hi1
    split at h
    · cases h
    split at h
    · split at h
      · cases h
      · cases h; exact ⟨a1', a2⟩
    · split at h
      · split at h
        · cases h
        · rename_i s3 h3
          cases h
          unfold addKeyFrame at h3
          simp only at h3
          split at h3
          · cases h3
          · unfold runBundleAdjustment at h3
            simp only [hb, Bool.not_false, if_true] at h3
            cases h3
            have hmarg : ∀ W, (marginalizeFrames set { s2 with keyFrames := W }).isInitialized = true ∧
                (marginalizeFrames set { s2 with keyFrames := W }).worldToFrame = s2.worldToFrame := by
              intro W
              unfold marginalizeFrames
              split
              · exact ⟨a1', rfl⟩
              · exact ⟨a1', rfl⟩
            refine ⟨(hmarg _).1, fun m hm => ?_⟩
            rw [← a2 m hm]
            exact congrFun (hmarg _).2 m
      · cases h; exact ⟨a1', a2⟩
  split at h
  · cases h
  · rename_i s1 hs1
    split at hs1
    · cases hs1
    · split at hs1
      · split at hs1
        · cases hs1
        · cases hs1
          split at h
          · exact key { s with tableSize := x.num + 1, frameNumbers := s.frameNumbers ++ [x.num] } hin rfl h
          · cases h
      · cases hs1
        split at h
        · exact key { s with frameNumbers := s.frameNumbers ++ [x.num] } hin rfl h
        · cases h

theorem run_without_ba [Group G] {set : Settings} (hb : set.runBA = false) : ∀ (ys : List (FrameIn G)) {s s' : State G} {rs : List (Option Int)},
    s.isInitialized = true → run set s ys = .ok (s', rs) → ∀ m, (∀ y ∈ ys, y.num ≠ m) → s'.worldToFrame m = s.worldToFrame m
  | [], s, s', rs, _, h, m, _ => by cases h; rfl
  | y :: ys, s, s', rs, hin, h, m, hm => by
    rw [run] at h
    cases h1 : addFrame set s y with
    | error e => simp only [h1] at h; cases h
    | ok r =>
      obtain ⟨b1, b2⟩ := addFrame_without_ba hb hin h1
      simp only [h1] at h
      cases h2 : run set r.1 ys with
      | error e => simp only [h2] at h; cases h
      | ok q =>
        simp only [h2] at h
        cases h
        rw [run_without_ba hb ys (rs := q.2) b1 h2 m (fun y hy => hm y (by simp [hy])), b2 m (fun h => hm y (by simp) h.symm)]

/-- C17. Without bundle adjustment poses are final: once the system is initialized, whatever frames follow, the pose stored for a frame does not change, and neither
does the pose of a keyframe while the system holds it. -/
theorem C17_without_ba [Group G] {set : Settings} (hv : Valid set) (hb : set.runBA = false) {s0 : State G} (hc : create set = .ok s0)
    {xs ys : List (FrameIn G)} (hl : Legal ((xs ++ ys).map (·.num))) (hlen : set.firstFramesSkip.toNat + 2 ≤ xs.length) :
    ∃ s rs s' rs', run set s0 xs = .ok (s, rs) ∧ run set s ys = .ok (s', rs') ∧
      (∀ x ∈ xs, s'.worldToFrame x.num = s.worldToFrame x.num) ∧
      ∀ kf ∈ s.keyFrames, ∀ kf' ∈ s'.keyFrames, kf'.num = kf.num → kf'.thisToWorld = kf.thisToWorld := by
  have hl1 : (xs.map (·.num) ++ ys.map (·.num)).Pairwise (· < ·) := by simpa using hl.1
  have hl2 : ∀ x ∈ xs ++ ys, 0 < x.num ∧ x.num < intMax := fun x hx => hl.2 _ (List.mem_map_of_mem (f := fun x : FrameIn G => x.num) hx)
  obtain ⟨s, rs, e, hi, -⟩ := run_create hv hc (List.pairwise_append.1 hl1).1 (fun x hx => hl2 x (by simp [hx]))
  obtain ⟨s', rs', e', hi', -⟩ := run_inv hv ys hi hl1 (fun x hx => hl2 x (by simp [hx]))
  have hin : s.isInitialized = true := by
    rw [hi.initd]
    simp [policyOf]
    omega
  have hsame : ∀ m ∈ xs.map (·.num), s'.worldToFrame m = s.worldToFrame m := by
    intro m hm
    refine run_without_ba hb ys hin e' m fun y hy => ?_
    have := (List.pairwise_append.1 hl1).2.2 m hm y.num (List.mem_map_of_mem (f := fun x : FrameIn G => x.num) hy)
    omega
  refine ⟨s, rs, s', rs', e, e', fun x hx => hsame _ (List.mem_map_of_mem (f := fun x : FrameIn G => x.num) hx), ?_⟩
  intro kf hkf kf' hkf' hnum
  have h1 := (hi.poses kf hkf).1
  have h2 := (hi'.poses kf' hkf').1
  have hmem : kf.num ∈ xs.map (·.num) := by
    refine mem_frames (p := policyOf set) (mem_keyFrames_frames ?_)
    rw [← hi.book]
    simp only [Book.keyFrames, List.map_append, List.mem_append, List.mem_map]
    right
    exact ⟨entry kf, ⟨kf, hkf, rfl⟩, rfl⟩
  rw [hnum, hsame _ hmem, h1] at h2
  injection h2 with h2
  exact (inv_injective h2).symm

/-- Without bundle adjustment, after the fifth of seven frames. -/
example := C17_without_ba (G := Multiplicative Int) (set := { exSettings with runBA := false }) (s0 := exState) ⟨by decide, by decide⟩ rfl rfl
  (xs := exCalls [1, 2, 3, 4, 5]) (ys := exCalls [6, 7]) ⟨by decide, by decide⟩ (by decide)

end Mdso.Dso
