import Verif.Lemmas.TrajectoryWriter
import Verif.Props.DsoSystem

/-!
# C12–C15 and the trajectory part of C17

`writerOf infInt log` is the estimated trajectory writer after the observer calls `log`; `infInt` is
whatever the undefined conversion of infinity to `int` yields. `destroy s` is the log of a whole life.
-/

set_option autoImplicit false

namespace Mdso.Traj
open Mdso.Dso Mdso.FrameSpec Mdso.TrajSpec

variable {G : Type}

theorem handedOver_destroy {s : State G} (h : destructedOf s.log = []) :
    handedOver (destroy s) = createdOf s := by
  unfold handedOver destroy createdOf
  have h1 : marginalizedOf (s.log ++ [.destructed s.keyFrames]) = marginalizedOf s.log := by
    simp [marginalizedOf]
  have h2 : destructedOf (s.log ++ [.destructed s.keyFrames]) = destructedOf s.log ++ s.keyFrames := by
    simp [destructedOf]
  rw [h1, h2, h]; rfl

/-! ## C12 -/

/-- C12, the part that holds: if the converted infinity exceeds all frame numbers (e.g. `INT_MAX`), the
file of a finished life holds exactly the lines of all keyframes handed over, each once; with C09 and
C10 these are all frames of the history. -/
theorem C12_complete_partial [Group G] {set : Settings} (hv : Valid set) {s0 : State G}
    (hc : create set = .ok s0) {xs : List (FrameIn G)} (hl : Legal (xs.map (·.num)))
    {infInt : Int} (hinf : ∀ x ∈ xs, x.num < infInt) :
    ∃ s rs, run set s0 xs = .ok (s, rs) ∧
      (writerOf infInt (destroy s)).lines.Perm (expectedLines (handedOver (destroy s))) ∧
      ((writerOf infInt (destroy s)).lines.map (·.1)).Perm (ownedOf s) := by
  obtain ⟨s, rs, e, hi, hw, hd⟩ := run_create_w infInt hv hc hl
  have hp := destroy_perm hi hw
  rw [destroy_pool_nil hi hw (by simpa using hinf), List.append_nil] at hp
  refine ⟨s, rs, e, ?_, ?_⟩
  · rw [handedOver_destroy hd, destroy_writer]; exact hp
  · rw [destroy_writer]
    refine (hp.map _).trans ?_
    rw [poseEntries_fst]; exact List.Perm.refl _

example := C12_complete_partial (G := Multiplicative Int) exValid exState_created exLegal
  (infInt := intMax) (by decide)

/-- C12 is violated when the conversion yields a number not above any frame number, as `cvttsd2si` on
x86-64 does (`INT_MIN`): in *every* life, nothing at all is written at destruction, and no frame of a
keyframe that was still in the window appears in the file. -/
theorem C12_incomplete_violated [Group G] {set : Settings} (hv : Valid set) {s0 : State G}
    (hc : create set = .ok s0) {xs : List (FrameIn G)} (hl : Legal (xs.map (·.num)))
    {infInt : Int} (hinf : infInt ≤ 0) :
    ∃ s rs, run set s0 xs = .ok (s, rs) ∧
      (writerOf infInt (destroy s)).lines = (writerOf infInt s.log).lines ∧
      ∀ kf ∈ s.keyFrames, ∀ n ∈ frameNumbers [kf], n ∉ (writerOf infInt (destroy s)).lines.map (·.1) := by
  obtain ⟨s, rs, e, hi, hw, hd⟩ := run_create_w infInt hv hc hl
  have hlines : (writerOf infInt (destroy s)).lines = (writerOf infInt s.log).lines := by
    rw [destroy_writer]
    exact destroy_lines_none hi hw (fun n hn => by have := (hl.2 n hn).1; omega)
  refine ⟨s, rs, e, hlines, ?_⟩
  intro kf hkf n hn hmem
  rw [hlines] at hmem
  obtain ⟨l, hl', rfl⟩ := List.mem_map.1 hmem
  have h1 : l ∈ (marginalizedOf s.log).flatMap poseEntries :=
    hw.perm.subset (List.mem_append_left _ hl')
  have h2 : l.1 ∈ framesOf (marginalizedOf s.log) := by
    rw [← poseEntries_fst]; exact List.mem_map_of_mem h1
  have h3 : l.1 ∈ framesOf s.keyFrames := by
    simp only [framesOf, List.mem_flatMap]
    simp only [frameNumbers, List.flatMap_cons, List.flatMap_nil, List.append_nil] at hn
    exact ⟨kf, hkf, hn⟩
  have hnd := frames_nodup hi
  unfold createdOf at hnd
  rw [framesOf_append, List.nodup_append] at hnd
  exact hnd.2.2 _ h2 _ h3 rfl

/-- The window of a finished life is not empty: two keyframes and a tracked frame are lost. -/
example : ∃ s rs, run exSettings exState (exCalls [1, 2, 3, 4, 5, 6, 7, 8]) = .ok (s, rs) ∧
    s.keyFrames.map entry = [(5, [6]), (7, [8])] ∧
    (writerOf (-2147483648) (destroy s)).lines.map (·.1) = [1, 3, 4] ∧
    (writerOf intMax (destroy s)).lines.map (·.1) = [1, 3, 4, 5, 6, 7, 8] :=
  ⟨_, _, rfl, by decide, by decide, by decide⟩

/-! ## C13 -/

/-- C13, the part that holds: when frames are tracked from the newest keyframe, or the window holds at
least three keyframes, the numbers in the file increase strictly, after every history and at the end,
whatever the undefined conversion yields. -/
theorem C13_increasing_partial [Group G] {set : Settings} (hv : Valid set)
    (hm : set.trackFromLastKf = true ∨ 3 ≤ set.maxKeyFrames) {s0 : State G}
    (hc : create set = .ok s0) {xs : List (FrameIn G)} (hl : Legal (xs.map (·.num))) (infInt : Int) :
    ∃ s rs, run set s0 xs = .ok (s, rs) ∧
      ((writerOf infInt s.log).lines.map (·.1)).Pairwise (· < ·) ∧
      ((writerOf infInt (destroy s)).lines.map (·.1)).Pairwise (· < ·) := by
  obtain ⟨s, rs, e, hi, hw, hd⟩ := run_create_w infInt hv hc hl
  refine ⟨s, rs, e, ?_, ?_⟩
  · rw [List.pairwise_map]; exact (hw.order hm).1
  · rw [List.pairwise_map, destroy_writer]; exact destroy_sorted hi hw hm

example := C13_increasing_partial (G := Multiplicative Int) exValid (Or.inl rfl) exState_created exLegal
  intMax

/-- Settings with a window of two in which frames are tracked from the last keyframe but one. -/
def lboSettings (window : Int) : Settings :=
  { exSettings with
    trackFromLastKf := false, maxKeyFrames := window, firstFramesSkip := 0, shiftBetweenKeyFrames := 3 }

/-- C13 is violated with a window of two keyframes when tracking from the last keyframe but one: keyframe
5 is written after the frames 6 and 7. -/
theorem C13_unordered_violated :
    ∃ (set : Settings) (s0 : State (Multiplicative Int)) (xs : List (FrameIn (Multiplicative Int))),
      Valid set ∧ create set = .ok s0 ∧ Legal (xs.map (·.num)) ∧ ∃ s rs, run set s0 xs = .ok (s, rs) ∧
        ¬ ((writerOf intMax s.log).lines.map (·.1)).Pairwise (· < ·) :=
  ⟨lboSettings 2, exState, exCalls [1, 2, 3, 4, 5, 6, 7, 8, 9, 10, 11], ⟨by decide, by decide⟩, rfl,
    ⟨by decide, by decide⟩, _, _, rfl, by decide⟩

/-! ## C14 -/

/-- C14, the part that holds: when tracking from the newest keyframe (and the ground truth covers the
history), both files list the same frames in the same order, after every history; and at the end of life
too if the converted infinity exceeds all frame numbers. The ground truth matrix lines are the inverses
of the supplied poses of these frames. -/
theorem C14_lines_match_partial [Group G] {set : Settings} (hv : Valid set)
    (hf : set.trackFromLastKf = true) {s0 : State G} (hc : create set = .ok s0)
    {xs : List (FrameIn G)} (hl : Legal (xs.map (·.num))) (infInt : Int)
    (align : G → G → G → G → G → G) {gt : List G} (hg : ∀ x ∈ xs, x.num < gt.length) :
    ∃ s rs w w', run set s0 xs = .ok (s, rs) ∧
      writerGTOf align gt s.log = .ok w ∧ writerGTOf align gt (destroy s) = .ok w' ∧
      w.lines.map (·.1) = (writerOf infInt s.log).lines.map (·.1) ∧
      w.matrixLines.map (·.1) = (writerOf infInt s.log).lines.map (·.1) ∧
      ((∀ x ∈ xs, x.num < infInt) →
        w'.lines.map (·.1) = (writerOf infInt (destroy s)).lines.map (·.1) ∧
        w'.matrixLines.map (·.1) = (writerOf infInt (destroy s)).lines.map (·.1)) ∧
      ∀ l ∈ w'.matrixLines, gt[l.1.toNat]?.map (·⁻¹) = some l.2 := by
  obtain ⟨s, rs, e, hi, hw, hd⟩ := run_create_w infInt hv hc hl
  have hcov := covers_log hi (gt := gt) (by simpa using hg) hd
  have hg0 : GInv gt (WriterGT.init gt) [] := ⟨rfl, rfl, rfl, rfl, by simp [WriterGT.init]⟩
  obtain ⟨w, ew, hw1⟩ := gsteps_ok (align := align) s.log hg0
    (fun e he => hcov e (List.mem_append_left _ he))
  obtain ⟨w', ew', hw2⟩ := gsteps_ok (align := align) (destroy s) hg0 hcov
  have hsH : Sorted ((createdOf s).flatMap poseEntries) := expected_sorted hi hf
  -- the estimated file before destruction
  have hbefore : (writerOf infInt s.log).lines = (marginalizedOf s.log).flatMap poseEntries := by
    have hp := hw.perm
    rw [hw.exact hf, List.append_nil] at hp
    refine sorted_perm_eq (hw.order (Or.inl hf)).1 ?_ hp
    unfold createdOf at hsH
    rw [List.flatMap_append] at hsH
    exact (List.pairwise_append.1 hsH).1
  have hfr1 : ([] : List Int) ++ s.log.flatMap writtenBy = (writerOf infInt s.log).lines.map (·.1) := by
    rw [hbefore, poseEntries_fst, written_eq hd]; rfl
  refine ⟨s, rs, w, w', e, ew, ew', ?_, ?_, ?_, hw2.matrix.2⟩
  · rw [hw1.lines, hfr1]
  · rw [hw1.matrix.1, hfr1]
  · intro hinf
    have hp := destroy_perm hi hw
    rw [destroy_pool_nil hi hw (by simpa using hinf), List.append_nil] at hp
    have hafter : (writerOf infInt (destroy s)).lines = (createdOf s).flatMap poseEntries := by
      rw [destroy_writer]
      exact sorted_perm_eq (destroy_sorted hi hw (Or.inl hf)) hsH hp
    have hfr2 : ([] : List Int) ++ (destroy s).flatMap writtenBy
        = (writerOf infInt (destroy s)).lines.map (·.1) := by
      rw [hafter, poseEntries_fst]
      unfold destroy createdOf
      rw [List.flatMap_append, written_eq hd, framesOf_append]
      simp [writtenBy]
    exact ⟨by rw [hw2.lines, hfr2], by rw [hw2.matrix.1, hfr2]⟩

example := C14_lines_match_partial (G := Multiplicative Int) exValid rfl exState_created exLegal
  intMax (fun _ _ _ _ g => g) (gt := List.replicate 10 1) (by decide)

/-- C14 is violated when tracking from the last keyframe but one: with a window of four, the ground
truth file lists frames in another order than the (sorted) estimated file. -/
theorem C14_mismatch_violated :
    ∃ (set : Settings) (s0 : State (Multiplicative Int)) (xs : List (FrameIn (Multiplicative Int))),
      Valid set ∧ create set = .ok s0 ∧ Legal (xs.map (·.num)) ∧ ∃ s rs w, run set s0 xs = .ok (s, rs) ∧
        writerGTOf (fun _ _ _ _ g => g) (List.replicate 20 1) (destroy s) = .ok w ∧
        (w.lines.map (·.1)).Perm ((writerOf intMax (destroy s)).lines.map (·.1)) ∧
        w.lines.map (·.1) ≠ (writerOf intMax (destroy s)).lines.map (·.1) :=
  ⟨lboSettings 4, exState, exCalls [1, 2, 3, 4, 5, 6, 7, 8], ⟨by decide, by decide⟩, rfl,
    ⟨by decide, by decide⟩, _, _, _, rfl, rfl, by decide, by decide⟩

/-- C14 is also violated when tracking from the newest keyframe if the conversion yields `INT_MIN`: the
estimated file lacks the last frames. -/
theorem C14_int_min_violated :
    ∃ s rs w, run exSettings exState (exCalls [1, 2, 3, 4, 5, 6, 7, 8]) = .ok (s, rs) ∧
      writerGTOf (fun _ _ _ _ g => g) (List.replicate 20 1) (destroy s) = .ok w ∧
      w.lines.map (·.1) = [1, 3, 4, 5, 6, 7, 8] ∧
      (writerOf (-2147483648) (destroy s)).lines.map (·.1) = [1, 3, 4] :=
  ⟨_, _, _, rfl, rfl, by decide, by decide⟩

/-! ## C15 -/

/-- C15. Whatever the calls, lines already in the file stay where they are. -/
theorem C15_append_only [Group G] (infInt : Int) (before more : List (Event G)) :
    (writerOf infInt before).lines <+: (writerOf infInt (before ++ more)).lines := by
  rw [writerOf_append]; exact foldl_prefix _ _ _

/-- C15. When tracking from the newest keyframe, after every history the file holds exactly the lines of
the marginalized keyframes, in order. -/
theorem C15_exact_prefix [Group G] {set : Settings} (hv : Valid set)
    (hf : set.trackFromLastKf = true) {s0 : State G} (hc : create set = .ok s0)
    {xs : List (FrameIn G)} (hl : Legal (xs.map (·.num))) (infInt : Int) :
    ∃ s rs, run set s0 xs = .ok (s, rs) ∧
      (writerOf infInt s.log).lines = expectedLines (marginalizedOf s.log) := by
  obtain ⟨s, rs, e, hi, hw, hd⟩ := run_create_w infInt hv hc hl
  refine ⟨s, rs, e, ?_⟩
  have hsH : Sorted ((createdOf s).flatMap poseEntries) := expected_sorted hi hf
  have hp := hw.perm
  rw [hw.exact hf, List.append_nil] at hp
  refine sorted_perm_eq (hw.order (Or.inl hf)).1 ?_ hp
  unfold createdOf at hsH
  rw [List.flatMap_append] at hsH
  exact (List.pairwise_append.1 hsH).1

example := C15_exact_prefix (G := Multiplicative Int) exValid rfl exState_created exLegal 0

/-! ## C17, trajectory part -/

/-- C17. What would be written for a frame of a keyframe in the window right now is the inverse of its
entry in the pose table. -/
theorem C17_written_pose [Group G] {set : Settings} (hv : Valid set) {s0 : State G}
    (hc : create set = .ok s0) {xs : List (FrameIn G)} (hl : Legal (xs.map (·.num))) :
    ∃ s rs, run set s0 xs = .ok (s, rs) ∧
      ∀ l ∈ expectedLines s.keyFrames, s.worldToFrame l.1 = some l.2⁻¹ := by
  obtain ⟨s, rs, e, hp⟩ := C17_poses hv hc hl
  refine ⟨s, rs, e, ?_⟩
  intro l hl
  simp only [expectedLines, List.mem_flatMap] at hl
  obtain ⟨kf, hkf, hl⟩ := hl
  have := hp kf hkf
  unfold keyFrameLines at hl
  rcases List.mem_cons.1 hl with h | h
  · rw [h]; exact this.1
  · obtain ⟨f, hf, rfl⟩ := List.mem_map.1 h
    rw [this.2 f hf]; simp

example := C17_written_pose (G := Multiplicative Int) exValid exState_created exLegal

end Mdso.Traj
