import Verif.Lemmas.ResumeRun
import Verif.Model.Motion
import Verif.Props.Resume
import Mathlib.Data.List.Sort

/-!
# Frames added after resuming from a snapshot (C199)
-/

set_option autoImplicit false

namespace Mdso.Dso

open Mdso.FrameSpec Mdso.ResumeSpec

variable {G : Type}

theorem windowFrames_length (kfs : List (KeyFrame G)) : kfs.length ≤ (windowFrames kfs).length := by
  induction kfs with
  | nil => simp [windowFrames]
  | cons k l ih => simp [windowFrames] at ih ⊢; omega

theorem windowFrames_tracked {kfs : List (KeyFrame G)} {kf : KeyFrame G} (h : kf ∈ kfs)
    (ht : kf.trackedFrames ≠ []) : kfs.length + 1 ≤ (windowFrames kfs).length := by
  induction kfs with
  | nil => simp at h
  | cons k l ih =>
    have hl := windowFrames_length l
    have e : (windowFrames (k :: l)).length = 1 + k.trackedFrames.length + (windowFrames l).length := by
      simp [windowFrames]; omega
    rcases List.mem_cons.1 h with rfl | h
    · have := List.length_pos_iff.2 ht
      simp only [List.length_cons]; omega
    · have := ih h
      simp only [List.length_cons]; omega

theorem ends_two (l : List Int) (h : 2 ≤ l.length) : ∃ Q a b, l = Q ++ [a, b] := by
  refine ⟨l.take (l.length - 2), l[l.length - 2], l[l.length - 1], ?_⟩
  conv_lhs => rw [← List.take_append_drop (l.length - 2) l]
  congr 1
  rw [List.drop_eq_getElem_cons (by omega), List.drop_eq_getElem_cons (by omega)]
  have : l.length - 2 + 1 = l.length - 1 := by omega
  simp only [this]
  congr 2
  rw [List.drop_eq_nil_iff]; omega

/-- **C199, partial.** A system that tracks from its last keyframe and goes on choosing keyframes is
saved after any legal history whose two newest keyframes have a tracked frame, and resumed with one
observer. Whatever legal frames `ys` follow, and whatever the numerical parts answer for them, the resumed
system returns the same frames, has the same window with the same poses and tracked frames, reports the
same poses for the frames added and for the frames of the saved window, makes the same calls to observers
since, and predicts the same motion for any next frame as the system that was not interrupted. Missing:
systems that no longer choose keyframes (`C199_lost_violated`), and the windows for which `C35` fails. -/
theorem C199_resumed_partial [Group G] {set : Settings} (hv : Valid set)
    (hlast : set.trackFromLastKf = true) (hch : set.continueChoosingKeyFrames = true) {s0 : State G}
    (hc : create set = .ok s0) {xs ys : List (FrameIn G)} (hl : Legal ((xs ++ ys).map (·.num)))
    (hlen : set.firstFramesSkip.toNat + 2 ≤ xs.length) :
    ∃ s rs t qs, run set s0 xs = .ok (s, rs) ∧ run set s ys = .ok (t, qs) ∧
      ((∃ kf ∈ s.keyFrames.drop (s.keyFrames.length - 2), kf.trackedFrames ≠ []) →
        ∃ s' t' since, resume set 1 s.keyFrames = .ok s' ∧ run set s' ys = .ok (t', qs) ∧
          t'.keyFrames = t.keyFrames ∧
          (∀ y ∈ ys, t'.worldToFrame y.num = t.worldToFrame y.num) ∧
          (∀ n ∈ windowFrames s.keyFrames, t'.worldToFrame n = t.worldToFrame n) ∧
          t.log = s.log ++ since ∧ t'.log = s'.log ++ since ∧
          ∀ (predict : ℝ → G → G → G) (n : Int),
            Motion.predictBaseKfToCur predict set { t' with frameNumbers := t'.frameNumbers ++ [n] } =
              Motion.predictBaseKfToCur predict set { t with frameNumbers := t.frameNumbers ++ [n] }) := by
  have hl1 : ((xs.map (·.num)) ++ ys.map (·.num)).Pairwise (· < ·) := by simpa using hl.1
  have hlx : Legal (xs.map (·.num)) :=
    ⟨(List.pairwise_append.1 hl1).1, fun n hn => hl.2 n (by
      rw [List.map_append]; exact List.mem_append_left _ hn)⟩
  have hyr : ∀ y ∈ ys, 0 < y.num ∧ y.num < intMax := fun y hy => hl.2 _ (by
    rw [List.map_append]; exact List.mem_append_right _ (List.mem_map_of_mem hy))
  obtain ⟨s, rs, e, hi, -⟩ := run_create hv hc hlx.1 (by simpa using hlx.2)
  obtain ⟨t, qs, e2, -, -⟩ := run_inv hv ys hi hl1 hyr
  refine ⟨s, rs, t, qs, e, e2, fun ht => ?_⟩
  have hlen' : (policyOf set).skip + 2 ≤ (xs.map (·.num)).length := by simpa [policyOf] using hlen
  have hres := window_resumable hv hlx hi hlen' ht
  obtain ⟨h2, hw, _, hm, hnd⟩ := window_facts hv hi hlen'
  have hset : 0 ≤ set.initialMaxFrame := by
    by_contra hneg
    unfold create at hc
    rw [if_pos (by omega)] at hc
    cases hc
  -- the window's frames are the newest frames
  obtain ⟨f, rest, hfr⟩ : ∃ f rest, xs.map (·.num) = f :: rest :=
    List.exists_cons_of_ne_nil (by intro h; rw [h] at hlen'; simp at hlen')
  have hsorted0 := frames_sorted (p := policyOf set) hlast (ns := xs.map (·.num)) hlx.1
  have hbook : (book (policyOf set) (xs.map (·.num))).frames = f :: rest.drop (policyOf set).skip := by
    have hp := frames_perm (p := policyOf set) hch (f := f) (rest := rest) (by
      have := congrArg List.length hfr; simp only [List.length_cons] at this; omega)
    have hs2 : (f :: rest.drop (policyOf set).skip).Pairwise (· < ·) := by
      have := hlx.1
      rw [hfr] at this
      exact this.sublist (List.Sublist.cons_cons f (List.drop_sublist _ _))
    rw [← hfr] at hp
    exact hp.eq_of_pairwise (fun a b _ _ h1 h2 => by omega) hsorted0 hs2
  have hwf : windowFrames s.keyFrames = Book.frames (s.keyFrames.map entry) := by
    simp [windowFrames, Book.frames, entry, List.flatMap_map]
  obtain ⟨P, hP⟩ : ∃ P, f :: rest.drop (policyOf set).skip = P ++ windowFrames s.keyFrames := by
    refine ⟨Book.frames ((book (policyOf set) (xs.map (·.num))).take (marginalizedOf s.log).length), ?_⟩
    rw [← hbook, hwf, hw]
    unfold Book.frames
    rw [← List.flatMap_append, List.take_append_drop]
  obtain ⟨kf, hkf, hne⟩ := ht
  have h3 := windowFrames_tracked (List.mem_of_mem_drop hkf) hne
  obtain ⟨Q, a, b, hQ⟩ := ends_two (windowFrames s.keyFrames) (by omega)
  obtain ⟨R, hR⟩ : ∃ R, rest.drop (policyOf set).skip = R ++ [a, b] := by
    rw [hQ, ← List.append_assoc] at hP
    rcases hPQ : P ++ Q with _ | ⟨c, R⟩
    · exfalso
      have h4 := List.append_eq_nil_iff.1 hPQ
      rw [hQ, h4.2] at h3
      simp at h3; omega
    · rw [hPQ] at hP
      exact ⟨R, by simpa using (List.cons.inj hP).2⟩
  have hends : xs.map (·.num) = (f :: rest.take (policyOf set).skip ++ R) ++ [a, b] := by
    rw [hfr, List.append_assoc, ← hR]; simp
  have hwsorted : (windowFrames s.keyFrames).Pairwise (· < ·) := by
    rw [hbook, hP] at hsorted0
    exact (List.pairwise_append.1 hsorted0).2.1
  obtain ⟨s', T, er, hk, hinit, hlog, hf, htab, hT, hr⟩ := resume_ok hset 1 hres
  obtain ⟨u, eu, -, -, hfu, hpu, -⟩ := C35_one_observer_partial hset hres hwsorted
  rw [er] at eu
  cases eu
  have halike : Alike (windowFrames s.keyFrames) s s' := by
    refine ⟨hk, ⟨by rw [hi.initd]; simpa using hlen', hinit⟩,
      ⟨_, Q, a, b, by rw [hi.frames]; exact hends, by rw [hfu, hQ], by rw [hQ]; simp, by rw [hQ]; simp⟩, ?_, ?_⟩
    · intro n hn
      obtain ⟨kf, hkf, hn⟩ := List.mem_flatMap.1 hn
      rcases List.mem_cons.1 hn with rfl | hn
      · rw [(hpu kf hkf).1, (hi.poses kf hkf).1]
      · obtain ⟨g, hg, rfl⟩ := List.mem_map.1 hn
        rw [(hpu kf hkf).2 g hg, (hi.poses kf hkf).2 g hg]
    · intro n hn
      have h5 := hi.range n (hm n hn)
      refine ⟨by omega, h5.2, ?_⟩
      have hn' : n ∈ s'.frameNumbers := by rw [hfu]; exact hn
      rw [hf] at hn'
      obtain ⟨w, hw, rfl⟩ := List.mem_map.1 hn'
      rw [hT]; exact hr w hw
  obtain ⟨t', E, et', hA, l1, l2⟩ := run_alike ys halike hyr (by rw [hi.frames]; exact hl1) e2
  refine ⟨s', t', E, er, et', hA.kfs, ?_, ?_, l1, l2, ?_⟩
  · intro y hy
    exact hA.table _ (by simp only [List.mem_append, List.mem_reverse]; exact .inl (List.mem_map_of_mem hy))
  · intro n hn
    exact hA.table _ (List.mem_append_right _ hn)
  · intro predict n
    obtain ⟨A, A', c, d, h6, h6', hc', hd'⟩ := hA.last
    have p1 : predictionFrames (t.frameNumbers ++ [n]) = .ok (c, d) := by
      rw [h6]; simp [predictionFrames]
    have p2 : predictionFrames (t'.frameNumbers ++ [n]) = .ok (c, d) := by
      rw [h6']; simp [predictionFrames]
    unfold Motion.predictBaseKfToCur
    simp only [p1, p2, hA.kfs, List.getLast?_concat]
    cases baseKeyFrame set t.keyFrames with
    | error e => rfl
    | ok base => simp only [Motion.readPose, hA.table c hc', hA.table d hd']

/-- Settings of a system that no longer chooses keyframes. -/
def fixedSettings : Settings := { exSettings with continueChoosingKeyFrames := false }

/-- **C199, violated.** In a system that no longer chooses keyframes, a frame that would have become a
keyframe belongs to no keyframe. After the frames 1 to 5 the system knows frame 5 and refuses it, while
the system resumed from its window does not know it and accepts it again. -/
theorem C199_lost_violated :
    ∃ s rs, run fixedSettings exState (exCalls [1, 2, 3, 4, 5]) = .ok (s, rs) ∧
      addFrame fixedSettings s ⟨5, 1, 1, fun _ => 1⟩ = .error .abort ∧
      ∃ s', resume fixedSettings 1 s.keyFrames = .ok s' ∧ 5 ∉ s'.frameNumbers ∧
        ∃ r, addFrame fixedSettings s' ⟨5, 1, 1, fun _ => 1⟩ = .ok r := by
  refine ⟨_, _, rfl, rfl, _, rfl, by decide, ?_⟩
  exact ⟨_, rfl⟩

/-! ## The hypotheses can be met -/

/-- The frames 1 to 6, then three more with new keyframes among them. -/
example := C199_resumed_partial (G := Multiplicative Int) exValid rfl rfl exState_created
  (xs := exCalls [1, 2, 3, 4, 5, 6]) (ys := exCalls [7, 8, 9]) ⟨by decide, by decide⟩ (by decide)

/-- Its window has tracked frames. -/
example : ∃ s rs, run exSettings exState (exCalls [1, 2, 3, 4, 5, 6]) = .ok (s, rs) ∧
    ∃ kf ∈ s.keyFrames.drop (s.keyFrames.length - 2), kf.trackedFrames ≠ [] := by
  obtain ⟨s, rs, e, h⟩ := exWindow_reached
  exact ⟨s, rs, e, by rw [h]; exact exWindow_resumable.tracked⟩

end Mdso.Dso
