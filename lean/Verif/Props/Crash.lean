import Verif.Lemmas.Crash
import Verif.Props.Snapshot

/-!
# What is loaded if the process was killed while it saved a snapshot (C147)

The saved history is a list of saves, as in C34; `earlier` are the saves that were completed and `last` the window whose save is interrupted after `k` operations on
files.
-/

set_option autoImplicit false

namespace Mdso.Snap

open Mdso.SnapSpec

theorem save_append (ps : Nat) (d : Dir) (a b : List KeyFrame) : save ps d (a ++ b) = save ps d a >>= fun d' => save ps d' b := by
  unfold save
  rw [List.foldlM_append]

theorem files_exist {ps : Nat} (h1 : 1 ≤ ps) {l : List KeyFrame} (hr : ∀ kf ∈ l, Regular ps kf) :
    ∀ kf ∈ l, ∃ f, keyFrameFiles ps kf = .ok f := fun kf h =>
  let ⟨f, hf, _⟩ := keyFrameFiles_ok h1 (hr kf h)
  ⟨f, hf⟩

/-- A part of a save is a save. -/
theorem holds_take {ps : Nat} (h1 : 1 ≤ ps) {before last : List KeyFrame} (hr : ∀ kf ∈ before ++ last, Regular ps kf)
    (ho : OneBase (before ++ last)) {d d' : Dir} (hd : save ps .empty before = .ok d) {j : Nat}
    (hd' : save ps d (last.take j) = .ok d') : Holds ps d' (before ++ last.take j) := by
  have hsub : ∀ kf ∈ before ++ last.take j, kf ∈ before ++ last := by
    intro kf h
    rcases List.mem_append.1 h with h | h
    · simp [h]
    · simp [List.mem_of_mem_take h]
  obtain ⟨d'', e, H⟩ := save_holds h1 (before ++ last.take j) (fun kf h => hr kf (hsub kf h))
    (fun a ha b hb => ho a (hsub a ha) b (hsub b hb))
  rw [save_append, hd] at e
  change save ps d (last.take j) = _ at e
  rw [hd'] at e
  cases e
  exact H

/-- **C147**, a save that is not interrupted: its operations on files give the directory that C34 speaks of, and no stream is left open. -/
theorem C147_complete {ps : Nat} (h1 : 1 ≤ ps) (earlier : List (List KeyFrame)) (last : List KeyFrame)
    (hr : ∀ kf ∈ (earlier ++ [last]).flatten, Regular ps kf) (ho : OneBase (earlier ++ [last]).flatten) :
    ∃ d d' ops, saveAll ps earlier = .ok d ∧ saveAll ps (earlier ++ [last]) = .ok d' ∧ saveOps ps last = .ok ops ∧
      run d.idle ops = d'.idle ∧ (∀ dk, Killed (run d.idle ops) dk ↔ dk = d'.disk) := by
  have hf : (earlier ++ [last]).flatten = earlier.flatten ++ last := by simp
  rw [hf] at hr ho
  obtain ⟨d, e, H⟩ := save_holds h1 earlier.flatten (fun kf h => hr kf (by simp [h])) (fun a ha b hb => ho a (by simp [ha]) b (by simp [hb]))
  obtain ⟨d', ops, e', eo, r⟩ := run_save last (files_exist h1 fun kf h => hr kf (by simp [h])) d
  refine ⟨d, d', ops, by rw [saveAll_eq, e], ?_, eo, r, fun dk => by rw [r, killed_idle]⟩
  rw [saveAll_eq, hf, save_append, e]
  exact e'

/-- **C147, partial.** Whenever the process is killed during a save and whatever parts of open files have reached the disk, loading the directory either is undefined or gives
what a complete save of the first `j` keyframes would have given, for some `j`: every keyframe that is loaded is entirely as it was saved last or entirely as in the
interrupted save, and none is missing that was saved before. -/
theorem C147_whole_keyframes_partial {ps : Nat} (h1 : 1 ≤ ps) (earlier : List (List KeyFrame)) (last : List KeyFrame)
    (hr : ∀ kf ∈ (earlier ++ [last]).flatten, Regular ps kf) (ho : OneBase (earlier ++ [last]).flatten) :
    ∃ d ops, saveAll ps earlier = .ok d ∧ saveOps ps last = .ok ops ∧
      ∀ (k : Nat) (dk : Disk), Killed (run d.idle (ops.take k)) dk → ∀ order : List Int, order.Perm dk.dirs →
        loadDisk ps dk order = .error .ub ∨
        ∃ j m, j ≤ last.length ∧ loadDisk ps dk order = .ok m ∧ m.Pairwise (fun a b => number a < number b) ∧
          (∀ kf, LastVersion (earlier.flatten ++ last.take j) kf → ∃ k ∈ m, Restored kf k) ∧
          (∀ k ∈ m, ∃ kf, LastVersion (earlier.flatten ++ last.take j) kf ∧ Restored kf k) := by
  have hf : (earlier ++ [last]).flatten = earlier.flatten ++ last := by simp
  rw [hf] at hr ho
  obtain ⟨d, e, H⟩ := save_holds h1 earlier.flatten (fun kf h => hr kf (by simp [h])) (fun a ha b hb => ho a (by simp [ha]) b (by simp [hb]))
  have hex := files_exist h1 (l := last) fun kf h => hr kf (by simp [h])
  obtain ⟨d1, ops, e1, eo, r⟩ := run_save last hex d
  refine ⟨d, ops, by rw [saveAll_eq, e], eo, ?_⟩
  intro k dk hk order hp
  obtain ⟨j, d', hj, hd', hm⟩ := moments last hex d ops eo k
  have H' := holds_take h1 hr ho e hd'
  have hsub : ∀ kf ∈ earlier.flatten ++ last.take j, kf ∈ earlier.flatten ++ last := by
    intro kf h
    rcases List.mem_append.1 h with h | h
    · simp [h]
    · simp [List.mem_of_mem_take h]
  have hgood : dk = d'.disk → ∃ j m, j ≤ last.length ∧ loadDisk ps dk order = .ok m ∧ m.Pairwise (fun a b => number a < number b) ∧
          (∀ kf, LastVersion (earlier.flatten ++ last.take j) kf → ∃ k ∈ m, Restored kf k) ∧
          (∀ k ∈ m, ∃ kf, LastVersion (earlier.flatten ++ last.take j) kf ∧ Restored kf k) := by
    rintro rfl
    obtain ⟨m, em, hpm, hmm⟩ := loadDisk_holds h1 (fun kf h => hr kf (hsub kf h)) H' hp
    refine ⟨j, m, hj, em, hpm, ?_, ?_⟩
    · intro kf hkf
      exact ⟨reload kf, (hmm _).2 ⟨kf, hkf, rfl⟩, reload_restored kf⟩
    · intro x hx
      obtain ⟨kf, hl, rfl⟩ := (hmm x).1 hx
      exact ⟨kf, hl, reload_restored kf⟩
  rcases hm with hm | ⟨kf, so, i, hkf, hso, hi0, hi, hrun⟩
  · rw [hm, killed_idle] at hk
    exact .inr (hgood hk)
  · rw [hrun] at hk
    have hsub' : ∀ x ∈ earlier.flatten ++ last.take j ++ [kf], x ∈ earlier.flatten ++ last := by
      intro x h
      rcases List.mem_append.1 h with h | h
      · exact hsub x h
      · simp at h; subst h; simp [hkf]
    rcases torn h1 (fun x h => hr x (hsub' x h)) (fun a ha b hb => ho a (hsub' a ha) b (hsub' b hb)) H' hso hi hk with h | ⟨t1, t2, t3, t4⟩
    · exact .inr (hgood h)
    · left
      exact fold_error t3 order [] (by simp) (hp.nodup_iff.2 t2) (by simp) (hp.mem_iff.2 t1)
        (fun m hm hne => t4 m (hp.mem_iff.1 hm) hne)

/-- The same keyframe with another pose. -/
def exMoved (n : Int) : KeyFrame := { exKeyFrame n with thisToWorld := exMotion 5 }

theorem exMoved_regular (n : Int) : Regular 2 (exMoved n) := exKeyFrame_regular n

theorem ex_history : (∀ kf ∈ ([[1, 2].map exKeyFrame] ++ [[1, 2].map exMoved]).flatten, Regular 2 kf) ∧
    OneBase ([[1, 2].map exKeyFrame] ++ [[1, 2].map exMoved]).flatten := by
  have hf : ([[1, 2].map exKeyFrame] ++ [[1, 2].map exMoved]).flatten =
      [exKeyFrame 1, exKeyFrame 2, exMoved 1, exMoved 2] := rfl
  rw [hf]
  constructor
  · intro kf hk
    simp only [List.mem_cons, List.not_mem_nil, or_false] at hk
    rcases hk with rfl | rfl | rfl | rfl
    exacts [exKeyFrame_regular 1, exKeyFrame_regular 2, exMoved_regular 1, exMoved_regular 2]
  · intro a ha b hb f hfa g hgb e
    have key : ∀ x ∈ [exKeyFrame 1, exKeyFrame 2, exMoved 1, exMoved 2], ∀ t ∈ x.trackedFrames, t.globalFrameNum = number x + 10 := by
      intro x hx t ht
      simp only [List.mem_cons, List.not_mem_nil, or_false] at hx
      rcases hx with rfl | rfl | rfl | rfl <;> simp [exMoved, exKeyFrame] at ht <;> subst ht <;> rfl
    have h1 := key a ha f hfa
    have h2 := key b hb g hgb
    omega

/-- A window of two keyframes was saved, their poses were adjusted, and the second save of the window is interrupted. -/
example : ∃ d ops, saveAll 2 [[1, 2].map exKeyFrame] = .ok d ∧ saveOps 2 ([1, 2].map exMoved) = .ok ops ∧
    ∀ (k : Nat) (dk : Disk), Killed (run d.idle (ops.take k)) dk → ∀ order : List Int, order.Perm dk.dirs →
        loadDisk 2 dk order = .error .ub ∨
        ∃ j m, j ≤ 2 ∧ loadDisk 2 dk order = .ok m ∧ m.Pairwise (fun a b => number a < number b) ∧
          (∀ kf, LastVersion ([[1, 2].map exKeyFrame].flatten ++ ([1, 2].map exMoved).take j) kf → ∃ k ∈ m, Restored kf k) ∧
          (∀ k ∈ m, ∃ kf, LastVersion ([[1, 2].map exKeyFrame].flatten ++ ([1, 2].map exMoved).take j) kf ∧ Restored kf k) :=
  C147_whole_keyframes_partial (by norm_num) _ _ ex_history.1 ex_history.2

/-- Killed between two keyframes: what a save of the first `j` keyframes of the window leaves. -/
theorem killed_between {ps : Nat} (h1 : 1 ≤ ps) (earlier : List (List KeyFrame)) (last : List KeyFrame)
    (hr : ∀ kf ∈ (earlier ++ [last]).flatten, Regular ps kf) (ho : OneBase (earlier ++ [last]).flatten) (j : Nat) :
    ∃ d ops k, saveAll ps earlier = .ok d ∧ saveOps ps last = .ok ops ∧ (∃ dk, Killed (run d.idle (ops.take k)) dk) ∧
      ∀ dk, Killed (run d.idle (ops.take k)) dk → ∀ order : List Int, order.Perm dk.dirs →
        ∃ m, loadDisk ps dk order = .ok m ∧ ∀ p, p ∈ m ↔ ∃ kf, LastVersion (earlier.flatten ++ last.take j) kf ∧ p = reload kf := by
  have hf : (earlier ++ [last]).flatten = earlier.flatten ++ last := by simp
  rw [hf] at hr ho
  obtain ⟨d, e, H⟩ := save_holds h1 earlier.flatten (fun kf h => hr kf (by simp [h])) (fun a ha b hb => ho a (by simp [ha]) b (by simp [hb]))
  have hex := files_exist h1 (l := last) fun kf h => hr kf (by simp [h])
  obtain ⟨d1, ops, e1, eo, r⟩ := run_save last hex d
  obtain ⟨k, d', hd', hrun, -⟩ := moment_between last hex d ops eo j
  have H' := holds_take h1 hr ho e hd'
  have hsub : ∀ kf ∈ earlier.flatten ++ last.take j, kf ∈ earlier.flatten ++ last := by
    intro kf h
    rcases List.mem_append.1 h with h | h
    · simp [h]
    · simp [List.mem_of_mem_take h]
  refine ⟨d, ops, k, by rw [saveAll_eq, e], eo, ⟨d'.disk, by rw [hrun, killed_idle]⟩, ?_⟩
  intro dk hk order hp
  rw [hrun, killed_idle] at hk
  subst hk
  obtain ⟨m, em, -, hmm⟩ := loadDisk_holds h1 (fun kf h => hr kf (hsub kf h)) H' hp
  exact ⟨m, em, hmm⟩

/-- **C147, violated: a mixture.** If the process is killed after the keyframe `x` of the window was stored and before the keyframe `y` was, loading succeeds and gives
`x` as in the interrupted save and `y` as in the save before. -/
theorem C147_mixture_violated {ps : Nat} (h1 : 1 ≤ ps) (earlier : List (List KeyFrame)) (a b : List KeyFrame) (x y y0 : KeyFrame)
    (hr : ∀ kf ∈ (earlier ++ [a ++ x :: b]).flatten, Regular ps kf) (ho : OneBase (earlier ++ [a ++ x :: b]).flatten)
    (hn : ((a ++ x :: b).map number).Nodup) (hy : y ∈ b) (hy0 : LastVersion earlier.flatten y0) (hyy : number y0 = number y) :
    ∃ d ops k, saveAll ps earlier = .ok d ∧ saveOps ps (a ++ x :: b) = .ok ops ∧
      (∃ dk, Killed (run d.idle (ops.take k)) dk) ∧
      ∀ dk, Killed (run d.idle (ops.take k)) dk → ∀ order : List Int, order.Perm dk.dirs →
        ∃ m, loadDisk ps dk order = .ok m ∧ (∃ p ∈ m, Restored x p) ∧ ∃ q ∈ m, Restored y0 q := by
  obtain ⟨d, ops, k, g1, g2, g3, g4⟩ := killed_between h1 earlier _ hr ho (a.length + 1)
  have htake : (a ++ x :: b).take (a.length + 1) = a ++ [x] := by
    rw [List.take_append]
    simp
  refine ⟨d, ops, k, g1, g2, g3, ?_⟩
  intro dk hk order hp
  obtain ⟨m, em, hmm⟩ := g4 dk hk order hp
  rw [htake] at hmm
  refine ⟨m, em, ⟨reload x, (hmm _).2 ⟨x, ⟨earlier.flatten ++ a, [], by simp, by simp⟩, rfl⟩, reload_restored x⟩,
    ⟨reload y0, (hmm _).2 ⟨y0, ?_, rfl⟩, reload_restored y0⟩⟩
  obtain ⟨b0, a0, e0, h0⟩ := hy0
  refine ⟨b0, a0 ++ (a ++ [x]), by rw [e0]; simp, ?_⟩
  intro z hz
  rcases List.mem_append.1 hz with hz | hz
  · exact h0 z hz
  · rw [hyy]
    intro he
    rw [List.map_append, List.map_cons, List.nodup_append] at hn
    obtain ⟨n1, n2, n3⟩ := hn
    rw [List.nodup_cons] at n2
    have hyb : number y ∈ b.map number := List.mem_map_of_mem hy
    rcases List.mem_append.1 hz with hz | hz
    · exact n3 (number z) (List.mem_map_of_mem hz) (number y) (List.mem_cons_of_mem _ hyb) he
    · simp at hz
      subst hz
      exact n2.1 (by rw [he]; exact hyb)

/-- The second save of two keyframes with new poses leaves the first with the new and the second with the old pose: neither save. -/
example : ∃ d ops k, saveAll 2 [[1, 2].map exKeyFrame] = .ok d ∧ saveOps 2 ([1, 2].map exMoved) = .ok ops ∧
    (∃ dk, Killed (run d.idle (ops.take k)) dk) ∧
    ∀ dk, Killed (run d.idle (ops.take k)) dk → ∀ order : List Int, order.Perm dk.dirs →
      ∃ m, loadDisk 2 dk order = .ok m ∧ (∃ p ∈ m, p.thisToWorld = exMotion 5) ∧ ∃ q ∈ m, q.thisToWorld = exMotion 2 := by
  obtain ⟨d, ops, k, h1, h2, h3, h4⟩ := C147_mixture_violated (ps := 2) (by norm_num) [[1, 2].map exKeyFrame] [] [exMoved 2] (exMoved 1) (exMoved 2)
    (exKeyFrame 2) ex_history.1 ex_history.2 (by simp [number, exMoved, exKeyFrame]) (by simp) ⟨[exKeyFrame 1], [], rfl, by simp⟩ rfl
  refine ⟨d, ops, k, h1, h2, h3, fun dk hk order hp => ?_⟩
  obtain ⟨m, em, ⟨p, hpm, hp'⟩, q, hq, hq'⟩ := h4 dk hk order hp
  exact ⟨m, em, ⟨p, hpm, hp'.2.1⟩, q, hq, hq'.2.1⟩

/-- **C147, violated: missing keyframes.** If the first save is killed before the keyframe `y` is stored, loading succeeds without `y`. -/
theorem C147_missing_violated {ps : Nat} (h1 : 1 ≤ ps) (a b : List KeyFrame) (x y : KeyFrame)
    (hr : ∀ kf ∈ a ++ x :: b, Regular ps kf) (ho : OneBase (a ++ x :: b))
    (hn : ((a ++ x :: b).map number).Nodup) (hy : y ∈ b) :
    ∃ ops k, saveOps ps (a ++ x :: b) = .ok ops ∧ (∃ dk, Killed (run Dir.empty.idle (ops.take k)) dk) ∧
      ∀ dk, Killed (run Dir.empty.idle (ops.take k)) dk → ∀ order : List Int, order.Perm dk.dirs →
        ∃ m, loadDisk ps dk order = .ok m ∧ (∃ p ∈ m, Restored x p) ∧ ∀ q ∈ m, number q ≠ number y := by
  obtain ⟨d, ops, k, g1, g2, g3, g4⟩ := killed_between h1 [] (a ++ x :: b) (by simpa using hr) (by simpa using ho) (a.length + 1)
  cases g1
  have htake : (a ++ x :: b).take (a.length + 1) = a ++ [x] := by
    rw [List.take_append]
    simp
  refine ⟨ops, k, g2, g3, ?_⟩
  intro dk hk order hp
  obtain ⟨m, em, hmm⟩ := g4 dk hk order hp
  rw [htake] at hmm
  simp only [List.flatten_nil, List.nil_append] at hmm
  refine ⟨m, em, ⟨reload x, (hmm _).2 ⟨x, ⟨a, [], by simp, by simp⟩, rfl⟩, reload_restored x⟩, ?_⟩
  intro q hq he
  obtain ⟨z, hz, rfl⟩ := (hmm q).1 hq
  have hz := lastVersion_mem hz
  rw [List.map_append, List.map_cons, List.nodup_append] at hn
  obtain ⟨n1, n2, n3⟩ := hn
  rw [List.nodup_cons] at n2
  have hyb : number y ∈ b.map number := List.mem_map_of_mem hy
  have he : number z = number y := he
  rcases List.mem_append.1 hz with hz | hz
  · exact n3 (number z) (List.mem_map_of_mem hz) (number y) (List.mem_cons_of_mem _ hyb) he
  · simp at hz
    subst hz
    exact n2.1 (by rw [he]; exact hyb)

/-- Two keyframes are saved for the first time, and only one of them is there. -/
example : ∃ ops k, saveOps 2 ([1, 2].map exKeyFrame) = .ok ops ∧ (∃ dk, Killed (run Dir.empty.idle (ops.take k)) dk) ∧
      ∀ dk, Killed (run Dir.empty.idle (ops.take k)) dk → ∀ order : List Int, order.Perm dk.dirs →
        ∃ m, loadDisk 2 dk order = .ok m ∧ (∃ p ∈ m, Restored (exKeyFrame 1) p) ∧ ∀ q ∈ m, number q ≠ 2 :=
  C147_missing_violated (by norm_num) [] [exKeyFrame 2] (exKeyFrame 1) (exKeyFrame 2)
    (by
      intro kf hk
      simp only [List.nil_append, List.mem_cons, List.not_mem_nil, or_false] at hk
      rcases hk with rfl | rfl <;> exact exKeyFrame_regular _)
    (exOneBase [1, 2]) (by simp [number, exKeyFrame]) (by simp)

/-- **C147, violated: the old snapshot is lost.** Every keyframe `x` of the window has moments while it is stored at which a kill makes loading undefined, although
everything could be loaded before the save. (`kf.txt` has just been opened.) -/
theorem C147_lost_violated {ps : Nat} (h1 : 1 ≤ ps) (earlier : List (List KeyFrame)) (a b : List KeyFrame) (x : KeyFrame)
    (hr : ∀ kf ∈ (earlier ++ [a ++ x :: b]).flatten, Regular ps kf) (ho : OneBase (earlier ++ [a ++ x :: b]).flatten) :
    ∃ d ops k, saveAll ps earlier = .ok d ∧ saveOps ps (a ++ x :: b) = .ok ops ∧
      (∀ order : List Int, order.Perm d.disk.dirs → ∃ m, loadDisk ps d.disk order = .ok m) ∧
      (∃ dk, Killed (run d.idle (ops.take k)) dk) ∧
      ∀ dk, Killed (run d.idle (ops.take k)) dk → ∀ order : List Int, order.Perm dk.dirs →
        loadDisk ps dk order = .error .ub := by
  obtain ⟨last, hlast⟩ : ∃ l, l = a ++ x :: b := ⟨_, rfl⟩
  rw [← hlast] at hr ho ⊢
  have hf : (earlier ++ [last]).flatten = earlier.flatten ++ last := by simp
  rw [hf] at hr ho
  obtain ⟨d, e, H⟩ := save_holds h1 earlier.flatten (fun kf h => hr kf (by simp [h])) (fun a ha b hb => ho a (by simp [ha]) b (by simp [hb]))
  have hex := files_exist h1 (l := last) fun kf h => hr kf (by simp [h])
  obtain ⟨d1, ops, e1, eo, r⟩ := run_save last hex d
  obtain ⟨k, d', hd', hrun, hnext⟩ := moment_between last hex d ops eo a.length
  have H' := holds_take h1 hr ho e hd'
  have hx : x ∈ last := by rw [hlast]; simp
  obtain ⟨f, hfx⟩ := hex x hx
  have hget : last[a.length]? = some x := by rw [hlast]; simp
  have hrun2 := hnext x f hget hfx
  obtain ⟨hso, -, -, -⟩ := storeOps_eq hfx
  have hsub' : ∀ z ∈ earlier.flatten ++ last.take a.length ++ [x], z ∈ earlier.flatten ++ last := by
    intro z h
    rcases List.mem_append.1 h with h | h
    · rcases List.mem_append.1 h with h | h
      · simp [h]
      · simp [List.mem_of_mem_take h]
    · simp at h; subst h; simp [hx]
  refine ⟨d, ops, k + 2, by rw [saveAll_eq, e], eo, ?_, ?_, ?_⟩
  · intro order hp
    obtain ⟨m, em, -⟩ := loadDisk_holds h1 (fun kf h => hr kf (by simp [h])) H hp
    exact ⟨m, em⟩
  · rw [hrun2]
    refine ⟨(run d'.idle [.mkdir (number x), .open (.kf (number x))]).disk, rfl, fun g => ?_⟩
    by_cases hg : g = .kf (number x)
    · subst hg
      have hst : (run d'.idle [.mkdir (number x), .open (.kf (number x))]).stream (.kf (number x)) = some [] := by
        simp [run_cons, run_nil, step]
      rw [hst]
      exact ⟨0, .inr rfl, by simp [run_cons, run_nil, step]⟩
    · have hst : (run d'.idle [.mkdir (number x), .open (.kf (number x))]).stream g = none := by
        simp [run_cons, run_nil, step, hg, Dir.idle]
      rw [hst]
  · intro dk hk order hp
    rw [hrun2] at hk
    have hk' := hk
    rcases torn h1 (fun z h => hr z (hsub' z h)) (fun a ha b hb => ho a (hsub' a ha) b (hsub' b hb)) H' hso (i := 2) (by simp) hk with h | ⟨t1, t2, t3, t4⟩
    · -- an empty `kf.txt` is not a complete one
      exfalso
      obtain ⟨j, -, hj⟩ := killed_open (f := .kf (number x)) (ts := []) hk' (by simp [run_cons, run_nil, step])
      rw [h] at hj
      simp only [Dir.disk, List.take_nil] at hj
      cases hl : d'.kf.lookup (number x) with
      | none => rw [hl] at hj; cases hj
      | some g =>
        rw [hl] at hj
        have hm : (number x, g) ∈ d'.kf := lookup_some hl
        obtain ⟨z, -, -, hz⟩ := H'.sound _ _ hm
        rw [Option.map_some, (storeOps_eq hz).2.2.1] at hj
        exact ownToks_ne z (Option.some.inj hj)
    · exact fold_error t3 order [] (by simp) (hp.nodup_iff.2 t2) (by simp) (hp.mem_iff.2 t1)
        (fun m hm hne => t4 m (hp.mem_iff.1 hm) hne)

/-- A snapshot of two keyframes that can be loaded is lost while the first of them is stored again. -/
example : ∃ d ops k, saveAll 2 [[1, 2].map exKeyFrame] = .ok d ∧ saveOps 2 ([1, 2].map exMoved) = .ok ops ∧
      (∀ order : List Int, order.Perm d.disk.dirs → ∃ m, loadDisk 2 d.disk order = .ok m) ∧
      (∃ dk, Killed (run d.idle (ops.take k)) dk) ∧
      ∀ dk, Killed (run d.idle (ops.take k)) dk → ∀ order : List Int, order.Perm dk.dirs →
        loadDisk 2 dk order = .error .ub :=
  C147_lost_violated (by norm_num) [[1, 2].map exKeyFrame] [] [exMoved 2] (exMoved 1) ex_history.1 ex_history.2

end Mdso.Snap
