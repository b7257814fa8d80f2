import Verif.Lemmas.GenPlyRun
import Verif.Props.TrajectoryWriter

/-!
# Properties of runs of `genply`: C130 (the files of poses), C131 (a run that ends early), C132 (pictures), C133 (`write_files`),
C138 (the snapshot)
-/

set_option autoImplicit false

namespace Mdso.GenPlyRun

open Mdso.Dso Mdso.Traj Mdso.TrajSpec Mdso.FrameSpec

variable {G : Type}

/-! ## A run to compare with -/

/-- Seven frames, numbered from one. -/
def exFlags : Flags :=
  { start := 1, count := 7, writeFiles := true, drawDepthPyramid := true, outDir := [.str "output", .str "default"]
    debugDir := [.str "debug"], trackDir := [.str "track"], pyrDir := [.str "pyr"], args := ["genply", "data"] }

/-- The settings of `exSettings`, every frame readable. -/
def exWorld : World (Multiplicative Int) :=
  { set := exSettings, infInt := intMax, align := fun _ _ _ _ g => g, gt := List.replicate 20 1
    input := fun n => some ⟨Multiplicative.ofAdd 5, Multiplicative.ofAdd n, fun k => Multiplicative.ofAdd (k + 100)⟩ }

/-- An empty disk. -/
def exDisk : Disk (Multiplicative Int) := { dirs := [], files := fun _ => none, handles := [] }

theorem exReady : Ready exFlags exWorld :=
  ⟨exValid, by decide, by decide, fun n _ h => by simp [exFlags] at h; simp [exWorld]; omega, fun _ _ _ => rfl⟩

theorem exCreated : create exWorld.set = .ok exState := rfl

/-! ## C130 -/

/-- C130, the part that holds: if the directory for results is made or exists, a run over readable frames ends without a fault and adds the lines of the
writers of trajectories to the four files of poses, after what was in them before. -/
theorem C130_appended_partial [Group G] {f : Flags} {wd : World G} (h : Ready f wd) {s0 : State G} (hc : create wd.set = .ok s0) (d : Disk G)
    (hd : f.writeFiles = true ∨ d.isDir f.outDir) :
    ∃ es st s rs g, main f wd = (es, .ok st) ∧ run wd.set s0 (callsOf wd (framesFrom f.start f.count)) = .ok (s, rs) ∧
      writerGTOf wd.align wd.gt (destroy s) = .ok g ∧
      content (d.execAll es) f.trackedPos = content d f.trackedPos ++ (writerOf wd.infInt (destroy s)).lines.map (fun l => .pose l.1 l.2⁻¹) ∧
      content (d.execAll es) f.trackedMatrix = content d f.trackedMatrix ++ (writerOf wd.infInt (destroy s)).lines.map (fun l => .pose l.1 l.2) ∧
      content (d.execAll es) f.gtPos = content d f.gtPos ++ g.lines.map (fun l => .pose l.1 l.2) ∧
      content (d.execAll es) f.gtMatrix = content d f.gtMatrix ++ g.matrixLines.map (fun l => .pose l.1 l.2) := by
  obtain ⟨es, esd, st, st', rs, hm, hr, -, b1, b2, -, -, -, hw, hg⟩ := main_ok h hc
  have b : Booked f ⟨s0, Writer.init, WriterGT.init wd.gt⟩ st' (es ++ (snapshotEffects f st.sys.keyFrames ++
      (esd ++ [.closed f.argsTxt (f.args.map .arg)]))) :=
    b1.trans ((Booked.aside (snapshot_aside f _) rfl rfl).trans (b2.trans (Booked.aside (closed_aside f _) rfl rfl)))
  refine ⟨_, st', st.sys, rs, st'.gt, hm, hr, hg, ?_, ?_, ?_, ?_⟩
  · rw [posefile_content hd (by simp [posePaths]) (b.quiet _ (by simp [posePaths]))]
    have := b.pos
    rw [← hw]
    simp only [Writer.init, List.map_nil, poseItems, List.nil_append, List.map_map] at this
    rw [← this]; rfl
  · rw [posefile_content hd (by simp [posePaths]) (b.quiet _ (by simp [posePaths]))]
    have := b.matrix
    rw [← hw]
    simp only [Writer.init, List.map_nil, poseItems, List.nil_append] at this
    rw [← this]
  · rw [posefile_content hd (by simp [posePaths]) (b.quiet _ (by simp [posePaths]))]
    have := b.gtPos
    simp only [WriterGT.init, List.map_nil, poseItems, List.nil_append] at this
    rw [← this]
  · rw [posefile_content hd (by simp [posePaths]) (b.quiet _ (by simp [posePaths]))]
    have := b.gtMatrix
    simp only [WriterGT.init, List.map_nil, poseItems, List.nil_append] at this
    rw [← this]

example := C130_appended_partial exReady exCreated exDisk (Or.inl rfl)

/-- The numbers in a file of poses. -/
def posesIn (items : List (Item G)) : List Int := items.filterMap fun i => match i with | .pose n _ => some n | _ => none

theorem posesIn_map (l : List (Int × G)) (g : G → G) : posesIn (l.map fun x => (.pose x.1 (g x.2) : Item G)) = l.map (·.1) := by
  simp [posesIn, List.filterMap_map]

theorem posesIn_append (a b : List (Item G)) : posesIn (a ++ b) = posesIn a ++ posesIn b := by simp [posesIn]

theorem callsOf_num (wd : World G) {ns : List Int} (h : ∀ n ∈ ns, (wd.input n).isSome) : (callsOf wd ns).map (·.num) = ns := by
  induction ns with
  | nil => rfl
  | cons n ns ih =>
    obtain ⟨x, hx⟩ := Option.isSome_iff_exists.1 (h n (by simp))
    have e : callsOf wd (n :: ns) = callOf x n :: callsOf wd ns := by simp [callsOf, hx]
    rw [e, List.map_cons, ih fun m hm => h m (by simp [hm])]
    rfl

theorem calls_legal [Group G] {f : Flags} {wd : World G} (h : Ready f wd) : Legal ((callsOf wd (framesFrom f.start f.count)).map (·.num)) := by
  rw [callsOf_num wd (by rw [← frameNums_eq]; exact h.readable'), ← frameNums_eq]
  refine ⟨frameNums_sorted f, fun n hn => ?_⟩
  have := frameNums_range hn; have := h.start; have := h.range; omega

/-- C130, the part that holds: if the file was empty, it then has one line for each keyframe and each frame tracked from it, provided the
writer's converted infinity is larger than the frame numbers: the lines of the property C12. -/
theorem C130_each_once_partial [Group G] {f : Flags} {wd : World G} (h : Ready f wd) {s0 : State G} (hc : create wd.set = .ok s0) (d : Disk G)
    (hd : f.writeFiles = true ∨ d.isDir f.outDir) (he : content d f.trackedPos = []) (hinf : f.start + f.count ≤ wd.infInt) :
    ∃ es st s rs, ∃ ls : List (Int × G), main f wd = (es, .ok st) ∧ run wd.set s0 (callsOf wd (framesFrom f.start f.count)) = .ok (s, rs) ∧
      content (d.execAll es) f.trackedPos = ls.map (fun l => .pose l.1 l.2⁻¹) ∧ ls.Perm (expectedLines (handedOver (destroy s))) ∧
      (posesIn (content (d.execAll es) f.trackedPos)).Perm (ownedOf s) := by
  obtain ⟨es, st, s, rs, g, hm, hr, -, hp, -⟩ := C130_appended_partial h hc d hd
  have hl := calls_legal h
  obtain ⟨s', rs', hr', h1, h2⟩ := C12_complete_partial h.valid hc hl (infInt := wd.infInt) (by
    intro x hx
    have := List.mem_map_of_mem (f := fun x => x.num) hx
    rw [callsOf_num wd (by rw [← frameNums_eq]; exact h.readable'), ← frameNums_eq] at this
    have := frameNums_range this
    omega)
  rw [hr] at hr'
  cases hr'
  rw [he, List.nil_append] at hp
  refine ⟨es, st, s, rs, _, hm, hr, hp, h1, ?_⟩
  rw [hp, posesIn_map _ (fun x => x⁻¹)]
  exact h2

example := C130_each_once_partial exReady exCreated exDisk (Or.inl rfl) rfl (by decide)

/-- In the example the file has lines for the frames one to seven but the one skipped during initialization. -/
example : posesIn (content (exDisk.execAll (main exFlags exWorld).1) exFlags.trackedPos) = [1, 3, 4, 5, 6, 7] := by decide +kernel

/-- C130 does not hold when a run is repeated: the files of poses are not started anew, so after a second run with the same arguments all lines are
there twice. -/
theorem C130_rerun_violated [Group G] {f : Flags} {wd : World G} (h : Ready f wd) {s0 : State G} (hc : create wd.set = .ok s0) (d : Disk G)
    (hd : f.writeFiles = true ∨ d.isDir f.outDir) (he : content d f.trackedPos = []) :
    ∃ es st, main f wd = (es, .ok st) ∧ posesIn (content ((d.execAll es).execAll es) f.trackedPos) =
      posesIn (content (d.execAll es) f.trackedPos) ++ posesIn (content (d.execAll es) f.trackedPos) := by
  obtain ⟨es, st, s, rs, g, hm, hr, -, hp, -⟩ := C130_appended_partial h hc d hd
  have hd' : f.writeFiles = true ∨ (d.execAll es).isDir f.outDir := hd.imp_right fun h => execAll_isDir es h
  obtain ⟨es', st', s', rs', g', hm', hr', -, hp', -⟩ := C130_appended_partial h hc (d.execAll es) hd'
  rw [hm] at hm'
  cases hm'
  rw [hr] at hr'
  cases hr'
  refine ⟨es, st, hm, ?_⟩
  rw [hp', hp, he]
  simp [posesIn_append]

/-- Twelve lines for six frames. -/
example : posesIn (content ((exDisk.execAll (main exFlags exWorld).1).execAll (main exFlags exWorld).1) exFlags.trackedPos) =
    [1, 3, 4, 5, 6, 7, 1, 3, 4, 5, 6, 7] := by decide +kernel

/-- Poses and pictures are written into directories that exist already. -/
theorem noDir_of {f : Flags} {p : Path} {es : List (Effect G)} (h : ∀ e ∈ es, Line f e ∨ Picture f e) : NoDir p es := by
  intro e he
  rcases h e he with ⟨q, -, it, rfl⟩ | h
  · simp
  · obtain ⟨q, nm, it, rfl, -⟩ := h.put
    simp

theorem picsFrom_picture {f : Flags} {set : Settings} {done rest : List Int} {e : Effect G} (h : e ∈ picsFrom f set done rest) : Picture f e := by
  obtain ⟨pre, it, post, -, h⟩ := (mem_picsFrom rest done).1 h
  exact ⟨_, _, _, h⟩

/-- C130 does not hold without `write_files` if the directory for results does not exist: it comes into being only with the snapshot at the end of the
run, so what the writers have written before is lost. The file gets only the lines written when the system is destroyed. -/
theorem C130_lost_violated [Group G] {f : Flags} {wd : World G} (h : Ready f wd) {s0 : State G} (hc : create wd.set = .ok s0) (d : Disk G)
    (hw : f.writeFiles = false) (hd : ¬ d.isDir f.outDir) :
    ∃ es st s rs, main f wd = (es, .ok st) ∧ run wd.set s0 (callsOf wd (framesFrom f.start f.count)) = .ok (s, rs) ∧
      content (d.execAll es) f.trackedPos = content d f.trackedPos ++
        ((writerOf wd.infInt (destroy s)).lines.drop (writerOf wd.infInt s.log).lines.length).map (fun l => .pose l.1 l.2⁻¹) := by
  obtain ⟨es, esd, st, st', rs, hm, hr, hi, b1, b2, -, hme, -, hw', -⟩ := main_ok h hc
  refine ⟨_, st', st.sys, rs, hm, hr, ?_⟩
  have hp : f.trackedPos ∈ posePaths f := by simp [posePaths]
  have hdl : f.trackedPos.dropLast = f.outDir := (posePath_dropLast hp).1
  have hn : NoDir f.trackedPos (prepare f ++ es) := by
    intro e he
    rcases List.mem_append.1 he with he | he
    · rcases mem_prepare he with ⟨q, -, hq⟩ | rfl
      · rw [hw] at hq; cases hq
      · simp
    · exact noDir_of (fun e he => (hme e he).imp_right picsFrom_picture) e he
  have h1 := exec_nowhere (p := f.trackedPos) (d := d) (prepare f ++ es) hn (by rw [hdl]; exact hd)
  rw [← List.append_assoc, execAll_append]
  obtain ⟨d1, hd1⟩ : ∃ d1, d1 = d.execAll (prepare f ++ es) := ⟨_, rfl⟩
  rw [← hd1] at h1 ⊢
  have hsn : snapshotEffects f st.sys.keyFrames = .mkdirs f.snapshot :: (snapshotEffects f st.sys.keyFrames).tail := rfl
  rw [hsn]
  show content ((d1.exec (.mkdirs f.snapshot)).execAll _) _ = _
  rw [exec_content]
  · have h2 : content (d1.exec (.mkdirs f.snapshot)) f.trackedPos = content d f.trackedPos := by
      unfold content
      rw [← h1.1]; rfl
    rw [h2]
    congr 1
    have h3 : tail f.trackedPos (snapshotEffects f st.sys.keyFrames) = [] := (snapshot_aside f _ _ hp).2
    rw [hsn, show ∀ (x : Effect G) l, x :: l = [x] ++ l from fun _ _ => rfl, tail_append, List.append_eq_nil_iff] at h3
    rw [List.append_eq, tail_append, h3.2, tail_append, (closed_aside f _ _ hp).2, List.nil_append, List.append_nil]
    have h4 := b2.pos
    rw [hw', hi.w] at h4
    have h5 : (writerOf wd.infInt (destroy st.sys)).lines = (writerOf wd.infInt st.sys.log).lines ++
        (writerOf wd.infInt (destroy st.sys)).lines.drop (writerOf wd.infInt st.sys.log).lines.length := by
      apply prefix_drop
      unfold destroy
      rw [writerOf_append]
      exact step_prefix wd.infInt (writerOf wd.infInt st.sys.log) (.destructed st.sys.keyFrames)
    rw [h5, List.map_append, poseItems_append] at h4
    have h6 := List.append_cancel_left h4
    rw [← h6]
    simp [poseItems, Function.comp_def]
  · have hq : Quiet f.trackedPos (snapshotEffects f st.sys.keyFrames) := (snapshot_aside f _ _ hp).1
    refine Quiet.append (fun e he => hq e (by rw [hsn]; exact List.mem_cons_of_mem _ he)) ?_
    exact (b2.quiet _ hp).append ((closed_aside f _ _ hp).1)
  · rw [hdl]
    exact mkdirs_isDir _ _ (List.prefix_append _ _)

/-- In the example the frames one to four are missing. -/
example : posesIn (content (exDisk.execAll (main { exFlags with writeFiles := false } exWorld).1) exFlags.trackedPos) = [5, 6, 7] := by decide +kernel

example := C130_lost_violated (f := { exFlags with writeFiles := false }) (wd := exWorld)
  ⟨exReady.valid, exReady.start, exReady.range, exReady.truth, exReady.readable⟩ exCreated exDisk rfl (by simp [exDisk, Disk.isDir, exFlags])

/-! ## C131 -/

/-- C131: a run whose first frame number is not positive is ended by the check of the system at the first frame. Nothing but the directories and an
empty `args.txt` is written. -/
theorem C131_start [Group G] {f : Flags} {wd : World G} {s0 : State G} (hc : create wd.set = .ok s0) (hs : f.start ≤ 0) (hr : f.start + f.count ≤ intMax)
    (hn : 0 < f.count) (hb : (wd.input f.start).isSome) : main f wd = (prepare f, .error .abort) := by
  obtain ⟨x, hx⟩ := Option.isSome_iff_exists.1 hb
  have h0 : addFrame wd.set s0 ⟨f.start, x.stereo, x.track, x.ba⟩ = .error .abort :=
    (C05_abort_iff hc (xs := []) (rs := []) rfl _).2 (fun h => absurd h.1 (by simpa using hs))
  have hsplit : ∃ rest, frameNums f = f.start :: rest := by
    obtain ⟨k, hk⟩ : ∃ k, f.count.toNat = k + 1 := ⟨f.count.toNat - 1, by omega⟩
    unfold frameNums
    rw [hk, List.range_succ_eq_map]
    exact ⟨_, by rw [List.map_cons]; simp; rfl⟩
  obtain ⟨rest, hrest⟩ := hsplit
  unfold main
  rw [hc]
  simp only [andThen, Except.mapError]
  rw [if_neg (by omega), hrest]
  simp only [rounds, round, hx, h0, andThen, ofErr, List.append_nil]

example : main { exFlags with start := 0 } exWorld = (prepare { exFlags with start := 0 }, .error .abort) :=
  C131_start (f := { exFlags with start := 0 }) (wd := exWorld) (s0 := exState) rfl (by decide) (by decide) (by decide) (by simp [exWorld])

/-- C131: the first frame that cannot be read ends the program with an exception. The poses of the keyframes marginalized by then are in the files, no
frame that belongs to a keyframe of the window is, and there is no snapshot. -/
theorem C131_unreadable_violated [Group G] {f : Flags} {wd : World G} (hv : Valid wd.set) {s0 : State G} (hc : create wd.set = .ok s0) (d : Disk G)
    (hd : f.writeFiles = true ∨ d.isDir f.outDir) (hs : 0 < f.start) (hr : f.start + f.count ≤ intMax) {n : Int} (hn : f.start ≤ n)
    (hn' : n < f.start + f.count) (hb : wd.input n = none) (ho : ∀ m, f.start ≤ m → m < n → (wd.input m).isSome)
    (hg : ∀ m, f.start ≤ m → m < n → m < wd.gt.length) :
    ∃ es s rs, main f wd = (es, .error .exception) ∧ run wd.set s0 (callsOf wd (framesFrom f.start (n - f.start))) = .ok (s, rs) ∧
      content (d.execAll es) f.trackedPos = content d f.trackedPos ++ (writerOf wd.infInt s.log).lines.map (fun l => .pose l.1 l.2⁻¹) ∧
      content (d.execAll es) f.trackedMatrix = content d f.trackedMatrix ++ (writerOf wd.infInt s.log).lines.map (fun l => .pose l.1 l.2) ∧
      (∀ kf ∈ s.keyFrames, ∀ m ∈ frameNumbers [kf], m ∉ (writerOf wd.infInt s.log).lines.map (·.1)) ∧
      (d.execAll es).files (f.snapshot ++ [.str "depth_col.txt"]) = d.files (f.snapshot ++ [.str "depth_col.txt"]) ∧
      ∀ k, (d.execAll es).files (f.snapshot ++ [.numbered "kf" k ""] ++ [.str "kf.txt"]) = d.files (f.snapshot ++ [.numbered "kf" k ""] ++ [.str "kf.txt"]) := by
  have hi : (n - f.start).toNat < f.count.toNat := by omega
  have hsplit := framesFrom_append f.start f.count hi
  have e1 : ((n - f.start).toNat : Int) = n - f.start := by omega
  have e2 : f.start + ((n - f.start).toNat : Int) = n := by omega
  rw [e2, e1] at hsplit
  obtain ⟨pre, hpre⟩ : ∃ pre, pre = framesFrom f.start (n - f.start) := ⟨_, rfl⟩
  have hmem : ∀ m ∈ pre, f.start ≤ m ∧ m < n := by
    intro m hm
    rw [hpre] at hm
    have := frameNums_range (f := { f with count := n - f.start }) hm
    dsimp only at this
    omega
  have hpw : pre.Pairwise (· < ·) := by rw [hpre]; exact frameNums_sorted { f with count := n - f.start }
  rw [← hpre] at hsplit ⊢
  obtain ⟨es, st, rs, h1, h2, h3, h4, h5, -⟩ := rounds_ok (f := f) hv pre (rinv_create hc) (by simpa using hpw)
    (fun m hm => by have := hmem m hm; omega) (fun m hm => hg m (hmem m (by simpa using hm)).1 (hmem m (by simpa using hm)).2)
    (fun m hm => ho m (hmem m hm).1 (hmem m hm).2)
  simp only [List.nil_append] at h3
  have hmain : main f wd = (prepare f ++ es, .error .exception) := by
    unfold main
    rw [hc]
    simp only [andThen, Except.mapError]
    rw [if_neg (by omega), frameNums_eq, hsplit, rounds_append, h1]
    simp only [andThen, rounds, round, hb, List.append_nil]
  have hpos : f.trackedPos ∈ posePaths f := by simp [posePaths]
  have hmat : f.trackedMatrix ∈ posePaths f := by simp [posePaths]
  have hunt : ∀ (q : Path) (nm : Name), nm ≠ .str "interpolation.jpg" → (∀ it, nm ≠ frameJpg it) → q ++ [nm] ∉ posePaths f → q ++ [nm] ≠ f.argsTxt →
      (d.execAll (prepare f ++ es)).files (q ++ [nm]) = d.files (q ++ [nm]) := by
    intro q nm a1 a2 a3 a4
    refine exec_untouched _ ((prepare_untouched a4).append fun e he => ?_)
    rcases h5 e he with h | h
    · exact h.ne a3
    · exact (picsFrom_picture h).ne a1 a2
  refine ⟨_, st.sys, rs, hmain, h2, ?_, ?_, ?_, ?_, ?_⟩
  · rw [posefile_content hd hpos (h4.quiet _ hpos)]
    have := h4.pos
    rw [h3.w] at this
    simp only [Writer.init, List.map_nil, poseItems, List.nil_append, List.map_map] at this
    rw [← this]; rfl
  · rw [posefile_content hd hmat (h4.quiet _ hmat)]
    have := h4.matrix
    rw [h3.w] at this
    simp only [Writer.init, List.map_nil, poseItems, List.nil_append] at this
    rw [← this]
  · have hnum : (callsOf wd pre).map (·.num) = pre := callsOf_num wd fun m hm => ho m (hmem m hm).1 (hmem m hm).2
    obtain ⟨s', rs', hr', hi', hw, -⟩ := run_create_w wd.infInt hv hc (xs := callsOf wd pre)
      (by rw [hnum]; exact ⟨hpw, fun m hm => by have := hmem m hm; omega⟩)
    rw [h2] at hr'
    cases hr'
    intro kf hkf m hm hml
    obtain ⟨l, hl', rfl⟩ := List.mem_map.1 hml
    have k1 : l ∈ (marginalizedOf st.sys.log).flatMap poseEntries := hw.perm.subset (List.mem_append_left _ hl')
    have k2 : l.1 ∈ framesOf (marginalizedOf st.sys.log) := by rw [← poseEntries_fst]; exact List.mem_map_of_mem k1
    have k3 : l.1 ∈ framesOf st.sys.keyFrames := by
      simp only [framesOf, List.mem_flatMap]
      exact ⟨kf, hkf, by simpa [frameNumbers] using hm⟩
    have k4 := frames_nodup hi'
    unfold createdOf at k4
    rw [framesOf_append, List.nodup_append] at k4
    exact k4.2.2 _ k2 _ k3 rfl
  · refine hunt _ _ (by simp) (by simp [frameJpg]) ?_ ?_
    · intro h
      obtain ⟨nm, h, hn⟩ := posePaths_last h
      refine append_ne_of_last ?_ h
      rcases hn with rfl | rfl | rfl | rfl <;> simp
    · unfold Flags.argsTxt; exact append_ne_of_last (by simp)
  · intro k
    refine hunt _ _ (by simp) (by simp [frameJpg]) ?_ ?_
    · intro h
      obtain ⟨nm, h, hn⟩ := posePaths_last h
      refine append_ne_of_last ?_ h
      rcases hn with rfl | rfl | rfl | rfl <;> simp
    · unfold Flags.argsTxt; exact append_ne_of_last (by simp)

/-- A data set whose frames from six on cannot be read. -/
def exShort : World (Multiplicative Int) := { exWorld with input := fun n => if n < 6 then exWorld.input n else none }

example := C131_unreadable_violated (f := exFlags) (wd := exShort) exValid (s0 := exState) rfl exDisk (Or.inl rfl) (by decide) (by decide) (n := 6)
  (by decide) (by decide) rfl (fun m _ h => by simp [exShort, h, exWorld]) (fun m _ h => by simp [exShort, exWorld]; omega)

/-- In the example five frames were processed and the pose of one of them was kept. -/
example : posesIn (content (exDisk.execAll (main exFlags exShort).1) exFlags.trackedPos) = [1] := by decide +kernel

/-- C131: the arguments of the run are in `args.txt` after a run that gets to its end. -/
theorem C131_arguments_partial [Group G] {f : Flags} {wd : World G} {es : List (Effect G)} {st : St G} (hm : main f wd = (es, .ok st)) (d : Disk G)
    (hd : f.writeFiles = true ∨ d.isDir f.outDir) : (d.execAll es).files f.argsTxt = some (f.args.map .arg) := by
  rcases main_shape f wd with ⟨_, _, h, _⟩ | ⟨a, kfs, b, st', h, ha, hb⟩
  · rw [hm] at h; cases h
  · rw [hm] at h
    cases h
    have hu : Untouched f.argsTxt (a ++ (snapshotEffects f kfs ++ b)) := by
      apply args_untouched
      intro e he
      rcases List.mem_append.1 he with he | he
      · exact (ha e he).imp_right Or.inl
      · rcases List.mem_append.1 he with he | he
        · exact Or.inr (Or.inr ⟨_, he⟩)
        · exact Or.inl (hb e he)
    have hcat : prepare f ++ (a ++ (snapshotEffects f kfs ++ (b ++ [.closed f.argsTxt (f.args.map .arg)]))) =
        (prepare f ++ (a ++ (snapshotEffects f kfs ++ b))) ++ [.closed f.argsTxt (f.args.map .arg)] := by simp
    rw [hcat, execAll_append, execAll_append]
    have h1 := handles_mem _ hu (prepare_args d hd).2
    obtain ⟨d1, hd1⟩ : ∃ d1, d1 = (d.execAll (prepare f)).execAll (a ++ (snapshotEffects f kfs ++ b)) := ⟨_, rfl⟩
    rw [← hd1] at h1 ⊢
    show (d1.exec (.closed f.argsTxt (f.args.map .arg))).files _ = _
    unfold Disk.exec
    dsimp only
    rw [if_pos h1]
    simp

/-- C131 does not hold for a run that ends with a fault of any kind: `args.txt` is there and empty, whatever was in it before. -/
theorem C131_arguments_violated [Group G] {f : Flags} {wd : World G} {es : List (Effect G)} {er : Fault} (hm : main f wd = (es, .error er)) (d : Disk G)
    (hd : f.writeFiles = true ∨ d.isDir f.outDir) : (d.execAll es).files f.argsTxt = some [] := by
  rcases main_shape f wd with ⟨es', _, h, hu⟩ | ⟨a, kfs, b, st', h, _⟩
  · rw [hm] at h
    cases h
    rw [execAll_append, exec_untouched _ (args_untouched hu)]
    exact (prepare_args d hd).1
  · rw [hm] at h; cases h

example : ∃ es st es', main exFlags exWorld = (es, .ok st) ∧ main exFlags exShort = (es', .error .exception) ∧
    (exDisk.execAll es).files exFlags.argsTxt = some [.arg "genply", .arg "data"] ∧ (exDisk.execAll es').files exFlags.argsTxt = some [] := by
  obtain ⟨es, st, s, rs, g, h, -⟩ := C130_appended_partial exReady exCreated exDisk (Or.inl rfl)
  obtain ⟨es', s', rs', h', -⟩ := C131_unreadable_violated (f := exFlags) (wd := exShort) exValid (s0 := exState) rfl exDisk (Or.inl rfl) (by decide)
    (by decide) (n := 6) (by decide) (by decide) rfl (fun m _ h => by simp [exShort, h, exWorld]) (fun m _ h => by simp [exShort, exWorld]; omega)
  exact ⟨es, st, es', h, h', C131_arguments_partial h exDisk (Or.inl rfl), C131_arguments_violated h' exDisk (Or.inl rfl)⟩

/-! ## C132 -/

/-- What is left in a file that is only written as a whole, always with the same content. -/
theorem main_picture [Group G] {f : Flags} {wd : World G} (h : Ready f wd) {s0 : State G} (hc : create wd.set = .ok s0) (hw : f.writeFiles = true)
    (d : Disk G) {q : Path} {nm : Name} (hq : q = [] ∨ q = f.debugDir ∨ q = f.trackDir ∨ q = f.pyrDir)
    (hn : nm = .str "interpolation.jpg" ∨ ∃ it, nm = frameJpg it) {v : List (Item G)}
    (hv : ∀ items, .put (f.outDir ++ q ++ [nm]) items ∈ (picsFrom f wd.set [] (frameNums f) : List (Effect G)) → items = v) :
    ∃ es st, main f wd = (es, .ok st) ∧
      (.put (f.outDir ++ q ++ [nm]) v ∈ picsFrom f wd.set [] (frameNums f) → (d.execAll es).files (f.outDir ++ q ++ [nm]) = some v) ∧
      (.put (f.outDir ++ q ++ [nm]) v ∉ picsFrom f wd.set [] (frameNums f) →
        (d.execAll es).files (f.outDir ++ q ++ [nm]) = d.files (f.outDir ++ q ++ [nm])) := by
  obtain ⟨es, esd, st, st', rs, hm, hr, hi, b1, b2, hld, hme, hme', hw', -⟩ := main_ok h hc
  have hargs : f.outDir ++ q ++ [nm] ≠ f.argsTxt := by
    unfold Flags.argsTxt
    refine append_ne_of_last ?_
    rcases hn with rfl | ⟨it, rfl⟩ <;> simp [frameJpg]
  have hpose : f.outDir ++ q ++ [nm] ∉ posePaths f := by
    intro hp
    obtain ⟨s, hp, hs⟩ := posePaths_last hp
    refine append_ne_of_last ?_ hp
    rcases hn with rfl | ⟨it, rfl⟩
    · rcases hs with rfl | rfl | rfl | rfl <;> simp
    · simp [frameJpg]
  have hsnap : ∀ e ∈ snapshotEffects f st.sys.keyFrames, (∀ items, e ≠ .put (f.outDir ++ q ++ [nm]) items) ∧ (∀ items, e ≠ .app (f.outDir ++ q ++ [nm]) items) ∧
      e ≠ .opened (f.outDir ++ q ++ [nm]) ∧ ∀ items, e ≠ .closed (f.outDir ++ q ++ [nm]) items := by
    intro e he
    rcases mem_snapshotEffects he with ⟨p, rfl, -⟩ | ⟨p, nm', it, rfl, -, hnm'⟩
    · simp
    · refine ⟨fun items h => ?_, by simp, by simp, by simp⟩
      injection h with h _
      refine append_ne_of_last ?_ h
      rcases hn with rfl | ⟨i, rfl⟩
      · rcases hnm' with rfl | rfl | ⟨n, rfl⟩ <;> simp
      · rcases hnm' with rfl | rfl | ⟨n, rfl⟩ <;> simp [frameJpg]
  have hclosed : Untouched (f.outDir ++ q ++ [nm]) [(.closed f.argsTxt (f.args.map .arg) : Effect G)] := by
    intro e he
    simp only [List.mem_singleton] at he
    subst he
    refine ⟨by simp, by simp, by simp, fun it h => ?_⟩
    injection h with h _
    exact hargs h.symm
  have hlater : Untouched (f.outDir ++ q ++ [nm]) (snapshotEffects f st.sys.keyFrames ++ (esd ++ [.closed f.argsTxt (f.args.map .arg)])) :=
    Untouched.append hsnap (Untouched.append (fun e he => (hld e he).ne hpose) hclosed)
  have hdir : (d.execAll (prepare f)).isDir (f.outDir ++ q ++ [nm]).dropLast := by
    rw [List.dropLast_concat]
    unfold prepare
    rw [if_pos hw, execAll_append]
    refine execAll_isDir _ ?_
    show ((((d.exec (.mkdirs f.outDir)).exec (.mkdirs (f.outDir ++ f.debugDir))).exec (.mkdirs (f.outDir ++ f.trackDir))).exec
      (.mkdirs (f.outDir ++ f.pyrDir))).isDir _
    rcases hq with rfl | rfl | rfl | rfl
    · exact mkdirs_isDir _ _ (by simp)
    · exact exec_isDir (exec_isDir (mkdirs_isDir _ _ (List.prefix_refl _)) _) _
    · exact exec_isDir (mkdirs_isDir _ _ (List.prefix_refl _)) _
    · exact mkdirs_isDir _ _ (List.prefix_refl _)
  have honly : OnlyPut (f.outDir ++ q ++ [nm]) es := by
    intro e he
    rcases hme e he with hl | hp
    · exact (hl.ne hpose).2
    · obtain ⟨p, nm', it, rfl, -⟩ := (picsFrom_picture hp).put
      simp
  have hfin : (d.execAll (prepare f ++ (es ++ (snapshotEffects f st.sys.keyFrames ++ (esd ++ [.closed f.argsTxt (f.args.map .arg)]))))).files (f.outDir ++ q ++ [nm]) =
      lastPut (f.outDir ++ q ++ [nm]) es (d.files (f.outDir ++ q ++ [nm])) := by
    rw [execAll_append, execAll_append, exec_untouched _ hlater, exec_put es honly hdir, exec_untouched _ (prepare_untouched hargs)]
  have hput : ∀ items, .put (f.outDir ++ q ++ [nm]) items ∈ es ↔ .put (f.outDir ++ q ++ [nm]) items ∈ (picsFrom f wd.set [] (frameNums f) : List (Effect G)) := by
    intro items
    refine ⟨fun he => ?_, fun he => hme' _ he⟩
    rcases hme _ he with hl | hp
    · exact absurd rfl ((hl.ne hpose).1 items)
    · exact hp
  have hc := lastPut_const es (d.files (f.outDir ++ q ++ [nm])) (v := v) fun items hi => hv items ((hput items).1 hi)
  refine ⟨_, st', hm, fun hh => ?_, fun hh => ?_⟩
  · rw [hfin]; exact hc.1 ((hput v).2 hh)
  · rw [hfin]; exact hc.2 fun h => hh ((hput v).1 h)

/-- The frame becomes a keyframe, by the policy of the settings, after the frames that were read before it. -/
def IsKeyFrame (f : Flags) (set : Settings) (n : Int) : Prop :=
  f.start ≤ n ∧ n < f.start + f.count ∧
    (book (policyOf set) (framesFrom f.start (n - f.start))).length < (book (policyOf set) (framesFrom f.start (n - f.start + 1))).length

theorem framesFrom_succ {a n : Int} (h : a ≤ n) : framesFrom a (n - a + 1) = framesFrom a (n - a) ++ [n] := by
  have h1 := framesFrom_append a (n - a + 1) (i := (n - a).toNat) (by omega)
  have e1 : ((n - a).toNat : Int) = n - a := by omega
  rw [e1] at h1
  have e2 : a + (n - a) = n := by omega
  have e3 : n - a + 1 - (n - a) - 1 = 0 := by omega
  rw [e2, e3] at h1
  exact h1

theorem mem_run_pictures {f : Flags} {set : Settings} (hw : f.writeFiles = true) {e : Effect G} : e ∈ (picsFrom f set [] (frameNums f) : List (Effect G)) ↔
    ∃ n, f.start ≤ n ∧ n < f.start + f.count ∧
      ((((policyOf set).skip : Int) + 2 ≤ n - f.start + 1 ∧ e = .put f.interpolationJpg [.interpolation]) ∨ e = .put (f.debugJpg n) [.debugPicture n] ∨
        e = .put (f.trackJpg n) [.trackPicture n] ∨ (f.drawDepthPyramid = true ∧ IsKeyFrame f set n ∧ e = .put (f.pyrJpg n) [.pyrPicture n])) := by
  rw [mem_picsFrom, frameNums_eq]
  constructor
  · rintro ⟨pre, n, post, hs, he⟩
    obtain ⟨h1, h2, h3⟩ := framesFrom_pre hs
    refine ⟨n, h1, h2, ?_⟩
    rw [List.nil_append] at he
    have hlen : (pre.length : Int) = n - f.start := by rw [h3]; simp [framesFrom]; omega
    rcases (mem_pictures.1 he).2 with ⟨hi, he⟩ | he | he | ⟨hp, hk, he⟩
    · exact Or.inl ⟨by have := of_decide_eq_true hi; omega, he⟩
    · exact Or.inr (Or.inl he)
    · exact Or.inr (Or.inr (Or.inl he))
    · refine Or.inr (Or.inr (Or.inr ⟨hp, ⟨h1, h2, ?_⟩, he⟩))
      rw [framesFrom_succ h1, ← h3]
      exact of_decide_eq_true hk
  · rintro ⟨n, h1, h2, he⟩
    have hsplit := framesFrom_append f.start f.count (i := (n - f.start).toNat) (by omega)
    have e1 : ((n - f.start).toNat : Int) = n - f.start := by omega
    have e2 : f.start + ((n - f.start).toNat : Int) = n := by omega
    rw [e2, e1] at hsplit
    have hlen : ((framesFrom f.start (n - f.start)).length : Int) = n - f.start := by simp [framesFrom]; omega
    refine ⟨_, n, _, hsplit, mem_pictures.2 ⟨hw, ?_⟩⟩
    rw [List.nil_append]
    rcases he with ⟨hi, he⟩ | he | he | ⟨hp, ⟨-, -, hk⟩, he⟩
    · exact Or.inl ⟨decide_eq_true (by omega), he⟩
    · exact Or.inr (Or.inl he)
    · exact Or.inr (Or.inr (Or.inl he))
    · refine Or.inr (Or.inr (Or.inr ⟨hp, ?_, he⟩))
      rw [framesFrom_succ h1] at hk
      exact decide_eq_true hk

theorem frame_path {a b : Path} {n m : Int} : a ++ [frameJpg n] = b ++ [frameJpg m] ↔ a = b ∧ n = m := by
  constructor
  · intro h
    have := List.append_inj' h rfl
    simpa [frameJpg] using this
  · rintro ⟨rfl, rfl⟩; rfl

/-- C132: with `write_files`, and three different directories for the pictures, there are afterwards for each frame of the run, and for no other one, the
picture with debug information and the picture of tracking; the pyramid of depths for each frame that became a keyframe, if wanted; and the interpolation
exactly if there were enough frames to initialize the system. Pictures with other numbers are left as they were. -/
theorem C132_pictures [Group G] {f : Flags} {wd : World G} (h : Ready f wd) {s0 : State G} (hc : create wd.set = .ok s0) (hw : f.writeFiles = true)
    (h1 : f.debugDir ≠ f.trackDir) (h2 : f.debugDir ≠ f.pyrDir) (h3 : f.trackDir ≠ f.pyrDir) (d : Disk G) :
    ∃ es st, main f wd = (es, .ok st) ∧
      (∀ n, (d.execAll es).files (f.debugJpg n) = if f.start ≤ n ∧ n < f.start + f.count then some [.debugPicture n] else d.files (f.debugJpg n)) ∧
      (∀ n, (d.execAll es).files (f.trackJpg n) = if f.start ≤ n ∧ n < f.start + f.count then some [.trackPicture n] else d.files (f.trackJpg n)) ∧
      (∀ n, (f.drawDepthPyramid = true ∧ IsKeyFrame f wd.set n → (d.execAll es).files (f.pyrJpg n) = some [.pyrPicture n]) ∧
        (¬ (f.drawDepthPyramid = true ∧ IsKeyFrame f wd.set n) → (d.execAll es).files (f.pyrJpg n) = d.files (f.pyrJpg n))) ∧
      (d.execAll es).files f.interpolationJpg =
        if ((policyOf wd.set).skip : Int) + 2 ≤ f.count then some [.interpolation] else d.files f.interpolationJpg := by
  obtain ⟨es, st, hm⟩ : ∃ es st, main f wd = (es, .ok st) := by
    obtain ⟨es, st, _, _, _, hm, -⟩ := C130_appended_partial h hc d (Or.inl hw)
    exact ⟨es, st, hm⟩
  have use : ∀ {q : Path} {nm : Name} {v : List (Item G)} (hq : q = [] ∨ q = f.debugDir ∨ q = f.trackDir ∨ q = f.pyrDir)
      (hn : nm = .str "interpolation.jpg" ∨ ∃ it, nm = frameJpg it)
      (hv : ∀ items, .put (f.outDir ++ q ++ [nm]) items ∈ (picsFrom f wd.set [] (frameNums f) : List (Effect G)) → items = v),
      (.put (f.outDir ++ q ++ [nm]) v ∈ picsFrom f wd.set [] (frameNums f) → (d.execAll es).files (f.outDir ++ q ++ [nm]) = some v) ∧
      (.put (f.outDir ++ q ++ [nm]) v ∉ picsFrom f wd.set [] (frameNums f) →
        (d.execAll es).files (f.outDir ++ q ++ [nm]) = d.files (f.outDir ++ q ++ [nm])) := by
    intro q nm v hq hn hv
    obtain ⟨es', st', hm', hh⟩ := main_picture h hc hw d hq hn hv
    rw [hm] at hm'
    cases hm'
    exact hh
  have a1 : ∀ {n m : Int} {items it : List (Item G)}, (Effect.put (f.debugJpg n) items = .put (f.debugJpg m) it ↔ n = m ∧ items = it) := by
    intro n m items it; simp [Flags.debugJpg, frameJpg]
  have a2 : ∀ {n m : Int} {items it : List (Item G)}, (Effect.put (f.trackJpg n) items = .put (f.trackJpg m) it ↔ n = m ∧ items = it) := by
    intro n m items it; simp [Flags.trackJpg, frameJpg]
  have a3 : ∀ {n m : Int} {items it : List (Item G)}, (Effect.put (f.pyrJpg n) items = .put (f.pyrJpg m) it ↔ n = m ∧ items = it) := by
    intro n m items it; simp [Flags.pyrJpg, frameJpg]
  have ne : ∀ {a b : Path} {n m : Int} {items it : List (Item G)}, a ≠ b → Effect.put (f.outDir ++ a ++ [frameJpg n]) items ≠ .put (f.outDir ++ b ++ [frameJpg m]) it := by
    intro a b n m items it hab h
    injection h with h _
    exact hab (List.append_cancel_left (frame_path.1 h).1)
  have ne2 : ∀ {a : Path} {n : Int} {items it : List (Item G)}, Effect.put (f.outDir ++ a ++ [frameJpg n]) items ≠ .put f.interpolationJpg it := by
    intro a n items it h
    injection h with h _
    exact append_ne_of_last (by simp [frameJpg]) h
  refine ⟨es, st, hm, ?_, ?_, ?_, ?_⟩
  · intro n
    have hk : ∀ items, Effect.put (f.debugJpg n) items ∈ (picsFrom f wd.set [] (frameNums f) : List (Effect G)) ↔
        (f.start ≤ n ∧ n < f.start + f.count) ∧ items = [.debugPicture n] := by
      intro items
      rw [mem_run_pictures hw]
      constructor
      · rintro ⟨m, b1, b2, ⟨-, he⟩ | he | he | ⟨-, -, he⟩⟩
        · exact absurd he ne2
        · obtain ⟨rfl, rfl⟩ := a1.1 he; exact ⟨⟨b1, b2⟩, rfl⟩
        · exact absurd he (ne h1)
        · exact absurd he (ne h2)
      · rintro ⟨⟨b1, b2⟩, rfl⟩
        exact ⟨n, b1, b2, Or.inr (Or.inl rfl)⟩
    have := use (q := f.debugDir) (nm := frameJpg n) (v := [.debugPicture n]) (by simp) (Or.inr ⟨n, rfl⟩) (fun items hi => ((hk items).1 hi).2)
    split
    · rename_i hr; exact this.1 ((hk _).2 ⟨hr, rfl⟩)
    · rename_i hr; exact this.2 fun hh => hr ((hk _).1 hh).1
  · intro n
    have hk : ∀ items, Effect.put (f.trackJpg n) items ∈ (picsFrom f wd.set [] (frameNums f) : List (Effect G)) ↔
        (f.start ≤ n ∧ n < f.start + f.count) ∧ items = [.trackPicture n] := by
      intro items
      rw [mem_run_pictures hw]
      constructor
      · rintro ⟨m, b1, b2, ⟨-, he⟩ | he | he | ⟨-, -, he⟩⟩
        · exact absurd he ne2
        · exact absurd he (ne h1.symm)
        · obtain ⟨rfl, rfl⟩ := a2.1 he; exact ⟨⟨b1, b2⟩, rfl⟩
        · exact absurd he (ne h3)
      · rintro ⟨⟨b1, b2⟩, rfl⟩
        exact ⟨n, b1, b2, Or.inr (Or.inr (Or.inl rfl))⟩
    have := use (q := f.trackDir) (nm := frameJpg n) (v := [.trackPicture n]) (by simp) (Or.inr ⟨n, rfl⟩) (fun items hi => ((hk items).1 hi).2)
    split
    · rename_i hr; exact this.1 ((hk _).2 ⟨hr, rfl⟩)
    · rename_i hr; exact this.2 fun hh => hr ((hk _).1 hh).1
  · intro n
    have hk : ∀ items, Effect.put (f.pyrJpg n) items ∈ (picsFrom f wd.set [] (frameNums f) : List (Effect G)) ↔
        (f.drawDepthPyramid = true ∧ IsKeyFrame f wd.set n) ∧ items = [.pyrPicture n] := by
      intro items
      rw [mem_run_pictures hw]
      constructor
      · rintro ⟨m, b1, b2, ⟨-, he⟩ | he | he | ⟨hp, hkf, he⟩⟩
        · exact absurd he ne2
        · exact absurd he (ne h2.symm)
        · exact absurd he (ne h3.symm)
        · obtain ⟨rfl, rfl⟩ := a3.1 he; exact ⟨⟨hp, hkf⟩, rfl⟩
      · rintro ⟨⟨hp, hkf⟩, rfl⟩
        exact ⟨n, hkf.1, hkf.2.1, Or.inr (Or.inr (Or.inr ⟨hp, hkf, rfl⟩))⟩
    have := use (q := f.pyrDir) (nm := frameJpg n) (v := [.pyrPicture n]) (by simp) (Or.inr ⟨n, rfl⟩) (fun items hi => ((hk items).1 hi).2)
    exact ⟨fun hr => this.1 ((hk _).2 ⟨hr, rfl⟩), fun hr => this.2 fun hh => hr ((hk _).1 hh).1⟩
  · have hk : ∀ items, Effect.put f.interpolationJpg items ∈ (picsFrom f wd.set [] (frameNums f) : List (Effect G)) ↔
        ((policyOf wd.set).skip : Int) + 2 ≤ f.count ∧ items = [.interpolation] := by
      intro items
      rw [mem_run_pictures hw]
      constructor
      · rintro ⟨m, b1, b2, ⟨hs, he⟩ | he | he | ⟨-, -, he⟩⟩
        · injection he with _ he
          exact ⟨by omega, he⟩
        · exact absurd he.symm ne2
        · exact absurd he.symm ne2
        · exact absurd he.symm ne2
      · rintro ⟨hs, rfl⟩
        exact ⟨f.start + f.count - 1, by omega, by omega, Or.inl ⟨by omega, rfl⟩⟩
    have := use (q := []) (nm := .str "interpolation.jpg") (v := [.interpolation]) (by simp) (Or.inl rfl)
      (fun items hi => ((hk items).1 (by simpa [Flags.interpolationJpg] using hi)).2)
    simp only [List.append_nil] at this
    split
    · rename_i hr; exact this.1 ((hk _).2 ⟨hr, rfl⟩)
    · rename_i hr; exact this.2 fun hh => hr ((hk _).1 hh).1

example := C132_pictures exReady exCreated rfl (by decide) (by decide) (by decide) exDisk

/-- In the example the frames three, five and seven become keyframes (the first one does before the system is initialized). -/
example : ((List.range 12).filter fun n : Nat => ((exDisk.execAll (main exFlags exWorld).1).files (exFlags.pyrJpg (n : Int))).isSome) = [3, 5, 7] := by
  decide +kernel

/-! ## C133 -/

/-- C133, the part that holds: without `write_files` no run, however it ends, touches files other than those of the poses, `args.txt`, and those in the
directory of the snapshot; in particular it writes no pictures. -/
theorem C133_untouched_partial [Group G] {f : Flags} (wd : World G) (hw : f.writeFiles = false) (d : Disk G) {p : Path} (h1 : p ∉ posePaths f)
    (h2 : p ≠ f.argsTxt) (h3 : ¬ f.snapshot <+: p) : (d.execAll (main f wd).1).files p = d.files p := by
  have hpic : ∀ e : Effect G, ¬ Picture f e := by
    rintro e ⟨_, _, _, he⟩
    have := (mem_pictures.1 he).1
    rw [hw] at this; cases this
  apply exec_untouched
  rcases main_shape f wd with ⟨es, _, h, hu⟩ | ⟨a, kfs, b, st', h, ha, hb⟩
  · rw [h]
    refine (prepare_untouched h2).append fun e he => ?_
    rcases hu e he with h | h | ⟨kfs, h⟩
    · exact h.ne h1
    · exact absurd h (hpic e)
    · exact snapshot_ne h h3
  · rw [h]
    refine (prepare_untouched h2).append (Untouched.append (fun e he => ?_) (Untouched.append (fun e he => snapshot_ne he h3)
      (Untouched.append (fun e he => (hb e he).ne h1) fun e he => ?_)))
    · rcases ha e he with h | h
      · exact h.ne h1
      · exact absurd h (hpic e)
    · simp only [List.mem_singleton] at he
      subst he
      refine ⟨by simp, by simp, by simp, fun it h => ?_⟩
      injection h with h _
      exact h2 h.symm

/-- C133 does not hold: without `write_files` every run that gets to its end still makes the directory for results and writes a snapshot into it. -/
theorem C133_snapshot_violated [Group G] {f : Flags} {wd : World G} {es : List (Effect G)} {st : St G} (hm : main f wd = (es, .ok st))
    (d : Disk G) :
    (d.execAll es).isDir f.outDir ∧ (d.execAll es).files (f.snapshot ++ [.str "depth_col.txt"]) = some [.depthColBounds] := by
  rcases main_shape f wd with ⟨_, _, h, _⟩ | ⟨a, kfs, b, st', h, ha, hb⟩
  · rw [hm] at h; cases h
  · rw [hm] at h
    cases h
    have hcat : prepare f ++ (a ++ (snapshotEffects f kfs ++ (b ++ [.closed f.argsTxt (f.args.map .arg)]))) =
        (prepare f ++ a) ++ (snapshotEffects f kfs ++ (b ++ [.closed f.argsTxt (f.args.map .arg)])) := by simp
    rw [hcat, execAll_append]
    obtain ⟨d1, hd1⟩ : ∃ d1, d1 = d.execAll (prepare f ++ a) := ⟨_, rfl⟩
    rw [← hd1]
    obtain ⟨mid, hmid⟩ : ∃ mid, snapshotEffects f kfs = .mkdirs f.snapshot :: (mid ++ [.put (f.snapshot ++ [.str "depth_col.txt"]) [.depthColBounds]]) := ⟨_, rfl⟩
    rw [hmid]
    have hsd : ∀ q, q <+: f.snapshot → (d1.exec (.mkdirs f.snapshot)).isDir q := fun q hq => mkdirs_isDir d1 _ hq
    constructor
    · show Disk.isDir (Disk.execAll (d1.exec (.mkdirs f.snapshot)) _) _
      exact execAll_isDir _ (hsd _ (List.prefix_append _ _))
    · have hne : f.snapshot ++ [Name.str "depth_col.txt"] ∉ posePaths f := by
        intro hp
        obtain ⟨s, hp, hs⟩ := posePaths_last hp
        refine append_ne_of_last ?_ hp
        rcases hs with rfl | rfl | rfl | rfl <;> simp
      have hu : Untouched (f.snapshot ++ [.str "depth_col.txt"]) (b ++ [(.closed f.argsTxt (f.args.map .arg) : Effect G)]) := by
        refine Untouched.append (fun e he => (hb e he).ne hne) fun e he => ?_
        simp only [List.mem_singleton] at he
        subst he
        refine ⟨by simp, by simp, by simp, fun it h => ?_⟩
        injection h with h _
        unfold Flags.argsTxt at h
        exact append_ne_of_last (by simp) h
      rw [execAll_append, exec_untouched _ hu]
      show (Disk.execAll (d1.exec (.mkdirs f.snapshot)) (mid ++ _)).files _ = _
      rw [execAll_append]
      obtain ⟨d2, hd2⟩ : ∃ d2, d2 = (d1.exec (.mkdirs f.snapshot)).execAll mid := ⟨_, rfl⟩
      have h2 : d2.isDir (f.snapshot ++ [Name.str "depth_col.txt"]).dropLast := by
        rw [hd2, List.dropLast_concat]
        exact execAll_isDir _ (hsd _ (List.prefix_refl _))
      rw [← hd2]
      show (d2.exec (.put (f.snapshot ++ [.str "depth_col.txt"]) [.depthColBounds])).files _ = _
      unfold Disk.exec
      dsimp only
      rw [if_pos h2]
      simp

/-- The example without `write_files`: no directory, no picture; then a snapshot with its two keyframes. -/
example : ((exDisk.execAll (main { exFlags with writeFiles := false } exWorld).1).files (exFlags.debugJpg 3)).isNone ∧
    ((exDisk.execAll (main { exFlags with writeFiles := false } exWorld).1).files (exFlags.snapshot ++ [.numbered "kf" 7 ""] ++ [.str "kf.txt"])).isSome := by
  decide +kernel

/-! ## C138 -/

/-- The file of a keyframe in the snapshot. -/
def kfPath (f : Flags) (n : Int) : Path := f.snapshot ++ [.numbered "kf" n ""] ++ [.str "kf.txt"]

/-- The file of a tracked frame in the snapshot. -/
def pkfPath (f : Flags) (n : Int) : Path := f.snapshot ++ [.numbered "pkf" n ".txt"]

/-- The files of one keyframe. -/
def kfBlock (f : Flags) (kf : KeyFrame G) : List (Effect G) :=
  [.mkdirs (f.snapshot ++ [.numbered "kf" kf.num ""]),
    .put (f.snapshot ++ [.numbered "kf" kf.num ""] ++ [.str "kf.txt"]) [.snapshotKeyFrame kf.num]] ++
  kf.trackedFrames.map fun t => .put (f.snapshot ++ [.numbered "pkf" t.num ".txt"]) [.snapshotFrame t.num]

theorem snapshotEffects_eq (f : Flags) (kfs : List (KeyFrame G)) :
    snapshotEffects f kfs = .mkdirs f.snapshot :: (kfs.flatMap (kfBlock f) ++ [.put (f.snapshot ++ [.str "depth_col.txt"]) [.depthColBounds]]) := rfl

theorem kfPath_inj {f : Flags} {a b : Int} (h : kfPath f a = kfPath f b) : a = b := by
  unfold kfPath at h
  simp only [List.append_assoc, List.cons_append, List.nil_append] at h
  simpa using List.append_cancel_left h

theorem pkfPath_inj {f : Flags} {a b : Int} (h : pkfPath f a = pkfPath f b) : a = b := by
  unfold pkfPath at h
  simpa using List.append_cancel_left h

theorem block_kf (f : Flags) (kf : KeyFrame G) (n : Int) (d : Disk G) :
    (d.execAll (kfBlock f kf)).files (kfPath f n) = if n = kf.num then some [.snapshotKeyFrame n] else d.files (kfPath f n) := by
  unfold kfBlock
  rw [execAll_append]
  have hu : Untouched (kfPath f n) (kf.trackedFrames.map fun t => (.put (f.snapshot ++ [.numbered "pkf" t.num ".txt"]) [.snapshotFrame t.num] : Effect G)) := by
    intro e he
    obtain ⟨t, -, rfl⟩ := List.mem_map.1 he
    refine ⟨fun it h => ?_, by simp, by simp, by simp⟩
    injection h with h _
    exact append_ne_of_last (by simp) h
  rw [exec_untouched _ hu]
  show ((d.exec (.mkdirs (f.snapshot ++ [.numbered "kf" kf.num ""]))).exec (.put (kfPath f kf.num) [.snapshotKeyFrame kf.num])).files (kfPath f n) = _
  have hd : (d.exec (.mkdirs (f.snapshot ++ [.numbered "kf" kf.num ""]))).isDir (kfPath f kf.num).dropLast := by
    unfold kfPath
    rw [List.dropLast_concat]
    exact mkdirs_isDir d _ (List.prefix_refl _)
  obtain ⟨d1, h1⟩ : ∃ d1, d1 = d.exec (.mkdirs (f.snapshot ++ [.numbered "kf" kf.num ""])) := ⟨_, rfl⟩
  have hf : d1.files = d.files := by rw [h1]; rfl
  rw [← h1] at hd ⊢
  unfold Disk.exec
  dsimp only
  rw [if_pos hd]
  dsimp only
  by_cases hn : n = kf.num
  · subst hn; rw [if_pos rfl]; simp
  · rw [if_neg hn, Function.update_of_ne (fun h => hn (kfPath_inj h)), hf]

theorem blocks_kf (f : Flags) (n : Int) : ∀ (kfs : List (KeyFrame G)) (d : Disk G),
    (d.execAll (kfs.flatMap (kfBlock f))).files (kfPath f n) = if n ∈ kfs.map (·.num) then some [.snapshotKeyFrame n] else d.files (kfPath f n)
  | [], d => by simp [Disk.execAll]
  | kf :: kfs, d => by
    rw [List.flatMap_cons, execAll_append, blocks_kf f n kfs, block_kf]
    by_cases h1 : n ∈ kfs.map (·.num)
    · rw [if_pos h1, if_pos (by simp only [List.map_cons, List.mem_cons]; exact Or.inr h1)]
    · rw [if_neg h1]
      by_cases h2 : n = kf.num
      · rw [if_pos h2, if_pos (by simp only [List.map_cons, List.mem_cons]; exact Or.inl h2)]
      · rw [if_neg h2, if_neg (by simp only [List.map_cons, List.mem_cons]; rintro (h | h); exacts [h2 h, h1 h])]

theorem blocks_pkf (f : Flags) (n : Int) (kfs : List (KeyFrame G)) (d : Disk G) (hd : d.isDir f.snapshot) :
    (d.execAll (kfs.flatMap (kfBlock f))).files (pkfPath f n) =
      if ∃ kf ∈ kfs, n ∈ kf.trackedFrames.map (·.num) then some [.snapshotFrame n] else d.files (pkfPath f n) := by
  have key : ∀ e ∈ kfs.flatMap (kfBlock f), (∃ q, e = .mkdirs q) ∨ (∃ m it, e = .put (kfPath f m) it) ∨
      ∃ kf ∈ kfs, ∃ t ∈ kf.trackedFrames, e = .put (pkfPath f t.num) [.snapshotFrame t.num] := by
    intro e he
    obtain ⟨kf, hk, he⟩ := List.mem_flatMap.1 he
    unfold kfBlock at he
    simp only [List.cons_append, List.nil_append, List.mem_cons, List.mem_map] at he
    rcases he with rfl | rfl | ⟨t, ht, rfl⟩
    · exact Or.inl ⟨_, rfl⟩
    · exact Or.inr (Or.inl ⟨_, _, rfl⟩)
    · exact Or.inr (Or.inr ⟨kf, hk, t, ht, rfl⟩)
  have hne : ∀ m, kfPath f m ≠ pkfPath f n := fun m => append_ne_of_last (by simp)
  have hq : OnlyPut (pkfPath f n) (kfs.flatMap (kfBlock f)) := by
    intro e he
    rcases key e he with ⟨q, rfl⟩ | ⟨m, it, rfl⟩ | ⟨kf, -, t, -, rfl⟩ <;> simp
  have hp : ∀ items, (.put (pkfPath f n) items : Effect G) ∈ kfs.flatMap (kfBlock f) →
      items = [.snapshotFrame n] ∧ ∃ kf ∈ kfs, n ∈ kf.trackedFrames.map (·.num) := by
    intro items he
    rcases key _ he with ⟨q, h⟩ | ⟨m, it, h⟩ | ⟨kf, hk, t, ht, h⟩
    · cases h
    · injection h with h _
      exact absurd h.symm (hne m)
    · injection h with h1 h2
      have := pkfPath_inj h1
      exact ⟨by rw [h2, this], kf, hk, List.mem_map.2 ⟨t, ht, this.symm⟩⟩
  rw [exec_put _ hq (by unfold pkfPath; rw [List.dropLast_concat]; exact hd)]
  have hl := lastPut_const (p := pkfPath f n) (v := [.snapshotFrame n]) (kfs.flatMap (kfBlock f)) (d.files (pkfPath f n)) fun it hi => (hp it hi).1
  by_cases hx : ∃ kf ∈ kfs, n ∈ kf.trackedFrames.map (·.num)
  · rw [if_pos hx]
    obtain ⟨kf, hk, hm⟩ := hx
    obtain ⟨t, ht, rfl⟩ := List.mem_map.1 hm
    refine hl.1 (List.mem_flatMap.2 ⟨kf, hk, ?_⟩)
    unfold kfBlock
    exact List.mem_append_right _ (List.mem_map.2 ⟨t, ht, rfl⟩)
  · rw [if_neg hx]
    exact hl.2 fun h => hx (hp _ h).2

/-- C138: after a full run the snapshot holds a file for each keyframe that is still in the window, and one for each frame tracked on such a
keyframe; every other file of a keyframe or a tracked frame in that directory is what it was before. Whatever was on the disk, and with or without
`write_files`. -/
theorem C138_snapshot_partial [Group G] {f : Flags} {wd : World G} (h : Ready f wd) {s0 : State G} (hc : create wd.set = .ok s0) (d : Disk G) :
    ∃ es st s rs, main f wd = (es, .ok st) ∧ run wd.set s0 (callsOf wd (framesFrom f.start f.count)) = .ok (s, rs) ∧
      ∀ n, ((d.execAll es).files (f.snapshot ++ [.numbered "kf" n ""] ++ [.str "kf.txt"]) =
          if n ∈ s.keyFrames.map (·.num) then some [.snapshotKeyFrame n]
          else d.files (f.snapshot ++ [.numbered "kf" n ""] ++ [.str "kf.txt"])) ∧
        ((d.execAll es).files (f.snapshot ++ [.numbered "pkf" n ".txt"]) =
          if ∃ kf ∈ s.keyFrames, n ∈ kf.trackedFrames.map (·.num) then some [.snapshotFrame n]
          else d.files (f.snapshot ++ [.numbered "pkf" n ".txt"])) := by
  obtain ⟨es, esd, st, st', rs, hm, hr, -, -, -, hesd, hes, -, -, -⟩ := main_ok h hc
  refine ⟨_, st', st.sys, rs, hm, by rw [← frameNums_eq]; exact hr, fun n => ?_⟩
  have before : ∀ p nm, nm ≠ .str "interpolation.jpg" → (∀ it, nm ≠ frameJpg it) → p ++ [nm] ∉ posePaths f → p ++ [nm] ≠ f.argsTxt →
      Untouched (p ++ [nm]) (prepare f ++ es) := by
    intro p nm h1 h2 h3 h4
    refine Untouched.append (prepare_untouched h4) fun e he => ?_
    rcases hes e he with h | h
    · exact h.ne h3
    · exact (picsFrom_picture h).ne h1 h2
  have after : ∀ p nm, nm ≠ .str "depth_col.txt" → p ++ [nm] ∉ posePaths f → p ++ [nm] ≠ f.argsTxt →
      Untouched (p ++ [nm]) ([.put (f.snapshot ++ [.str "depth_col.txt"]) [.depthColBounds]] ++ (esd ++ [(.closed f.argsTxt (f.args.map .arg) : Effect G)])) := by
    intro p nm h1 h3 h4
    refine Untouched.append ?_ (Untouched.append (fun e he => (hesd e he).ne h3) ?_)
    · intro e he
      simp only [List.mem_singleton] at he
      subst he
      refine ⟨fun it h => ?_, by simp, by simp, by simp⟩
      injection h with h _
      exact append_ne_of_last (Ne.symm h1) h
    · intro e he
      simp only [List.mem_singleton] at he
      subst he
      refine ⟨by simp, by simp, by simp, fun it h => ?_⟩
      injection h with h _
      exact h4 h.symm
  have hcat : prepare f ++ (es ++ (snapshotEffects f st.sys.keyFrames ++ (esd ++ [.closed f.argsTxt (f.args.map .arg)]))) =
      (prepare f ++ es) ++ ([.mkdirs f.snapshot] ++ (st.sys.keyFrames.flatMap (kfBlock f) ++
        ([.put (f.snapshot ++ [.str "depth_col.txt"]) [.depthColBounds]] ++ (esd ++ [.closed f.argsTxt (f.args.map .arg)])))) := by
    rw [snapshotEffects_eq]
    simp only [List.append_assoc, List.cons_append, List.nil_append]
  rw [hcat, execAll_append, execAll_append, execAll_append]
  obtain ⟨d1, hd1⟩ : ∃ d1, d1 = d.execAll (prepare f ++ es) := ⟨_, rfl⟩
  rw [← hd1]
  have hsd : (d1.execAll [.mkdirs f.snapshot]).isDir f.snapshot := mkdirs_isDir d1 _ (List.prefix_refl _)
  have hkpose : f.snapshot ++ [Name.numbered "kf" n ""] ++ [Name.str "kf.txt"] ∉ posePaths f := by
    intro hp
    obtain ⟨s, hp, hs⟩ := posePaths_last hp
    refine append_ne_of_last ?_ hp
    rcases hs with rfl | rfl | rfl | rfl <;> simp
  have hppose : f.snapshot ++ [Name.numbered "pkf" n ".txt"] ∉ posePaths f := by
    intro hp
    obtain ⟨s, hp, hs⟩ := posePaths_last hp
    exact append_ne_of_last (by simp) hp
  have hkargs : f.snapshot ++ [Name.numbered "kf" n ""] ++ [Name.str "kf.txt"] ≠ f.argsTxt := append_ne_of_last (by simp)
  have hpargs : f.snapshot ++ [Name.numbered "pkf" n ".txt"] ≠ f.argsTxt := append_ne_of_last (by simp)
  constructor
  · rw [exec_untouched _ (after _ _ (by simp) hkpose hkargs)]
    have := blocks_kf f n st.sys.keyFrames (d1.execAll [.mkdirs f.snapshot])
    unfold kfPath at this
    rw [this]
    have e : (d1.execAll [.mkdirs f.snapshot]).files = d1.files := rfl
    rw [e, hd1, exec_untouched _ (before _ _ (by simp) (by simp [frameJpg]) hkpose hkargs)]
  · rw [exec_untouched _ (after _ _ (by simp) hppose hpargs)]
    have := blocks_pkf f n st.sys.keyFrames (d1.execAll [.mkdirs f.snapshot]) hsd
    unfold pkfPath at this
    rw [this]
    have e : (d1.execAll [.mkdirs f.snapshot]).files = d1.files := rfl
    rw [e, hd1, exec_untouched _ (before _ _ (by simp) (by simp [frameJpg]) hppose hpargs)]

/-- Violation of C138: the file of a keyframe that an earlier run left in the directory is still there after the run, although no keyframe of this
run has that number; a snapshot loaded from the directory contains it (see C34). -/
theorem C138_stale_violated [Group G] {f : Flags} {wd : World G} (h : Ready f wd) {s0 : State G} (hc : create wd.set = .ok s0) (d : Disk G)
    {n : Int} (hn : n ∉ framesFrom f.start f.count) {old : List (Item G)}
    (hold : d.files (f.snapshot ++ [.numbered "kf" n ""] ++ [.str "kf.txt"]) = some old) :
    ∃ es st, main f wd = (es, .ok st) ∧
      (d.execAll es).files (f.snapshot ++ [.numbered "kf" n ""] ++ [.str "kf.txt"]) = some old := by
  obtain ⟨es, st, s, rs, hm, hr, hs⟩ := C138_snapshot_partial h hc d
  refine ⟨es, st, hm, ?_⟩
  rw [(hs n).1, if_neg, hold]
  intro hk
  have hl := calls_legal h
  obtain ⟨s', rs', hr', hi, -⟩ := run_create h.valid hc hl.1 (by simpa using hl.2)
  rw [hr] at hr'
  cases hr'
  obtain ⟨kf, hkf, rfl⟩ := List.mem_map.1 hk
  have hm' : kf.num ∈ framesOf (createdOf s) := by
    simp only [framesOf, List.mem_flatMap]
    exact ⟨kf, by simp [createdOf, hkf], by simp⟩
  rw [created_frames hi] at hm'
  have := mem_frames hm'
  rw [callsOf_num wd (by rw [← frameNums_eq]; exact h.readable')] at this
  exact hn this

example := C138_snapshot_partial exReady exCreated exDisk
example (d : Disk (Multiplicative Int)) := C138_stale_violated exReady exCreated
  { d with files := fun _ => some [] } (n := 40) (by decide) rfl

/-- After the run of seven frames the window holds the keyframes 5 and 7, and frame 6 was tracked on the first of them. -/
example : (List.range 10).map (fun n : Nat => ((exDisk.execAll (main exFlags exWorld).1).files (kfPath exFlags n)).isSome) =
      [false, false, false, false, false, true, false, true, false, false] ∧
    (List.range 10).map (fun n : Nat => ((exDisk.execAll (main exFlags exWorld).1).files (pkfPath exFlags n)).isSome) =
      [false, false, false, false, false, false, true, false, false, false] := by
  decide +kernel

end Mdso.GenPlyRun
