import Verif.Lemmas.Snapshot

/-!
# Properties of snapshots (C32, C33, C34)
-/

set_option autoImplicit false

namespace Mdso.Snap

open Mdso.SnapSpec

/-! ## Examples -/

def exPoint : Immature :=
  { p := (.fin 3, .fin 4), baseDirections := [(.fin 1, .fin 0, .fin 0), (.fin 0, .fin 1, .nan)]
    baseIntencities := [.fin 10, .fin 20], baseGrad := [(.fin 1, .fin 2), (.fin 3, .fin 4)]
    baseGradNorm := [(.fin 1, .nan), (.fin 3, .fin 4)], minDepth := .fin 0, maxDepth := .inf false
    depth := .nan, bestQuality := .fin (-1), lastEnergy := .inf false, stddev := .inf false
    state := .oob, lastTraced := false, numTraced := 0, tracedPyrLevel := 0 }

def exMotion (x : ℝ) : Motion := ⟨⟨0, 0, 0, 1, by norm_num⟩, (x, 0, 0)⟩

def exOptimized : Optimized := ⟨(.fin 1, .fin 2), .fin (-1), .fin 1, some .outlier⟩

/-- A keyframe with number `n` and the frame `n + 10` tracked from it. -/
def exKeyFrame (n : Int) : KeyFrame :=
  { preKeyFrame := ⟨exMotion 1, n, (.fin 0, .fin 0)⟩
    thisToWorld := exMotion 2
    lightWorldToThis := (.fin 0, .fin 1)
    immaturePoints := [exPoint]
    optimizedPoints := [exOptimized]
    trackedFrames := [⟨exMotion 3, n + 10, (.fin 1, .fin 1)⟩] }

theorem exPoint_sized : PatternSized 2 exPoint := ⟨rfl, rfl, rfl, rfl⟩

theorem exKeyFrame_regular (n : Int) : Regular 2 (exKeyFrame n) := by
  refine ⟨?_, by simp [exKeyFrame]⟩
  intro p hp
  simp [exKeyFrame] at hp
  subst hp
  exact exPoint_sized

theorem exOneBase (l : List Int) : OneBase (l.map exKeyFrame) := by
  intro a ha b hb f hf g hg e
  obtain ⟨n, -, rfl⟩ := List.mem_map.1 ha
  obtain ⟨m, -, rfl⟩ := List.mem_map.1 hb
  simp only [exKeyFrame, List.mem_singleton] at hf hg
  subst hf; subst hg
  simp only at e
  change n = m
  omega

/-! ## C32 -/

/-- **C32**, immature points: whatever their values, a stored point is read back the same, and exactly
its part of the file is consumed. -/
theorem C32_immature {ps : Nat} (h1 : 1 ≤ ps) {p : Immature} (h : PatternSized ps p) :
    ∃ ts, putImmature ps p = .ok ts ∧
      ∀ rest, ∃ q, getImmature ps (ts ++ rest) = .ok (q, rest) ∧ SameImmature p q := by
  obtain ⟨d, hd, e⟩ := putImmature_ok h1 h
  exact ⟨_, e, fun rest => ⟨_, getImmature_toks h hd rest, reloadImmature_same p⟩⟩

/-- C32 applies to a point with infinite and undefined values. -/
example : ∃ ts, putImmature 2 exPoint = .ok ts ∧
    ∀ rest, ∃ q, getImmature 2 (ts ++ rest) = .ok (q, rest) ∧ SameImmature exPoint q :=
  C32_immature (by norm_num) exPoint_sized

/-- **C32**, what the loading constructor makes of the tracing history: a point whose depth interval
is bounded counts as traced once, whatever was stored. -/
theorem C32_tracing_reset {ps : Nat} {ts rest : List Tok} {q : Immature}
    (h : getImmature ps ts = .ok (q, rest)) :
    q.tracedPyrLevel = 0 ∧ (q.lastTraced = true ↔ q.maxDepth ≠ .inf false) ∧
      q.numTraced = (if q.lastTraced then 1 else 0) := by
  have key : ∀ d : Dbl, ((!d.isInf) = true ↔ d ≠ .inf false) := by
    intro d
    cases d with
    | fin x => simp [Dbl.isInf]
    | inf b => cases b <;> simp [Dbl.isInf]
    | nan => simp [Dbl.isInf]
  unfold getImmature at h
  simp only [bind, StateT.bind, Except.bind, pure, StateT.pure, Except.pure] at h
  iterate 14 (split at h; · cases h)
  cases h
  refine ⟨rfl, key _, ?_⟩
  simp only
  cases Dbl.isInf _ <;> rfl

/-- **C32, partial.** A stored optimized point is read back with the same pixel, depth and deviation.
Missing: its state, see `C32_optimized_state_violated`. -/
theorem C32_optimized_partial (p : Optimized) (rest : List Tok) :
    ∃ q, getOptimized (putOptimized p ++ rest) = .ok (q, rest) ∧ SamePlace p q :=
  ⟨_, getOptimized_ok p rest, reloadOptimized_same p⟩

/-- **C32**, what a snapshot says of an optimized point: its pixel, a zero direction, the logarithm of
its depth, its deviation, and twice its depth, which is the exponential of that logarithm; a point at
infinity is stored with infinite depth and a point at the camera's centre with depth `0`. -/
theorem C32_optimized_stored (p : Optimized) :
    putOptimized p = [.num p.p.1, .num p.p.2, .num (.fin 0), .num (.fin 0), .num (.fin 0)] ++
      (match p.logInvDepth with
        | .fin l => [.num (.fin (-l)), .num p.stddev, .num (.fin (Real.exp (-l))),
            .num (.fin (Real.exp (-l)))]
        | .inf true => [.num (.inf false), .num p.stddev, .num (.inf false), .num (.inf false)]
        | .inf false => [.num (.inf true), .num p.stddev, .num (.fin 0), .num (.fin 0)]
        | .nan => [.num .nan, .num p.stddev, .num .nan, .num .nan]) := by
  obtain ⟨q, l, sd, st⟩ := p
  cases l with
  | inf b => cases b <;> rfl
  | _ => rfl

/-- **C32, violated.** The state of an optimized point is never restored: it is left uninitialised. -/
theorem C32_optimized_state_violated (p : Optimized) (s : PState) (hs : p.state = some s)
    (rest rest' : List Tok) (q : Optimized)
    (h : getOptimized (putOptimized p ++ rest) = .ok (q, rest')) :
    q.state = none ∧ ¬ SameOptimized p q := by
  rw [getOptimized_ok] at h
  cases h
  refine ⟨rfl, fun hc => ?_⟩
  have := hc.2
  rw [hs] at this
  cases this

/-- The hypotheses of `C32_optimized_state_violated` are met by an outlier. -/
example : ∃ q, getOptimized (putOptimized exOptimized ++ []) = .ok (q, []) ∧ q.state = none :=
  ⟨_, getOptimized_ok _ _, rfl⟩

/-! ## C33 -/

/-- **C33.** Storing a keyframe into any directory and loading it from there gives the same
keyframe. -/
theorem C33_keyframe {ps : Nat} (h1 : 1 ≤ ps) {kf : KeyFrame} (h : Regular ps kf) (d : Dir)
    (hd : (d.kf.map Prod.fst).Nodup) :
    ∃ d', storeKeyFrame ps d kf = .ok d' ∧
      ∃ f, (number kf, f) ∈ d'.kf ∧ (∀ g, (number kf, g) ∈ d'.kf → g = f) ∧
        ∃ k, loadKeyFrame ps d' f = .ok k ∧ Restored kf k := by
  obtain ⟨f, ef, hl⟩ := keyFrameFiles_ok h1 h
  refine ⟨⟨setKf (number kf) f d.kf, storeTracked d.pkf kf.trackedFrames⟩, ?_, f, ?_, ?_, reload kf,
    ?_, reload_restored kf⟩
  · unfold storeKeyFrame; rw [ef]; rfl
  · exact (setKf_mem _ _ _ hd _ _).2 (.inl ⟨rfl, rfl⟩)
  · intro g hg
    rcases (setKf_mem _ _ _ hd _ _).1 hg with h | h
    · exact h.2
    · exact absurd rfl h.1
  · exact hl _ (fun g hg => storeTracked_own _ _ h.2 g hg)

/-- C33 applies to a keyframe with points and a tracked frame. -/
example : ∃ d', storeKeyFrame 2 .empty (exKeyFrame 5) = .ok d' ∧
    ∃ f, (number (exKeyFrame 5), f) ∈ d'.kf ∧ (∀ g, (number (exKeyFrame 5), g) ∈ d'.kf → g = f) ∧
      ∃ k, loadKeyFrame 2 d' f = .ok k ∧ Restored (exKeyFrame 5) k :=
  C33_keyframe (by norm_num) (exKeyFrame_regular 5) .empty (by simp [Dir.empty])

/-! ## C34 -/

/-- A sequence of saves into one directory, oldest first. -/
noncomputable def saveAll (ps : Nat) (saves : List (List KeyFrame)) : Except Fault Dir :=
  saves.foldlM (save ps) .empty

theorem saveAll_eq (ps : Nat) (saves : List (List KeyFrame)) :
    saveAll ps saves = save ps .empty saves.flatten := by
  unfold saveAll
  generalize Dir.empty = d
  induction saves generalizing d with
  | nil => rfl
  | cons w ws ih =>
    rw [List.foldlM_cons, List.flatten_cons]
    unfold save
    rw [List.foldlM_append]
    congr 1
    funext d'
    exact ih d'

/-- **C34**, what loading gives after any history of saves, in whatever order the directory is listed:
the last saved version of every keyframe that was ever saved there, ordered by frame number. -/
theorem C34_history {ps : Nat} (h1 : 1 ≤ ps) (saves : List (List KeyFrame))
    (hr : ∀ kf ∈ saves.flatten, Regular ps kf) (ho : OneBase saves.flatten) :
    ∃ d, saveAll ps saves = .ok d ∧ ∀ order : List (Int × KfDir), order.Perm d.kf →
      ∃ m, load ps d order = .ok m ∧ m.Pairwise (fun a b => number a < number b) ∧
        (∀ kf, LastVersion saves.flatten kf → ∃ k ∈ m, Restored kf k) ∧
        (∀ k ∈ m, ∃ kf, LastVersion saves.flatten kf ∧ Restored kf k) := by
  obtain ⟨d, e, H⟩ := save_holds h1 saves.flatten hr ho
  refine ⟨d, by rw [saveAll_eq, e], ?_⟩
  intro order hp
  obtain ⟨m, em, hs, hm⟩ := load_holds h1 hr H hp
  refine ⟨m, em, hs, ?_, ?_⟩
  · intro kf hk
    exact ⟨reload kf, (hm _).2 ⟨kf, hk, rfl⟩, reload_restored kf⟩
  · intro k hk
    obtain ⟨kf, hl, rfl⟩ := (hm k).1 hk
    exact ⟨kf, hl, reload_restored kf⟩

theorem lastVersion_last {before last : List KeyFrame} (hn : (last.map number).Nodup)
    {kf : KeyFrame} (hk : kf ∈ last) : LastVersion (before ++ last) kf := by
  obtain ⟨b, a, rfl⟩ := List.append_of_mem hk
  refine ⟨before ++ b, a, by simp, ?_⟩
  intro k hk' e
  rw [List.map_append, List.map_cons] at hn
  have := (List.nodup_append.1 hn).2.1
  rw [List.nodup_cons] at this
  exact this.1 (by rw [← e]; exact List.mem_map_of_mem hk')

theorem lastVersion_of_number {before last : List KeyFrame} {kf : KeyFrame}
    (h : LastVersion (before ++ last) kf) (hk : number kf ∈ last.map number) : kf ∈ last := by
  induction last using List.reverseRecOn with
  | nil => simp at hk
  | append_singleton l x ih =>
    rw [← List.append_assoc] at h
    rcases (lastVersion_snoc _ _ _).1 h with rfl | ⟨h, hne⟩
    · simp
    · rw [List.map_append, List.mem_append] at hk
      rcases hk with hk | hk
      · simp [ih h hk]
      · simp at hk; exact absurd hk.symm hne

/-- **C34, partial.** If every keyframe saved earlier is also part of the last save (in particular if
the directory was new), loading gives exactly the keyframes of the last save.
Missing: windows from which keyframes have been removed, see `C34_stale_violated`. -/
theorem C34_last_save_partial {ps : Nat} (h1 : 1 ≤ ps) (earlier : List (List KeyFrame))
    (last : List KeyFrame) (hr : ∀ kf ∈ (earlier ++ [last]).flatten, Regular ps kf)
    (ho : OneBase (earlier ++ [last]).flatten) (hn : (last.map number).Nodup)
    (hsub : ∀ kf ∈ earlier.flatten, number kf ∈ last.map number) :
    ∃ d, saveAll ps (earlier ++ [last]) = .ok d ∧
      ∀ order : List (Int × KfDir), order.Perm d.kf →
      ∃ m, load ps d order = .ok m ∧ m.Pairwise (fun a b => number a < number b) ∧
        (∀ kf ∈ last, ∃ k ∈ m, Restored kf k) ∧ (∀ k ∈ m, ∃ kf ∈ last, Restored kf k) := by
  obtain ⟨d, e, h⟩ := C34_history h1 _ hr ho
  have hf : (earlier ++ [last]).flatten = earlier.flatten ++ last := by simp
  refine ⟨d, e, fun order hp => ?_⟩
  obtain ⟨m, em, hs, ha, hb⟩ := h order hp
  rw [hf] at ha hb
  refine ⟨m, em, hs, fun kf hk => ha kf (lastVersion_last hn hk), ?_⟩
  intro k hk
  obtain ⟨kf, hl, hres⟩ := hb k hk
  refine ⟨kf, lastVersion_of_number hl ?_, hres⟩
  rcases List.mem_append.1 (lastVersion_mem hl) with h' | h'
  · exact hsub kf h'
  · exact List.mem_map_of_mem h'

/-- C34 applies to a window that has grown from two to three keyframes. -/
example : ∃ d, saveAll 2 ([[1, 2].map exKeyFrame] ++ [[1, 2, 3].map exKeyFrame]) = .ok d ∧
    ∀ order : List (Int × KfDir), order.Perm d.kf →
    ∃ m, load 2 d order = .ok m ∧ m.Pairwise (fun a b => number a < number b) ∧
      (∀ kf ∈ [1, 2, 3].map exKeyFrame, ∃ k ∈ m, Restored kf k) ∧
      (∀ k ∈ m, ∃ kf ∈ [1, 2, 3].map exKeyFrame, Restored kf k) := by
  have hf : ([[1, 2].map exKeyFrame] ++ [[1, 2, 3].map exKeyFrame]).flatten =
      [1, 2, 1, 2, 3].map exKeyFrame := rfl
  refine C34_last_save_partial (by norm_num) _ _ ?_ (by rw [hf]; exact exOneBase _) ?_ ?_
  · rw [hf]
    intro kf hk
    obtain ⟨n, -, rfl⟩ := List.mem_map.1 hk
    exact exKeyFrame_regular n
  · simp [number, exKeyFrame]
  · intro kf hk
    simp at hk
    rcases hk with rfl | rfl <;> simp [number, exKeyFrame]

/-- **C34, violated.** A keyframe that was saved earlier and is no longer part of the window (it has
been marginalized) comes back when the directory is loaded, after any history of saves. -/
theorem C34_stale_violated {ps : Nat} (h1 : 1 ≤ ps) (earlier : List (List KeyFrame))
    (last : List KeyFrame) (hr : ∀ kf ∈ (earlier ++ [last]).flatten, Regular ps kf)
    (ho : OneBase (earlier ++ [last]).flatten)
    (old : KeyFrame) (hold : old ∈ earlier.flatten) (hgone : number old ∉ last.map number) :
    ∃ d, saveAll ps (earlier ++ [last]) = .ok d ∧
      ∀ order : List (Int × KfDir), order.Perm d.kf →
      ∃ m, load ps d order = .ok m ∧ ∃ k ∈ m, number k = number old ∧
        ∀ kf ∈ last, ¬ Restored kf k := by
  obtain ⟨d, e, h⟩ := C34_history h1 _ hr ho
  refine ⟨d, e, fun order hp => ?_⟩
  obtain ⟨m, em, hs, ha, hb⟩ := h order hp
  have hmem : old ∈ (earlier ++ [last]).flatten := by
    rw [List.flatten_append, List.mem_append]; exact .inl hold
  obtain ⟨v, hv, hvn⟩ := exists_lastVersion _ old hmem
  obtain ⟨k, hk, hres⟩ := ha v hv
  have hkn : number k = number old := by rw [← hvn]; unfold number; rw [hres.1]
  refine ⟨m, em, k, hk, hkn, ?_⟩
  intro kf hkf hr'
  refine hgone ?_
  rw [← hkn]
  have : number k = number kf := by unfold number; rw [hr'.1]
  rw [this]
  exact List.mem_map_of_mem hkf

/-- The hypotheses of `C34_stale_violated` are met by the window 1, 2 followed by the window 2, 3. -/
example : ∃ d, saveAll 2 ([[1, 2].map exKeyFrame] ++ [[2, 3].map exKeyFrame]) = .ok d ∧
    ∀ order : List (Int × KfDir), order.Perm d.kf →
    ∃ m, load 2 d order = .ok m ∧ ∃ k ∈ m, number k = number (exKeyFrame 1) ∧
      ∀ kf ∈ [2, 3].map exKeyFrame, ¬ Restored kf k := by
  have hf : ([[1, 2].map exKeyFrame] ++ [[2, 3].map exKeyFrame]).flatten =
      [1, 2, 2, 3].map exKeyFrame := rfl
  refine C34_stale_violated (by norm_num) _ _ ?_ (by rw [hf]; exact exOneBase _) (exKeyFrame 1) ?_ ?_
  · rw [hf]
    intro kf hk
    obtain ⟨n, -, rfl⟩ := List.mem_map.1 hk
    exact exKeyFrame_regular n
  · simp
  · simp [number, exKeyFrame]

end Mdso.Snap
