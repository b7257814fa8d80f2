import Verif.Spec.Wiring

/-!
# C177: every part of the system works with the settings the system was made with

The claim is false of the code for the frames and for the distance map, which are made with default settings, and several settings are read by no part.
-/

set_option autoImplicit false

namespace Mdso.Wiring

variable {D : Type}

/-- Every part made while frames are added is right, or it is a frame or a distance map made with the default settings. -/
theorem addFrames_parts (d s : Settings D) (xs : List Decision) :
    ∀ st : State, ∀ p ∈ addFrames d s st xs,
      (Ordinary p ∧ Right s p) ∨ (∃ n, p = .frame n d.pyramid.levelNum) ∨ p = .distanceMap d.distanceMap := by
  have ht : Ordinary (newTracker s) ∧ Right s (newTracker s) := ⟨trivial, rfl, rfl, rfl, rfl, rfl, rfl, rfl⟩
  induction xs with
  | nil => intro st p hp; cases hp
  | cons x xs ih =>
    intro st p hp
    rw [addFrames, List.mem_append] at hp
    rcases hp with hp | hp
    · unfold addFrame at hp
      by_cases hi : st.initialized = true
      · rw [if_pos hi] at hp
        simp only [List.mem_append, List.mem_singleton] at hp
        rcases hp with rfl | hp
        · exact .inr (.inl ⟨_, rfl⟩)
        · by_cases hk : (s.continueChoosingKeyFrames && x.needKf) = true
          · rw [if_pos hk] at hp
            unfold addKeyFrame newAdjuster at hp
            by_cases hb : s.bundleAdjuster.runBA = true
            · rw [if_pos hb] at hp
              simp only [List.mem_append, List.mem_cons, List.not_mem_nil, or_false] at hp
              rcases hp with ((rfl | rfl) | rfl) | rfl
              · exact .inl ⟨trivial, rfl, rfl, rfl, rfl, rfl⟩
              · exact .inr (.inr rfl)
              · exact .inl ⟨trivial, rfl, rfl, rfl, rfl, rfl, rfl, rfl, rfl, rfl, hb⟩
              · exact .inl ht
            · rw [if_neg hb] at hp
              simp only [List.mem_append, List.mem_cons, List.not_mem_nil, or_false] at hp
              rcases hp with (rfl | rfl) | rfl
              · exact .inl ⟨trivial, rfl, rfl, rfl, rfl, rfl⟩
              · exact .inr (.inr rfl)
              · exact .inl ht
          · rw [if_neg hk] at hp; cases hp
      · rw [if_neg hi] at hp
        cases hf : st.first with
        | none => rw [hf] at hp; cases hp
        | some n0 =>
          rw [hf] at hp
          by_cases h2 : x.secondFrame = true
          · simp only [if_pos h2] at hp
            unfold createKeyFrames keyFrameFromPicture at hp
            simp only [List.mem_append, List.mem_cons, List.not_mem_nil, or_false] at hp
            rcases hp with ((((rfl | (rfl | rfl)) | (rfl | rfl)) | (rfl | rfl)) | rfl)
            · exact .inl ⟨trivial, rfl, rfl⟩
            · exact .inr (.inl ⟨_, rfl⟩)
            · exact .inl ⟨trivial, rfl, rfl, rfl, rfl, rfl⟩
            · exact .inr (.inl ⟨_, rfl⟩)
            · exact .inl ⟨trivial, rfl, rfl, rfl, rfl, rfl⟩
            · exact .inl ⟨trivial, rfl⟩
            · exact .inl ⟨trivial, rfl⟩
            · exact .inl ht
          · simp only [if_neg h2] at hp; cases hp
    · exact ih _ _ hp

/-- All parts of a new system. -/
theorem life_parts (d s : Settings D) (xs : List Decision) :
    ∀ p ∈ life d s xs, (Ordinary p ∧ Right s p) ∨ (∃ n, p = .frame n d.pyramid.levelNum) ∨ p = .distanceMap d.distanceMap := by
  intro p hp
  unfold life at hp
  rcases List.mem_append.1 hp with hp | hp
  · unfold newSystem newInitializer at hp
    simp only [List.mem_append, List.mem_cons, List.not_mem_nil, or_false] at hp
    rcases hp with (rfl | rfl) | (rfl | rfl)
    · exact .inl ⟨trivial, rfl⟩
    · exact .inl ⟨trivial, rfl⟩
    · exact .inl ⟨trivial, rfl, rfl, rfl⟩
    · exact .inl ⟨trivial, rfl, rfl, rfl⟩
  · exact addFrames_parts d s xs _ p hp

/-- **C177, partial.** Whatever settings a system is made with and whatever frames it is given, every part made in its life works with these settings, apart from the
frames and the distance maps. Missing: these, see `C177_frames_violated` and `C177_distance_map_violated`. -/
theorem C177_parts_partial (d s : Settings D) (xs : List Decision) : ∀ p ∈ life d s xs, Ordinary p → Right s p := by
  intro p hp ho
  rcases life_parts d s xs p hp with h | ⟨n, rfl⟩ | rfl
  · exact h.2
  · exact absurd ho id
  · exact absurd ho id

/-- **C177** holds without exception if the number of pyramid levels and the size of the distance map are the default ones. -/
theorem C177_defaults (d s : Settings D) (hl : s.pyramid = d.pyramid) (hm : s.distanceMap = d.distanceMap) (xs : List Decision) :
    ∀ p ∈ life d s xs, Right s p := by
  intro p hp
  rcases life_parts d s xs p hp with h | ⟨n, rfl⟩ | rfl
  · exact h.2
  · simp [Right, hl]
  · simp [Right, hm]

/-- The same for a system that goes on from a snapshot that is loaded with the same settings; the loaded frames have the right number of levels. -/
theorem C177_resumed_partial (d s : Settings D) (kfs : List (Int × List Int)) (xs : List Decision) :
    ∀ p ∈ lifeResumed d s s kfs xs,
      Right s p ∨ (∃ n, p = .frame n d.pyramid.levelNum) ∨ p = .distanceMap d.distanceMap := by
  have hl : ∀ kfs : List (Int × List Int), ∀ p ∈ loaded s kfs, Right s p := by
    intro kfs
    induction kfs with
    | nil => intro p hp; cases hp
    | cons k ks ih =>
      intro p hp
      unfold loaded at hp
      simp only [List.mem_append, List.mem_cons, List.mem_map, List.not_mem_nil, or_false] at hp
      rcases hp with ((rfl | rfl) | ⟨n, -, rfl⟩) | hp
      · rfl
      · exact ⟨rfl, rfl, rfl, rfl, rfl⟩
      · rfl
      · exact ih p hp
  intro p hp
  unfold lifeResumed at hp
  simp only [List.mem_append, List.mem_cons, List.not_mem_nil, or_false] at hp
  rcases hp with (((rfl | rfl) | hp) | rfl) | hp
  · exact .inl rfl
  · exact .inl rfl
  · exact .inl (hl kfs p hp)
  · exact .inl ⟨rfl, rfl, rfl, rfl, rfl, rfl, rfl⟩
  · rcases addFrames_parts d s xs _ p hp with h | h | h
    · exact .inl h.2
    · exact .inr (.inl h)
    · exact .inr (.inr h)

/-- **C177, flags.** In a run of a program that takes its settings from the flags, the parts are as the help texts of the flags say. Missing:
`tracing_impr_factor` (`C55_impr_factor_violated`) and `track_fail_factor` (`C177_flag_violated`). -/
theorem C177_flags_partial (d : Settings D) (g : Flags.Settings D) (f : Flags.Flags D) (xs : List Decision) :
    ∀ p ∈ life d (withFlagged d (Flags.getFlaggedSettings g f)) xs, AsFlagged f p := by
  intro p hp
  rcases life_parts d _ xs p hp with ⟨-, h⟩ | ⟨n, rfl⟩ | rfl
  · cases p with
    | cameras => trivial
    | selector => trivial
    | initializer => exact h.1
    | matcher => exact h.2.2
    | estimator e t => exact ⟨by rw [h.1]; rfl, h.2⟩
    | terrain => trivial
    | frame => trivial
    | keyFrame n k t =>
      obtain ⟨h1, h2, -⟩ := h
      exact ⟨h1, by rw [h2]; rfl, by rw [h2]; rfl, by rw [h2]; rfl, by rw [h2]; rfl, by rw [h2]; rfl⟩
    | distanceMap => trivial
    | tracker l dl gr c li o t =>
      obtain ⟨-, -, h3, -, h5, -, h7⟩ := h
      exact ⟨h3, by rw [h5]; rfl, h7⟩
    | adjuster it m r pt c o li t dp =>
      obtain ⟨-, h2, -, -, -, -, h7, h8, -, h10⟩ := h
      exact ⟨h10, h2, by rw [h7]; rfl, h8⟩
  · trivial
  · trivial

/-- Bundle adjustment is really set up when it is switched on: at every frame that becomes a keyframe of an initialized system there is a part for it. -/
theorem C177_adjusts (d s : Settings D) (st : State) (x : Decision) (hi : st.initialized = true) (hk : x.needKf = true) (hc : s.continueChoosingKeyFrames = true) :
    (∃ p ∈ (addFrame d s st x).2, ∃ i m r pt c o l t dp, p = .adjuster i m r pt c o l t dp) ↔ s.bundleAdjuster.runBA = true := by
  unfold addFrame addKeyFrame newAdjuster
  simp only [hi, if_true, hc, hk, Bool.and_self]
  by_cases hb : s.bundleAdjuster.runBA = true
  · rw [if_pos hb]
    exact ⟨fun _ => hb, fun _ => ⟨_, List.mem_append_right _ (List.mem_append_left _ (List.mem_append_right _ (List.mem_singleton.2 rfl))), _, _, _, _, _, _, _, _, _, rfl⟩⟩
  · simp [hb, newTracker]

/-- **C177, violated.** Every frame the system makes has the default number of pyramid levels. So with another number of levels in the settings, every system that has been
initialized has wrong frames: here the first two keyframes. -/
theorem C177_frames_violated (d s : Settings D) (h : s.pyramid.levelNum ≠ d.pyramid.levelNum) (n0 n1 : Int) (b0 b1 k0 k1 : Bool) (hb : b1 = true)
    (xs : List Decision) :
    (∀ n l, Part.frame n l ∈ life d s (⟨n0, b0, k0⟩ :: ⟨n1, b1, k1⟩ :: xs) → l = d.pyramid.levelNum) ∧
      ∃ l0 l1, Part.frame n0 l0 ∈ life d s (⟨n0, b0, k0⟩ :: ⟨n1, b1, k1⟩ :: xs) ∧ ¬ Right s (.frame n0 l0) ∧
        Part.frame n1 l1 ∈ life d s (⟨n0, b0, k0⟩ :: ⟨n1, b1, k1⟩ :: xs) ∧ ¬ Right s (.frame n1 l1) := by
  constructor
  · intro n l hl
    rcases life_parts d s _ _ hl with ⟨ho, -⟩ | ⟨m, e⟩ | e
    · exact absurd ho id
    · cases e; rfl
    · cases e
  · subst hb
    refine ⟨d.pyramid.levelNum, d.pyramid.levelNum, ?_, fun e => h e.symm, ?_, fun e => h e.symm⟩ <;>
      simp [life, addFrames, addFrame, createKeyFrames, keyFrameFromPicture]

/-- **C177, violated.** The settings of the distance map, of the camera model, the number of RANSAC iterations in the settings of the stereo matcher, the factor for failed
tracking, and the number of frames expected have no effect on any part of the system, whatever happens in its life. -/
theorem C177_no_effect_violated (d s : Settings D) (m : DistanceMapS D) (c : CameraModelS) (iter : Int) (factor : D) (frames : Int) (xs : List Decision) :
    life d { s with
      distanceMap := m, cameraModel := c, stereoMatcher := { s.stereoMatcher with maxRansacIter := iter },
      frameTracker := { s.frameTracker with trackFailFactor := factor }, initialMaxFrame := frames } xs = life d s xs := by
  obtain ⟨s', hs'⟩ : ∃ s' : Settings D, s' = { s with
      distanceMap := m, cameraModel := c, stereoMatcher := { s.stereoMatcher with maxRansacIter := iter },
      frameTracker := { s.frameTracker with trackFailFactor := factor }, initialMaxFrame := frames } := ⟨_, rfl⟩
  rw [← hs']
  have h1 : ∀ st x, addFrame d s' st x = addFrame d s st x := by
    intro st x
    subst hs'
    rfl
  have h2 : ∀ xs st, addFrames d s' st xs = addFrames d s st xs := by
    intro xs
    induction xs with
    | nil => intro st; rfl
    | cons x xs ih => intro st; rw [addFrames, addFrames, h1, ih]
  have h3 : newSystem s' = newSystem s := by subst hs'; rfl
  rw [life, life, h2, h3]

/-- **C177, violated.** So with another size of the distance map in the settings, every distance map the system makes is a wrong one. -/
theorem C177_distance_map_violated (d s : Settings D) (h : s.distanceMap ≠ d.distanceMap) (xs : List Decision) :
    ∀ m, Part.distanceMap m ∈ life d s xs → ¬ Right s (.distanceMap m) := by
  intro m hm hr
  rcases life_parts d s xs _ hm with ⟨ho, -⟩ | ⟨n, e⟩ | e
  · exact absurd ho id
  · cases e
  · cases e
    exact h hr.symm

/-- **C177, violated.** The flag `track_fail_factor` has no effect on any part of the system. -/
theorem C177_flag_violated (d : Settings D) (g : Flags.Settings D) (f : Flags.Flags D) (v : D) (xs : List Decision) :
    life d (withFlagged d (Flags.getFlaggedSettings g { f with track_fail_factor := v })) xs = life d (withFlagged d (Flags.getFlaggedSettings g f)) xs :=
  let s := withFlagged d (Flags.getFlaggedSettings g f)
  C177_no_effect_violated d s s.distanceMap s.cameraModel s.stereoMatcher.maxRansacIter v s.initialMaxFrame xs

/-! ## Non-vacuity -/

/-- The default settings (include/util/settings.h), real numbers in thousandths, tolerances as 0. -/
def exDefaults : Settings Int where
  cameraModel := ⟨10, 2000⟩
  pixelSelector := ⟨25, 1000, 1100, [20000, 8000, 5000]⟩
  distanceMap := ⟨480000, 302000⟩
  stereoMatcher := ⟨⟨1250, 999, 100000, 2000, true, false⟩, 8000, 2000, 100000⟩
  triangulation := ⟨0, 0, 100⟩
  delaunayDsoInitializer := ⟨15, false⟩
  keyFrame := ⟨2000⟩
  pointTracer := ⟨100, 27, 3200, 3000, 1000, 444, 4, 3000, 2400, 3, false, true⟩
  frameTracker := ⟨1500, false⟩
  bundleAdjuster := ⟨10, false, false, true⟩
  pyramid := ⟨6⟩
  affineLight := ⟨-95, 95, -25600, 25600, false⟩
  depth := ⟨1, 10000000⟩
  gradWeighting := ⟨50000⟩
  residualPattern := ⟨2, [(0, 0), (0, -2000), (-1000, -1000), (1000, -1000), (-2000, 0), (2000, 0), (-1000, 1000), (1000, 1000), (0, 2000)]⟩
  intencity := ⟨12000⟩
  threading := ⟨4⟩
  maxOptimizedPoints := 2000
  maxKeyFrames := 7
  trackFromLastKf := true
  predictUsingScrew := false
  continueChoosingKeyFrames := true
  initialMaxFrame := 2500
  shiftBetweenKeyFrames := 10

/-- Settings with four levels, a smaller distance map and one thread. -/
def exSettings : Settings Int := { exDefaults with pyramid := ⟨4⟩, distanceMap := ⟨240000, 151000⟩, threading := ⟨1⟩ }

/-- A life with three frames: two for the initialization and one that becomes a keyframe. -/
def exLife : List Decision := [⟨1, false, false⟩, ⟨17, true, false⟩, ⟨27, false, true⟩]

/-- In this life parts of all kinds are made: eight at the initialization, five at the third frame, beside the four of the constructor. -/
example : (life exDefaults exSettings exLife).length = 4 + 8 + 5 ∧ Part.estimator exDefaults.stereoMatcher.estimator 1 ∈ life exDefaults exSettings exLife ∧
    Part.keyFrame 27 2000 exSettings.getPointTracerSettings ∈ life exDefaults exSettings exLife ∧
    Part.distanceMap exDefaults.distanceMap ∈ life exDefaults exSettings exLife ∧
    Part.frame 27 6 ∈ life exDefaults exSettings exLife := by
  refine ⟨rfl, ?_, ?_, ?_, ?_⟩ <;>
    simp [life, exLife, addFrames, addFrame, addKeyFrame, createKeyFrames, keyFrameFromPicture, newSystem, newInitializer, exSettings, exDefaults,
      Settings.getInitializerSettings, Settings.getPointTracerSettings]

/-- The hypotheses of the violations are met by these settings. -/
example : exSettings.pyramid.levelNum ≠ exDefaults.pyramid.levelNum ∧ exSettings.distanceMap ≠ exDefaults.distanceMap := by
  refine ⟨by decide, ?_⟩
  intro h
  have := congrArg DistanceMapS.maxWidth h
  exact absurd this (by decide)

end Mdso.Wiring
