import Verif.Model.Flags

/-!
# C55: command-line flags reach the settings
-/

set_option autoImplicit false

namespace Mdso.Flags

variable {D : Type}

/-- The settings that the flags' help texts describe. -/
def documented (f : Flags D) : Settings D where
  threading_numThreads := f.num_threads
  keyFrame_pointsNum := f.points_per_frame
  delaunayDsoInitializer_firstFramesSkip := f.first_frames_skip
  stereoGeometryEstimator_runMaxRansacIter := f.run_max_RANSAC_iterations
  stereoGeometryEstimator_runAveraging := f.average_ORB_motion
  affineLight_optimizeAffineLight := f.optimize_affine_light
  pointTracer_performFullTracing := f.perform_full_tracing
  pointTracer_useAltHWeighting := f.use_alt_H_weighting
  pointTracer_gnIter := f.tracing_GN_iter
  pointTracer_positionVariance := f.pos_variance
  pointTracer_imprFactor := f.tracing_impr_factor
  trackFromLastKf := f.track_from_last_kf
  predictUsingScrew := f.predict_using_screw
  frameTracker_useGradWeighting := f.use_grad_weights_on_tracking
  frameTracker_trackFailFactor := f.track_fail_factor
  bundleAdjuster_runBA := f.run_ba
  bundleAdjuster_fixedMotionOnFirstAdjustent := f.fixed_motion_on_first_ba
  pointTracer_optimizedStddev := f.optimized_stddev
  shiftBetweenKeyFrames := f.shift_between_keyframes

/-- C55, the part that holds: for all flag values, all documented settings but the tracing improvement
factor get the value of their flag; the improvement factor keeps its default. -/
theorem C55_flags_partial (defaults : Settings D) (f : Flags D) :
    getFlaggedSettings defaults f =
      { documented f with pointTracer_imprFactor := defaults.pointTracer_imprFactor } := rfl

/-- C55 is violated for `tracing_impr_factor`: whatever value the user gives, the settings are the same. -/
theorem C55_impr_factor_violated (defaults : Settings D) (f : Flags D) (v : D) :
    getFlaggedSettings defaults { f with tracing_impr_factor := v } = getFlaggedSettings defaults f := rfl

/-- C55. So a requested factor other than the default is never what the settings say. -/
theorem C55_impr_factor_ignored (defaults : Settings D) (f : Flags D)
    (h : f.tracing_impr_factor ≠ defaults.pointTracer_imprFactor) :
    getFlaggedSettings defaults f ≠ documented f := by
  intro e
  have : (getFlaggedSettings defaults f).pointTracer_imprFactor = (documented f).pointTracer_imprFactor := by
    rw [e]
  exact h this.symm

/-- Some flags: defaults with the improvement factor set to 2. -/
def exFlags : Flags Nat :=
  ⟨4, 2000, 15, false, true, false, false, true, 3, 3, 2, true, false, false, 15, true, false, 24, 10⟩

example (defaults : Settings Nat) (h : defaults.pointTracer_imprFactor = 1) :
    getFlaggedSettings defaults exFlags ≠ documented exFlags :=
  C55_impr_factor_ignored _ _ (by rw [h]; decide)

end Mdso.Flags
