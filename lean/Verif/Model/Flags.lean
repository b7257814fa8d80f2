/-!
# Model of `getFlaggedSettings`

Models `source/util/flags.cpp`. `double` values are kept abstract (`D`): they are only copied.
-/

set_option autoImplicit false

namespace Mdso.Flags

/-- The tuning flags (source/util/flags.cpp:5-73). The flag `deterministic` is not a setting: it is read
where it is used. -/
structure Flags (D : Type) where
  num_threads : Int
  points_per_frame : Int
  first_frames_skip : Int
  run_max_RANSAC_iterations : Bool
  average_ORB_motion : Bool
  optimize_affine_light : Bool
  perform_full_tracing : Bool
  use_alt_H_weighting : Bool
  tracing_GN_iter : Int
  pos_variance : D
  tracing_impr_factor : D
  track_from_last_kf : Bool
  predict_using_screw : Bool
  use_grad_weights_on_tracking : Bool
  track_fail_factor : D
  run_ba : Bool
  fixed_motion_on_first_ba : Bool
  optimized_stddev : D
  shift_between_keyframes : Int

/-- The fields of `Settings` that flags document (include/util/settings.h; nesting flattened). -/
structure Settings (D : Type) where
  threading_numThreads : Int
  keyFrame_pointsNum : Int
  delaunayDsoInitializer_firstFramesSkip : Int
  stereoGeometryEstimator_runMaxRansacIter : Bool
  stereoGeometryEstimator_runAveraging : Bool
  affineLight_optimizeAffineLight : Bool
  pointTracer_performFullTracing : Bool
  pointTracer_useAltHWeighting : Bool
  pointTracer_gnIter : Int
  pointTracer_positionVariance : D
  pointTracer_imprFactor : D
  trackFromLastKf : Bool
  predictUsingScrew : Bool
  frameTracker_useGradWeighting : Bool
  frameTracker_trackFailFactor : D
  bundleAdjuster_runBA : Bool
  bundleAdjuster_fixedMotionOnFirstAdjustent : Bool
  pointTracer_optimizedStddev : D
  shiftBetweenKeyFrames : Int

/-- `getFlaggedSettings` (source/util/flags.cpp:77-104), statement by statement; `defaults` is the
default-constructed `Settings`. -/
def getFlaggedSettings {D : Type} (defaults : Settings D) (f : Flags D) : Settings D :=
  let s := defaults
  let s := { s with threading_numThreads := f.num_threads }
  let s := { s with keyFrame_pointsNum := f.points_per_frame }
  let s := { s with delaunayDsoInitializer_firstFramesSkip := f.first_frames_skip }
  let s := { s with stereoGeometryEstimator_runMaxRansacIter := f.run_max_RANSAC_iterations }
  let s := { s with stereoGeometryEstimator_runAveraging := f.average_ORB_motion }
  let s := { s with bundleAdjuster_runBA := f.run_ba }
  let s := { s with affineLight_optimizeAffineLight := f.optimize_affine_light }
  let s := { s with pointTracer_performFullTracing := f.perform_full_tracing }
  let s := { s with pointTracer_useAltHWeighting := f.use_alt_H_weighting }
  let s := { s with pointTracer_gnIter := f.tracing_GN_iter }
  let s := { s with pointTracer_positionVariance := f.pos_variance }
  let s := { s with trackFromLastKf := f.track_from_last_kf }
  let s := { s with predictUsingScrew := f.predict_using_screw }
  let s := { s with frameTracker_useGradWeighting := f.use_grad_weights_on_tracking }
  let s := { s with frameTracker_trackFailFactor := f.track_fail_factor }
  let s := { s with bundleAdjuster_runBA := f.run_ba }
  let s := { s with bundleAdjuster_fixedMotionOnFirstAdjustent := f.fixed_motion_on_first_ba }
  let s := { s with pointTracer_optimizedStddev := f.optimized_stddev }
  { s with shiftBetweenKeyFrames := f.shift_between_keyframes }

end Mdso.Flags
