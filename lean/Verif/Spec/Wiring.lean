import Verif.Model.Wiring
import Verif.Model.Flags

/-!
# Which settings are for which part
-/

set_option autoImplicit false

namespace Mdso.Wiring

variable {D : Type}

/-- The part works with the settings `s`: each value it reads is the one of its name in `s`. -/
def Right (s : Settings D) : Part D → Prop
  | .cameras levels => levels = s.pyramid.levelNum
  | .selector p => p = s.pixelSelector
  | .initializer skip plain needed =>
    skip = s.delaunayDsoInitializer.firstFramesSkip ∧ plain = s.delaunayDsoInitializer.usePlainTriangulation ∧ needed = s.maxOptimizedPoints
  | .matcher points dist averaging =>
    points = s.stereoMatcher.keyPointNum ∧ dist = s.stereoMatcher.matchNonMoveDist ∧ averaging = s.stereoMatcher.estimator.runAveraging
  | .estimator e threads => e = s.stereoMatcher.estimator ∧ threads = s.threading.numThreads
  | .terrain t => t = s.triangulation
  | .frame _ levels => levels = s.pyramid.levelNum
  | .keyFrame _ points t =>
    points = s.keyFrame.pointsNum ∧ t.pointTracer = s.pointTracer ∧ t.intencity = s.intencity ∧ t.residualPattern = s.residualPattern ∧ t.pyramid = s.pyramid
  | .distanceMap m => m = s.distanceMap
  | .tracker levels depthLevels grad c light outlier threads =>
    levels = s.pyramid.levelNum ∧ depthLevels = s.pyramid.levelNum ∧ grad = s.frameTracker.useGradWeighting ∧ c = s.gradWeighting.c ∧ light = s.affineLight ∧
      outlier = s.intencity.outlierDiff ∧ threads = s.threading.numThreads
  | .adjuster iterations motion rotation pattern c outlier light threads depth =>
    iterations = s.bundleAdjuster.maxIterations ∧ motion = s.bundleAdjuster.fixedMotionOnFirstAdjustent ∧ rotation = s.bundleAdjuster.fixedRotationOnSecondKF ∧
      pattern = s.residualPattern ∧ c = s.gradWeighting.c ∧ outlier = s.intencity.outlierDiff ∧ light = s.affineLight ∧ threads = s.threading.numThreads ∧
      depth = s.depth ∧ s.bundleAdjuster.runBA = true

/-- The part is neither a frame nor a distance map. -/
def Ordinary : Part D → Prop
  | .frame _ _ => False
  | .distanceMap _ => False
  | _ => True

/-- Nested settings with the fields that flags describe taken from the flat record of `Verif.Model.Flags`. -/
def withFlagged (d : Settings D) (g : Flags.Settings D) : Settings D :=
  { d with
    threading := ⟨g.threading_numThreads⟩
    keyFrame := ⟨g.keyFrame_pointsNum⟩
    delaunayDsoInitializer := { d.delaunayDsoInitializer with firstFramesSkip := g.delaunayDsoInitializer_firstFramesSkip }
    stereoMatcher := { d.stereoMatcher with
      estimator := { d.stereoMatcher.estimator with
        runMaxRansacIter := g.stereoGeometryEstimator_runMaxRansacIter, runAveraging := g.stereoGeometryEstimator_runAveraging } }
    affineLight := { d.affineLight with optimizeAffineLight := g.affineLight_optimizeAffineLight }
    pointTracer := { d.pointTracer with
      performFullTracing := g.pointTracer_performFullTracing, useAltHWeighting := g.pointTracer_useAltHWeighting, gnIter := g.pointTracer_gnIter,
      positionVariance := g.pointTracer_positionVariance, imprFactor := g.pointTracer_imprFactor, optimizedStddev := g.pointTracer_optimizedStddev }
    trackFromLastKf := g.trackFromLastKf
    predictUsingScrew := g.predictUsingScrew
    frameTracker := ⟨g.frameTracker_trackFailFactor, g.frameTracker_useGradWeighting⟩
    bundleAdjuster := { d.bundleAdjuster with
      runBA := g.bundleAdjuster_runBA, fixedMotionOnFirstAdjustent := g.bundleAdjuster_fixedMotionOnFirstAdjustent }
    shiftBetweenKeyFrames := g.shiftBetweenKeyFrames }

/-- What the help texts of the flags say about a part. -/
def AsFlagged (f : Flags.Flags D) : Part D → Prop
  | .initializer skip _ _ => skip = f.first_frames_skip
  | .matcher _ _ averaging => averaging = f.average_ORB_motion
  | .estimator e threads => e.runMaxRansacIter = f.run_max_RANSAC_iterations ∧ threads = f.num_threads
  | .keyFrame _ points t =>
    points = f.points_per_frame ∧ t.pointTracer.performFullTracing = f.perform_full_tracing ∧ t.pointTracer.useAltHWeighting = f.use_alt_H_weighting ∧
      t.pointTracer.gnIter = f.tracing_GN_iter ∧ t.pointTracer.positionVariance = f.pos_variance ∧ t.pointTracer.optimizedStddev = f.optimized_stddev
  | .tracker _ _ grad _ light _ threads =>
    grad = f.use_grad_weights_on_tracking ∧ light.optimizeAffineLight = f.optimize_affine_light ∧ threads = f.num_threads
  | .adjuster _ motion _ _ _ _ light threads _ =>
    f.run_ba = true ∧ motion = f.fixed_motion_on_first_ba ∧ light.optimizeAffineLight = f.optimize_affine_light ∧ threads = f.num_threads
  | _ => True

end Mdso.Wiring
