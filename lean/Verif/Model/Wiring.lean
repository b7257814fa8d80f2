/-!
# Model of the way of the settings to the parts of the system

Models `include/util/settings.h`, `source/util/settings.cpp` and, of the constructors of the parts of the system, which settings they are called with
(`source/system/DsoSystem.cpp`, `DelaunayDsoInitializer.cpp`, `StereoMatcher.cpp`, `KeyFrame.cpp`, `serialization.cpp`). `double` values are kept abstract (`D`): they
are only copied. What the parts compute is modelled elsewhere; here a part is given by the values of the settings it reads. At which frames the system is initialized and
makes keyframes is an input (it is modelled in `Verif.Model.DsoSystem`).
-/

set_option autoImplicit false

namespace Mdso.Wiring

/-- `Settings::CameraModel` (include/util/settings.h:20-26). -/
structure CameraModelS where
  mapPolyDegree : Int
  mapPolyPoints : Int

/-- `Settings::PixelSelector` (include/util/settings.h:28-43) without the colours of the debug picture. -/
structure PixelSelectorS (D : Type) where
  initialAdaptiveBlockSize : Int
  initialPointsFound : Int
  adaptToFactor : D
  gradThresholds : List D

/-- `Settings::DistanceMap` (include/util/settings.h:45-51). -/
structure DistanceMapS (D : Type) where
  maxWidth : D
  maxHeight : D

/-- `Settings::StereoMatcher::StereoGeometryEstimator` (include/util/settings.h:54-73). -/
structure EstimatorS (D : Type) where
  outlierReprojError : D
  successProb : D
  maxRansacIter : Int
  initialInliersCapacity : Int
  runAveraging : Bool
  runMaxRansacIter : Bool

/-- `Settings::StereoMatcher` (include/util/settings.h:53-84). -/
structure StereoMatcherS (D : Type) where
  estimator : EstimatorS D
  matchNonMoveDist : D
  keyPointNum : Int
  maxRansacIter : Int

/-- `Settings::Triangulation` (include/util/settings.h:86-95). -/
structure TriangulationS (D : Type) where
  epsPointIsOnSegment : D
  epsSamePoints : D
  drawPadding : D

/-- `Settings::DelaunayDsoInitializer` (include/util/settings.h:97-103). -/
structure InitializerS where
  firstFramesSkip : Int
  usePlainTriangulation : Bool

/-- `Settings::KeyFrame` (include/util/settings.h:105-108). -/
structure KeyFrameS where
  pointsNum : Int

/-- `Settings::PointTracer` (include/util/settings.h:110-146). -/
structure PointTracerS (D : Type) where
  onImageTestCount : Int
  maxSearchRel : D
  positionVariance : D
  minSecondBestDistance : D
  imprFactor : D
  outlierEnergyFactor : D
  secondBestEnergyThresFactor : D
  outlierQuality : D
  optimizedStddev : D
  gnIter : Int
  performFullTracing : Bool
  useAltHWeighting : Bool

/-- `Settings::FrameTracker` (include/util/settings.h:148-154). -/
structure FrameTrackerS (D : Type) where
  trackFailFactor : D
  useGradWeighting : Bool

/-- `Settings::BundleAdjuster` (include/util/settings.h:156-168). -/
structure BundleAdjusterS where
  maxIterations : Int
  fixedMotionOnFirstAdjustent : Bool
  fixedRotationOnSecondKF : Bool
  runBA : Bool

/-- `Settings::Pyramid` (include/util/settings.h:170-174). -/
structure PyramidS where
  levelNum : Int

/-- `Settings::AffineLight` (include/util/settings.h:176-191). -/
structure AffineLightS (D : Type) where
  minA : D
  maxA : D
  minB : D
  maxB : D
  optimizeAffineLight : Bool

/-- `Settings::Depth` (include/util/settings.h:193-199). -/
structure DepthS (D : Type) where
  min : D
  max : D

/-- `Settings::GradWeighting` (include/util/settings.h:201-204). -/
structure GradWeightingS (D : Type) where
  c : D

/-- `Settings::ResidualPattern` (include/util/settings.h:206-224). -/
structure ResidualPatternS (D : Type) where
  height : Int
  pattern : List (D × D)

/-- `Settings::Intencity` (include/util/settings.h:226-229). -/
structure IntencityS (D : Type) where
  outlierDiff : D

/-- `Settings::Threading` (include/util/settings.h:231-234). -/
structure ThreadingS where
  numThreads : Int

/-- `Settings` (include/util/settings.h:19-256). -/
structure Settings (D : Type) where
  cameraModel : CameraModelS
  pixelSelector : PixelSelectorS D
  distanceMap : DistanceMapS D
  stereoMatcher : StereoMatcherS D
  triangulation : TriangulationS D
  delaunayDsoInitializer : InitializerS
  keyFrame : KeyFrameS
  pointTracer : PointTracerS D
  frameTracker : FrameTrackerS D
  bundleAdjuster : BundleAdjusterS
  pyramid : PyramidS
  affineLight : AffineLightS D
  depth : DepthS D
  gradWeighting : GradWeightingS D
  residualPattern : ResidualPatternS D
  intencity : IntencityS D
  threading : ThreadingS
  maxOptimizedPoints : Int
  maxKeyFrames : Int
  trackFromLastKf : Bool
  predictUsingScrew : Bool
  continueChoosingKeyFrames : Bool
  initialMaxFrame : Int
  shiftBetweenKeyFrames : Int

/-- `PointTracerSettings` (include/util/settings.h:263-268). -/
structure PointTracerSettings (D : Type) where
  pointTracer : PointTracerS D
  intencity : IntencityS D
  residualPattern : ResidualPatternS D
  pyramid : PyramidS

/-- `InitializerSettings` (include/util/settings.h:270-277). -/
structure InitializerSettings (D : Type) where
  initializer : InitializerS
  stereoMatcher : StereoMatcherS D
  threading : ThreadingS
  triangulation : TriangulationS D
  keyFrame : KeyFrameS
  tracingSettings : PointTracerSettings D

/-- `FrameTrackerSettings` (include/util/settings.h:279-286). -/
structure FrameTrackerSettings (D : Type) where
  frameTracker : FrameTrackerS D
  pyramid : PyramidS
  affineLight : AffineLightS D
  intencity : IntencityS D
  gradWeighting : GradWeightingS D
  threading : ThreadingS

/-- `BundleAdjusterSettings` (include/util/settings.h:288-296). -/
structure BundleAdjusterSettings (D : Type) where
  bundleAdjuster : BundleAdjusterS
  residualPattern : ResidualPatternS D
  gradWeighting : GradWeightingS D
  intencity : IntencityS D
  affineLight : AffineLightS D
  threading : ThreadingS
  depth : DepthS D

variable {D : Type}

/-- `getPointTracerSettings` (source/util/settings.cpp:25-27). -/
def Settings.getPointTracerSettings (s : Settings D) : PointTracerSettings D :=
  ⟨s.pointTracer, s.intencity, s.residualPattern, s.pyramid⟩

/-- `getInitializerSettings` (source/util/settings.cpp:16-23). -/
def Settings.getInitializerSettings (s : Settings D) : InitializerSettings D :=
  ⟨s.delaunayDsoInitializer, s.stereoMatcher, s.threading, s.triangulation, s.keyFrame, ⟨s.pointTracer, s.intencity, s.residualPattern, s.pyramid⟩⟩

/-- `getFrameTrackerSettings` (source/util/settings.cpp:29-32). -/
def Settings.getFrameTrackerSettings (s : Settings D) : FrameTrackerSettings D :=
  ⟨s.frameTracker, s.pyramid, s.affineLight, s.intencity, s.gradWeighting, s.threading⟩

/-- `getBundleAdjusterSettings` (source/util/settings.cpp:34-37). -/
def Settings.getBundleAdjusterSettings (s : Settings D) : BundleAdjusterSettings D :=
  ⟨s.bundleAdjuster, s.residualPattern, s.gradWeighting, s.intencity, s.affineLight, s.threading, s.depth⟩

/-- A part of the system, given by the values of the settings it reads. -/
inductive Part (D : Type) where
  /-- The cameras of the pyramid levels. -/
  | cameras (levels : Int)
  | selector (s : PixelSelectorS D)
  /-- The initializer: frames skipped, kind of terrain, points wanted at the second selection. -/
  | initializer (skip : Int) (plain : Bool) (pointsNeeded : Int)
  /-- The stereo matcher: number of key points, distance of still matches, averaging. -/
  | matcher (keyPointNum : Int) (matchNonMoveDist : D) (averaging : Bool)
  | estimator (s : EstimatorS D) (threads : Int)
  | terrain (s : TriangulationS D)
  /-- A frame with the number of levels of its pyramid. -/
  | frame (num : Int) (levels : Int)
  /-- A keyframe with the number of pixels selected and the settings of its candidates. -/
  | keyFrame (num : Int) (points : Int) (tracing : PointTracerSettings D)
  | distanceMap (s : DistanceMapS D)
  /-- A tracker with the number of levels it goes through and the levels of the depths it is given. -/
  | tracker (levels depthLevels : Int) (useGradWeighting : Bool) (c : D) (light : AffineLightS D) (outlierDiff : D) (threads : Int)
  | adjuster (iterations : Int) (fixedMotion fixedRotation : Bool) (pattern : ResidualPatternS D) (c outlierDiff : D) (light : AffineLightS D) (threads : Int)
      (depth : DepthS D)

/-- `DelaunayDsoInitializer` (source/system/DelaunayDsoInitializer.cpp:11-25, 35, 71) and the `StereoMatcher` in it (source/system/StereoMatcher.cpp:11-20, 32, 73). -/
def newInitializer (pointsNeeded : Int) (i : InitializerSettings D) : List (Part D) :=
  [.initializer i.initializer.firstFramesSkip i.initializer.usePlainTriangulation pointsNeeded,
   .matcher i.stereoMatcher.keyPointNum i.stereoMatcher.matchNonMoveDist i.stereoMatcher.estimator.runAveraging]

/-- The constructor of a new system (source/system/DsoSystem.cpp:15-39). -/
def newSystem (s : Settings D) : List (Part D) :=
  [.cameras s.pyramid.levelNum, .selector s.pixelSelector] ++ newInitializer s.maxOptimizedPoints s.getInitializerSettings

/-- `KeyFrame` from a picture (source/system/KeyFrame.cpp:9-24): the frame is made with default-constructed settings (include/system/PreKeyFrame.h:22), `defaults`. -/
def keyFrameFromPicture (defaults : Settings D) (num : Int) (k : KeyFrameS) (t : PointTracerSettings D) : List (Part D) :=
  [.frame num defaults.pyramid.levelNum, .keyFrame num k.pointsNum t]

/-- `createKeyFrames` (source/system/DelaunayDsoInitializer.cpp:49-65, 71-75, 95-97) with `StereoMatcher::match` (source/system/StereoMatcher.cpp:69-70). -/
def createKeyFrames (defaults : Settings D) (i : InitializerSettings D) (n0 n1 : Int) : List (Part D) :=
  [.estimator i.stereoMatcher.estimator i.threading.numThreads] ++ keyFrameFromPicture defaults n0 i.keyFrame i.tracingSettings ++
    keyFrameFromPicture defaults n1 i.keyFrame i.tracingSettings ++ [.terrain i.triangulation, .terrain i.triangulation]

/-- A `FrameTracker` (source/system/FrameTracker.cpp:56-67, 86, 127-135, 165-188) and its `DepthedImagePyramid`, as made in source/system/DsoSystem.cpp:103-109,
427-433 and 549-566. -/
def newTracker (s : Settings D) : Part D :=
  let t := s.getFrameTrackerSettings
  .tracker t.pyramid.levelNum s.pyramid.levelNum t.frameTracker.useGradWeighting t.gradWeighting.c t.affineLight t.intencity.outlierDiff t.threading.numThreads

/-- The `BundleAdjuster` of a keyframe (source/system/DsoSystem.cpp:527-532, source/system/BundleAdjuster.cpp:14-18, 24, 114-161, 183-213, 239, 291). -/
def newAdjuster (s : Settings D) : List (Part D) :=
  if s.bundleAdjuster.runBA then
    let b := s.getBundleAdjusterSettings
    [.adjuster s.bundleAdjuster.maxIterations b.bundleAdjuster.fixedMotionOnFirstAdjustent b.bundleAdjuster.fixedRotationOnSecondKF b.residualPattern b.gradWeighting.c
      b.intencity.outlierDiff b.affineLight b.threading.numThreads b.depth]
  else []

/-- What is decided at a frame: whether the initializer has its second frame, and whether the frame is to become a keyframe. -/
structure Decision where
  num : Int
  secondFrame : Bool
  needKf : Bool

/-- What of the system's state matters here: the number of the first frame given to the initializer and whether the system is initialized. -/
structure State where
  first : Option Int
  initialized : Bool

/-- The parts made when a frame becomes a keyframe (source/system/DsoSystem.cpp:516-566); the distance map is made with default-constructed settings
(source/system/DsoSystem.cpp:309, include/util/DistanceMap.h:12). -/
def addKeyFrame (defaults s : Settings D) (num : Int) : List (Part D) :=
  [.keyFrame num s.keyFrame.pointsNum s.getPointTracerSettings, .distanceMap defaults.distanceMap] ++ newAdjuster s ++ [newTracker s]

/-- `addFrame` (source/system/DsoSystem.cpp:381-570): the parts made; a tracked frame is made with default-constructed settings (line 447). -/
def addFrame (defaults s : Settings D) (st : State) (x : Decision) : State × List (Part D) :=
  if st.initialized then
    (st, [.frame x.num defaults.pyramid.levelNum] ++ (if s.continueChoosingKeyFrames && x.needKf then addKeyFrame defaults s x.num else []))
  else
    match st.first with
    | none => (⟨some x.num, false⟩, [])
    | some n0 =>
      if x.secondFrame then (⟨some n0, true⟩, createKeyFrames defaults s.getInitializerSettings n0 x.num ++ [newTracker s])
      else (st, [])

/-- The parts made while frames are added. -/
def addFrames (defaults s : Settings D) (st : State) : List Decision → List (Part D)
  | [] => []
  | x :: xs => (addFrame defaults s st x).2 ++ addFrames defaults s (addFrame defaults s st x).1 xs

/-- All parts made in the life of a new system. -/
def life (defaults s : Settings D) (xs : List Decision) : List (Part D) :=
  newSystem s ++ addFrames defaults s ⟨none, false⟩ xs

/-- `SnapshotLoader::load` (source/system/serialization.cpp:99-100, 126-134, 170-184, 248-254) with the settings of the loader: the keyframes with their numbers and
the numbers of their tracked frames. -/
def loaded (l : Settings D) : List (Int × List Int) → List (Part D)
  | [] => []
  | k :: ks => [.frame k.1 l.getPointTracerSettings.pyramid.levelNum, .keyFrame k.1 l.keyFrame.pointsNum l.getPointTracerSettings] ++
      (k.2.map fun n => .frame n l.getPointTracerSettings.pyramid.levelNum) ++ loaded l ks

/-- All parts made in the life of a system that goes on from a snapshot (source/system/DsoSystem.cpp:40-110): it has no initializer. A loaded keyframe selects no pixels,
but keeps the settings. -/
def lifeResumed (defaults s l : Settings D) (kfs : List (Int × List Int)) (xs : List Decision) : List (Part D) :=
  [.cameras s.pyramid.levelNum, .selector s.pixelSelector] ++ loaded l kfs ++ [newTracker s] ++ addFrames defaults s ⟨none, true⟩ xs

end Mdso.Wiring
