# Formal model of mdso (fishdso) in Lean 4

Source: `/repo` (C++), read as text; nothing is built or run. Lean project: `/verif/lean`.

## Layout

For every area `X`:

* `Verif/Model/X.lean` – the model: definitions only, each with a comment citing the file and
  lines it models and every simplification.
* `Verif/Spec/X.lean` – (where the property needs vocabulary of its own) a small specification that
  does not mention the model's helpers.
* `Verif/Lemmas/X.lean` – helper lemmas.
* `Verif/Props/X.lean` – the property theorems, named `Cnn_...`, with a non-vacuity `example`
  beside each. Where the code violates a property, `Cnn_..._violated` proves the negation with a
  witness and `Cnn_..._partial` proves the part that holds.

## Modelling conventions

* C++ `int`/`size_t` counters become `Int`/`Nat` unless a property is about overflow
  (`clp2` uses `BitVec 32`).
* Undefined behaviour is a distinct outcome (`none`, `.ub`), never assumed away. `CHECK` failures and
  exceptions are distinct outcomes too (`.abort`).
* Real geometry and photometry are modelled over `ℝ` (or an arbitrary linearly ordered
  field/type). Floating-point rounding is not modelled. NaN/infinity are modelled where a property
  is about them (`WithTop`, an explicit `Ext` type, or an abstract value type).
* External calls (Ceres solver, OpenCV, Sophus, ORB, random numbers, file system) are parameters; a
  theorem quantifies over every behaviour of the parameter unless a hypothesis states an assumption.
* `nth_element`, `sort` with ties and `shuffle` are modelled as *any* permutation allowed by the
  C++ standard: theorems quantify over all of them.

## Trusted base

* Lean 4.33.0's kernel. Axioms used: at most `propext`, `Classical.choice`, `Quot.sound` (checked with
  `#print axioms`). No `sorry`, no own axioms, no `native_decide`/`bv_decide`.
* The reading of the C++ source by the modeller: the code is not executed.
* Not modelled: floating-point rounding, threads (the code only hands a thread count to Ceres), OpenCV
  drawing/GUI, Ceres' internals, Sophus' internals (a group with the group laws), ORB features,
  performance, operating system failures other than those named.

### Coverage by file

What of each source file is modelled (by `lean/Verif/Model/X.lean`), and what is not.

| File in /repo | Model | Not modelled |
|---|---|---|
| source/system/DsoSystem.cpp | `DsoSystem`, `Session`, `Activation`, `BaseProjection`, `Motion`, `Resume`, `PointLife`, `TraceReport`, `TextOut` | logging other than the report on tracing; `recoverTrack` (never called) |
| source/system/FrameTracker.cpp | `FrameTracker` | Ceres' minimizer (any result, or one that satisfies a stated specification) |
| source/system/BundleAdjuster.cpp | `BundleAdjuster`, `AffineLight` | Ceres' minimizer (same) |
| source/system/ImmaturePoint.cpp | `ImmaturePoint`, `DiffMap`, `DrawTracing` | bicubic interpolation (a parameter); the windows of the debug mode (lines 412, 415-428) |
| source/system/KeyFrame.cpp, PreKeyFrame.cpp, internal/source/PreKeyFrameInternals.cpp | `DsoSystem`, `Session`, `Drawers`, `Pyramid`, `Frame`, `InitPicture` | colour conversion; bicubic interpolation (interpolators are given by the picture they read) |
| source/system/CameraModel.cpp, include/system/CameraModel.h | `CameraModel`, `CameraRect`, `DiffMap`, `DataSet` | Eigen's least-squares solver (a parameter with a specification); random sampling (any samples) |
| source/system/StereoGeometryEstimator.cpp | `StereoGeometry`, `Averaging` | five-point solver, SVD and Ceres (parameters with specifications) |
| source/system/StereoMatcher.cpp | `StereoMatcher` | ORB detection and brute-force matching (parameters) |
| source/system/DelaunayDsoInitializer.cpp | `Initializer`, `InitPicture`, `FirstFrames` | debug window |
| source/system/serialization.cpp, include/system/serialization.h | `Snapshot`, `Crash`, `Resume`, `NumberText` | characters of numbers: tokens carry values, `NumberText` shows that printing and reading them is exact |
| include/system/SphericalPlus.h, AffineLightTransform.h, OptimizedPoint.h | `SphericalPlus`, `AffineLight`, `BundleAdjuster`, `TextOut` | - |
| source/util/Triangulation.cpp | `Triangulation`, `TriDraw` | rasterisation of lines |
| source/util/SphericalTriangulation.cpp, SphericalTerrain.cpp, Terrain.cpp | `Terrain`, `TriDraw`, `FillUncovered`, `DensePictures`, `SectorCheck` | rasterisation; messages of the log |
| source/util/geometry.cpp | `Geometry`, `Geometry3` | - |
| source/util/PixelSelector.cpp, DistanceMap.cpp | `PixelSelector`, `DistanceMap` | - |
| source/util/ImagePyramid.cpp, DepthedImagePyramid.cpp | `Pyramid` | - |
| source/util/PlyHolder.cpp, Sim3Aligner.cpp, flags.cpp | `PlyHolder`, `Sim3Aligner`, `Flags` | - |
| include/util/settings.h, source/util/settings.cpp | `Wiring`, `Flags` | colours of the debug picture |
| source/util/util.cpp | `DepthColour`, `ColourFlags`, `DensePictures`, `Pyramid`, `PrintInPly`, `FileInDir`, `Drawers`, `Frame`, `TimeName` | OpenCV's colour conversion and rasterisation; the clock and the time zone |
| source/output/*.cpp | `CloudWriter`, `TrajectoryWriter`, `Drawers`, `DebugImage`, `InitPicture` | OpenCV's image encoder |
| samples/mfov/reader/MultiFovReader.cpp | `Reader`, `DataSet` | image decoding |
| samples/mfov/stat/stat_epipolar/main.cpp | `EpipolarStat`, `TextOut` | - |
| include/util/util.h (templates) | `TextOut`, `Pyramid` | - |
| samples/mfov/genply/main.cpp | `GenPly` | - |
| samples/selectpix/main.cpp | `SelectPix` | circles, window |
| samples/triang, test/ | - | demonstration program and unit tests |

## Plan per property

| Id | Model | Proof |
|----|-------|-------|
| C01–C03 | `PlyHolder` as a byte/char file with append and in-place overwrite at 36, counter | invariant over operation lists; a header parser as independent spec |
| C04 | `printInPly` over lists with explicit non-finite values; out-of-range colour read = UB | induction on lists |
| C05–C11 | `DsoSystem` frame machine: frame numbers, initializer, keyframe window, tracked frames, event log | invariants over operation lists |
| C12–C15 | `TrajectoryWriter`, `TrajectoryWriterGT` as consumers of the event log; conversion of infinity to `int` (UB) is a parameter | invariant relating pool, written lines and window; witnesses for the negations |
| C16 | `CloudWriter` on top of `PlyHolder` | induction over events |
| C17 | pose bookkeeping over an arbitrary group | invariant |
| C18 | prediction over an arbitrary group with one-parameter subgroups | algebra, witness |
| C19, C20 | `activateNewOptimizedPoints` on lists with swap-and-pop | permutation invariant over descending index lists |
| C21–C23 | `DistanceMap`: BFS queue on a grid, `clp2` on `BitVec 32`, `choose` for any `nth_element` result | BFS invariant; arithmetic |
| C24–C26 | `PixelSelector` | arithmetic of shares; block scan; witness for block size 0 |
| C27–C31 | `ImmaturePoint` trace machine with all photometric/geometry computations as parameters | case analysis, fold invariants |
| C32–C35 | token streams with a writer and a reader, snapshot directory as a finite map, resumed system | round trip by induction |
| C36, C37 | `AffineLightTransform` over ℝ | algebra, witnesses |
| C38–C41 | `CameraModel` over ℝ | algebra; polynomials of any degree by induction |
| C42, C43 | images as functions on ℕ×ℕ, integral images as sums | finite sums |
| C44–C47 | `geometry.cpp` over ℝ | `nlinarith`, polynomial identities |
| C48, C49 | `Triangulation` as a mesh of index-based records; geometric predicates are oracles | mesh invariant preserved by flip/divide; counting |
| C50, C51 | `StereoMatcher`, RANSAC loop with estimator/inlier oracles | loop invariants |
| C52 | `SphericalPlus` over ℝ³ | norm preservation |
| C53, C54, C59 | util functions | lists/arithmetic |
| C55 | flags to settings | record equalities |
| C56 | reader loop over tokens | induction |
| C57 | similarity alignment over a group | algebra |
| C58 | plane through three points over ℝ | linear algebra |
| C60 | initializer's filter/reselect loop | induction |
| C61 | `CloudWriterGT` fed with the events of the frame machine | invariant over events |
| C62 | `TrajectoryWriterGT` fed with the events of the frame machine | invariant over events, one alignment per life |
| C63 | `StereoMatcher::match` with `toVec2` taking an integer point | lists; parity |
| C64, C65 | `geometry.cpp` over ℝ | `nlinarith`, polynomial identities |
| C66–C69 | spatial part of `geometry.cpp` over ℝ; QR solves are exact for full rank, unmodelled otherwise | linear algebra, intermediate value theorem for the clipped arc |
| C70 | `PixelSelector` | blocks of one layer are disjoint; witness across layers |
| C71 | `CameraModel::undistort` | one pixel at a time, over the picture model of C42 |
| C72 | `CameraModel` from a file | token stream with failure bit and indeterminate members |
| C73 | `setMapPolyCoeffs` | sorted list of samples, adjacent check implies all pairs |
| C74–C78 | `ImmaturePoint` as for C27–C31; the search loops with fuel | loop invariants, a measure for the search, a worked example as witness |
| C79–C85 | `StereoGeometryEstimator` with the SVD, the five-point solver, the random samples and the averaging as parameters; RANSAC loop with fuel | loop invariant of RANSAC; algebra of essential matrices (the four decompositions, cheirality); a worked example as witness |
| C48, C49, C86–C88 | `Triangulation`: the pointer graph as maps over indices (edge ends, edge triangles, triangle corners and sides, incidence sets), predicates as parameters or exact geometry, walk with coins and fuel | invariant of the mesh through `divideTriangle`, `divideEdge`, `performFlip`; orientation and covering invariant through subdivision and flips; the walk follows the segment to the query point; rational witnesses evaluated by the kernel |
| C58, C89 | `Terrain`, `SphericalTriangulation::enclosingSector`, `SphericalTerrain` over the verified triangulation; Eigen's solver and QR as parameters with the equations they solve; the sectors as state changed by lookups | affine algebra in each triangle; uniqueness of the interpolation; tiling for determinism; induction over the history of lookups; rational witnesses |
| C60, C90 | `createKeyFrames` of the initializer: both branches, marking, erasing and selecting again, over the verified terrains; matcher, camera and pixel selector as parameters | induction over the passes, with the terrain as left by the lookups before; witnesses on the terrains of C58 |
| C91 | `projectOntoBaseKf` for all keyframes, joined with the initializer and the depth pyramid | induction over keyframes and points with the entries as one list; witnesses with a fisheye camera |
| C92–C96 | `FrameTracker` with the solver as a parameter; observers, all pixel reads, cameras and pyramids as modelled for C40, C42, C43 | induction over the levels and the pixels; the solver's contract as a structure; witnesses with a fisheye camera |
| C97–C102 | `BundleAdjuster` completely: the set of keyframes ordered by address, residual blocks, bounds, gauge (C52), marking of points; the solver is a parameter | the solver's contract as a structure; residual blocks = observations by induction over keyframes, points, pattern; median by counting in the sorted list; witnesses with a fisheye camera, for every solver |
| C103–C106 | histories of calls of the system with the tracker's observers and light transforms on top of the model of `DsoSystem`; `DebugImageDrawer`'s memory of frames | invariant over all lists of operations (observers, calls, light, base keyframe), the policy of C08; witnesses by computation |
| C107–C108 | `TrackingDebugImageDrawer`, `DepthPyramidDrawer`, `putSquare`, the polling in `genply` | the last item covering a pixel by induction over the drawn list, composed with C93; two-state induction over histories |
| C109–C110 | `stat_epipolar`: workers with local state over ranges, any interleaving frame by frame; selection and tracing are parameters | invariant of all interleavings, determinism of a worker's run; witness with two splits |
| C111–C113 | file names of `MultiFovReader` as lists of characters, `%04i`, buffers of 256 characters, camera from the first line, depths from the number stream; splitting at white space is a parameter | value of padded digits as left inverse; induction over extractions; C39 for the rays |
| C114–C117 | `readPointsInFrameGT` and `gen_gt_only` of genply: step, both loops with their counters, tables, poses, `printInPly` | loop counters = multiples of the step; induction over pixels and frames; C04, C112 reused |
| C118–C119 | `DebugImageDrawer::draw`: projection of both kinds of points, squares in order, `hconcat`, `vconcat`, shrinking | induction over the squares; C91 gives the points; pictures joined pixel by pixel |
| C120–C124 | drawing of `Triangulation` and `SphericalTriangulation` as the list of calls of `cv::line`; visiting order of the sets a parameter; rotations by the formula of Rodrigues | counting over the incidence sets of C48; bounds of floors; trigonometry; kernel evaluation of small triangulations for the witnesses |
| C125, C126 | `map` over dual numbers whose derivatives may be NaN; the real camera put into the epipolar search | invariant: a dual number is value and gradient of a function (`HasFDerivAt`); chain rule along the curve |
| C127, C128 | the residuals of the averaging and the problem handed to Ceres; Ceres as a parameter | projection onto a plane is the unique nearest point; induction over the inliers; a zero Huber cost forces zero residuals |
| C129 | the `lightWorldToThis` of all keyframes in a session | invariant over histories: every tracked keyframe holds the product with its base's transform; C36 |
| C130-C133 | `main` of genply as a sequence of effects on a disk (directories, files, open handles) up to its end or the first fault | invariant over frames ties the effects to the observers' histories; last-write and append lemmas for files; C12-C14 |
| C134 | the body of the loop of `stat_epipolar` | composition of rigid motions (`act_compose`, `act_inverse`) applied to the world point; record by record over the filtered list |
| C135–C137 | decimal printing with n digits, reading to the nearest double, over ℚ | half a unit of the last decimal digit is less than half a unit of the last bit |
| C138 | effects of `SnapshotSaver` in a run of genply | induction over the keyframes of the window |
| C139 | Similarity transforms of the world and affine changes of brightness acting on the keyframes (Spec/Symmetry); equality of the residual blocks, residuals, labels and of `adjust` by unfolding; the camera sees only directions (C38). |
| C140 | The loops of the projection, the depth pyramid and the tracker commute with a change of unit, by induction over points, levels and pixels; the solver is a parameter assumed to treat both problems alike. |
| C141 | Every step of tracing commutes with a change of unit; induction over the search loops, candidates and frames. |
| C142–C146 | `Frame`: gradients as the filters of OpenCV with replicated border, pyramid levels with interpolators, the patch of a point, keyframes over the verified selector | differences by cases at the border, same runs of the selector for the same gradients, induction over patterns, points and levels; witnesses by reading the last column |
| C147 | `Crash`: the operations of a save on files, one by one, with streams that reach the disk in part until they are closed; loading from such a disk | induction over the window and case analysis within a keyframe; readers decide locally, so a cut `kf.txt` cannot be read; with the invariant of C34 for the complete keyframes |
| C148 | the model of `Triangulation`; `Spec/Delaunay` | invariant of the legalization loop: all triangles but those across a queued edge are locally legal, the new ones form the star of the inserted vertex; the affine function of a circle decides local legality; a walk along a segment through the triangles makes local legality global, bounding vertices counting as infinitely far away |
| C149 | the same | every edge between a triangle of points and one of a bounding vertex has all points on one side (invariant of the insertion); a walk to a point of the hull never leaves through such an edge |
| C150 | the same | two empty circles whose triangles share an interior point have the same corners: the difference of their affine functions vanishes there |
| C151 | the models of `Terrain` and `Triangulation` | C149 and C150; the depth is an affine function fixed by its values at the corners |
| C152 | the model of `SphericalTriangulation` | stereographic projection turns the side of a circle (C148) into the side of a plane |
| C153 | the same | planes of two sectors bound the same direction from both sides, so the direction meets both flat triangles in the same point; the central projection from the pole maps it into both planar triangles, which do not overlap (C87) |
| C154 | the same | C150, C153; a ray meets a triangle once |
| C155 | the model of `createKeyFrames` | C151 and C154 for each point; in the spherical branch the terrains are changed by lookups, so an induction over the rounds carries the histories of both |
| C155 | the model of `createKeyFrames` | C151 and C154 for each point; in the spherical branch the terrains are changed by lookups, so an induction over the rounds carries the histories of both |
| C156 | `DensePictures`: the two painting loops with the conversion of colours to bytes | induction over the pixels; C151 says where a terrain reports a depth |
| C157 | `Sim3Aligner` and the ground truth pose file under a change of coordinates `recoord` | group laws of similarities; the file by its table of aligned poses and the numbers of its lines |
| C158 | `drawTracing` as the list of calls of `cv::line` (`DrawTracing`) | induction over the loop; candidates of a successful trace from C28 |
| C159 | `main` of `selectpix` over a listing, with the model of the selector (`SelectPix`) | induction over the sorted names; uniqueness of sorted permutations; C24, C26 for the selector |
| C160 | the walk as a finite automaton driven by coins; shares of coin sequences (`Spec/TriChance`) | recursion of the unfinished share over the last coin; a walk of as many rounds as edges ends with positive share (C88); product bound; induction over insertions |
| C161 | `insertDepths`, `InterpolationDrawer` and its call by the initializer (`InitPicture`) as lists of drawing calls | C60 for the depths, C53 for bounds and colours; recursion over points |
| C162 | `KeyFrame::drawDepthedFrame` (`InitPicture`) | recursion over the points; C60 for the points of initialization |
| C163 | `Terrain.enclosingSector` after any lookups | least element of a fold; the angles are those of C66 |
| C164 | `FillUncovered` | fold over the cells; C124 |
| C165 | `StereoGeometry.findCoarseMotion`, uniform drawings as functions from rounds to indices | counting; C51 and C116 give what a drawing returns; independence of rounds is a product of shares |
| C166 | `Initializer.createKeyFrames`, `newPointsNeeded` | number of points kept by induction over the lookups; floor of a quotient |
| C167 | `FirstFrames.fromMatches` = `StereoGeometry.matchGeometry` followed by `Initializer.createKeyFrames` | triangulation of exact rays (C69), geometry of the terrain (C60), rigid motions keep flat triangles |
| C168 | `Activation.activate`, `BundleAdjuster.adjust` | removing bad points commutes with every step; forgetting marks commutes with every step |
| C169 | `Model/PointLife` joins the frame machine with the activation of points: the window with candidates and optimized points through initialization, tracing, new keyframes, marginalization, activation and bundle adjustment. | invariant over runs; every stage is a relation between the keyframe before and after that keeps its places and extends its optimized points; budget from C20 |
| C170 | the activation of points on top of the distance map; `Spec/ActivationPlaces` says anew where good points are seen. | C19, C21 and C22 composed; the list of candidates is characterized by membership |
| C170 | the activation of points on top of the distance map; `Spec/ActivationPlaces` says anew where good points are seen. | C19, C21 and C22 composed; the list of candidates is characterized by membership |
| C171 | the system, both trajectory writers, the aligner and the prediction composed; `Spec/PerfectRun` says which results of the numerical parts are right. | invariant over the run: all stored and announced poses are true; C62, C157, C14 and C18 composed |
| C172 | the system of C05-C18 run twice, under two names; `Spec/Renumber` says what is renamed. | simulation relation between the two states, kept by every function of the frame machine and by the writer |
| C173 | the model of C169; `Spec/PointHistory` gives the estimates as folds over the frames of the history. | invariant over the calls: the points of each keyframe are explained by the history so far |
| C174 | `Model/ImmaturePoint` (`traceOn`); `Spec/Deviation` says which attempts are made and what deviation is expected. | case analysis of one attempt, induction over histories; witness for points of the initializer |
| C175 | `Model/PixelSelector`; no more needed. | arithmetic on the adapted block size |
| C176 | `Model/ImmaturePoint` (search and candidates), `Model/Geometry3` (triangulation); `Spec/SearchOrder` says where a point of a given depth is seen. | the depth seen in direction (1-a)·dirMax + a·dirMin is a weighted mean, falling in a; C69 for the triangulated depths |
| C177 | the settings, their groups and the parts made in the life of a system, each with the values of settings it reads | induction on the frames; equality of lives for settings that differ in unread fields |
| C178 | no new model: the stereo estimator of C51 and the averaging of C127 | the essential matrix of the inverse motion is the transposed one; every step of the search for the exchanged views is simulated by the step for the views, by induction on the iterations |
| C179 | no new model: tracing as for C08 and C141 | every residual is multiplied by the contrast, every energy by its square; the searches, the refinement and the checks compare quantities of the same unit, by induction on candidates and rounds. For flat pictures the second best energy is bounded by the threshold |
| C180 | no new model: pyramids of C42 and tracking of C92-C94 | the mean of four pixels, rounded down, grows by the constant; residual blocks of the brighter picture are the old ones with a shifted intensity, by induction on pixels and levels |
| C181 | no new model: snapshots of C32-C34 | the writers depend only on the members that loading restores; writing a file with its own contents leaves the directory, by induction on the keyframes; two ordered maps with the same keyframes are equal |
| C182 | TimeName: curTimeBrief and the output directory of genply as functions of the local time | decimal texts have bounded length and are injective, by induction on the number; the first member in which two times differ decides the order of the names |
| C183 | CameraRect: getRectByAngle on the cameras of C38-C41 | half the diagonal of the picture is at most the distance of the farthest corner, wherever the center is; truncation only shrinks the rectangle |
| C184 | Pyramid: the loop that writes points; BaseProjection | the last write into a pixel stays; for distinct pixels every cell is decided by membership, which permutations keep; the points of the newest keyframe are written last |
| C185 | SectorCheck: checkAllSectors with its static flag, drawDenseTriangle with the lookups that change the sectors | a list without repetitions has more than one member with a property exactly if two different ones have it; a second lookup in the same direction changes nothing; C153 for the axis |
| C186 | Frame, PixelSelector: newKeyFrame, selectPointsDenser, newPoint with its patch, select | all gradients are multiplied by the same number, so averages, maxima and comparisons with thresholds that follow are kept; patches by induction over the pattern, points over the selection |
| C187 | ColourFlags: validateDepthsPart, drawing with own bounds | a depth is completely red or blue exactly at or beyond the bounds (C53 for the colours), the bounds are quantiles (C53), and a list of different depths has a bound at most once |
| C188 | Terrain, Initializer (as C58, C59, C60) | projections and angles do not depend on lengths of rays, so meshes and sectors are the same with longer rays; the plane of longer rays is farther by the same factor; the barycentric coordinates of a pixel are unique; induction over lookups, points and rounds |
| C189 | DepthColour, ColourFlags, DensePictures, InitPicture | a colour is a function of ratios of differences of depths; sorting commutes with a change of the unit; induction over pixels, points and marks; C188 for the terrains |
| C190 | Triangulation, Terrain | each predicate is the sign of a homogeneous polynomial in differences of coordinates, or a comparison with a tolerance that is a multiple of the extent; the extent and the bounding triangle change with the coordinates; the mesh depends on the predicates only |
| C191 | CameraModel, DiffMap | the length of the first two coordinates, and so the angle and the radius, do not change; normalizing commutes with turning; derivatives are unique |
| C192 | ImmaturePoint, Geometry3 | a relation between the situation and the turned one; each step of the search commutes with turning, by induction over its loops; lengths, angles and scalar products do not change |
| C193 | ImmaturePoint | the relation of C192 with different turns of the two pictures; only the expected error sees the first picture in the coordinates of the second |
| C194 | DsoSystem | the loop that traces and counts over the tracing model; counts as numbers of outcomes, indices by C77 |
| C195 | util, AffineLightTransform, stat_epipolar | texts as lists of characters; a specification of reading by words; induction over the array |
| C196 | DsoSystem, ImmaturePoint | the loop of C194 iterated over frames; a simulation by C141 and C179 for each call |
| C197 | DsoSystem | the loop of C194; its success and its counts in closed form, each candidate separately |
| C198 | ImmaturePoint, serialization | `restore` and `traceOn` as in C27; a bisimulation of candidates that differ in output-only members |
| C199 | `resume`, `addFrame`, `predictBaseKfToCur` | the effect of a frame is a function of the window and the frame alone; two systems with the same window, the same last two frames and the same poses of these stay alike by induction over the frames added |

Every property is expressible in a model; none is declared not applicable at this point.

## Findings (code violates the stated property)

* C03: a stop *inside* `updatePointCount` (between the bytes of the count field) can leave a file that
  declares more points than it has (`C03_torn_update_overdeclares`). At call boundaries the property holds.
* C05: after a frame numbered `INT_MAX` the check itself overflows (`C05_int_max_ub`).
* C07: `shiftBetweenKeyFrames = 0` is a division by zero on the first tracked frame (`C07_zero_shift_ub`).
* C08: a window of one keyframe is undefined behaviour (`C08_window_one_ub`, `C08_window_one_lbo_ub`).
* C10: without `continueChoosingKeyFrames` every frame at a keyframe position is lost.
* C12: `TrajectoryWriter::destructed` compares frame numbers with `int(INF)`, where `INF` is the double
  infinity: the conversion is undefined. If it gives `INT_MIN` (x86-64), nothing of the final window is
  ever written (`C12_incomplete_violated`).
* C13: lines out of order with `maxKeyFrames = 2` when tracking from the last keyframe but one
  (`C13_unordered_violated`).
* C14: `TrajectoryWriterGT` writes keyframe by keyframe, `TrajectoryWriter` in frame order: the files
  disagree when tracking from the last keyframe but one (`C14_mismatch_violated`), and lack of the final
  window on x86-64 (`C14_int_min_violated`).
* C16: `CloudWriter`'s member `outputDirectory` is never set: per-keyframe clouds are opened as
  `/kf<n>.ply` in the root directory (`C16_output_directory_violated`).
* C18: on the first tracked frame after skipping frames at initialization, the prediction uses the
  identity for a frame whose pose was never estimated (`C18_unestimated_violated`).
* C36: `AffineLightTransform::operator*` and `inverse` are composition and inversion only for unit
  multipliers or vanishing offsets (`C36_compose_partial`, `C36_inverse_partial`, both equivalences;
  `C36_compose_violated`).
* C46: `doesABIntersectCD` misses crossings when the first segment does not run to the upper right, or when
  the second one sticks out of the first one's box (`C46_missed_violated`).
* C53: if both depth bounds coincide, `depthCol` divides zero by zero (`C53_equal_depths_violated`).
* C54: `drawLeveled` writes before the start of its lower row for every odd number of levels
  (`C54_odd_violated`).
* C55: the flag `tracing_impr_factor` is never copied into the settings (`C55_impr_factor_violated`).
* C56: `while (!eof)` appends a pose of indeterminate values for files ending with a newline
  (`C56_newline_violated`) and never ends on a malformed file (`C56_malformed_violated`).
* C57: with a baseline under 1 mm the aligner's scale stays uninitialised and is read later
  (`C57_static_ub`).
* C59: the root directory yields a doubled separator and the empty directory means the root
  (`C59_root_violated`).
* C61: destroying a system before initialization aborts with `CloudWriterGT` attached
  (`C61_destroyed_early_violated`).
* C63: `toVec2` takes a `cv::Point`, so key point coordinates are rounded to whole pixels before motion
  estimation (`C63_subpixel_violated`).
* C52: `SphericalPlus` computes its rotation axis from the absolute position, before subtracting the centre
  (SphericalPlus.h:48 vs. 51). When the first keyframe is not at the world origin a solver step can put the
  second keyframe exactly onto the first (`C52_distance_violated`), and one of the two directions may not
  move the point at all (`C52_lost_direction`). Which keyframe is "second" depends on addresses
  (`std::set` of pointers). A single keyframe is undefined behaviour, coinciding ones abort (`C52_outcome`).
* C67: `intersectOnSphere` reports "nothing in view" for arcs through the middle of the field of view
  (`C67_hidden_arc_violated`); if one end is out of view by less than 1e-4 rad and the other by more, the
  wrong end is replaced by a direction that is not on the arc (`C67_margin_violated`). Opposite directions
  abort (`C67_opposite_aborts`).
* C43: `pyrNUpDepth` drops cells whose total weight is 1e-8 or less (`C43_small_weight_violated`), and a point
  at x = width or y = height, which `CameraModel::isOnImage` accepts, is written outside the depth matrix
  (`C43_outside_ub`).
* C23: the map size is rounded down, so pixels in the last columns or rows of a picture whose size is not a
  multiple of the factor have no cell; a seed there is written out of range (`C23_inside_violated`).
* C22: `AlignedBox2i::contains` includes the upper corner, so a candidate at the right or lower edge makes
  `choose` read outside the map (`C22_edge_ub`), and truncation maps slightly negative coordinates to cell 0
  (`C22_outside_violated`).
* C20: with more optimized points than `maxOptimizedPoints` the negative difference is passed to `choose`, whose
  `nth_element` iterator then lies before the vector (`C20_overfull_ub`). `activateNewOptimizedPoints` builds the
  map with default limits: `settings.distanceMap` has no effect.
* C25: the shares of the coarser layers are rounded down and the finest layer is resized to the rest; when it has
  fewer points, `resize` pads it with `cv::Point(0, 0)` (`C25_filled_with_origin_violated`).
* C26: a selection that finds nothing sets the adapted block size of the next one to zero, and its loops then never
  advance (`C26_never_returns_violated`; assumes that `cv::sum` and `cv::minMaxLoc` return on an empty block).
* C70: the layers are not compared with each other, so a pixel that is strong on two of them is returned twice
  (`C70_same_pixel_twice_violated`).
* C41: `isOnImage` accepts points with `x = width - border`; with border 0 that is no pixel
  (`C41_edge_violated`). `projectOntoBaseKf` and `DepthedImagePyramid` combine this test with truncation.
* C72: reading a calibration file never checks the stream: missing numbers leave members uninitialised, an
  unreadable last coefficient silently becomes 0 (`C72_unreadable_accepted_violated`).
* C32: `PointSerializer` neither stores nor restores `OptimizedPoint::state`; a loaded point's state is
  indeterminate (`C32_optimized_state_violated`), although `projectOntoBaseKf` and the bundle adjuster test it.
* C34: `SnapshotSaver::save` removes nothing, `SnapshotLoader::load` loads every `kf*` directory: keyframes
  marginalized between two saves come back (`C34_stale_violated`).
* C35: the snapshot constructor registers tracked frames inside the loop over observers: none without
  observers, several times with more than one (`C35_no_observer_violated`, `C35_two_observers_violated`). When
  tracking from the keyframe before the last, the recorded numbers are out of order and `addFrame` accepts a
  known frame again (`C35_order_violated`). A snapshot taken right after initialization makes the constructor
  call `back()` on an empty vector (`C35_just_initialized_violated`).
* C29: `tracePrecise` divides by the sum of squared gradients along the search direction; on a flat patch the step is
  `0 / 0` and the next round evaluates the bicubic interpolator at NaN, whose conversion to `int` is undefined
  (`C29_flat_violated`).
* C30: `traceOn` passes full-resolution neighbours to `tracePrecise`, which evaluates them on the pyramid level of the
  best candidate, and then divides the result by the scale: on level 1 the position is doubled
  (`C30_level_violated`: a successful trace with a negative depth).
* C74, C75: the loop `for (int i = 0; i < 2; ++i)` in `pointsToTrace` runs the same search twice, so that all
  candidates are listed twice (`C75_twice_violated`). The second listing of the first candidate gets a triangulated
  instead of an infinite depth, and the depth bounds, taken at list positions around the best candidate, may wrap
  around to the other end of the curve (`C74_interval_violated`: lower bound 90 for a depth below 40).
* C78: with `pyramid.levelNum = 1` every candidate is on the level `PL - 1`, and every trace returns
  `TOO_COARSE_PYR_LEVEL` (`C78_single_level_violated`).
* Reloading a snapshot resets `numTraced` to 0 for successfully traced points without an upper depth bound
  (`source/system/ImmaturePoint.cpp:65-71`), so that they are not written to clouds.
* C83: `reprojectionError` leaves a ray unchanged if the squared length of its epipolar normal is at most `1e-4` (a
  length of `0.01`), so that its error is that of mapping the ray back, and the smaller error of the two views counts:
  a correspondence near the epipole is an inlier whatever its distance to the epipolar curve (`C83_epipole_violated`).
* C84: `depths()` caches its result, and `findPreciseMotion` does not clear the cache: called before it, `depths()`
  later returns the depths (and the number of them) of the coarse motion (`C84_stale_violated`).
* C85: with no correspondences (for instance all matches rejected as not moving) `findCoarseMotion` draws from the empty
  range `0 .. -1` (`C85_empty_violated`); if the minimal solver finds no matrix for the first sample, the essential
  matrix used afterwards was never initialised (`C85_no_matrix_violated`).
* C48: `isFlipNeeded` calls `isABCDConvex`, which accepts degenerate quadrangles, also those with two equal vertices. With
  a new point on the line through an old one and a corner of the bounding triangle (two points `(1,0)`, `(2,1)` suffice) a
  flip of degenerate triangles leads to `findThirdVert` on an edge whose triangle does not contain it: the program aborts
  (`C48_violated`). With a strict test the mesh is consistent whatever the other predicates return
  (`C48_any_predicates_partial`).
* C49: a point within the tolerance of an earlier one is not stored, but `indicesInv` still counts it. Afterwards
  `operator[]` returns the vertex of another point, or throws (`C49_violated`). If the merged point is not the last one of
  the shuffled order, the constructor reads behind the end of `_vertices` (`C49_constructor_violated`).
* C58: `SphericalTriangulation::enclosingSector` erases sectors from the map when a ray lies in more than one of them, as
  every ray on the common side of two sectors does. Later lookups in the erased sector find nothing
  (`C58_spherical_history_violated`): the depth reported in a direction depends on the queries made before.
* C58: `Terrain::operator()` at one of its own points on the hull may return false or the depth, depending on the random
  walk (`C58_plain_vertex_violated`).
* C89: `Terrain::hasInterpolatedDepth` dereferences the null pointer `enclosingTriangle` returns for points outside of the
  bounding triangle (`C89_violated`).
* C60: with `usePlainTriangulation` the initializer keeps points the terrain has no depth for, out of bounds and with a depth
  never set (`C60_plain_violated`). `projectOntoBaseKf` skips inactive points only in the base keyframe, so right after such an
  initialization it reads the depths that were never set of the other keyframe (`C91_depth_violated`).
* C60: in the spherical branch, if no selected point has a depth, `pointsTotal / pointsInTriang` is infinite or NaN and is
  converted to `int` (`C60_no_points_violated`); this is also evaluated after the last pass, where it is not used.
* C90: `createKeyFrames` sets `stddev = 1` and then, in the default branch, replaces all points by new ones with infinite
  `stddev` (`C90_violated`). A system resumed from a snapshot with these two keyframes gives all of them the weight 0
  (`C90_consequence`).
* C91: outliers and points out of bounds of all keyframes but the base one are used for tracking (`C91_state_violated`).
* C91: `isOnImage(p, 0)` accepts `p.x = width`, and `DepthedImagePyramid` then writes outside the picture
  (`C91_border_violated`).
* C95: `FrameTracker` reads `camPyr[1]` whatever the number of levels is: one level is undefined
  (`C95_one_level_violated`). `addFrame` builds the new `PreKeyFrame` without passing `settings.pyramid`, so frames always have
  six levels, and with seven or eight levels tracking reads outside its vector of pictures (`C95_seven_levels_violated`).
* C96: `gradNormAt` reads the four neighbours without a check; with `useGradWeighting` a depth at the border of any level is
  undefined (`C96_violated`).
* C98: bounds are set on finite depths only; a point with non-finite depth in a keyframe other than the marked one stays active
  (`C98_infinite_violated`).
* C99: `values[size/2] > outlierDiff` compares the signed residual: a point whose errors are all far below `-outlierDiff` stays active
  (`C99_sign_violated`); only the points of one keyframe are examined (`C99_other_violated`).
* C100: the "second" keyframe is the one with the lowest address in a `std::set` of pointers: for the same input one run marks a point
  as outlier and another does not (`C100_addresses_violated`).
* C101: `isOnImage(p, border)` includes `p.x = width - border`; the gradient is then read one column beyond the picture
  (`C101_border_violated`). With one keyframe `adjust` dereferences a null pointer (`C101_defined`).
* C103: with `continueChoosingKeyFrames = false` a frame at a distance from the newest keyframe that is a multiple of `shiftBetweenKeyFrames`
  is destroyed at the end of the call while `DebugImageDrawer` keeps its address (`C103_dropped_violated`).
* C104: `lightKfToLast` is not reset when a keyframe is added: the next frame starts from the relation to the previous base keyframe
  (`C104_new_keyframe_violated`).
* C105: right after a keyframe was added the drawer applies the motion found against the previous base keyframe to the points of the new one
  (`C105_after_keyframe_violated`).
* C106: in the constructor from a snapshot the parameter `observers` hides the member of the same name, so observers that register
  themselves while `created` is called are not given to the tracker and miss the frames up to the next keyframe (`C106_resumed_violated`).
* C109: `CollectDisparities` starts the random generator and the pixel selector afresh for every range that the scheduler chooses, so the
  file differs from run to run and between parallel and sequential runs (`C109_split_violated`).
* C110: the number of frames is the constant 2500; for data sets with fewer poses the table is read beyond its end (`C110_short_violated`:
  with default flags for fewer than 2454 entries). With an end before the start the program makes arrays without elements
  (`C110_empty_violated`).
* C111: names are printed into buffers of 256 characters without a check (`C111_long_violated`); an empty directory is undefined as well.
* C112: a depth file that ends early is accepted (`C112_short_violated`).
* C113: the coefficient of the first power is dropped without a check (`C113_linear_violated`); the matrix of a pinhole file is ignored
  (`C113_matrix_violated`); a line with too few numbers makes a camera of indeterminate values (`C113_short_violated`).
* C115: the grid has one point more per row and column if the step does not divide the size, so more points than asked for are made
  (`C115_budget_violated`).
* C116: the range of frames is not checked against the number of poses (`C116_beyond_violated`), and `--gt_points=0` divides by zero
  (`C116_zero_violated`).
* C119: before the first keyframe the debug picture is black and has the size of the camera, not the configured width (`C119_size_violated`); a video made
  of the pictures changes its size at the initialization.
* C120: `Triangulation::drawCurved` never inserts into `edgesDrawn`, so every edge is drawn exactly twice (`C120_curved_violated`).
* C121: `Triangulation::draw` divides the width by the height of the points and the height by their width, so that points wider than high leave the picture
  (`C121_outside_violated`); points on a horizontal or vertical line make it divide by zero (`C121_flat_violated`).
* C122: `Triangulation::draw` on a given picture truncates the position relative to the corner and the corner separately; lines may end one pixel off
  (`C122_pixel_violated`).
* C123: for opposite rays the axis of the rotation is zero and the curve stays at its first point (`C123_opposite_violated`).
* C124: `isInConvexDummy` tests triples of equal rays, too; Eigen solves the singular system with one coefficient, so that every direction within 90 degrees of
  a ray is reported as covered (`C124_hull_violated`).
* **C125/C126** `diffMap` returns NaN derivatives for rays exactly on the axis of the camera (`sqrt` of a dual number with value 0), where the projection may be differentiable. The epipolar search ends at such a position.
* **C127** The averaging gives error zero to matches close to an epipole, whatever their distance from the epipolar line; for a motion to the right the match (200, 0)–(0, 5) (focal length 1) is 5 pixels off and costs nothing.
* **C51** Of the essential matrices the minimal solver finds for one sample `findCoarseMotion` keeps the first with most essential inliers, before it looks at depths; a motion of the same sample that has more inliers in front of both views is missed.
* **C129** Because of C36 the brightness transform of the second keyframe made from a tracked frame is already wrong unless its base has unit multiplier (without bundle adjustment, which would overwrite it).
* **C130** genply appends to the trajectory files of an earlier run in the same directory; with `write_files=false` and no output directory the lines written before the final snapshot vanish without an error.
* **C131** If a frame cannot be read genply ends with an uncaught exception: the poses of all keyframes still in the window are lost, there is no snapshot, and `args.txt` is empty.
* **C133** `write_files=false` still writes pose files (into an existing directory), `args.txt` and, at the end, creates the directory and writes a snapshot.
* **C136** The depth colour bounds of a snapshot are written with six digits (1048577 comes back as 1048580); infinite bounds cannot be read back.
* **C137** Trajectory files and clouds have six significant digits: two poses half a millimeter apart a kilometer from the origin have the same line.
* **C138** Keyframe files of an earlier run stay in the snapshot directory of genply and are loaded with the new ones.
* **Limits in an arbitrary unit (C139_bounds_violated).** The bounds given to Ceres for depths (`depth.min`, `depth.max`) and light transforms are fixed numbers, but the unit of length and the common brightness of a monocular reconstruction are arbitrary: values allowed in one description of a scene are out of bounds in another one, though the photometric error is the same.
* C143/C144: `isOnImage` accepts `x <= width - border`, so a point exactly `height` (2 for the default pattern) away from the right or lower side is accepted and its patch reads column `width` (`C143_far_side_violated`); the selector returns such pixels (`C144_selected_violated`).
* C145: `ImmaturePoint(OptimizedPoint)` keeps only the depth, so deviations are lost (`C145_deviation_violated`); `activateAllImmature` on a keyframe that was never traced reads an indeterminate depth (`C145_untraced_violated`).
* C146: `PreKeyFrameInternals` has room for eight levels and does not check it (`C146_many_levels_violated`); for pictures smaller than `2^(levelNum-1)` Ceres' grid aborts (`C146_small_picture_violated`); the system makes its frames with six levels, so tracing with more configured levels aborts (`C146_tracing_violated`).
* C147: files are overwritten in place, one keyframe after the other, and `kf.txt` is emptied first and written last. A program killed during a save leaves a mixture of old and new keyframes that is loaded without an error (`C147_mixture_violated`), or only part of the window (`C147_missing_violated`), or a directory whose loading goes on with indeterminate counts because reads are not checked (`C147_lost_violated`).
* Spherical terrains (C153): if all rays leave the optical axis on one side (possible for a camera with a field of view above 180 degrees whose points are near the rim, or with few points), the circle of a sector can exceed a half of the sphere. Its three rays then span the wrong, smaller angle: the sector overlaps its neighbours, `enclosingSector` erases the overlapping sectors at the first lookup there, and directions in the middle of the field of view get no depth although points surround them.
* C157: whether ground truth can be aligned depends on the unit of the ground truth: a baseline is compared with 0.001 whatever the unit. Ground truth in a unit large enough leaves the aligner without a scale, and using it is undefined (`C157_small_unit_violated`).
* C158: `drawTracing` with one position reads the element before the first one (`C158_single_violated`); if all energies are equal, the colours are NaN (`C158_equal_violated`). Neither happens after a successful trace with the default thresholds (`C158_trace`).
* C159: `selectpix` checks whether an image could be read only after converting it to grey, which throws on an empty matrix (`C159_unreadable_violated`). A picture more than 1200 times as wide as high is resized to height 0, which throws, too (`C159_wide_violated`). A picture without gradient makes the program hang at the next one (`C159_flat_violated`, by C26).
* C161: with `usePlainTriangulation` the initializer does not tell its observers, so `InterpolationDrawer` has no picture (`C161_plain_violated`). If all points of the keyframe have one depth, their colours are 0/0 (`C161_equal_violated`).
* C162: `drawDepthedFrame` takes an unbounded depth interval for an unknown depth. The points of the initial keyframes have depths from the terrain and unbounded intervals; their picture shows none of them (`C162_initial_violated`).
* C162: after `setDepthColBounds` on equal depths the bounds are equal, `depthCol` divides 0 by 0, and `drawDepthedFrame` converts the result to bytes, which is undefined (`C162_equal_violated`).
* C164: `fillUncovered` fills the cells that ARE in the hull of the rays, the opposite of what its name says (`C164_covered_violated`, `C164_empty_violated`); the condition lacks a negation. Neighbouring cells overlap by one pixel.
* C165: `findCoarseMotion` draws the five indices with repetition; samples that repeat an index give no motion but are counted as rounds, and the formula for the number of rounds takes the share of inliers to the fifth power as if repetition were harmless. With few correspondences the success probability is missed (`C165_promise_violated`: five agreeing correspondences, 100 rounds, < 98.1% instead of 99.9%).
* C168: points marked `OUTLIER` or `OOB` are never removed from `optimizedPoints`. `activateNewOptimizedPoints` counts them against `maxOptimizedPoints` (`C168_budget_violated`: a budget full of outliers stops activation for good), and `BundleAdjuster::adjust` adds their residuals like those of any other point (`C168_adjust_violated`).
* **C174** The points of the stereo initializer get deviation 1 (DelaunayDsoInitializer.cpp:64-65) but count as never traced, so the test that the deviation does not grow (ImmaturePoint.cpp:235-237) is skipped at their first attempt: a point ready for activation can become unready (`C174_initialized_violated`).
* **C176** The search runs through all places twice (ImmaturePoint.cpp:119). For a point without upper depth bound only the very first candidate is treated as infinitely far (`dirInd == 0`, ImmaturePoint.cpp:265); at the second start the ray is parallel to the point's ray, and `triangulate` solves a singular system. If this candidate is the best one, the point gets that depth (`C176_start_again_violated`).
* C52: near the point opposite to the initial position `SphericalPlus` uses a fixed matrix that does not turn the tangent directions into ones at that point. With the first keyframe at the origin and the second at distance one, three steps at distance one and a fourth put the second keyframe onto the first (`C52_opposite_violated`).
* C177: frames are made with the default number of pyramid levels whatever the settings say (`C177_frames_violated`), distance maps with the default size (`C177_distance_map_violated`). The settings of the distance map and the camera model, `stereoMatcher.maxRansacIter` and `frameTracker.trackFailFactor` are read by no part (`C177_no_effect_violated`); so the flag `track_fail_factor` has no effect (`C177_flag_violated`).
* C179: the thresholds of tracing are absolute intensity differences. In pictures of little contrast (with the default settings: all intensities within 0.75 of 256 grey values) every attempt to trace a point fails, although the same pictures with more contrast are traced (`C179_flat`, `C179_contrast`).
* C182: two runs that start in the same second, or in the hour that local time repeats when clocks are set back, have the same output directory (C182_directory is an equivalence); the second run then overwrites or continues the files of the first (C130). An absolute dir_prefix replaces the directory `output`.
* C184: where points of several keyframes fall into one pixel, the depth pyramid keeps the one written last, not the nearest (source/util/DepthedImagePyramid.cpp:19-23). A point hidden behind another one can so replace it: a point of the base keyframe at distance 5 replaces a point of an older keyframe at distance 2 (`C184_nearest_violated`), and the order of the points decides (`C184_order_violated`).
* C185: `SphericalTerrain::drawDenseTriangle` looks up depths, and lookups remove sectors (C58). If the ray of a position of the grid is on the common side of two sectors, drawing a sector removes one of them, and directions in it have no depth any more (`C185_dense_violated`). `checkAllSectors` reports such directions as if the sectors overlapped.
* C192: the refinement on a coarser level of the pyramid uses positions of the full resolution (C30), so its result depends on where the center of the picture is and on how the camera is mounted about its axis. Everything else in tracing does not.
* C193: the expected error of a trace compares gradients of the first picture with the search direction in the second (`estVariance` is given `baseGradNorm` and a direction in the reference frame). If the camera is turned by 90 degrees about its axis between the pictures, a point whose depth is certain gets an infinite deviation and the interval of depths that belongs to it, and the reverse.
* C194: "Last traced on pyramid levels" in the log counts candidates that were never traced on the finest level, since the remembered level starts as 0 and the test for a missing level is `>= 0`.
* C195: `outputArray` does not check whether the file could be opened. `stat_epipolar` says "All done." although nothing was written, and a file from an earlier run stays as it was.
* C198: the loading constructor of `ImmaturePoint` takes `maxDepth != INF` for "was traced" (source/system/ImmaturePoint.cpp:65-71). A successful trace can leave `maxDepth` infinite (line 395), and `numTraced` is marked as output only but is read by `traceOn` (line 235). Such a candidate is no longer shown in clouds after resuming, and frames promising no improvement are no longer skipped.
* C199: in a system with `continueChoosingKeyFrames` off, a frame that would have become a keyframe is neither a keyframe nor a tracked frame. It is not in the snapshot, so the resumed system accepts its number again (`C199_lost_violated`) (source/system/DsoSystem.cpp:513-520).
