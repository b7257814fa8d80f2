{"id": "C01", "title": "PLY header count equals the number of vertex lines", "statement": "For every PlyHolder and every history of putPoints calls (any sizes, also mismatched point/colour vectors, also empty ones) that is followed by updatePointCount, the number written in the 'element vertex' header field equals the number of vertex lines following end_header, as long as the total stays below 10^19 and fits the int counter; each vertex line holds the given coordinates and the colour channels in R,G,B order.", "quantifier": "all histories of putPoints / updatePointCount calls and all points and colours", "why_tests_cant": "The file is the result of an unbounded sequence of appends and in-place header patches; a unit test tries one history.", "anchors": ["source/util/PlyHolder.cpp: PlyHolder, putPoints, updatePointCount", "include/util/PlyHolder.h"]}
{"id": "C02", "title": "PLY output is append-only apart from the 19-byte count field", "statement": "No call ever changes or removes an already written vertex line, and updatePointCount changes no byte outside the 19-byte count field of the header and never changes the file length.", "quantifier": "all histories of PlyHolder calls, every byte of the file", "why_tests_cant": "Holds for every interleaving of appends and header patches and for every digit count of the counter.", "anchors": ["source/util/PlyHolder.cpp: putPoints, updatePointCount"]}
{"id": "C03", "title": "A PLY file abandoned at any call boundary never declares points that are not there", "statement": "If the program stops after any prefix of a history of putPoints/updatePointCount calls, the declared count is the number of vertex lines present at the last updatePointCount (zero if none), hence at most the number of lines in the file.", "quantifier": "all histories and all crash points between calls", "why_tests_cant": "Crash points cannot be enumerated by tests.", "anchors": ["source/util/PlyHolder.cpp", "source/output/CloudWriter.cpp: keyFramesMarginalized"]}
{"id": "C04", "title": "printInPly writes exactly the finite points, each with its own colour, and declares their number", "statement": "For every list of points and colours with at least as many colours as points, the file declares exactly the number of points with three finite coordinates and lists these points in input order, each with the colour of the same index; with fewer colours than points the call reads out of bounds.", "quantifier": "all point and colour lists", "why_tests_cant": "The pairing of indices after filtering must hold for every placement of non-finite points.", "anchors": ["source/util/util.cpp: printInPly"]}
{"id": "C05", "title": "addFrame accepts exactly positive frame numbers larger than every earlier one", "statement": "On a freshly constructed DsoSystem, for every sequence of addFrame calls the process aborts at the first call whose frame number is not positive or not larger than every frame number passed before, and never aborts by this check otherwise.", "quantifier": "all sequences of addFrame calls", "why_tests_cant": "The check only compares with the last recorded number; that this is the same as comparing with all needs an invariant over histories.", "anchors": ["source/system/DsoSystem.cpp: addFrame, adjustWorldToFrameSizes"]}
{"id": "C06", "title": "Initialization happens at exactly one frame and uses the first and that frame", "statement": "With the Delaunay initializer and firstFramesSkip = k, addFrame returns null for the first k+1 accepted frames and non-null for every later one; observers get 'initialized' exactly once, at the (k+2)-nd frame, with exactly two keyframes whose numbers are those of the first and of the (k+2)-nd frame.", "quantifier": "all k and all sequences of frames", "why_tests_cant": "Ranges over every k and every history length.", "anchors": ["source/system/DelaunayDsoInitializer.cpp: addFrame", "source/system/DsoSystem.cpp: addFrame"]}
{"id": "C07", "title": "A tracked frame becomes a keyframe exactly at multiples of shiftBetweenKeyFrames from the newest keyframe", "statement": "After initialization a frame becomes a keyframe if and only if continueChoosingKeyFrames is set and its number differs from the newest keyframe's number by a positive multiple of shiftBetweenKeyFrames; hence keyframe numbers are strictly increasing and any two keyframes created after initialization differ by a multiple of it. shiftBetweenKeyFrames = 0 is a division by zero on the first tracked frame.", "quantifier": "all settings and all frame histories, also with gaps in frame numbers", "why_tests_cant": "Frame numbers with gaps give unboundedly many schedules.", "anchors": ["source/system/DsoSystem.cpp: doNeedKf, addFrame"]}
{"id": "C08", "title": "The keyframe window is bounded and holds the newest keyframes", "statement": "With maxKeyFrames = m >= 2, after every addFrame the system holds at most m keyframes, and they are the most recent ones ever created, in order.", "quantifier": "all m >= 2 and all frame histories", "why_tests_cant": "Invariant over unbounded histories.", "anchors": ["source/system/DsoSystem.cpp: marginalizeFrames, addFrame"]}
{"id": "C09", "title": "Every keyframe is handed to observers for output exactly once, oldest first", "statement": "Over the whole life of a system, the keyframes passed to keyFramesMarginalized (in call order) followed by the keyframes passed to destructed is exactly the list of all keyframes ever created, in creation order, each once.", "quantifier": "all settings and all frame histories, destruction at any time", "why_tests_cant": "Destruction may happen after any prefix of any history.", "anchors": ["source/system/DsoSystem.cpp: marginalizeFrames, ~DsoSystem"]}
{"id": "C10", "title": "No tracked frame is lost or duplicated", "statement": "If continueChoosingKeyFrames is set, then at any time every frame accepted since initialization (and the two initial keyframes) is either a keyframe or a tracked frame of exactly one keyframe, live or already marginalized; frames skipped by the initializer appear nowhere. Without continueChoosingKeyFrames a frame at a keyframe position is dropped by the system altogether.", "quantifier": "all settings and all frame histories", "why_tests_cant": "Partition invariant over unbounded histories and two tracking modes.", "anchors": ["source/system/DsoSystem.cpp: addFrame"]}
{"id": "C11", "title": "Observer protocol", "statement": "newFrame is delivered once per tracked frame in increasing frame order and before any newKeyFrame for that frame; a keyframe is announced by newKeyFrame at most once in trackFromLastKf mode, announcements have increasing numbers, no keyframe other than the initial first one is marginalized without having been announced before; keyFramesMarginalized is never called with an empty list.", "quantifier": "all settings and all frame histories", "why_tests_cant": "Temporal ordering property over all histories.", "anchors": ["source/system/DsoSystem.cpp: addFrame, marginalizeFrames", "include/output/DsoObserver.h"]}
{"id": "C12", "title": "The trajectory file is complete", "statement": "After the system has been destroyed, the file written by TrajectoryWriter contains one line for every keyframe and every tracked frame of every keyframe and no other lines.", "quantifier": "all settings and all frame histories", "why_tests_cant": "The writer buffers frames; completeness must hold for every history.", "anchors": ["source/output/TrajectoryWriter.cpp: keyFramesMarginalized, destructed, newKeyFrame"]}
{"id": "C13", "title": "Trajectory lines are in strictly increasing frame order", "statement": "At any time the frame numbers in the trajectory file are strictly increasing.", "quantifier": "all settings and all frame histories", "why_tests_cant": "Depends on the interplay of announcement order and marginalization order.", "anchors": ["source/output/TrajectoryWriter.cpp", "source/system/DsoSystem.cpp: addFrame, baseKeyFrame"]}
{"id": "C14", "title": "Ground-truth and estimated trajectory files match line by line", "statement": "Line i of the file of TrajectoryWriterGT and line i of the file of TrajectoryWriter describe the same frame, for every i and at the end of every run (the evaluation script pairs lines by index).", "quantifier": "all settings and all frame histories", "why_tests_cant": "One writer sorts, the other does not; equality for all histories is needed.", "anchors": ["source/output/TrajectoryWriterGT.cpp: keyFramesMarginalized", "source/output/TrajectoryWriter.cpp", "py/stat/traj_quality.py"]}
{"id": "C15", "title": "The trajectory file only grows, and a killed process leaves a complete prefix", "statement": "The file contents after any prefix of a run are a prefix of its contents after any longer prefix; with trackFromLastKf, the lines present after any prefix of a run are exactly all frames belonging to already marginalized keyframes.", "quantifier": "all frame histories and all crash points between calls", "why_tests_cant": "Crash points cannot be enumerated.", "anchors": ["source/output/TrajectoryWriter.cpp"]}
{"id": "C16", "title": "The point cloud file holds each keyframe's points exactly once with a matching header", "statement": "At any time between calls, the cloud written by CloudWriter declares as many vertices as it lists, and lists exactly, keyframe by keyframe in marginalization order, the optimized points and the immature points traced at least once of the keyframes reported so far; per-keyframe clouds go to the output directory given to the constructor.", "quantifier": "all observer call histories and all point sets", "why_tests_cant": "History property; the path part depends on an uninitialised member.", "anchors": ["source/output/CloudWriter.cpp"]}
{"id": "C17", "title": "Reported poses are consistent", "statement": "After every addFrame, the stored world-to-frame pose of every frame in the window equals baseToThis composed with the inverse of its keyframe's pose (immediately after tracking, and again after every bundle adjustment whatever poses it produced), and the pose written for it to the trajectory is the inverse of that. If bundle adjustment is switched off, no pose stored changes once the system is initialized.", "quantifier": "all histories, all tracking results and all bundle adjustment results", "why_tests_cant": "Must hold for any output of the nonlinear solvers.", "anchors": ["source/system/DsoSystem.cpp: addFrame", "source/system/KeyFrame.cpp: KeyFrame", "source/output/TrajectoryWriter.cpp"]}
{"id": "C18", "title": "Motion prediction extrapolates the motion of the last two frames, using only estimated poses", "statement": "The prediction for the next frame applies to the last pose the relative motion of the last two frames scaled by the ratio of the frame-number steps; for uniform motion it is exact; both poses it uses have been estimated by the system.", "quantifier": "all frame numberings and all poses", "why_tests_cant": "Algebraic law over a Lie group and all histories.", "anchors": ["source/system/DsoSystem.cpp: predictScrewInternal, predictSimpleInternal, predictBaseKfToCur, getTimeLastByLbo"]}
{"id": "C19", "title": "Activating points neither loses nor duplicates any point", "statement": "activateNewOptimizedPoints turns each chosen immature point into exactly one optimized point of the same keyframe with the same pixel position and depth, keeps all other immature points and all earlier optimized points, and only ever chooses ready points.", "quantifier": "all keyframe windows, all point lists, all orders in which equal sort keys may be arranged", "why_tests_cant": "Swap-with-last removal while iterating over indices is correct only for a certain order of indices; it must be shown for every set of indices and every result of the unstable sort.", "anchors": ["source/system/DsoSystem.cpp: activateNewOptimizedPoints"]}
{"id": "C20", "title": "Activation respects the optimized-point budget", "statement": "If the window holds at most maxOptimizedPoints optimized points before a new keyframe, it still does after activation; if it holds more, a negative amount is passed on and the selection indexes out of bounds.", "quantifier": "all windows and budgets", "why_tests_cant": "All inputs.", "anchors": ["source/system/DsoSystem.cpp: activateNewOptimizedPoints", "source/util/DistanceMap.cpp: choose"]}
{"id": "C21", "title": "The distance map holds the exact city-block distance to the nearest seed", "statement": "For every map size and seed set, the distance stored for a cell is the minimum over seeds falling on the map of the Manhattan distance, in cells of the reduced grid (and INT_MAX if there is no seed).", "quantifier": "all map sizes, all seed sets", "why_tests_cant": "Correctness of a breadth-first search for all inputs.", "anchors": ["source/util/DistanceMap.cpp: DistanceMap"]}
{"id": "C22", "title": "DistanceMap::choose returns distinct in-range indices of points farthest from the seeds", "statement": "For pointsNeeded >= 0 choose returns at most pointsNeeded distinct indices of given points, all lying on the map, and no on-map point left out is farther from the seeds than a chosen one; if at most pointsNeeded points are given it returns all on-map points.", "quantifier": "all point lists, all counts, all results allowed for nth_element", "why_tests_cant": "nth_element leaves the order unspecified; the claim must hold for every allowed permutation.", "anchors": ["source/util/DistanceMap.cpp: choose"]}
{"id": "C23", "title": "The distance map's reduction factor", "statement": "The reduction factor is the smallest power of two not less than the ratio needed for one of the dimensions, so that at least one dimension of the reduced map fits its limit; every pixel inside the image maps inside the reduced map.", "quantifier": "all image sizes and limits", "why_tests_cant": "Integer arithmetic over all sizes; the inclusion fails for sizes not divisible by the factor.", "anchors": ["source/util/DistanceMap.cpp: clp2, DistanceMap"]}
{"id": "C24", "title": "PixelSelector returns no more points than asked for", "statement": "select returns exactly pointsNeeded points if at least that many were found and all found points otherwise.", "quantifier": "all images and counts, all layer sizes", "why_tests_cant": "Depends on rounding of per-layer shares for all layer sizes.", "anchors": ["source/util/PixelSelector.cpp: selectInternal"]}
{"id": "C25", "title": "Every pixel returned by PixelSelector is a strong local gradient maximum", "statement": "Every returned point is the position of the maximum gradient in its block and its gradient exceeds the block average by the layer's threshold.", "quantifier": "all images, all block sizes", "why_tests_cant": "Depends on truncation of layer lists for all layer sizes.", "anchors": ["source/util/PixelSelector.cpp: selectLayer, selectInternal"]}
{"id": "C26", "title": "PixelSelector always terminates", "statement": "select terminates for every image and every number of points requested.", "quantifier": "all call histories (the block size adapts from call to call)", "why_tests_cant": "The adapted block size can degenerate after some histories.", "anchors": ["source/util/PixelSelector.cpp: select, selectLayer"]}
{"id": "C27", "title": "A failed trace leaves the depth estimate untouched", "statement": "traceOn returning anything but OK leaves depth, depth interval, standard deviation, best quality and trace count unchanged; returning OK increases the trace count by exactly one; the point's state never changes; a point out of bounds is never traced.", "quantifier": "all points, frames and images, all trace histories", "why_tests_cant": "Many exit paths, each reachable for some image; must hold over histories.", "anchors": ["source/system/ImmaturePoint.cpp: traceOn"]}
{"id": "C28", "title": "The depth chosen by the epipolar search minimises the energy", "statement": "If traceOn succeeds, the discrete search picked a candidate with minimal energy among all candidates (the first such), the second best energy is the least over candidates at least minSecondBestDistance away, and the accepted ratio is at least the outlier quality.", "quantifier": "all candidate lists and energies", "why_tests_cant": "All inputs.", "anchors": ["source/system/ImmaturePoint.cpp: traceOn"]}
{"id": "C29", "title": "Subpixel refinement never leaves the neighbourhood and never worsens the energy", "statement": "tracePrecise returns a point on the segment direction within distance 1 of the midpoint, whose energy is not larger than the energy at the midpoint, for any image and any number of iterations.", "quantifier": "all images, patterns, thresholds and iteration counts", "why_tests_cant": "Gauss-Newton with arbitrary Hessians; invariant over iterations.", "anchors": ["source/system/ImmaturePoint.cpp: tracePrecise"]}
{"id": "C30", "title": "Subpixel refinement works in the pyramid level the candidate was found on", "statement": "The refined position lies within two candidate steps of the best discrete candidate in full-resolution coordinates, whatever pyramid level was used.", "quantifier": "all pyramid levels", "why_tests_cant": "Coordinate-frame mistakes show only at levels greater than 0.", "anchors": ["source/system/ImmaturePoint.cpp: traceOn (lines 365-383)"]}
{"id": "C31", "title": "Only points with a depth are ever used as having one", "statement": "isReady implies the point's depth has been set by a successful trace (or by the initializer or a snapshot); points written to clouds as immature have been traced.", "quantifier": "all trace histories", "why_tests_cant": "depth is uninitialised at construction; needs an invariant over histories.", "anchors": ["source/system/ImmaturePoint.cpp: ImmaturePoint, isReady, traceOn", "source/output/CloudWriter.cpp"]}
{"id": "C32", "title": "Snapshots restore points", "statement": "Loading a saved immature point yields the same pixel, directions, intensities, gradients, depth interval, depth, quality, energy, deviation and state, whether values are finite or not; loading a saved optimized point yields the same pixel, depth, deviation and state.", "quantifier": "all points, all values incl. infinities", "why_tests_cant": "Round trip for all values; a field that is not stored is only noticed for particular values.", "anchors": ["source/system/serialization.cpp: PointSerializer::process", "source/system/ImmaturePoint.cpp: loading constructor", "include/system/OptimizedPoint.h"]}
{"id": "C33", "title": "Snapshots restore keyframes", "statement": "Loading a saved keyframe yields the same frame number, pose, light, tracked frames with their motions, and the same sequence of points.", "quantifier": "all keyframes", "why_tests_cant": "Nested variable-length stream; round trip for all lengths.", "anchors": ["source/system/serialization.cpp: KeyFrameSaver, KeyFrameLoader"]}
{"id": "C34", "title": "Loading a snapshot yields exactly the keyframes last saved there", "statement": "After save followed by load in the same directory, the loaded keyframes are those of the last save.", "quantifier": "all sequences of saves to one directory", "why_tests_cant": "History of saves; stale directories are left behind.", "anchors": ["source/system/serialization.cpp: SnapshotSaver::save, SnapshotLoader::load"]}
{"id": "C35", "title": "A system resumed from a snapshot continues with the right frame history", "statement": "After construction from a snapshot the recorded frame numbers are those of the keyframes and their tracked frames, each once and in increasing order, and addFrame accepts exactly larger numbers.", "quantifier": "all snapshots, all numbers of observers, both tracking modes", "why_tests_cant": "The registration loop is nested in the observer loop.", "anchors": ["source/system/DsoSystem.cpp: DsoSystem(const SnapshotLoader&)"]}
{"id": "C36", "title": "Affine light transforms compose", "statement": "(l1 * l2)(x) = l1(l2(x)) and l.inverse() * l is the identity, and l.inverse()(l(x)) = x.", "quantifier": "all transforms and intensities", "why_tests_cant": "Algebraic law.", "anchors": ["include/system/AffineLightTransform.h: operator*, inverse, operator()"]}
{"id": "C37", "title": "normalizeMultiplier preserves the relation between two light transforms", "statement": "After normalizeMultiplier(l1, l2) the first transform has unit multiplier and, for all intensities x, y: l1(x) = l2(y) before iff after.", "quantifier": "all transforms and intensities", "why_tests_cant": "Algebraic law.", "anchors": ["include/system/AffineLightTransform.h: normalizeMultiplier"]}
{"id": "C38", "title": "map and unmap agree up to the fit error of the mapping polynomial, and map depends only on the direction", "statement": "For every camera and pixel, the distance between map(unmap(p)) and p is exactly scale times the difference between the mapping polynomial at the pixel's ray angle and the pixel's normalised radius (so it is zero wherever the polynomial fits, and at the image centre); map(c v) = map(v) for all c > 0; unmap evaluates the documented polynomial for any number of coefficients.", "quantifier": "all camera parameters, pixels and rays", "why_tests_cant": "Round-trip law over the reals; the even/odd unrolled loop must agree with the polynomial for every degree.", "anchors": ["include/system/CameraModel.h: map, unmap, calcUnmapPoly, calcMapPoly"]}
{"id": "C39", "title": "Normalizing a camera model does not change the rays of pixels", "statement": "normalize changes the polynomial and the scale but unmap(p) stays the same direction for every p.", "quantifier": "all camera parameters and pixels", "why_tests_cant": "Algebraic law for polynomials of any degree.", "anchors": ["source/system/CameraModel.cpp: normalize"]}
{"id": "C40", "title": "Pyramid camera models agree with image downscaling", "statement": "camPyr(n) has n levels; level i maps every ray to the pixel of level 0 divided by 2^i; its size is the size of the image pyramid's level i.", "quantifier": "all cameras, rays and level counts", "why_tests_cant": "For all levels and sizes, odd sizes included.", "anchors": ["source/system/CameraModel.cpp: camPyr", "source/util/ImagePyramid.cpp", "include/util/util.h: boxFilterPyrDown"]}
{"id": "C41", "title": "A point accepted by isOnImage can be used as a pixel index", "statement": "isOnImage(p, border) implies that truncating p (and any p + d with |d| <= border) gives a valid pixel.", "quantifier": "all points, sizes and borders", "why_tests_cant": "Boundary behaviour for real coordinates.", "anchors": ["source/system/CameraModel.cpp: isOnImage", "source/util/DepthedImagePyramid.cpp", "source/system/ImmaturePoint.cpp"]}
{"id": "C42", "title": "Box-filter downscaling averages 2x2 blocks", "statement": "boxFilterPyrDown halves both dimensions (rounding down) and every output pixel is the mean, rounded down, of its four input pixels (level l: up to l, the mean of its 2^l x 2^l block), so it lies between their minimum and maximum and constant images stay constant.", "quantifier": "all images of all sizes", "why_tests_cant": "All sizes, odd ones included.", "anchors": ["include/util/util.h: boxFilterPyrDown", "source/util/ImagePyramid.cpp"]}
{"id": "C43", "title": "Depth pyramids keep every given depth visible on every level", "statement": "For positive depths and weights and points inside the image, on every level the cell containing a given point has a positive depth, and it is a weighted mean of the depths in the block, between their minimum and maximum; cells without points hold -1.", "quantifier": "all sizes, levels, point sets", "why_tests_cant": "All sizes and levels.", "anchors": ["source/util/DepthedImagePyramid.cpp", "source/util/util.cpp: pyrNUpDepth"]}
{"id": "C44", "title": "isInsideTriangle decides membership in the closed triangle", "statement": "For a non-degenerate triangle, isInsideTriangle holds iff the point is a convex combination of the corners.", "quantifier": "all triangles and points", "why_tests_cant": "Geometric equivalence over the reals.", "anchors": ["source/util/geometry.cpp: isInsideTriangle, isSameSide, cross2"]}
{"id": "C45", "title": "isABDelaunay decides the empty-circle condition", "statement": "For a triangle abc (either orientation) isABDelaunay(a,b,c,d) holds iff d is not strictly inside the circumcircle of abc.", "quantifier": "all point configurations", "why_tests_cant": "Geometric equivalence over the reals.", "anchors": ["source/util/geometry.cpp: isABDelaunay"]}
{"id": "C46", "title": "doesABIntersectCD decides whether two segments cross", "statement": "doesABIntersectCD holds iff the segments have a common point.", "quantifier": "all segment pairs", "why_tests_cant": "Geometric equivalence over the reals; the bounding-box prefilter depends on orientation.", "anchors": ["source/util/geometry.cpp: doesABIntersectCD"]}
{"id": "C47", "title": "approxOnCurve interpolates linearly and reproduces the nodes", "statement": "approxOnCurve(points, i) = points[i] for integer i in range, it interpolates linearly in between, extrapolates linearly outside, never indexes out of range, and aborts for fewer than two points.", "quantifier": "all point lists and all real parameters", "why_tests_cant": "Boundary indices for all sizes.", "anchors": ["source/util/geometry.cpp: approxOnCurve"]}
{"id": "C48", "title": "Triangulation stays a consistent mesh", "statement": "After any number of insertions, every edge has two distinct end vertices and its incident triangles contain it, every triangle's three edges connect its three vertices, the incidence sets of vertices are exactly the edges and triangles that contain them, and with V inserted vertices there are 1+2V triangles and 3+3V edges in total (bounding triangle included).", "quantifier": "all point sets, all insertion orders, all outcomes of the geometric predicates", "why_tests_cant": "Pointer-graph invariant over all histories.", "anchors": ["source/util/Triangulation.cpp: divideTriangle, divideEdge, performFlip, addPoint"]}
{"id": "C49", "title": "Triangulation's operator[] returns the vertex of the i-th input point", "statement": "t[i] is a vertex located at (up to the merge tolerance) input point i, for every i below the number of input points.", "quantifier": "all inputs incl. repeated points, all shuffles", "why_tests_cant": "Index bookkeeping under shuffling and duplicate removal.", "anchors": ["source/util/Triangulation.cpp: Triangulation, operator[]"]}
{"id": "C50", "title": "A stereo match filter keeps exactly the moving matches", "statement": "filterOutStillMatches keeps exactly the correspondences moving by more than the threshold, in the original order, and the parallel lists stay aligned.", "quantifier": "all match lists", "why_tests_cant": "All inputs.", "anchors": ["source/system/StereoMatcher.cpp: filterOutStillMatches"]}
{"id": "C51", "title": "RANSAC returns a motion with the largest inlier count seen", "statement": "findCoarseMotion's reported inlier list belongs to a hypothesis with the maximal number of inliers over all evaluated hypotheses, every reported inlier satisfies the inlier test for that hypothesis, and the number of iterations never exceeds the configured maximum.", "quantifier": "all correspondences and all random sample sequences", "why_tests_cant": "All schedules of random samples.", "anchors": ["source/system/StereoGeometryEstimator.cpp: findCoarseMotion, findInliersEssential, extractMotion"]}
{"id": "C52", "title": "Bundle adjustment keeps the gauge", "statement": "Optimizing with the spherical parameterization keeps the second keyframe's distance to the first one fixed for every step, and the first keyframe's pose is never changed.", "quantifier": "all steps of the solver", "why_tests_cant": "All solver trajectories.", "anchors": ["source/system/BundleAdjuster.cpp: adjust", "include/system/SphericalPlus.h"]}
{"id": "C53", "title": "Depth colour bounds", "statement": "setDepthColBounds picks for non-empty input the two requested quantiles of the depths for any fractions in [0,1], leaves the bounds unchanged for empty input; depthCol is red below, blue above, and interpolates between.", "quantifier": "all depth lists and fractions", "why_tests_cant": "Boundary indices for all sizes.", "anchors": ["source/util/util.cpp: setDepthColBounds, depthCol"]}
{"id": "C54", "title": "drawLeveled places every pyramid level once inside the canvas", "statement": "For every number of levels, each level image is placed in exactly one slot of the two rows.", "quantifier": "all level counts", "why_tests_cant": "Parity-dependent index arithmetic.", "anchors": ["source/util/util.cpp: drawLeveled"]}
{"id": "C55", "title": "Command-line flags reach the settings they document", "statement": "Every tuning flag set by the user changes the corresponding field of the settings returned by getFlaggedSettings.", "quantifier": "all flag values", "why_tests_cant": "A dropped assignment is only seen by exercising each flag.", "anchors": ["source/util/flags.cpp: getFlaggedSettings"]}
{"id": "C56", "title": "The multi-FoV reader yields one ground truth pose per frame", "statement": "getFrameCount equals one plus the number of pose lines and getWorldToFrameGT(i) is the pose of line i.", "quantifier": "all files", "why_tests_cant": "Depends on trailing newline handling.", "anchors": ["samples/mfov/reader/MultiFovReader.cpp"]}
{"id": "C57", "title": "Ground truth alignment", "statement": "Sim3Aligner built from two estimated and two ground-truth poses maps the first ground-truth pose onto the first estimated pose exactly and makes the baselines equal in length.", "quantifier": "all poses", "why_tests_cant": "Algebraic law over similarity transforms.", "anchors": ["source/util/Sim3Aligner.cpp"]}
{"id": "C58", "title": "Terrain depth interpolation", "statement": "Interpolated depth on a triangulated terrain agrees with the given depths at the vertices, depends only on the enclosing triangle, and for a spherical terrain the point it reports on a ray lies on the ray and on the plane through the triangle's three 3D points.", "quantifier": "all terrains and query rays", "why_tests_cant": "Geometric law.", "anchors": ["source/util/Terrain.cpp", "source/util/SphericalTerrain.cpp"]}
{"id": "C59", "title": "File placement under an output directory", "statement": "fileInDir(dir, name) yields the same path whether or not dir ends with a separator.", "quantifier": "all strings", "why_tests_cant": "All strings.", "anchors": ["source/util/util.cpp: fileInDir"]}
{"id": "C60", "title": "Initial keyframes contain only points with a depth from the terrain", "statement": "After initialization every immature point of the two keyframes is active and has a depth obtained from its keyframe's terrain.", "quantifier": "all point sets and terrains", "why_tests_cant": "Filter-while-iterating over arbitrary lists.", "anchors": ["source/system/DelaunayDsoInitializer.cpp: createKeyFrames"]}
{"id": "C61", "title": "Ground truth clouds cover exactly the frames handed over", "statement": "With CloudWriterGT observing a system, at the end of every life the ground truth cloud declares as many vertices as it lists, and lists, keyframe by keyframe, the ground truth points of each keyframe and of its tracked frames, placed with the estimated poses.", "quantifier": "all frame sequences, tracking results and ground truth tables", "why_tests_cant": "Whole histories including the destructor.", "anchors": ["source/output/CloudWriterGT.cpp", "source/system/DsoSystem.cpp: ~DsoSystem"]}
{"id": "C62", "title": "The ground truth pose file holds aligned ground truth poses", "statement": "Every line of TrajectoryWriterGT's pose file carries the supplied ground truth pose of its frame, mapped by the one alignment determined by the two initial keyframes; nothing is written if the system never initializes.", "quantifier": "all settings, frame histories and ground truth tables covering them", "why_tests_cant": "The alignment is applied in place to the whole table at a history-dependent moment.", "anchors": ["source/output/TrajectoryWriterGT.cpp: initialized, keyFramesMarginalized"]}
{"id": "C63", "title": "Matched points are the detected key points", "statement": "The points StereoMatcher::match returns (and hands to the motion estimator) have the coordinates of the matched key points.", "quantifier": "all key points and matches", "why_tests_cant": "Sub-pixel coordinates are silently rounded by an implicit conversion; no test input list covers all reals.", "anchors": ["source/system/StereoMatcher.cpp: match", "source/util/util.cpp: toVec2"]}
{"id": "C64", "title": "isABCDConvex decides convex position", "statement": "For four points, no three on a line, isABCDConvex(a,b,c,d) holds iff the diagonals ac and bd cross.", "quantifier": "all point configurations", "why_tests_cant": "Geometric equivalence over the reals.", "anchors": ["source/util/geometry.cpp: isABCDConvex"]}
{"id": "C65", "title": "doesABcontain accepts the points near a segment", "statement": "For a segment of positive length and eps > 0, doesABcontain accepts every point within distance less than eps of the segment and only points within sqrt(2)*eps of it.", "quantifier": "all segments, points and tolerances", "why_tests_cant": "Geometric statement over the reals.", "anchors": ["source/util/geometry.cpp: doesABcontain"]}
{"id": "C66", "title": "Angles between directions", "statement": "angle(a,b) of two non-zero vectors is the one value in [0, pi] whose cosine times the lengths is the scalar product; it is symmetric and does not depend on the lengths.", "quantifier": "all vectors", "why_tests_cant": "Statement over all reals.", "anchors": ["source/util/geometry.cpp: angle"]}
{"id": "C67", "title": "Clipping an arc of directions to the field of view", "statement": "intersectOnSphere returns false only if no direction on the arc between its arguments is in the field of view; otherwise afterwards both ends are in view (up to 1e-4 rad), on the original arc, and an end that was in view is unchanged.", "quantifier": "all fields of view and pairs of directions", "why_tests_cant": "Continuum of arcs; the failing configurations lie in a thin margin.", "anchors": ["source/util/geometry.cpp: intersectOnSphere"]}
{"id": "C68", "title": "Sector membership", "statement": "For three linearly independent rays isInSector returns true exactly for non-negative combinations of them.", "quantifier": "all rays", "why_tests_cant": "Equivalence over the reals.", "anchors": ["source/util/geometry.cpp: isInSector"]}
{"id": "C69", "title": "Triangulation agrees with the motion and the essential matrix", "statement": "Rays that see one point are triangulated to its depths and satisfy the epipolar constraint of toEssential; conversely rays satisfying the constraint meet in the triangulated point; in general the triangulated points are as close to each other as points on the two rays can be.", "quantifier": "all motions, rays and depths", "why_tests_cant": "Statement over all reals.", "anchors": ["source/util/geometry.cpp: triangulate, toEssential"]}
{"id": "C70", "title": "PixelSelector returns each pixel at most once", "statement": "The points returned by one selection are pairwise distinct.", "quantifier": "all images, counts and call histories", "why_tests_cant": "A repeated pixel appears only when the same maximum is strong on several layers.", "anchors": ["source/util/PixelSelector.cpp: selectInternal"]}
{"id": "C71", "title": "undistort reads only pixels of the source and keeps the size", "statement": "If the mapped coordinates fit an int, undistort returns a picture of the size of the source, and every pixel of it is the pixel of the source at the truncated image of its ray, or 0 if that is outside.", "quantifier": "all pictures, cameras and camera matrices", "why_tests_cant": "All real coordinates around the borders.", "anchors": ["include/system/CameraModel.h: undistort"]}
{"id": "C72", "title": "A camera is only built from a complete calibration file", "statement": "The constructor from a file returns a camera exactly for files with the tag omnidirectional, scale, center, number of coefficients and that many readable numbers, and the camera then has these parameters; other files raise an exception.", "quantifier": "all files", "why_tests_cant": "All token sequences; unreadable and missing numbers at every place.", "anchors": ["source/system/CameraModel.cpp: CameraModel(int, int, const std::string &, ...), operator>>"]}
{"id": "C73", "title": "Cameras whose angle decreases with the radius are rejected", "statement": "The constructor raises an exception exactly when two of the sampled radii have angles in the opposite order.", "quantifier": "all polynomials, centers, sizes and samples", "why_tests_cant": "All polynomials of all degrees and all random samples.", "anchors": ["source/system/CameraModel.cpp: setMapPolyCoeffs"]}
{"id": "C74", "title": "After a successful trace the depth lies in the depth interval", "statement": "If traceOn succeeds, the point's depth is at least its lower and at most its upper depth bound.", "quantifier": "all points, frames and images", "why_tests_cant": "the bounds come from other positions of the search curve than the depth; no test enumerates curves and deviations", "anchors": ["source/system/ImmaturePoint.cpp: traceOn"]}
{"id": "C75", "title": "The epipolar search examines each position once", "statement": "The candidates examined by a trace are projections of directions between those of the least and the largest depth, and each is examined once.", "quantifier": "all cameras, motions and depth intervals", "why_tests_cant": "needs all cameras and segments", "anchors": ["source/system/ImmaturePoint.cpp: pointsToTrace"]}
{"id": "C76", "title": "The epipolar search ends", "statement": "A trace ends after a bounded number of candidates: without full tracing at most maxSearchCount different ones, with full tracing whenever the projection moves at a bounded speed.", "quantifier": "all cameras, motions, depth intervals and settings", "why_tests_cant": "termination of nested loops with floating steps cannot be tested exhaustively", "anchors": ["source/system/ImmaturePoint.cpp: pointsToTrace"]}
{"id": "C77", "title": "The pyramid level of a point's last trace is a valid level", "statement": "At any time the traced level of any immature point is at least 0 and less than the number of levels, so that counting points per level stays within the array.", "quantifier": "all histories of points", "why_tests_cant": "over all histories of traces, initialisation and reloading", "anchors": ["source/system/ImmaturePoint.cpp: traceOn", "source/system/DsoSystem.cpp: addFrame"]}
{"id": "C78", "title": "Points can be traced with any number of pyramid levels", "statement": "For every number of pyramid levels of at least one there are frames on which a point can be traced successfully.", "quantifier": "all settings", "why_tests_cant": "a statement about all frames: no trace ever succeeds", "anchors": ["source/system/ImmaturePoint.cpp: traceOn"]}
{"id": "C79", "title": "The estimated relative motion is a rotation with unit translation", "statement": "findCoarseMotion and findPreciseMotion return a rotation with a translation of length one, or the identity when no correspondence is an inlier.", "quantifier": "all correspondences, random samples and numbers of iterations", "why_tests_cant": "over all sample sequences and matrices", "anchors": ["source/system/StereoGeometryEstimator.cpp: findCoarseMotion, findPreciseMotion, extractMotion"]}
{"id": "C80", "title": "Noise-free correspondences determine the motion", "statement": "A correspondence seen exactly by two views fits the essential matrix of their motion, and decomposing that matrix yields this very motion whenever all correspondences are seen in front of both views.", "quantifier": "all motions with unit translation and all exact correspondences", "why_tests_cant": "over all motions and all decompositions of their essential matrices", "anchors": ["source/system/StereoGeometryEstimator.cpp: findInliersEssential, extractMotion, findInliersMotion"]}
{"id": "C81", "title": "After averaging the inliers are those of the returned motion", "statement": "After findPreciseMotion the reported inliers are exactly the correspondences that agree with the returned motion, and repeating the call changes nothing.", "quantifier": "all correspondences, samples and averaged motions", "why_tests_cant": "over all histories of calls and all outcomes of the averaging", "anchors": ["source/system/StereoGeometryEstimator.cpp: findPreciseMotion, inliersInds"]}
{"id": "C82", "title": "Every reported match has positive depths", "statement": "Every correspondence reported by stereo matching has positive depth in both views; with averaging those are the depths triangulated with the returned motion.", "quantifier": "all correspondences, samples and outcomes of the averaging", "why_tests_cant": "over all inputs and sample sequences", "anchors": ["source/system/StereoMatcher.cpp: match", "source/system/StereoGeometryEstimator.cpp: depths, findInliersMotion"]}
{"id": "C83", "title": "Every inlier is close to its epipolar line", "statement": "The reprojection error to the epipolar curve of every reported inlier is within the configured threshold.", "quantifier": "all correspondences and matrices", "why_tests_cant": "over all matrices and rays, including those near the epipoles", "anchors": ["source/system/StereoGeometryEstimator.cpp: findInliersEssential"]}
{"id": "C84", "title": "Depths belong to the reported motion", "statement": "depths() always lists the triangulated depths of the reported inliers for the motion found last.", "quantifier": "all sequences of calls", "why_tests_cant": "over all orders of calls to findCoarseMotion, findPreciseMotion and depths", "anchors": ["source/system/StereoGeometryEstimator.cpp: depths, findPreciseMotion"]}
{"id": "C85", "title": "Stereo estimation is defined for every list of correspondences", "statement": "For every list of correspondences estimation ends with a motion, without undefined behaviour.", "quantifier": "all lists of correspondences and all outcomes of the minimal solver", "why_tests_cant": "degenerate lists and samples are only some of all inputs", "anchors": ["source/system/StereoGeometryEstimator.cpp: findCoarseMotion"]}
{"id": "C86", "title": "Points in general position can always be triangulated", "statement": "Constructing a triangulation of points in general position (no two within the tolerance for equal points, none within sqrt 2 times the tolerance for segments of the segment between two others, corners of the bounding triangle included) performs no failing check, no undefined behaviour and no exception, and it is always possible for the constructor to return.", "quantifier": "all points in general position, all insertion orders, all iteration orders of the edge sets, all coins", "why_tests_cant": "over all point sets, shuffles and random walks", "anchors": ["source/util/Triangulation.cpp: Triangulation, addPoint, enclosingTriangle, legalizeTriangulation"]}
{"id": "C87", "title": "The triangles tile the bounding triangle", "statement": "The triangles of a triangulation of points in general position lie in the bounding triangle, cover it, and do not overlap.", "quantifier": "all points in general position, all insertion orders, all coins, all points of the plane", "why_tests_cant": "a statement about every point of the plane after every history of insertions and flips", "anchors": ["source/util/Triangulation.cpp: divideTriangle, performFlip, isFlipNeeded"]}
{"id": "C88", "title": "Looking up a point finds a triangle that contains it", "statement": "enclosingTriangle never fails, returns null exactly for the points outside the bounding triangle, and otherwise a triangle that contains the point or has a side within the tolerance of it; its random walk is never trapped.", "quantifier": "all points in general position, all query points, all starting edges and coins", "why_tests_cant": "over all triangulations, query points and random walks", "anchors": ["source/util/Triangulation.cpp: enclosingTriangle, doesContain"]}
{"id": "C89", "title": "Asking whether a depth can be interpolated is defined everywhere", "statement": "hasInterpolatedDepth of a terrain is defined for every point of the plane and returns true exactly if the interpolating call, doing the same walk, returns a depth.", "quantifier": "all terrains over points in general position, all query points, coins and starting edges", "why_tests_cant": "over all point sets and query points", "anchors": ["source/util/Terrain.cpp: hasInterpolatedDepth, operator()"]}
{"id": "C90", "title": "Initial points carry a finite uncertainty", "statement": "Every point of the two keyframes returned by the initializer has the finite standard deviation the initializer assigns, so that it has a positive weight where weights are derived from it.", "quantifier": "all selections of points, terrains and settings", "why_tests_cant": "over all inputs of the initializer", "anchors": ["source/system/DelaunayDsoInitializer.cpp: createKeyFrames", "source/system/KeyFrame.cpp: selectPointsDenser", "source/system/DsoSystem.cpp: DsoSystem (resume)"]}
{"id": "C91", "title": "Tracking is prepared from active points with known depth inside the picture", "statement": "The projection of points onto the base keyframe returns parallel vectors; every entry is an active point of a keyframe with a known depth, at its place and distance as seen from the base keyframe and inside the picture; every such point is there exactly once, in the order of the keyframes and their points; and the depth pyramid can be built from them.", "quantifier": "all numbers of keyframes and points, all states, poses, depths and cameras", "why_tests_cant": "quantifies over all maps; reads of unset memory and writes one column outside are invisible to tests", "anchors": ["source/system/DsoSystem.cpp: projectOntoBaseKf, addFrame, DsoSystem", "include/system/DsoSystem.h: baseKeyFrame", "source/util/DepthedImagePyramid.cpp"]}
{"id": "C92", "title": "Tracking goes once through all pyramid levels, coarse to fine", "statement": "Tracking a frame calls every observer first with the start and then once per pyramid level, from the coarsest to the finest one; the motion and light transform returned are those reported for the finest level.", "quantifier": "all frames, pyramids, observers, settings and results of the solver", "why_tests_cant": "over all solver results and all numbers of levels and observers", "anchors": ["source/system/FrameTracker.cpp: trackFrame, trackPyrLevel", "include/output/FrameTrackerObserver.h"]}
{"id": "C93", "title": "Tracking matches exactly the pixels with known depth that are visible", "statement": "On every level the pixels matched are exactly those with a positive depth whose point is on the tracked picture according to the estimate of the previous level (the given start on the first one); for each of them, in reading order, observers are told where it is seen according to the new estimate and the difference of the brightness there.", "quantifier": "all pictures, depths, cameras, starts and results of the solver", "why_tests_cant": "all pixels of all pictures and all starts", "anchors": ["source/system/FrameTracker.cpp: trackPyrLevel, isPointTrackable, PointTrackingResidual"]}
{"id": "C94", "title": "Tracking never makes the match worse and respects the light bounds", "statement": "No pyramid level increases the photometric error of the pixels matched on it, a perfect match stays perfect; the light transform stays within its bounds if it starts there and is not changed at all if it is not to be optimized; a rigid start gives a rigid motion.", "quantifier": "all pictures, starts, settings and runs of the solver", "why_tests_cant": "quantifies over all solver runs", "anchors": ["source/system/FrameTracker.cpp: trackPyrLevel"]}
{"id": "C95", "title": "Frames can be tracked with any number of pyramid levels", "statement": "For every number of pyramid levels of at least one a tracker can be built and frames can be tracked.", "quantifier": "all numbers of levels, pictures and starts", "why_tests_cant": "a statement about all frames: for some settings every call is undefined", "anchors": ["source/system/FrameTracker.cpp: FrameTracker, trackFrame", "source/system/DsoSystem.cpp: addFrame", "source/system/PreKeyFrame.cpp: PreKeyFrame"]}
{"id": "C96", "title": "Weighting by gradients reads only pixels of the picture", "statement": "With gradient weighting enabled tracking reads only pixels of the pictures of the pyramid.", "quantifier": "all pictures, depths and starts", "why_tests_cant": "undefined reads are not visible in tests", "anchors": ["source/util/util.cpp: gradNormAt", "source/system/FrameTracker.cpp: trackPyrLevel"]}
{"id": "C97", "title": "Bundle adjustment only moves what it is meant to move", "statement": "The adjuster holds exactly the keyframes added. Adjusting changes no picture, no pixel or standard deviation of a point, no number or order of points; non-finite depths stay so, no point becomes active again, points out of bounds stay so; the first keyframe's pose and light transform are fixed, the second one keeps its distance to it (or ends exactly on it), rotations stay rotations and nothing that is declared fixed in the settings changes.", "quantifier": "all keyframes, addresses, settings and runs of the solver", "why_tests_cant": "quantifies over all runs of the solver and all orders of addresses", "anchors": ["source/system/BundleAdjuster.cpp: addKeyFrame, adjust"]}
{"id": "C98", "title": "After bundle adjustment light transforms and depths are within the configured limits", "statement": "After a successful run all light transforms and all depths are within the limits of the settings; if the solver gives up nothing has moved; active points have finite depths.", "quantifier": "all keyframes, settings and runs of the solver", "why_tests_cant": "all runs of the solver", "anchors": ["source/system/BundleAdjuster.cpp: adjust"]}
{"id": "C99", "title": "Bundle adjustment marks badly matching points as outliers", "statement": "After bundle adjustment a point that no other keyframe sees is marked out of bounds and a point whose median absolute brightness error exceeds the threshold is marked an outlier, others keep their state.", "quantifier": "all keyframes, points and runs of the solver", "why_tests_cant": "over all residual lists and all solver results", "anchors": ["source/system/BundleAdjuster.cpp: adjust"]}
{"id": "C100", "title": "The result of bundle adjustment does not depend on memory addresses", "statement": "The same keyframes added in the same order give the same states whatever their addresses in memory are.", "quantifier": "all assignments of addresses", "why_tests_cant": "addresses differ between runs, a test sees one assignment", "anchors": ["source/system/BundleAdjuster.cpp: adjust", "include/system/BundleAdjuster.h: keyFrames"]}
{"id": "C101", "title": "Bundle adjustment of keyframes at different places is defined", "statement": "With at least two keyframes at different places, and points that pass the code's own test for being on the picture, bundle adjustment ends normally and reads only pixels of the pictures.", "quantifier": "all keyframes, points and patterns", "why_tests_cant": "undefined reads are not visible in tests", "anchors": ["source/system/BundleAdjuster.cpp: adjust, isOOB"]}
{"id": "C102", "title": "Bundle adjustment does not increase the photometric error", "statement": "From keyframes within the limits, the weighted robust photometric error over all observations (every pattern pixel of every point with finite depth in every other keyframe that shows it) does not grow; if all brightnesses agree before they agree afterwards.", "quantifier": "all keyframes, cameras, pictures and runs of the solver", "why_tests_cant": "all pictures and solver runs", "anchors": ["source/system/BundleAdjuster.cpp: DirectResidual, adjust"]}
{"id": "C103", "title": "The frames an observer was told last stay valid", "statement": "Between any two calls, the keyframe an observer was told last is the one frames are currently tracked against, and both it and the frame announced last are still held by the system, so an observer may keep their addresses until the next call.", "quantifier": "all settings, all lists of increasing frame numbers", "why_tests_cant": "depends on the whole history and the settings; reading a destroyed object is not visible in tests", "anchors": ["source/system/DsoSystem.cpp: addMultiFrame, addFrameTrackerObserver", "source/output/DebugImageDrawer.cpp: newBaseFrame, newFrame, draw"]}
{"id": "C104", "title": "Tracking starts from the light relation to the current base keyframe", "statement": "Every frame after initialization is tracked once, in order, against the keyframe frames belong to at that time; the search for the light transform starts from the one found between this keyframe and the frame before.", "quantifier": "all settings, all lists of frames, all results of tracking and bundle adjustment", "why_tests_cant": "depends on the history of keyframes", "anchors": ["source/system/DsoSystem.cpp: addMultiFrame, lightKfToLast"]}
{"id": "C105", "title": "The debug picture draws the points of the base keyframe at their places in the last frame", "statement": "The motion by which the picture of useful points moves the points of the current base keyframe into the last frame is the motion between the two.", "quantifier": "all settings, lists of frames and results of tracking", "why_tests_cant": "depends on the history of keyframes", "anchors": ["source/output/DebugImageDrawer.cpp: newFrame, drawUseful, levelTracked"]}
{"id": "C106", "title": "Every registered tracker observer is told about every tracked frame", "statement": "Whenever a frame is tracked, exactly the tracker observers given to the constructor, those registered while observers were told of the creation, and those registered since are told, in this order.", "quantifier": "all settings, observers, snapshots and interleavings of frames and registrations", "why_tests_cant": "all interleavings of registrations and frames, and resumed systems", "anchors": ["source/system/DsoSystem.cpp: DsoSystem (both constructors), addFrameTrackerObserver, addMultiFrame"]}
{"id": "C107", "title": "The tracking debug picture shows the brightness error at every matched point", "statement": "After a frame has been tracked, a registered tracking drawer, whatever it was told before, has a picture of every pyramid level: the frame's own picture of that level, on which every pixel in the square of a matched point (the last one in reading order, if several) has the colour of the absolute brightness error there. Squares that do not fit into the picture are left out.", "quantifier": "all trackers, frames, solver results and earlier histories of the drawer", "why_tests_cant": "over all pictures, cameras, motions and histories", "anchors": ["source/output/TrackingDebugImageDrawer.cpp: startTracking, levelTracked", "source/util/util.cpp: putSquare, depthCol", "source/system/FrameTracker.cpp: trackFrame"]}
{"id": "C108", "title": "The depth pyramid is written once for every new base frame and shows its depths", "statement": "Over any history of base frames and rounds of the reconstruction program, a depth pyramid picture is written exactly in the rounds that follow a new base frame; it shows every level of that base frame, with the colour of its depth in the square around every pixel that has one (the last one in reading order, if several).", "quantifier": "all histories of base frames and polls, all pictures and depths", "why_tests_cant": "quantifies over all histories", "anchors": ["source/output/DepthPyramidDrawer.cpp: draw, newBaseFrame, pyrChanged, getLastPyr", "samples/mfov/genply/main.cpp: main"]}
{"id": "C109", "title": "The disparity statistics do not depend on how the work is spread over threads", "statement": "The program that collects disparity errors writes the errors of the frames in the order of their numbers, and the file does not depend on how the frames are split into ranges, on the order of the workers or on whether it runs in parallel.", "quantifier": "all splits of the frames into ranges, all interleavings of the workers", "why_tests_cant": "quantifies over schedules; the library chooses the ranges at run time", "anchors": ["samples/mfov/stat/stat_epipolar/main.cpp: CollectDisparities, collectEpipolarStat"]}
{"id": "C110", "title": "Collecting disparity statistics ends normally for every data set", "statement": "For every data set and every choice of first and last frame the program only uses frames of the data set and ends normally.", "quantifier": "all data sets, flags, splits and schedules", "why_tests_cant": "reading beyond a table need not be visible in a test", "anchors": ["samples/mfov/stat/stat_epipolar/main.cpp: collectEpipolarStat", "samples/mfov/reader/MultiFovReader.cpp: getWorldToFrameGT"]}
{"id": "C111", "title": "Every frame of a data set has its own files", "statement": "For every directory and every frame number the reader opens the picture and the depths with that number below the directory; two frames never share a file, and a slash at the end of the directory makes no difference.", "quantifier": "all directories, all pairs of frame numbers", "why_tests_cant": "the number of names is unbounded; writing beyond a buffer need not be visible in a test", "anchors": ["samples/mfov/reader/MultiFovReader.cpp: MultiFovReader, getFrame, getDepths"]}
{"id": "C112", "title": "Depths are those written in the file", "statement": "The matrix of depths of a frame has the size of its pictures, and row y, column x is number y * width + x of the file; a file that is missing or too short is reported.", "quantifier": "all depth files, all picture sizes", "why_tests_cant": "quantifies over all contents of the file; indeterminate pixels may look right in a test", "anchors": ["samples/mfov/reader/MultiFovReader.cpp: getDepths, getFrame"]}
{"id": "C113", "title": "The camera of a data set has the rays its calibration file describes", "statement": "After opening a data set the camera has the size and gives every pixel the direction that the calibration file describes; a file that is missing or incomplete is reported.", "quantifier": "all calibration files, all pixels", "why_tests_cant": "quantifies over all parameters and all pixels of the real plane", "anchors": ["samples/mfov/reader/MultiFovReader.cpp: MultiFovReader", "samples/mfov/reader/MultiFovReader.h: pinholeF, defaultWidth"]}
{"id": "C114", "title": "Ground truth points lie where the depth file says", "statement": "After reading the ground truth of a range of frames, every frame of the range has exactly one coloured point for each pixel of the sampling grid with a depth of at most 10^10; the point lies on the ray of the pixel at that depth and has its colour. Frames outside the range have no points.", "quantifier": "all data sets, ranges of frames, picture sizes and budgets", "why_tests_cant": "quantifies over all depth files and pixels", "anchors": ["samples/mfov/genply/main.cpp: readPointsInFrameGT"]}
{"id": "C115", "title": "The ground truth cloud has at most the number of points asked for", "statement": "The flag gt_points bounds the number of points of the ground truth cloud, and the sampling grid is the finest one that respects it.", "quantifier": "all picture sizes, ranges and budgets", "why_tests_cant": "the bound fails only for some combinations of sizes", "anchors": ["samples/mfov/genply/main.cpp: readPointsInFrameGT, FLAGS_gt_points"]}
{"id": "C116", "title": "Reading ground truth ends normally for every range of frames", "statement": "For every data set and all flags reading the ground truth points ends normally or reports a missing file.", "quantifier": "all flags, all data sets", "why_tests_cant": "accesses beyond a table need not be visible in a test", "anchors": ["samples/mfov/genply/main.cpp: readPointsInFrameGT"]}
{"id": "C117", "title": "The ground truth cloud file is the union of all frames in the world", "statement": "With gen_gt_only the program writes all points read, frame by frame, each at the place of the world that the pose of its frame takes to the point, with its colour, and declares as many points as it writes.", "quantifier": "all data sets, flags and poses", "why_tests_cant": "quantifies over all contents and poses", "anchors": ["samples/mfov/genply/main.cpp: main", "source/util/util.cpp: printInPly"]}
{"id": "C118", "title": "The debug picture shows depths, usefulness, deviations and residuals of the reported points", "statement": "Once there is a base keyframe, the debug picture before shrinking consists of four pictures of the size of the base frame: the depths of the traced immature and of all optimized points that are reported for the base keyframe, each such point once and at its place; the optimized points in green if they are visible in the last frame, else red; the standard deviations; the residuals of the tracker. Pixels without a point show the grey base frame. The picture is drawn if and only if all depths are known and the residuals have the size of the base frame.", "quantifier": "all keyframes, points, poses, cameras and pictures", "why_tests_cant": "quantifies over all pixels and all numbers of points and keyframes", "anchors": ["source/output/DebugImageDrawer.cpp: DebugImageDrawer::draw", "include/system/DsoSystem.h: projectOntoBaseKf"]}
{"id": "C119", "title": "The debug picture has the configured width", "statement": "Whenever it is drawn, the debug picture has the width given by the flag debug_image_width and the height that keeps the shape of a frame.", "quantifier": "all moments of a run, all flags and sizes", "why_tests_cant": "depends on when the picture is polled", "anchors": ["source/output/DebugImageDrawer.cpp: DebugImageDrawer::draw, FLAGS_debug_image_width"]}
{"id": "C120", "title": "Every edge is drawn once", "statement": "Each function that draws a triangulation draws a line or curve for every edge between two points, exactly once, and nothing else; the drawing of sectors draws each side once, also if several sectors share it.", "quantifier": "all triangulations, all orders in which the sets of edges are visited", "why_tests_cant": "depends on the order of hash sets and holds for all sizes", "anchors": ["source/util/Triangulation.cpp: draw, drawScaled, drawCurved", "source/util/SphericalTriangulation.cpp: SphericalTriangulation::draw"]}
{"id": "C121", "title": "A drawing of a given size contains the whole triangulation", "statement": "Drawn on a picture of a given size, the triangulation is scaled so that all its points lie on the picture, with the padding of the settings at the margins.", "quantifier": "all points in general position, all sizes, paddings and orders of insertion", "why_tests_cant": "holds for points as wide as high only, which a test may happen to use", "anchors": ["source/util/Triangulation.cpp: Triangulation::draw"]}
{"id": "C122", "title": "Drawn on a picture, the points are at their pixels", "statement": "Drawn on a given picture, every line ends at the pixels of its two points.", "quantifier": "all points in general position", "why_tests_cant": "depends on the fractions of the coordinates", "anchors": ["source/util/Triangulation.cpp: Triangulation::draw, drawScaled", "source/util/util.cpp: toCvPoint"]}
{"id": "C123", "title": "Curved edges follow the shortest arc", "statement": "The curve between two points or rays begins at the pixel of the first, ends at the pixel of the second and follows the projection of the shortest arc between the rays.", "quantifier": "all pairs of rays, all cameras", "why_tests_cant": "quantifies over all directions", "anchors": ["source/util/Triangulation.cpp: drawCurvedInternal", "source/util/SphericalTriangulation.cpp: drawCurvedInternal"]}
{"id": "C124", "title": "The hull test for rays is exact", "statement": "A direction is reported as covered by the hull of the rays if and only if it is a nonnegative combination of three of them.", "quantifier": "all sets of rays, all directions", "why_tests_cant": "degenerate triples make the difference", "anchors": ["source/util/SphericalTriangulation.cpp: isInConvexDummy, fillUncovered", "source/util/geometry.cpp: isInSector"]}
{"id": "C125", "title": "diffMap gives the exact Jacobian of map", "statement": "For every camera and every ray, diffMap returns the position map returns for the ray, together with the exact derivatives of both coordinates of that position with respect to the three coordinates of the ray, wherever map is differentiable.", "quantifier": "all camera models (mapping polynomials of any degree, scale, centre) and all rays", "why_tests_cant": "Derivatives are limits: a test compares finite differences at a few rays up to a tolerance, it cannot show that the dual-number rules (product, quotient, square root, arctangent) are right for every ray and every polynomial, and it never samples the axis exactly.", "anchors": ["source/system/CameraModel.cpp: CameraModel::diffMap", "include/system/CameraModel.h: CameraModel::map"]}
{"id": "C126", "title": "The epipolar search moves by one pixel per step", "statement": "Every position the epipolar search examines is the projection of a direction between the two ends of the depth interval, and the step from one position to the next is the one for which the derivative of the projected curve predicts a displacement of exactly one pixel.", "quantifier": "all cameras, all pairs of end directions, all starting points and lengths of the search", "why_tests_cant": "The step depends on the Jacobian of an arbitrary polynomial camera at every point of an arbitrary curve; tests see a few curves of one camera.", "anchors": ["source/system/ImmaturePoint.cpp: ImmaturePoint::pointsToTrace", "source/system/CameraModel.cpp: CameraModel::diffMap"]}
{"id": "C127", "title": "The averaged error of a match is its displacement to the epipolar constraint", "statement": "For every match and every motion, the error that the averaging after RANSAC assigns to the match is the pair of displacements, in pixels, from its two points to the projections of the nearest rays that satisfy the epipolar constraint of the motion with the other point. A match that agrees exactly with the motion has error zero.", "quantifier": "all cameras, all motions, all matches", "why_tests_cant": "The claim is about a minimum over a plane of rays, for every motion the solver may visit; tests evaluate a few matches with one camera.", "anchors": ["source/system/StereoGeometryEstimator.cpp: ReprojectionResidual"]}
{"id": "C128", "title": "Averaging does not make the motion worse on the inliers", "statement": "If the solver does not increase its cost, then the motion findPreciseMotion returns has, on the inliers of the coarse motion, an error not larger than the coarse motion has. If these inliers agree exactly with the coarse motion, all of them still fit the precise motion, and remain inliers unless a depth is not positive.", "quantifier": "all cameras, match lists, random samples, solvers that do not increase the cost", "why_tests_cant": "The cost is built from arbitrary inlier sets and passed to an arbitrary solver; tests run one solver on a few matches.", "anchors": ["source/system/StereoGeometryEstimator.cpp: StereoGeometryEstimator::findPreciseMotion", "source/system/StereoGeometryEstimator.cpp: ReprojectionResidual"]}
{"id": "C129", "title": "Light transforms of keyframes compose along the chain of base keyframes", "statement": "The brightness transform of a keyframe maps intensities like the transform of the keyframe it was tracked against, followed by the one tracking has found between the two. Keyframes made at initialization change nothing. If bundle adjustment is on, right after a new keyframe the transforms of the whole window are those bundle adjustment has found.", "quantifier": "all settings, all histories of frames and observer registrations, all results of the tracker", "why_tests_cant": "The transform of a keyframe depends on the whole chain of keyframes before it; tests use chains of one or two and unit multipliers.", "anchors": ["source/system/KeyFrame.cpp: KeyFrame::KeyFrame", "source/system/DsoSystem.cpp: DsoSystem::addFrame", "include/system/AffineLightTransform.h: operator*"]}
{"id": "C130", "title": "The trajectory files of a genply run hold every frame once", "statement": "After a run of genply over readable frames the files tracked_pos.txt and tracked_frame_to_world.txt in the output directory hold exactly one line for each keyframe and each frame tracked from it, and the two ground-truth files the matching lines.", "quantifier": "all flags, settings, data sets and poses, all contents of the disk before the run", "why_tests_cant": "The content depends on the whole history of marginalizations and on what earlier runs left on the disk; the tests never run the program.", "anchors": ["samples/mfov/genply/main.cpp: main", "source/output/TrajectoryWriter.cpp: TrajectoryWriter::keyFramesMarginalized, TrajectoryWriter::destructed", "source/output/TrajectoryWriterGT.cpp: TrajectoryWriterGT::keyFramesMarginalized"]}
{"id": "C131", "title": "A genply run that ends early leaves its results and its arguments", "statement": "If a run of genply ends early because a frame cannot be read, or with any other fault, the poses of the frames processed so far are in the trajectory files, and args.txt tells the arguments of the run.", "quantifier": "all flags, settings and data sets, all positions of the first unreadable frame, all kinds of faults", "why_tests_cant": "What is on the disk after a crash depends on the crash point and on buffers; the tests never run the program, and none of them crashes.", "anchors": ["samples/mfov/genply/main.cpp: main", "samples/mfov/reader/MultiFovReader.cpp: MultiFovReader::getFrame"]}
{"id": "C132", "title": "genply writes the promised pictures for the promised frames", "statement": "With write_files, after a run over readable frames there are a debug picture and a tracking picture for each frame of the run and for no other one, a picture of the depth pyramid for each frame that became a keyframe if that is wanted, and the interpolation exactly if there were enough frames to initialize the system. Other pictures are left as they were.", "quantifier": "all flags with three different picture directories, all settings and data sets, all contents of the disk before", "why_tests_cant": "Which frames become keyframes depends on the history; collisions of file names depend on the flags.", "anchors": ["samples/mfov/genply/main.cpp: main"]}
{"id": "C133", "title": "write_files=false writes no files", "statement": "With write_files=false a run of genply writes nothing into the output directory.", "quantifier": "all flags, settings and data sets, all contents of the disk before, all ends of the run", "why_tests_cant": "Whether some branch still writes depends on all paths through main and the observers.", "anchors": ["samples/mfov/genply/main.cpp: main", "source/system/serialization.cpp: SnapshotSaver::save"]}
{"id": "C134", "title": "The disparity statistics report the true errors", "statement": "The file of disparity errors has, for each frame, one record for each point traced to a bounded depth and for no other, in the order of the points. Its error is the distance in the second frame between the true place of the world point on the point's ray at the true depth and the place the depth found leads to; likewise for the depth before the subpixel step. With exact placement a point traced to its true depth has error zero.", "quantifier": "all data sets with rigid poses, all ground-truth depths, all pixel selections and tracing results, all splits and positions", "why_tests_cant": "The chain of motions, projections and depths is only right if it is right for every pose and point; no test looks at the file.", "anchors": ["samples/mfov/stat/stat_epipolar/main.cpp: CollectDisparities::operator()"]}
{"id": "C135", "title": "Numbers in a snapshot are restored exactly", "statement": "Every floating-point number stored in a snapshot file (poses, depths, brightness transforms, quality values), whether finite, infinite or NaN, is the very number read back from that file.", "quantifier": "all finite lists of doubles, including subnormal numbers, infinities and NaN, followed by anything", "why_tests_cant": "Whether decimal printing and reading loses the last bit depends on the number; there are 2^64 of them.", "anchors": ["source/system/serialization.cpp: DataSerializer", "include/system/serialization.h: DataSerializer", "source/system/serialization.cpp: save, load"]}
{"id": "C136", "title": "A snapshot restores the colour bounds", "statement": "Loading a snapshot restores the depth range used for colours to the values it had when the snapshot was saved.", "quantifier": "all pairs of doubles, all earlier values of the bounds", "why_tests_cant": "The text has six digits; tests use round values.", "anchors": ["source/system/serialization.cpp: SnapshotSaver::saveDepthColBounds", "source/system/serialization.cpp: SnapshotLoader::loadDepthColBounds"]}
{"id": "C137", "title": "Poses and clouds in files are those estimated", "statement": "The numbers in trajectory files and point clouds are those the system estimated, so that different poses are told apart.", "quantifier": "all poses with double entries", "why_tests_cant": "The rounding shows only for large coordinates, far from the start.", "anchors": ["source/util/util.cpp: putMotion", "source/util/util.cpp: putInMatrixForm", "source/output/TrajectoryWriter.cpp: TrajectoryWriter", "source/util/PlyHolder.cpp: PlyHolder::putPoints"]}
{"id": "C138", "title": "The snapshot of a run holds its window and nothing else", "statement": "After a full run of genply the snapshot directory holds one file for each keyframe still in the window, one for each frame tracked on these keyframes, and no other keyframes or frames.", "quantifier": "all inputs, settings, numbers of frames and contents of the disk before the run", "why_tests_cant": "Depends on the whole run and on what earlier runs left.", "anchors": ["samples/mfov/genply/main.cpp: main", "source/system/serialization.cpp: SnapshotSaver", "source/system/DsoSystem.cpp: DsoSystem::saveSnapshot"]}
{"id": "C139", "title": "Bundle adjustment does not depend on the choice of coordinates, unit of length and brightness", "statement": "If all keyframes are described in other world coordinates (turned, moved, in another unit of length) and another common scale of brightness, bundle adjustment minimizes the same photometric error over the same observations, fails in the same cases, and its result is the old result described in that way: poses, light transforms, depths and which points are marked as outliers or out of bounds.", "quantifier": "all cameras, settings, keyframes with any points, all rotations, shifts, positive units and affine changes of brightness, all solvers that treat the two problems alike", "why_tests_cant": "A test compares two runs for one change of coordinates; an invariance is a statement about all of them and about every scene.", "anchors": ["source/system/BundleAdjuster.cpp: BundleAdjuster::adjust", "source/system/BundleAdjuster.cpp: DirectResidual", "source/system/AffineLight.cpp: AffineLightTransform"]}
{"id": "C140", "title": "Tracking does not depend on the unit of length", "statement": "If the poses of the keyframes and the depths of their points are given in another unit of length (and other world coordinates), the same points are projected onto the base keyframe at the same places with depths in the new unit; the depth pyramid made of them has the same pixels filled on every level, in the new unit; and tracking a frame from the first guess in the new unit reports the same residuals at the same places and returns the same motion in the new unit and the same light transform.", "quantifier": "all cameras, keyframes, points, pyramid sizes, frames and units; all solvers that treat the two problems alike", "why_tests_cant": "The scale of a monocular reconstruction is arbitrary and drifts; a test runs at one scale.", "anchors": ["source/system/DsoSystem.cpp: DsoSystem::projectOntoBaseKf", "source/util/DepthedImagePyramid.cpp: DepthedImagePyramid", "source/system/FrameTracker.cpp: FrameTracker::trackFrame"]}
{"id": "C141", "title": "Tracing a point does not depend on the unit of length", "statement": "A point traced on any sequence of frames goes through the same states and tracing statuses in every unit of length, with the same energies, qualities and deviations, and is ready for activation in one unit iff it is in the other; its depth and depth interval are the same lengths. Triangulated distances scale with the motion.", "quantifier": "all environments whose camera sees directions (all cameras of the system do), all points, all sequences of frames, all positive units", "why_tests_cant": "A test traces a few points at one scale.", "anchors": ["source/system/ImmaturePoint.cpp: ImmaturePoint::traceOn", "source/system/ImmaturePoint.cpp: ImmaturePoint::pointsToTrace", "source/util/geometry.cpp: triangulate"]}
{"id": "C142", "title": "Gradients are central differences and treat bright and dark pictures alike", "statement": "For every picture and pixel the gradient images of a frame hold half the difference of the neighbouring brightnesses (the pixel itself replacing a missing neighbour) and the length of that gradient. They do not change if the picture gets brighter by a constant, so the same pixels are selected; a mirror image has mirrored gradients; residual weights derived from them lie in (0, 1] and are 1 exactly where the picture is flat.", "quantifier": "all pictures of any size, all pixels, all brightness shifts and scales, all selector settings and shuffles", "why_tests_cant": "needs every picture and every pixel including the border; selection depends on all gradients at once", "anchors": ["source/util/util.cpp: grad", "source/system/PreKeyFrame.cpp: PreKeyFrame", "source/util/PixelSelector.cpp: select", "source/system/BundleAdjuster.cpp: adjust"]}
{"id": "C143", "title": "A new point copies the patch of the picture around it", "statement": "Making a point at any position either marks it out of bounds, if it is nearer to the border than the residual pattern reaches, or copies direction, brightness and gradient of every pixel of the pattern; it never reads outside the picture.", "quantifier": "all cameras, residual patterns, pictures and positions", "why_tests_cant": "positions exactly at the distance of the border are easily missed, and reading one pixel outside seldom crashes", "anchors": ["source/system/ImmaturePoint.cpp: ImmaturePoint", "include/system/CameraModel.h: isOnImage"]}
{"id": "C144", "title": "A new keyframe has one candidate per selected pixel", "statement": "A keyframe made with a pixel selector starts with no optimized points and with one untraced candidate per selected pixel, in the order of selection and no more than asked for, whatever the picture.", "quantifier": "all pictures, selector settings, selector states, shuffles and residual patterns", "why_tests_cant": "needs all pictures, in particular those with strong gradients near the border", "anchors": ["source/system/KeyFrame.cpp: KeyFrame, addImmatures", "source/util/PixelSelector.cpp: select"]}
{"id": "C145", "title": "Optimized points turned into candidates and back are as before", "statement": "Turning all optimized points of a keyframe into candidates and all candidates back into optimized points keeps their positions, depths and deviations; activating all candidates of a keyframe is always possible.", "quantifier": "all keyframes with any number of points with any depths", "why_tests_cant": "needs every depth and the composition of two operations", "anchors": ["source/system/KeyFrame.cpp: activateAllImmature, deactivateAllOptimized", "include/system/OptimizedPoint.h: OptimizedPoint"]}
{"id": "C146", "title": "Frames can be made with any configured number of pyramid levels", "statement": "For every number of levels at least 1 and every picture, a frame can be made, each of its levels can be read through its interpolator, other levels are refused, and tracing only asks for levels the frame has.", "quantifier": "all pictures of any size, all numbers of levels, all distances of reprojections", "why_tests_cant": "tests use the default number of levels and large pictures", "anchors": ["internal/source/PreKeyFrameInternals.cpp: PreKeyFrameInternals, interpolator", "source/system/PreKeyFrame.cpp: PreKeyFrame", "source/system/ImmaturePoint.cpp: pointTracing", "include/util/settings.h: Settings::Pyramid"]}
{"id": "C147", "title": "A save that is killed leaves the old snapshot or the new one", "statement": "If the program is killed at any moment while it saves a snapshot, loading the directory gives the keyframes as they were saved before or as in the interrupted save, or reports an error; a keyframe that was written only in part is never loaded as a whole one.", "quantifier": "all histories of saves, all windows, every moment of the save at which the program is killed, all amounts of buffered data that have reached the disk, all orders in which the directory is listed", "why_tests_cant": "tests do not kill the program, and cannot do so at every moment with every state of the buffers", "anchors": ["source/system/serialization.cpp: KeyFrameSaver::store, SnapshotSaver::save, SnapshotLoader::load, KeyFrameLoader::load"]}
{"id": "C148", "title": "Every triangle of a triangulation has an empty circle", "statement": "For points in general position, no point is inside the circle through the corners of any triangle the triangulation lists, whatever the order in which the points are inserted and whichever way the search for the enclosing triangle goes.", "quantifier": "all lists of points in general position, all orders of insertion, all sequences of coins, all iteration orders of the sets, all triangles listed", "why_tests_cant": "tests count triangles of a few fixed sets of points and look at a picture; they do not check circles, and the order is random", "anchors": ["source/util/Triangulation.cpp: Triangulation::Triangulation, addPoint, makeDelaunay, isEdgeLegal, performFlip, triangles", "source/util/geometry.cpp: isABDelaunay, isABCDConvex"]}
{"id": "C149", "title": "The listed triangles cover the convex hull of the points", "statement": "For at least three points in general position, a position is in one of the triangles the triangulation lists exactly if it is in the convex hull of the points: dropping the triangles at the bounding vertices leaves no notch in the outline.", "quantifier": "all lists of at least three points in general position, all orders of insertion, all positions in the plane", "why_tests_cant": "a notch at the outline appears only for certain outlines relative to the bounding triangle", "anchors": ["source/util/Triangulation.cpp: isEdgeLegal, isIncidentToBoundary, triangles, Triangulation::Triangulation"]}
{"id": "C150", "title": "The triangles do not depend on the order of insertion", "statement": "For points in general position no four of which are on a circle, two constructions of the triangulation list the same triangles: three points are joined by a triangle in one exactly if they are in the other, whatever the orders of insertion, coins and tolerances.", "quantifier": "all lists of points in general position without four on a circle, all pairs of orders of insertion, coins, iteration orders and tolerances, all triples of points", "why_tests_cant": "tests do not compare runs with different random orders", "anchors": ["source/util/Triangulation.cpp: Triangulation::Triangulation, addPoint, makeDelaunay, isEdgeLegal, operator[], triangles"]}
{"id": "C151", "title": "A plain terrain reports the same depth whatever the order of insertion", "statement": "Away from the edges of the triangulation, a terrain over at least three points in general position reports a depth exactly inside the convex hull of the points; and if no four of the points are on a circle, two terrains over the same points and depths report the same depth at a position, whatever the orders of insertion, the coins and the tolerances of the two.", "quantifier": "all lists of points in general position and their depths, all pairs of orders of insertion, coins, tolerances and round limits, all positions off the edges", "why_tests_cant": "tests build each terrain once and look up few positions", "anchors": ["source/util/Terrain.cpp: Terrain::Terrain, Terrain::operator()", "source/util/Triangulation.cpp: Triangulation::Triangulation, enclosingTriangle, triangles"]}
{"id": "C152", "title": "The circle of a sector of a spherical terrain is empty", "statement": "The directions of the three rays of every sector of a spherical triangulation lie on a circle of the unit sphere, and none of the given directions lies beyond it, on the side away from the direction opposite to the optical axis: the sectors are facets of the convex hull of the directions.", "quantifier": "all lists of rays whose projections are in general position, all orders of insertion, coins and orders of the map, all sectors", "why_tests_cant": "tests look up depths on a few synthetic surfaces; they do not look at the sectors", "anchors": ["source/util/SphericalTriangulation.cpp: SphericalTriangulation::SphericalTriangulation, stereographicProject", "source/util/Triangulation.cpp: Triangulation::Triangulation"]}
{"id": "C153", "title": "Sectors of a spherical terrain around the optical axis do not overlap", "statement": "If the optical axis is in the convex cone of the given rays, the rays of every sector are independent, a direction in one open sector is in no other sector, and so what the terrain reports for a direction does not depend on the directions looked up before, as long as those were on no side of a sector. Without the axis in the cone sectors may overlap, and the axis itself may get no depth.", "quantifier": "all lists of rays around the axis with projections in general position, all orders of insertion and of the map, all directions, all histories of lookups off the sides", "why_tests_cant": "overlaps appear only for certain outlines; enclosingSector repairs them silently by erasing sectors", "anchors": ["source/util/SphericalTriangulation.cpp: SphericalTriangulation::SphericalTriangulation, enclosingSector, checkAllSectors", "source/util/geometry.cpp: isInSector", "source/util/SphericalTerrain.cpp: SphericalTerrain::operator()"]}
{"id": "C154", "title": "A spherical terrain reports the same depth whatever the order of insertion", "statement": "For rays around the optical axis with projections in general position, no four directions on a circle of the sphere, two spherical terrains of the same rays report the same for a direction that is on no side of a sector, whatever the orders of insertion, the orders of the maps of sectors and the earlier lookups off the sides.", "quantifier": "all lists of rays as described, all pairs of orders of insertion, coins, map orders (addresses), tolerances and histories, all directions off the sides", "why_tests_cant": "the map of sectors is ordered by addresses, which tests cannot vary", "anchors": ["source/util/SphericalTriangulation.cpp: SphericalTriangulation::SphericalTriangulation, enclosingSector", "source/util/SphericalTerrain.cpp: SphericalTerrain::operator()"]}
{"id": "C155", "title": "Initialization does not depend on the order of insertion", "statement": "Two initializations from the same two matched frames, with the same camera, settings and selected pixels, give the same points in the two keyframes, with the same states and depths, whatever the orders in which the key points enter the triangulations, the coins of the walks, the tolerances and the addresses that order the maps of sectors; for key points in general position, no four on a circle, with the selected pixels off the lines (planes) between two key points and, in the spherical branch, rays around the optical axis.", "quantifier": "all pairs of frames matched as described, all selections of pixels, all pairs of orders of insertion, coins, tolerances, map orders and round limits, both branches", "why_tests_cant": "the order of insertion is shuffled, and maps are ordered by addresses; a test sees one order", "anchors": ["source/system/DelaunayDsoInitializer.cpp: createKeyFrames", "source/util/Terrain.cpp: Terrain::operator()", "source/util/SphericalTerrain.cpp: SphericalTerrain::operator()", "source/util/Triangulation.cpp: Triangulation::Triangulation"]}
{"id": "C156", "title": "Dense depth pictures show the depth of every pixel", "statement": "drawDensePlainDepths gives every pixel of a three-channel picture that is clear of the edges of the terrain the colour of the depth reported there (red to green to blue between the bounds, in bytes) if the pixel is in the convex hull of the points, and leaves every other such pixel alone; it throws for pictures of another type without painting. drawDepthedFrame colours exactly the pixels with a positive depth and shows the others in gray. Both need bounds that differ: with equal bounds, a depth equal to them is undefined behaviour.", "quantifier": "all terrains over points in general position, all pictures, pixels, walks and pairs of bounds; all frames and depth maps of at least the size of the frame", "why_tests_cant": "the output is only looked at; a test would compare single pixels of one picture", "anchors": ["source/util/Terrain.cpp: Terrain::drawDensePlainDepths", "source/util/util.cpp: drawDepthedFrame, toCvVec3bDummy, depthCol"]}
{"id": "C157", "title": "The aligned ground truth does not depend on the coordinates of the ground truth", "statement": "Describing the ground truth world by other coordinates (any rotation and shift) changes neither the aligned ground truth poses nor the aligned points, nor whether there are any. Measuring it in another unit changes nothing either as long as the ground truth moves by at least 0.001 between the two first keyframes in both units, and then the ground truth pose file is the same line by line. Describing the estimated world by other coordinates gives the same aligned poses in these coordinates.", "quantifier": "all four poses used for the alignment, all ground truth poses and points, all changes of coordinates and units, all histories of frames", "why_tests_cant": "Tests align one data set in its own coordinates; a dependence on the origin, the orientation or the unit shows only when the same data are given in another system, and there are infinitely many.", "anchors": ["source/util/Sim3Aligner.cpp: Sim3Aligner, alignWorldToFrameGT, alignScale", "source/output/TrajectoryWriterGT.cpp: initialized, keyFramesMarginalized"]}
{"id": "C158", "title": "The picture of a search shows each position examined and marks the best one", "statement": "The debug picture of a search along an epipolar curve has one stroke for each position the search examined, in their order: it goes through the position, perpendicular to the curve, with the given length. The first position of least energy, and no other, is marked: by a black stroke of twice the length, three pixels thick. All other strokes are coloured from red for the least energy over green to blue for the greatest. The picture of each successful trace is defined.", "quantifier": "all lists of positions and energies, all line widths, all traces that succeed", "why_tests_cant": "A test looks at a picture of one search; wrong neighbours at the ends of the curve, ties between energies and equal energies are missed.", "anchors": ["source/system/ImmaturePoint.cpp: drawTracing, traceOn", "source/util/util.cpp: depthCol"]}
{"id": "C159", "title": "selectpix shows the images of a directory in the order of their names", "statement": "The sample program selectpix, given a directory, shows each file whose name ends in .jpg or .png exactly once, in the order of the names, with at most 2000 marked points each, and nothing else. The order in which the operating system lists the directory does not matter, nor whether the argument ends in a slash. Files that cannot be read as images are skipped, and the program finishes.", "quantifier": "all directories, all names, all images, all shuffles of the selector", "why_tests_cant": "A test runs the program on one directory; the order of the listing depends on the file system, and the effect of one image on the next shows only for particular sequences.", "anchors": ["samples/selectpix/main.cpp: main, isImage", "source/util/PixelSelector.cpp: select"]}
{"id": "C160", "title": "With fair coins, triangulating and looking up points ends with probability one", "statement": "If the coins that enclosingTriangle draws are fair and independent, then the probability that a lookup of a point inside the bounding triangle (on no line through two vertices) has found a triangle after n rounds tends to 1, exponentially in n; and so does the probability that the constructor on points in general position has returned when each of its random walks may take n rounds.", "quantifier": "all points in general position, all insertion orders, all iteration orders of the edge sets, all query points off the lines through two vertices, all numbers of rounds", "why_tests_cant": "A test draws some coins; the claim is about the share of all sequences of coins, of every length.", "anchors": ["source/util/Triangulation.cpp: Triangulation, addPoint, enclosingTriangle"]}
{"id": "C161", "title": "The picture of the initial depths shows all key points and all points of the keyframe", "statement": "When the initializer has created the first keyframes, InterpolationDrawer has a picture of the second one. It shows each matched key point as a filled disc, over these the edges of the terrain, and over these each point of the keyframe as a ring, each at its pixel. All colours tell the depths on one scale, which is given by two quantiles of the depths of the points of this keyframe and by nothing drawn before.", "quantifier": "all matches, all cameras, all selections of points, all fractions in [0,1], all earlier colour bounds", "why_tests_cant": "A test looks at one picture; that the colours do not depend on what the process drew before needs all histories.", "anchors": ["source/output/InterpolationDrawer.cpp: initialized", "source/util/util.cpp: insertDepths, setDepthColBounds", "source/system/DelaunayDsoInitializer.cpp: createKeyFrames"]}
{"id": "C162", "title": "The picture of a keyframe marks each point with a known depth", "statement": "KeyFrame::drawDepthedFrame marks each active immature point whose depth is known by a square and each optimized point by a circle, at its pixel and in the colour of its depth, and nothing else.", "quantifier": "all keyframes, all points, all colour bounds", "why_tests_cant": "A test looks at some keyframes; the claim is about all states a point can be in.", "anchors": ["source/system/KeyFrame.cpp: drawDepthedFrame"]}
{"id": "C163", "title": "Of several sectors around a direction the narrowest answers", "statement": "A spherical terrain reports a depth for a direction exactly if one of the sectors it still keeps is around the direction. If several are, the depth is that of a sector whose widest angle between two of its rays is least. Asking again in the same direction gives the same answer and changes nothing, and a lookup never removes a sector that is not around the direction.", "quantifier": "all terrains with independent rays in each sector, all directions, after any sequence of earlier lookups", "why_tests_cant": "A test sees a few directions in a few terrains; overlapping sectors appear only for special sets of points, and which one answers depends on what was looked up before.", "anchors": ["source/util/SphericalTriangulation.cpp: enclosingSector, sectorBadness", "source/util/SphericalTerrain.cpp: operator()"]}
{"id": "C164", "title": "Filling the uncovered part of a picture", "statement": "fillUncovered paints exactly those cells of 10 by 10 pixels whose direction is not covered by the hull of the rays, and leaves the rest of the picture as it was.", "quantifier": "all sets of rays, cameras and pictures", "why_tests_cant": "the claim is about every pixel of every picture", "anchors": ["source/util/SphericalTriangulation.cpp: fillUncovered"]}
{"id": "C165", "title": "RANSAC keeps its success probability", "statement": "If some set of correspondences agrees on a motion (any five different of them give a motion with at least as many inliers as the set has elements) and maxRansacIter rounds suffice by the formula of the code, then findCoarseMotion returns a motion with at least that many inliers with probability at least successProb, the samples being independent and uniform.", "quantifier": "all correspondences, cameras, settings, and all drawings of the samples with their probabilities", "why_tests_cant": "A test draws a few seeds; the claim is about the share of all drawings.", "anchors": ["source/system/StereoGeometryEstimator.cpp: findCoarseMotion"]}
{"id": "C166", "title": "Initialization selects again in proportion", "statement": "When the first two keyframes are created from spherical terrains, in each of them pixels are selected a second time. The number asked for is the number of points needed times all pixels of the first selection by those of them for which the terrain reported a depth, rounded down; the points of the keyframe are those of the second selection for which the terrain reports a depth. So if the selector finds as many pixels as asked for and the share inside the terrain does not fall, the keyframe gets at least as many points as needed.", "quantifier": "all frames, matches, cameras, selections and settings with a non-negative number of points needed", "why_tests_cant": "A test sees a few frames; the number depends on how many pixels of an arbitrary selection are inside an arbitrary terrain.", "anchors": ["source/system/DelaunayDsoInitializer.cpp: createKeyFramesDelaunay"]}
{"id": "C167", "title": "The first keyframes show the scene", "statement": "Let the matches the initializer keeps be exact images of points of a scene in two views, and the motion it finds the true one, in units of the distance between the views. Then the distances reported with the matches are those of the points seen from each view; the two keyframes have only active points with positive depths; and in the world, whose origin is the first frame, each of these points lies on a flat triangle between three of the points of the scene. So a plane that passes through neither camera is reconstructed exactly: every point lies on it, and its depth is the only one for which it does.", "quantifier": "all scenes, views, motions, matches, samples, selections and orders in which the triangulation is built", "why_tests_cant": "Tests compare a few depth maps within a tolerance; the claim composes matching, triangulation, terrain and poses for any scene.", "anchors": ["source/system/DelaunayDsoInitializer.cpp: createKeyFrames", "source/system/StereoMatcher.cpp: match"]}
{"id": "C168", "title": "Points found to be bad no longer take part", "statement": "An optimized point that was marked as an outlier or out of bounds no longer has an effect: points are activated as if it did not exist, and bundle adjustment moves poses, light transforms and other depths as if it did not exist.", "quantifier": "all windows, points, marks, budgets and solvers", "why_tests_cant": "A test would have to find a window in which a bad point makes a visible difference; the claim is that none does.", "anchors": ["source/system/DsoSystem.cpp: activateNewOptimizedPoints", "source/system/BundleAdjuster.cpp: adjust"]}
{"id": "C169", "title": "No point is lost, doubled or moved while the system runs, and the budget is kept", "statement": "Whatever frames are fed to the system: every keyframe it holds or has handed over has exactly one point, a candidate or an optimized one, for each point it was made with, at the same place in its picture. Optimized points of a keyframe stay optimized points, in their order, and points found to be bad stay bad. The keyframes held never have more than maxOptimizedPoints optimized points together, and no more than maxKeyFrames times the largest number of points a keyframe is made with. Keyframes once handed over do not change.", "quantifier": "all legal frame histories, all settings with a window of at least two keyframes, all results of tracking, tracing, bundle adjustment and reprojection, all allowed behaviours of std::sort and std::nth_element", "why_tests_cant": "It is an invariant over sessions of any length through six interacting stages; a test sees a few sessions.", "anchors": ["source/system/DsoSystem.cpp: addFrame, marginalizeFrames, activateNewOptimizedPoints", "source/system/BundleAdjuster.cpp: adjust", "source/system/KeyFrame.cpp", "include/system/KeyFrame.h"]}
{"id": "C170", "title": "New points are activated where good points are farthest", "statement": "When a new keyframe causes points to be activated, a ready candidate that is seen on the picture of the base keyframe is left out only if the budget of optimized points is used up, and then every candidate that was activated is at least as many cells of the distance map away from the good optimized points of the whole window, as they are seen in the base keyframe, as the one left out. Optimized points found to be bad do not keep candidates away.", "quantifier": "all windows of keyframes, base keyframes, reprojections, budgets and picture sizes, all allowed behaviours of std::sort and std::nth_element", "why_tests_cant": "It compares every candidate of every keyframe with every other one and with all optimized points; a test sees a few windows and one standard library.", "anchors": ["source/system/DsoSystem.cpp: activateNewOptimizedPoints", "source/util/DistanceMap.cpp: choose"]}
{"id": "C171", "title": "A run without estimation errors is reported without errors", "statement": "If the stereo initialization, the tracker and bundle adjustment return the true relative motions in every call, then every pose the system stores and every keyframe pose an observer is told is the true motion relative to the first frame, every line of the trajectory file holds the true pose of its frame, and the ground truth pose file, made from a table in other coordinates and another unit, holds the same poses: with tracking from the last keyframe the two pose files agree line by line. If the motion is a constant screw motion, the tracker is moreover started at the true pose, except on the first tracked frame after skipped frames.", "quantifier": "all settings, motions of the camera, histories of frame numbers, coordinates and units of the ground truth", "why_tests_cant": "Poses pass through several inversions and compositions on the way to tables, keyframes, observers, files and the alignment; one swapped product shows only for motions that do not commute and only in some histories.", "anchors": ["source/system/DsoSystem.cpp: addFrame, predictBaseKfToCur", "source/output/TrajectoryWriter.cpp: keyFramesMarginalized", "source/output/TrajectoryWriterGT.cpp: initialized, keyFramesMarginalized", "source/util/Sim3Aligner.cpp"]}
{"id": "C172", "title": "Only differences of frame numbers and compositions of motions matter", "statement": "Feeding the same frames under the numbers m n + c, with keyframes m times as far apart, and with all motions described in another unit of length (or by any other homomorphism), yields the same run under the new names: the same frames are returned and become keyframes, observers get the same calls in the same order, the same poses are stored, the tracker starts from the same motion, and the trajectory file has the same lines.", "quantifier": "all settings, histories of frame numbers, factors, offsets and descriptions of motions", "why_tests_cant": "It relates two whole runs for every factor and offset; a test compares a few runs, and a number used as an index or in a comparison by mistake shows only in some of them.", "anchors": ["source/system/DsoSystem.cpp: addFrame, doNeedKf, predictBaseKfToCur", "source/system/DelaunayDsoInitializer.cpp: addFrame", "source/output/TrajectoryWriter.cpp: keyFramesMarginalized"]}
{"id": "C173", "title": "A point's estimates come from every frame since its keyframe was made, used once and in order", "statement": "After any number of frames the points of a keyframe are those it was made with. A candidate has been looked for exactly once in every frame since its keyframe was made and the system was initialized, in the order of the frames. An optimized point was ready, with the estimates of all frames up to then, at a frame that became a keyframe, and bundle adjustment has worked on it exactly once at that keyframe and at each one since. A keyframe handed to the observers has the points it had when maxKeyFrames newer ones were there for the first time.", "quantifier": "all settings, histories of frames, candidate points and outcomes of tracing, activation and bundle adjustment", "why_tests_cant": "The estimates are the result of the whole history; a frame used twice, left out or used in another order changes numbers slightly without making any test fail.", "anchors": ["source/system/DsoSystem.cpp: addFrame, marginalizeFrames, activateNewOptimizedPoints", "source/system/ImmaturePoint.cpp: traceOn", "source/system/BundleAdjuster.cpp: adjust"]}
{"id": "C174", "title": "The deviation of a traced point never grows and a ready point stays ready", "statement": "While a candidate point is traced frame after frame, the deviation of its depth never grows: an attempt which would leave a larger one is refused and leaves the point as it was. Hence a point whose deviation has fallen below the threshold for activation stays below it.", "quantifier": "all points, depths, frames and sequences of attempts to trace", "why_tests_cant": "The claim is about every sequence of attempts; a test sees a few, and a refused attempt looks like any other.", "anchors": ["source/system/ImmaturePoint.cpp: ImmaturePoint::traceOn", "source/system/DelaunayDsoInitializer.cpp: initialize", "include/system/ImmaturePoint.h: ImmaturePoint::isReady"]}
{"id": "C175", "title": "When a selection of pixels returns", "statement": "A selection of pixels returns exactly if the number of points asked for, times the factor by which block sizes are adapted, is at most what the last selection found times its block area; otherwise it runs forever. With the default settings a new selector returns for every request of 1 to 568181 points and for no larger one.", "quantifier": "all images, requests and histories of selections by one selector", "why_tests_cant": "Whether a call returns depends on all former calls of the same selector; a test which does not return gives no verdict.", "anchors": ["source/util/PixelSelector.cpp: PixelSelector::select", "include/util/PixelSelector.h: PixelSelector"]}
{"id": "C176", "title": "The search for a point goes through the depths of its interval from far to near", "statement": "Tracing a point examines the places where it would be seen at certain depths: first at the upper bound of its depth interval, then at smaller and smaller ones, never below the lower bound. The depth of each candidate is the one at which the point would be seen there, so the depth found lies in the interval the point had before.", "quantifier": "all cameras, motions, rays, depth intervals and pictures", "why_tests_cant": "It is a statement about the geometry of every pair of frames; tests try a few, and a depth outside the interval looks like any other depth.", "anchors": ["source/system/ImmaturePoint.cpp: ImmaturePoint::pointsToTrace, ImmaturePoint::traceOn", "source/util/geometry.cpp: triangulate"]}
{"id": "C177", "title": "Every part of the system works with the settings the system was made with", "statement": "Whatever settings a system is made with, from the constructor or from the command-line flags, and whatever frames it is given, each value of a setting that a part of the system (cameras, pixel selector, initializer, stereo matcher, terrain, frames, keyframes and their candidates, distance map, tracker, bundle adjuster) works with is the one of these settings, and each setting that is described has an effect.", "quantifier": "all settings, all command lines, all lives of a system with any number of frames, new or continued from a snapshot", "why_tests_cant": "Tests use a few settings, mostly the default ones, for which a part made with default settings cannot be told from one made with the given ones.", "anchors": ["include/util/settings.h: Settings", "source/util/settings.cpp: Settings::getInitializerSettings, Settings::getPointTracerSettings, Settings::getFrameTrackerSettings, Settings::getBundleAdjusterSettings", "source/system/DsoSystem.cpp: DsoSystem::DsoSystem, DsoSystem::addFrame", "source/system/DelaunayDsoInitializer.cpp: DelaunayDsoInitializer::createKeyFrames", "source/system/KeyFrame.cpp: KeyFrame::KeyFrame"]}
{"id": "C178", "title": "Exchanging the two pictures inverts the estimated motion", "statement": "If the second picture is given to the stereo matcher as the first one and the first as the second, with the same matches and the same random numbers, the matcher finds the inverse motion and the same matches as inliers, with pixels and depths exchanged. This is asked when the correspondences decide between the motions of each essential matrix tried (rays are not parallel, and one motion has more inliers than the others), when the five-point solver treats both views alike, and, with averaging, when the solver started with the inverse motion finds the inverse motion; the cost averaging minimizes is the same for a motion and its inverse.", "quantifier": "all cameras, all lists of matches of any length, all random numbers, all settings, with and without averaging", "why_tests_cant": "Tests compare the estimated motion with a known one in one direction, for a few pictures; the symmetry has to hold for every set of matches and every sequence of samples.", "anchors": ["source/system/StereoGeometryEstimator.cpp: StereoGeometryEstimator::findCoarseMotion, StereoGeometryEstimator::findPreciseMotion, StereoGeometryEstimator::extractMotion, StereoGeometryEstimator::findInliersEssential, StereoGeometryEstimator::findInliersMotion, StereoGeometryEstimator::depths, ReprojectionResidual", "source/util/geometry.cpp: toEssential, triangulate", "source/system/StereoMatcher.cpp: StereoMatcher::match"]}
{"id": "C179", "title": "Tracing a point does not depend on the brightness of the pictures, but on their contrast", "statement": "If two pictures are taken in another light, so that the intensities of the first change in any way that the light transform between the pictures accounts for, and the intensities of the second all grow by a constant, tracing a point reports the same status and leaves the point in exactly the same state, on every frame of its life. If the contrast of the second picture changes by a positive factor, the same holds up to the unit of the recorded energies provided that the threshold between small and big intensity differences is changed by the same factor; such a light transform always exists and is unique. If the threshold is kept, it fails: in pictures whose intensities are within a small distance of each other no point is ever traced successfully.", "quantifier": "all environments of tracing (camera, motion, patch, pictures, settings), all points, all sequences of frames, all positive factors and all constants", "why_tests_cant": "Tests trace points in a few rendered pictures with one light; the symmetry and its failure concern all pictures, all points and all numbers of rounds of search and refinement.", "anchors": ["source/system/ImmaturePoint.cpp: ImmaturePoint::traceOn, ImmaturePoint::tracePrecise, ImmaturePoint::ImmaturePoint", "include/system/AffineLightTransform.h: AffineLightTransform::operator()", "include/util/settings.h: Settings::Intencity, Settings::PointTracer"]}
{"id": "C180", "title": "Tracking does not depend on the brightness of the pictures", "statement": "If the picture of the base frame is brighter by one constant and the tracked picture by another one, tracking finds the same motion, the light transform that belongs to the brighter pictures, and the same residuals at the same places, and it fails in one case iff it fails in the other. This starts with the pictures: every level of the pyramid of a brighter picture is brighter by the same constant, although means are rounded down. With the default settings (the light transform is not optimized and is the identity) this holds if both pictures get brighter by the same constant; if only one does, every residual of every motion is off by that constant.", "quantifier": "all pictures of at least 32 rows and columns, all constants (also negative ones), all depths, cameras, settings, starts and numbers of levels, all solvers that treat problems with the same residuals alike", "why_tests_cant": "Tests track rendered pictures in one light; equality has to hold for all pictures, all constants and all levels, including the rounding of means.", "anchors": ["source/system/FrameTracker.cpp: FrameTracker::trackFrame, FrameTracker::trackPyrLevel, PointTrackingResidual", "source/util/ImagePyramid.cpp: ImagePyramid", "include/util/util.h: boxFilterPyrDown", "source/util/util.cpp: gradNormAt", "include/system/AffineLightTransform.h: AffineLightTransform::operator()"]}
{"id": "C181", "title": "Saving what was loaded changes nothing", "statement": "A keyframe restored from a snapshot writes exactly the files the saved keyframe wrote. Saving everything that was loaded, or any part of it, back into the same directory changes no file there. Saving it into an empty directory and loading from there gives exactly what was loaded from the first directory. What is loaded does not depend on the order in which the operating system lists the directory.", "quantifier": "all histories of saves into one directory, all sizes of the pattern, all values of points and poses, all orders of listing, all parts of what was loaded", "why_tests_cant": "Tests save and load one synthetic window once; the equality has to hold after any history of saves and for any order of the directory iterator.", "anchors": ["source/system/serialization.cpp: KeyFrameSaver::store, KeyFrameLoader::load, SnapshotSaver::save, SnapshotLoader::load, PointSerializer::process", "include/system/serialization.h: DataSerializer"]}
{"id": "C182", "title": "Output directories are named after the time", "statement": "Every local time an operating system can report has a name that fits into the buffer of the program. In years of four digits it is the promised YYYYMMDD_HHMMSS, and listing the names alphabetically lists them in the order of the local times. Two runs with the same prefix have the same output directory iff their local times agree to the second; the prefix may be empty, relative or absolute, and the name of the time is always the last part.", "quantifier": "all local times with a year that fits into an int (also leap seconds), all prefixes, all values of the other flag", "why_tests_cant": "A test sees the name of the second it runs in; the size of the buffer, the order and the uniqueness have to hold for all times.", "anchors": ["source/util/util.cpp: curTimeBrief", "samples/mfov/genply/main.cpp: main"]}
{"id": "C183", "title": "The rectangle of an angle lies in the circle of the angle", "statement": "For every constructed camera and every angle whose radius is between zero and the distance of the farthest corner, the rectangle reported for the angle exists, is not larger than the picture, and is the whole picture at the farthest corner. Placed around the image center, on any level of the pyramid, it lies in the circle whose radius is reported for the angle. If the radius grows with the angle, every ray seen in the rectangle is at most that angle off the axis. If the image center is the middle of the picture, the rectangle cannot grow by a pixel in both directions without leaving the circle.", "quantifier": "all cameras from the polynomial and the pinhole constructors, all image centers (also outside the picture), all angles, all levels", "why_tests_cant": "A test checks one calibration; containment must hold for all image centers and angles, including the truncation to whole pixels.", "anchors": ["source/system/CameraModel.cpp: CameraModel::getRectByAngle, CameraModel::getImgRadiusByAngle, CameraModel::normalize, CameraModel::camPyr", "include/system/CameraModel.h: CameraModel::map"]}
{"id": "C184", "title": "Where points share a pixel, tracking uses the nearest one, whatever the order of the points", "statement": "When several known points fall into one pixel of the base keyframe, the depths that tracking is given show in that pixel the nearest of them, the one that hides the others; and the depths, on all levels, do not depend on the order in which the points are given.", "quantifier": "all lists of points in a picture of any size, all orders of them, all numbers of levels; all lists of keyframes with any points", "why_tests_cant": "A test has a handful of points, rarely two in one pixel; the claim is about all coincidences of points and all orders.", "anchors": ["source/util/DepthedImagePyramid.cpp: DepthedImagePyramid::DepthedImagePyramid", "source/system/DsoSystem.cpp: DsoSystem::projectOntoBaseKf, DsoSystem::addFrame"]}
{"id": "C185", "title": "Pictures of single sectors show the sectors and leave the terrain as it is", "statement": "Checking a direction of a spherical terrain marks it with a dot exactly if more than one sector is around it; the sides of these sectors are drawn once per process, by the first check that marks something; around the optical axis only directions on sides are marked. Drawing one sector on a picture puts a dot at each position of a grid of ten pixels that the sector is around, in the colour of the depth of the terrain there, no dot elsewhere, and does not change what the terrain reports.", "quantifier": "all spherical terrains, all cameras, directions, histories of checks, picture sizes and depth bounds", "why_tests_cant": "A test looks at a few directions of one terrain; which directions are in several sectors, and what a drawing removes, depends on all positions of the grid and all sectors.", "anchors": ["source/util/SphericalTriangulation.cpp: SphericalTriangulation::checkAllSectors", "source/util/SphericalTerrain.cpp: SphericalTerrain::checkAllSectors, SphericalTerrain::drawDenseTriangle"]}
{"id": "C186", "title": "A keyframe of the same picture in another light has the same candidates", "statement": "If every brightness v of a picture becomes k v + b, with k not 0, and the gradient thresholds are multiplied by |k|, a new keyframe has the same candidate pixels in the same order and in the same states, the selector is left in the same state, and failures are the same. The patches look in the same directions, their brightnesses follow the picture, their gradients are k times as steep with the same directions, turned around in a negative. In a picture that is only brighter or darker, or a negative, this holds with unchanged settings. With unchanged settings and blocks more contrast never loses a candidate of a layer; less contrast may.", "quantifier": "all pictures, all k other than 0 and all b, all cameras, patterns, settings and states of the selector, all shuffles, numbers of points", "why_tests_cant": "A test compares a few pictures; that every pixel, threshold comparison and maximum follows the light is a statement about all pictures.", "anchors": ["source/system/KeyFrame.cpp: KeyFrame::KeyFrame, KeyFrame::addImmatures, KeyFrame::selectPointsDenser", "source/system/ImmaturePoint.cpp: ImmaturePoint::ImmaturePoint", "source/util/PixelSelector.cpp: PixelSelector::select", "source/util/util.cpp: grad"]}
{"id": "C187", "title": "The flags for depth colours fix the shares of depths drawn red and blue", "statement": "The flags red_depths_part and blue_depths_part accept exactly the numbers from 0 to 1. If depths are drawn with the bounds set from them and the bounds differ, at least the share red_depths_part of them is drawn red and at most the share blue_depths_part is not drawn completely blue; for different depths neither share is missed by more than one depth. At least one depth is red and one is blue, also with red_depths_part 0. If the flags put the bounds in the wrong order, every depth is red or blue.", "quantifier": "all values of the flags, all lists of depths, all earlier bounds", "why_tests_cant": "A test draws a few depths; that truncation and clamping of the indices miss the shares by at most one depth is a statement about all numbers of depths and all shares.", "anchors": ["source/util/util.cpp: validateDepthsPart, setDepthColBounds, depthCol", "source/output/InterpolationDrawer.cpp: InterpolationDrawer::initialized"]}
{"id": "C188", "title": "Terrains and the first keyframes do not depend on the unit of length", "statement": "If the depths of the points of a terrain are given in another unit of length, the terrain is built or fails alike, has the same triangles, finds depths for the same directions, whatever was looked up before, and reports the same depths in the new unit. So the initializer, given the depths of the matched key points in another unit (one for each frame), ends alike and creates keyframes with the same points in the same states and with the same depths in these units, for spherical and for plain triangulations.", "quantifier": "all points and depths, all units, all orders of insertion, tolerances, lookups and coins; sectors with independent rays for spherical triangulations, key points in general position for plain ones", "why_tests_cant": "The scale of a monocular reconstruction is arbitrary, so a test with one scale cannot show that no step compares depths with a fixed length; the history of lookups, which removes sectors, matters too.", "anchors": ["source/util/Terrain.cpp: Terrain", "source/util/SphericalTriangulation.cpp: SphericalTriangulation, enclosingSector", "source/util/SphericalTerrain.cpp: SphericalTerrain", "source/system/DelaunayDsoInitializer.cpp: DelaunayDsoInitializer::createKeyFrames"]}
{"id": "C189", "title": "Pictures of depths do not depend on the unit of length", "statement": "If all depths and the bounds for colours are given in another unit of length, every picture of depths is the same: the colours of single depths, the dense picture of a plain terrain, the picture of a frame with known depths and the picture of a keyframe with its candidates and optimized points. Where the bounds are set from the depths drawn, as after initialization, the picture is the same without changing anything but the depths, whatever the bounds were before, and the bounds are afterwards in the new unit.", "quantifier": "all depths, bounds, points, pictures, flags and units of length", "why_tests_cant": "A test draws with one scale; that no colour depends on an absolute length is a statement about all depths and all units.", "anchors": ["source/util/util.cpp: depthCol, setDepthColBounds, insertDepths, drawDepthedFrame", "source/output/InterpolationDrawer.cpp: InterpolationDrawer::initialized", "source/system/KeyFrame.cpp: KeyFrame::drawDepthedFrame", "source/util/Terrain.cpp: Terrain::drawDensePlainDepths"]}
{"id": "C190", "title": "Triangulations do not depend on the origin and the unit of the coordinates", "statement": "If all points are given in coordinates with another origin and another unit, the triangulation is the same: the same edges and triangles between the same points with the same numbers, or the same failure. Looking up a point in the new coordinates finds the same triangle, and a terrain over the points reports the same depth at the same place.", "quantifier": "all lists of points, origins, units, orders of insertion, tolerances, iteration orders of sets, coins and lookups; for the reported depths all points in general position", "why_tests_cant": "The tolerances are relative to the extent of the points and the bounding triangle is placed around them; that nothing else depends on absolute coordinates is a statement about all points and all coordinate systems.", "anchors": ["source/util/Triangulation.cpp: Triangulation, addPoint, enclosingTriangle", "source/util/geometry.cpp: isSameSide, isABDelaunay, doesABcontain, areEqual", "source/util/Terrain.cpp: Terrain"]}
{"id": "C191", "title": "A camera sees the same all round its axis", "statement": "If a ray is turned about the axis of the camera, or reflected in a plane through the axis, its position on the picture turns by the same angle about the center of the picture, or is reflected in the same way; if a position is turned, its ray turns; and the velocity of a position that the Jacobian gives for a moving ray turns with the ray and its movement.", "quantifier": "all cameras, turns and reflections, rays, positions and directions of movement, also on the axis", "why_tests_cant": "No finite set of rays and angles shows that no direction is preferred.", "anchors": ["include/system/CameraModel.h: map, unmap", "source/system/CameraModel.cpp: diffMap"]}
{"id": "C192", "title": "Tracing does not depend on how the camera is mounted about its axis", "statement": "If the camera is mounted turned about its axis, or sees everything in a mirror, so that rays, pictures, gradients and the motion between the frames are turned alike, then tracing a point ends in the same way: with the same status, depth, interval of depths, deviation and quality.", "quantifier": "all turns and reflections, cameras that turn with them, pictures, patches, motions, settings, points in any state", "why_tests_cant": "The search along the epipolar curve, the energies and the refinement work with positions on the picture; that none of them prefers a direction is a statement about all pictures and all turns.", "anchors": ["source/system/ImmaturePoint.cpp: pointsToTrace, tracePrecise, traceOn", "source/util/geometry.cpp: intersectOnSphere, triangulate, approxOnCurve"]}
{"id": "C193", "title": "Tracing does not depend on how the camera turns about its axis between two pictures", "statement": "If the camera is turned about its axis after the first picture, so that the second picture, its rays and the motion are turned, then tracing a point ends in the same way as without the turn: with the same status, depth, interval of depths and deviation.", "quantifier": "all turns and reflections of either picture, pictures, patches, motions, settings, points in any state", "why_tests_cant": "That the expected error, the search and the refinement do not prefer a direction of the picture is a statement about all pictures and all turns.", "anchors": ["source/system/ImmaturePoint.cpp: estVariance, traceOn"]}
{"id": "C194", "title": "The log tells what came of tracing", "statement": "After every frame the log says how many candidates were traced successfully on it, how many are good enough to be optimized, how many have been traced 0, 1, ..., 7 times, and how many were traced last on each pyramid level. Counting is safe for candidates with any history. The number of successes is by how much the numbers of traces of all candidates together have grown.", "quantifier": "all windows of candidates with any history, frames, settings and numbers of pyramid levels", "why_tests_cant": "The counts are array elements chosen by members that any earlier trace, initialization or load may have set; a test sees a few histories.", "anchors": ["source/system/DsoSystem.cpp: addFrame", "source/system/ImmaturePoint.cpp: traceOn, isReady"]}
{"id": "C195", "title": "Arrays, statistics and light transforms that are printed can be read", "statement": "The counts of tracing in the log, the file written by stat_epipolar and printed light transforms can be read word by word. The lines with counts have one word for each count, in order. When stat_epipolar says that all is done, the file named has nine numbers for each record, in the documented order of columns, and the records in the order of frames, whatever the schedule of the workers. A printed light transform has its two parameters and the coefficients a and b such that it maps an intensity x to ax + b.", "quantifier": "all arrays, records, counts, transforms, texts of single numbers without blanks, schedules and former contents of the file", "why_tests_cant": "That no separator is missing or doubled for any sizes and contents, and what happens if the file cannot be opened, is not settled by looking at some files.", "anchors": ["include/util/util.h: outputArray, outputArrayUndivided", "include/system/AffineLightTransform.h: operator<<", "samples/mfov/stat/stat_epipolar/main.cpp: collectEpipolarStat, EpiErr", "source/system/DsoSystem.cpp: addFrame"]}
{"id": "C196", "title": "Tracing whole windows on sequences of frames does not depend on unit of length and light", "statement": "If the candidates of all keyframes are traced on any sequence of frames, then in another unit of length, or if the pictures are taken in another light that the light transforms account for, every report in the log is the same, and the candidates at the end differ only in the unit of their depths, or of their recorded energies.", "quantifier": "all windows of candidates in any state, sequences of frames, units of length, lights (with any offset for each frame), settings", "why_tests_cant": "An invariance under all units and lights along all sequences of frames, for any number of candidates.", "anchors": ["source/system/DsoSystem.cpp: addFrame", "source/system/ImmaturePoint.cpp: traceOn"]}
{"id": "C197", "title": "Candidates are traced independently of each other", "statement": "If the candidates of the window are traced on a frame in another order, each becomes the same and the counts in the log are the same. The candidates of different keyframes can be traced separately: what they become is the same, the counts add up, and all can be traced if and only if each group can. On any sequence of frames each candidate becomes what it becomes if it is the only one.", "quantifier": "all windows of candidates in any state, orders and groupings of them, frames, sequences of frames, settings", "why_tests_cant": "Statements on all orders and groupings of arbitrarily many candidates along all sequences of frames.", "anchors": ["source/system/DsoSystem.cpp: addFrame", "source/system/ImmaturePoint.cpp: traceOn"]}
{"id": "C198", "title": "Candidates restored from a snapshot are traced as if the program had not been interrupted", "statement": "If a candidate is saved and loaded, then on any further frames all outcomes of tracing it are the same as without the interruption, and so are its depth interval, depth, quality, energy, deviation and state at the end; and a candidate counts as traced after loading if and only if it did before.", "quantifier": "all candidates with any history, all sequences of further frames, settings", "why_tests_cant": "The state of a candidate depends on its whole history, and a difference may show only many frames later.", "anchors": ["source/system/ImmaturePoint.cpp: ImmaturePoint, traceOn", "source/system/serialization.cpp: PointSerializer::process"]}
{"id": "C199", "title": "A resumed system goes on as the uninterrupted one would", "statement": "If a system is saved and a new one is constructed from the snapshot, then feeding the same later frames to the new system has the same observable effects as feeding them to the old one: the same frames are returned, the same keyframes with the same poses and tracked frames are held, the same poses are reported for the new frames and for the frames of the saved window, observers get the same calls from then on, and the motion predicted for the next frame is the same.", "quantifier": "all settings, all legal histories before the snapshot, all legal frame sequences after it, and all answers of the tracker and of bundle adjustment", "why_tests_cant": "A test can interrupt a run at a few places; the claim is about every point of interruption and every continuation.", "anchors": ["source/system/DsoSystem.cpp: DsoSystem::DsoSystem (from snapshot), addFrame, predictBaseKfToCur, marginalizeFrames", "include/system/DsoSystem.h: DsoSystem"]}
