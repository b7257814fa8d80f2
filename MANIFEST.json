{
 "claims": [
  {
   "property": "C01",
   "status": "proved",
   "theorems": [
    "Mdso.Ply.C01_header_count_matches",
    "Mdso.Ply.C01_overflow_is_ub"
   ],
   "note": ""
  },
  {
   "property": "C02",
   "status": "proved",
   "theorems": [
    "Mdso.Ply.C02_append_only"
   ],
   "note": ""
  },
  {
   "property": "C03",
   "status": "proved",
   "theorems": [
    "Mdso.Ply.C03_declares_at_most_present",
    "Mdso.Ply.C03_torn_append",
    "Mdso.Ply.C03_torn_update_overdeclares"
   ],
   "note": "A stop inside updatePointCount can over-declare (witness proved); the property is about call boundaries."
  },
  {
   "property": "C04",
   "status": "proved",
   "theorems": [
    "Mdso.Ply.C04_prints_finite_points",
    "Mdso.Ply.C04_missing_colors_ub"
   ],
   "note": ""
  },
  {
   "property": "C05",
   "status": "proved",
   "theorems": [
    "Mdso.Dso.C05_abort_iff",
    "Mdso.Dso.C05_run_abort",
    "Mdso.Dso.C05_legal_succeeds",
    "Mdso.Dso.C05_int_max_ub"
   ],
   "note": ""
  },
  {
   "property": "C06",
   "status": "proved",
   "theorems": [
    "Mdso.Dso.C06_initialization"
   ],
   "note": ""
  },
  {
   "property": "C07",
   "status": "proved",
   "theorems": [
    "Mdso.Dso.C07_keyframe_iff",
    "Mdso.Dso.C07_spacing",
    "Mdso.Dso.C07_zero_shift_ub"
   ],
   "note": ""
  },
  {
   "property": "C08",
   "status": "proved",
   "theorems": [
    "Mdso.Dso.C08_window",
    "Mdso.Dso.C08_window_one_ub",
    "Mdso.Dso.C08_window_one_lbo_ub"
   ],
   "note": ""
  },
  {
   "property": "C09",
   "status": "proved",
   "theorems": [
    "Mdso.Dso.C09_handed_over_once"
   ],
   "note": "For settings with a window of at least two keyframes and a non-zero keyframe distance; the other settings are undefined behaviour after the first tracked frame or keyframe (C07_zero_shift_ub, C08_window_one_ub)."
  },
  {
   "property": "C10",
   "status": "proved",
   "theorems": [
    "Mdso.Dso.C10_partition",
    "Mdso.Dso.C10_dropped_without_choosing"
   ],
   "note": ""
  },
  {
   "property": "C100",
   "status": "partial",
   "theorems": [
    "Mdso.BA.C100_partial",
    "Mdso.BA.C100_addresses_violated"
   ],
   "note": "Holds for two keyframes. With three the keyframe whose points are marked (and whose distance to the first one is fixed) is the one with the lowest address."
  },
  {
   "property": "C101",
   "status": "partial",
   "theorems": [
    "Mdso.BA.C101_defined",
    "Mdso.BA.C101_partial",
    "Mdso.BA.C101_border_violated"
   ],
   "note": "Exact condition. isOnImage admits positions up to and including size - border, so at the right and lower border the pattern leaves the gradient picture."
  },
  {
   "property": "C102",
   "status": "proved",
   "theorems": [
    "Mdso.BA.C102_descent",
    "Mdso.BA.C102_exact"
   ],
   "note": "Relative to IsSolver (monotonic steps, the default of Ceres)."
  },
  {
   "property": "C103",
   "status": "partial",
   "theorems": [
    "Mdso.Session.C103_base",
    "Mdso.Session.C103_last_partial",
    "Mdso.Session.C103_dropped_violated"
   ],
   "note": "Exact condition for the last frame: it is dropped if no more keyframes are chosen and it is a multiple of shiftBetweenKeyFrames away from the newest keyframe."
  },
  {
   "property": "C104",
   "status": "partial",
   "theorems": [
    "Mdso.Session.C104_calls",
    "Mdso.Session.C104_same_base_partial",
    "Mdso.Session.C104_newest_partial",
    "Mdso.Session.C104_new_keyframe_violated"
   ],
   "note": "Holds unless the base keyframe changed since the frame before; the start is then the relation to the previous base keyframe."
  },
  {
   "property": "C105",
   "status": "partial",
   "theorems": [
    "Mdso.Session.C105_same_base_partial",
    "Mdso.Session.C105_newest_partial",
    "Mdso.Session.C105_after_keyframe_violated"
   ],
   "note": "Holds unless a keyframe was added since the frame was tracked."
  },
  {
   "property": "C106",
   "status": "partial",
   "theorems": [
    "Mdso.Session.C106_new_partial",
    "Mdso.Session.C106_resumed_partial",
    "Mdso.Session.C106_resumed_violated",
    "Mdso.Session.C106_resumed_example_violated"
   ],
   "note": "Holds for new systems, and for resumed ones after the first keyframe."
  },
  {
   "property": "C107",
   "status": "proved",
   "theorems": [
    "Mdso.Drawers.C107_residuals",
    "Mdso.Drawers.C107_finest",
    "Mdso.Drawers.C107_before"
   ],
   "note": "The drawer must have the tracker's cameras and number of levels, the frame at least as many levels (the default is 6, see C95); colours before rounding to bytes."
  },
  {
   "property": "C108",
   "status": "proved",
   "theorems": [
    "Mdso.Drawers.C108_files",
    "Mdso.Drawers.C108_defined"
   ],
   "note": "Colours before rounding to bytes; the arrangement of the levels on the file is C54."
  },
  {
   "property": "C109",
   "status": "partial",
   "theorems": [
    "Mdso.Stat.C109_interleaving",
    "Mdso.Stat.C109_schedule",
    "Mdso.Stat.C109_noise",
    "Mdso.Stat.C109_selector",
    "Mdso.Stat.C109_split_partial",
    "Mdso.Stat.C109_split_violated"
   ],
   "note": "For given ranges every interleaving gives the same file. Independence of the ranges holds with exact motions if the pixel selection does not depend on earlier frames; otherwise it is violated, since generator and pixel selector are started afresh for every range."
  },
  {
   "property": "C11",
   "status": "proved",
   "theorems": [
    "Mdso.Dso.C11_protocol",
    "Mdso.Dso.C11_one_call"
   ],
   "note": ""
  },
  {
   "property": "C110",
   "status": "partial",
   "theorems": [
    "Mdso.Stat.C110_partial",
    "Mdso.Stat.C110_short_violated",
    "Mdso.Stat.C110_empty_violated"
   ],
   "note": "Holds if the list of poses is long enough; pixel selection must end (C26)."
  },
  {
   "property": "C111",
   "status": "partial",
   "theorems": [
    "Mdso.Reader.C111_distinct",
    "Mdso.Reader.C111_four_digits",
    "Mdso.Reader.C111_slash",
    "Mdso.Reader.C111_fits_partial",
    "Mdso.Reader.C111_long_violated"
   ],
   "note": "Names fit into the buffers for directories of at most 221 characters; beyond 236 the constructor always writes past its buffer."
  },
  {
   "property": "C112",
   "status": "partial",
   "theorems": [
    "Mdso.Reader.C112_depths_partial",
    "Mdso.Reader.C112_short_violated",
    "Mdso.Reader.C112_missing",
    "Mdso.Reader.C112_frame"
   ],
   "note": "A file with fewer numbers than pixels is not reported."
  },
  {
   "property": "C113",
   "status": "partial",
   "theorems": [
    "Mdso.Reader.C113_omni_partial",
    "Mdso.Reader.C113_linear_violated",
    "Mdso.Reader.C113_pinhole_partial",
    "Mdso.Reader.C113_matrix_violated",
    "Mdso.Reader.C113_short_violated",
    "Mdso.Reader.C113_reports"
   ],
   "note": "Proved for a second coefficient 0; for any other, all pixels but the center get a wrong direction. A matrix after \"K =\" is not read, and incomplete lines are not refused."
  },
  {
   "property": "C114",
   "status": "proved",
   "theorems": [
    "Mdso.GenPly.C114_points"
   ],
   "note": "For cameras that give every pixel a ray other than zero."
  },
  {
   "property": "C115",
   "status": "partial",
   "theorems": [
    "Mdso.GenPly.C115_step",
    "Mdso.GenPly.C115_budget_partial",
    "Mdso.GenPly.C115_budget_violated"
   ],
   "note": "The grid is the finest one with at most one point per cell on average; the bound holds if the step divides width and height, a bound four times as large if the step is at most the width and the height."
  },
  {
   "property": "C116",
   "status": "partial",
   "theorems": [
    "Mdso.GenPly.C116_defined_partial",
    "Mdso.GenPly.C116_beyond_violated",
    "Mdso.GenPly.C116_zero_violated"
   ],
   "note": "Ends normally if all frames of the range have poses and complete files."
  },
  {
   "property": "C117",
   "status": "proved",
   "theorems": [
    "Mdso.GenPly.C117_cloud",
    "Mdso.GenPly.C117_written"
   ],
   "note": "Poses are rotations with translations."
  },
  {
   "property": "C118",
   "status": "proved",
   "theorems": [
    "Mdso.DebugImage.C118_panels",
    "Mdso.DebugImage.C118_defined"
   ],
   "note": "Poses of keyframes are rotations with translations; which points are reported is C91."
  },
  {
   "property": "C119",
   "status": "partial",
   "theorems": [
    "Mdso.DebugImage.C119_size_partial",
    "Mdso.DebugImage.C119_size_violated"
   ],
   "note": "Holds once there are a keyframe and a frame; before that the picture has the size of the camera."
  },
  {
   "property": "C12",
   "status": "partial",
   "theorems": [
    "Mdso.Traj.C12_complete_partial",
    "Mdso.Traj.C12_incomplete_violated"
   ],
   "note": "Holds if the (undefined) conversion of infinity to int gives a value above all frame numbers; violated in every life if it gives INT_MIN."
  },
  {
   "property": "C120",
   "status": "partial",
   "theorems": [
    "Mdso.Tri.C120_once",
    "Mdso.Tri.C120_curved_violated",
    "Mdso.Tri.C120_spherical"
   ],
   "note": "Holds for both straight drawings and for sectors; the curved drawing draws every edge exactly twice."
  },
  {
   "property": "C121",
   "status": "partial",
   "theorems": [
    "Mdso.Tri.C121_inside_partial",
    "Mdso.Tri.C121_defined",
    "Mdso.Tri.C121_outside_violated",
    "Mdso.Tri.C121_flat_violated"
   ],
   "note": "Holds for points as wide as high and a padding below 1/2; width and height are exchanged in the scales."
  },
  {
   "property": "C122",
   "status": "partial",
   "theorems": [
    "Mdso.Tri.C122_pixel_partial",
    "Mdso.Tri.C122_pixel_violated"
   ],
   "note": "At most one pixel off."
  },
  {
   "property": "C123",
   "status": "partial",
   "theorems": [
    "Mdso.Tri.C123_arc_partial",
    "Mdso.Tri.C123_opposite_violated"
   ],
   "note": "Holds for rays that are not opposite to each other; over the reals."
  },
  {
   "property": "C124",
   "status": "partial",
   "theorems": [
    "Mdso.Tri.C124_hull_partial",
    "Mdso.Tri.C124_half_space",
    "Mdso.Tri.C124_hull_violated"
   ],
   "note": "Rays in the hull of three independent rays are found; so are all rays at an angle of at most 90 degrees to one of the rays, because triples of equal rays are tested."
  },
  {
   "property": "C125",
   "status": "partial",
   "theorems": [
    "Mdso.Cam.C125_jacobian_partial",
    "Mdso.Cam.C125_position",
    "Mdso.Cam.C125_axis_violated"
   ],
   "note": "Proved for all rays off the axis of the camera. On the axis the position is right but the derivatives are not numbers (0 times infinity in the square root), although map can be differentiable there."
  },
  {
   "property": "C126",
   "status": "partial",
   "theorems": [
    "Mdso.Cam.C126_one_pixel_partial",
    "Mdso.Cam.C126_axis_violated"
   ],
   "note": "Proved for every sweep and every camera with a mapping polynomial of degree at least 1. Violated when the curve passes through the axis of the camera exactly at an examined position: the step is not a number there and the sweep ends, whatever is left of the curve."
  },
  {
   "property": "C127",
   "status": "partial",
   "theorems": [
    "Mdso.Stereo.C127_displacement_partial",
    "Mdso.Stereo.C127_exact",
    "Mdso.Stereo.C127_epipole_violated"
   ],
   "note": "Proved for all matches that are not close to an epipole (squared length of the epipolar normal at least 1e-4). Close to an epipole the error is zero however far the match is from the constraint; a witness is 5 pixels off, four times the default threshold."
  },
  {
   "property": "C128",
   "status": "proved",
   "theorems": [
    "Mdso.Stereo.C128_descent",
    "Mdso.Stereo.C128_keeps"
   ],
   "note": "Ceres is a parameter, assumed not to increase the cost of the problem it is given; arithmetic over the reals."
  },
  {
   "property": "C129",
   "status": "partial",
   "theorems": [
    "Mdso.Session.C129_chain_partial",
    "Mdso.Session.C129_chain_violated",
    "Mdso.Session.C129_adjusted"
   ],
   "note": "Without bundle adjustment the multiplier is always right; the offset is right exactly if the base keyframe's multiplier is one or the resulting offset vanishes (the operator of C36 is wrong). Three tracked keyframes suffice for a violation."
  },
  {
   "property": "C13",
   "status": "partial",
   "theorems": [
    "Mdso.Traj.C13_increasing_partial",
    "Mdso.Traj.C13_unordered_violated"
   ],
   "note": "Holds when tracking from the newest keyframe or with a window of three or more keyframes; violated with a window of two when tracking from the last keyframe but one."
  },
  {
   "property": "C130",
   "status": "partial",
   "theorems": [
    "Mdso.GenPlyRun.C130_appended_partial",
    "Mdso.GenPlyRun.C130_each_once_partial",
    "Mdso.GenPlyRun.C130_rerun_violated",
    "Mdso.GenPlyRun.C130_lost_violated"
   ],
   "note": "Proved: the lines of the writers (C12-C14) are appended to what was there; from empty files each frame once. Violated: (1) a second run into the same directory leaves every line twice (the directory is new for each run only with use_time_for_output); (2) with write_files=false and no such directory, everything written before the snapshot at the end is lost."
  },
  {
   "property": "C131",
   "status": "partial",
   "theorems": [
    "Mdso.GenPlyRun.C131_unreadable_violated",
    "Mdso.GenPlyRun.C131_arguments_partial",
    "Mdso.GenPlyRun.C131_arguments_violated",
    "Mdso.GenPlyRun.C131_start"
   ],
   "note": "Exactly the lines of marginalized keyframes are kept; no frame of a keyframe in the window is on the disk and no snapshot is written. args.txt is complete after a run that ends normally; after any fault it is empty (its stream is only flushed by its destructor)."
  },
  {
   "property": "C132",
   "status": "proved",
   "theorems": [
    "Mdso.GenPlyRun.C132_pictures"
   ],
   "note": "What the pictures show is the subject of C107, C108, C118, C119."
  },
  {
   "property": "C133",
   "status": "partial",
   "theorems": [
    "Mdso.GenPlyRun.C133_untouched_partial",
    "Mdso.GenPlyRun.C133_snapshot_violated"
   ],
   "note": "Proved: nothing but the pose files, args.txt and the snapshot directory is touched, however the run ends. Violated: every run that gets to its end makes the output directory and writes a snapshot (and then the remaining poses) into it."
  },
  {
   "property": "C134",
   "status": "proved",
   "theorems": [
    "Mdso.Stat.C134_errors",
    "Mdso.Stat.C134_exact"
   ],
   "note": "Real arithmetic; selection, tracing, ground-truth depths and the perturbation are parameters."
  },
  {
   "property": "C135",
   "status": "proved",
   "theorems": [
    "Mdso.Num.C135_exact",
    "Mdso.Num.C135_snapshot"
   ],
   "note": "Decimal printing and reading are modelled as correctly rounded (as in glibc); digits, not characters. The sign of zero is not kept apart."
  },
  {
   "property": "C136",
   "status": "partial",
   "theorems": [
    "Mdso.Num.C136_restored_partial",
    "Mdso.Num.C136_within",
    "Mdso.Num.C136_digits_violated",
    "Mdso.Num.C136_infinite_violated"
   ],
   "note": "Restored if the bounds have at most six significant digits; otherwise off by up to five millionths (violated), and infinite or NaN bounds are read as 0 and the old upper bound."
  },
  {
   "property": "C137",
   "status": "partial",
   "theorems": [
    "Mdso.Num.C137_within_partial",
    "Mdso.Num.C137_same_line_violated"
   ],
   "note": "Within five millionths of each number; violated beyond: streams keep the default of six digits."
  },
  {
   "property": "C138",
   "status": "partial",
   "theorems": [
    "Mdso.GenPlyRun.C138_snapshot_partial",
    "Mdso.GenPlyRun.C138_stale_violated"
   ],
   "note": "All files of the window are there; violated for other files: those of an earlier run stay."
  },
  {
   "property": "C139",
   "status": "partial",
   "theorems": [
    "Mdso.Sym.C139_same_scene",
    "Mdso.Sym.C139_error",
    "Mdso.Sym.C139_cost",
    "Mdso.Sym.C139_adjust_partial",
    "Mdso.Sym.C139_bounds_violated"
   ],
   "note": "The photometric error, the observations used, the residual blocks and the cost are the same in both descriptions, for all scenes. The result of adjust is the old one described anew if Ceres treats the two problems alike. Missing: that it does. The bounds on depths and light transforms are numbers of the settings, the same in both descriptions (C139_bounds_violated), so where a bound is active the results differ; and the tangent vectors of the sphere of the second keyframe are chosen by coordinates (see C52)."
  },
  {
   "property": "C14",
   "status": "partial",
   "theorems": [
    "Mdso.Traj.C14_lines_match_partial",
    "Mdso.Traj.C14_mismatch_violated",
    "Mdso.Traj.C14_int_min_violated"
   ],
   "note": "Holds when tracking from the newest keyframe (at the end of life under the same condition as C12); violated otherwise."
  },
  {
   "property": "C140",
   "status": "partial",
   "theorems": [
    "Mdso.Sym.C140_projection",
    "Mdso.Sym.C140_pyramid",
    "Mdso.Sym.C140_cost",
    "Mdso.Sym.C140_tracking_partial",
    "Mdso.Sym.C140_solver_exists"
   ],
   "note": "Projection and pyramid: proved without conditions. Tracking: for solvers that treat a problem and the same problem in another unit alike; for every solver there is one that does so (C140_solver_exists). Missing: that Ceres is one (its termination tests on the size of a step are not free of units)."
  },
  {
   "property": "C141",
   "status": "proved",
   "theorems": [
    "Mdso.Sym.C141_trace",
    "Mdso.Sym.C141_life",
    "Mdso.Sym.C141_ready",
    "Mdso.Sym.C141_camera",
    "Mdso.Sym.C141_triangulate"
   ],
   "note": "Over the reals; what Eigen returns for rays without a unique triangulation is assumed to scale as well (it solves a linear system whose right-hand side is scaled)."
  },
  {
   "property": "C142",
   "status": "proved",
   "theorems": [
    "Mdso.Frame.C142_gradients",
    "Mdso.Frame.C142_range",
    "Mdso.Frame.C142_relit",
    "Mdso.Frame.C142_mirror",
    "Mdso.Frame.C142_tracking",
    "Mdso.Frame.C142_selection",
    "Mdso.Frame.C142_weight"
   ],
   "note": "Over the reals; the picture is gray. Selection is the verified selector for any fuel and shuffle."
  },
  {
   "property": "C143",
   "status": "partial",
   "theorems": [
    "Mdso.Frame.C143_patch_partial",
    "Mdso.Frame.C143_far_side_violated"
   ],
   "note": "Violated: a point exactly the height of the pattern away from the right or lower side is accepted and reads one pixel outside. Proved for all other positions."
  },
  {
   "property": "C144",
   "status": "partial",
   "theorems": [
    "Mdso.Frame.C144_points_partial",
    "Mdso.Frame.C144_again",
    "Mdso.Frame.C144_selected_violated"
   ],
   "note": "Violated: the selector may return such a pixel, and making the keyframe then reads outside the picture. Proved: order, number and state of the points whenever the keyframe is made, that it is made if the pixels keep the border, and that choosing the points again gives what making the keyframe anew gives."
  },
  {
   "property": "C145",
   "status": "partial",
   "theorems": [
    "Mdso.Frame.C145_roundtrip_partial",
    "Mdso.Frame.C145_activate_partial",
    "Mdso.Frame.C145_deviation_violated",
    "Mdso.Frame.C145_untraced_violated"
   ],
   "note": "Positions and depths survive. Violated: deviations become infinite; activating untraced candidates reads a depth never set."
  },
  {
   "property": "C146",
   "status": "partial",
   "theorems": [
    "Mdso.Frame.C146_levels_partial",
    "Mdso.Frame.C146_tracing_partial",
    "Mdso.Frame.C146_many_levels_violated",
    "Mdso.Frame.C146_small_picture_violated",
    "Mdso.Frame.C146_tracing_violated"
   ],
   "note": "Proved for 1 to 8 levels and pictures of at least 2^(levels-1) pixels a side, and for tracing with at most six levels. Violated outside."
  },
  {
   "property": "C147",
   "status": "partial",
   "theorems": [
    "Mdso.Snap.C147_complete",
    "Mdso.Snap.C147_whole_keyframes_partial",
    "Mdso.Snap.C147_mixture_violated",
    "Mdso.Snap.C147_missing_violated",
    "Mdso.Snap.C147_lost_violated"
   ],
   "note": "Proved: whatever is loaded successfully is what a complete save of some first keyframes of the window would have left. Violated: after a kill between two keyframes a mixture of both saves is loaded (or part of a first save) without an error; after a kill within a keyframe the old snapshot is lost and loading uses indeterminate values. That the buffer of kf.txt runs full within its very last number is left out."
  },
  {
   "property": "C148",
   "status": "proved",
   "theorems": [
    "Mdso.Tri.C148_empty_circles"
   ],
   "note": "Whenever the constructor returns (that it can is C86); exact arithmetic."
  },
  {
   "property": "C149",
   "status": "proved",
   "theorems": [
    "Mdso.Tri.C149_covers_hull"
   ],
   "note": "Whenever the constructor returns; the convex hull is the intersection of the half planes that contain the points."
  },
  {
   "property": "C15",
   "status": "proved",
   "theorems": [
    "Mdso.Traj.C15_append_only",
    "Mdso.Traj.C15_exact_prefix"
   ],
   "note": ""
  },
  {
   "property": "C150",
   "status": "proved",
   "theorems": [
    "Mdso.Tri.C150_order_irrelevant"
   ],
   "note": "Points are identified by their index in the list, through operator[]."
  },
  {
   "property": "C151",
   "status": "proved",
   "theorems": [
    "Mdso.Tri.C151_where",
    "Mdso.Tri.C151_same_depth"
   ],
   "note": "For lookups that end (C48, C86 say when); exact arithmetic."
  },
  {
   "property": "C152",
   "status": "proved",
   "theorems": [
    "Mdso.Tri.C152_empty_caps"
   ],
   "note": "Non-zero rays; exact arithmetic."
  },
  {
   "property": "C153",
   "status": "proved",
   "theorems": [
    "Mdso.Tri.C153_regular",
    "Mdso.Tri.C153_apart",
    "Mdso.Tri.C153_history",
    "Mdso.Tri.C153_axis_needed"
   ],
   "note": "The last theorem shows that the hypothesis on the axis cannot be dropped: four rays of a wide-angle camera with two overlapping sectors."
  },
  {
   "property": "C154",
   "status": "proved",
   "theorems": [
    "Mdso.Tri.C154_order_irrelevant"
   ],
   "note": ""
  },
  {
   "property": "C155",
   "status": "proved",
   "theorems": [
    "Mdso.Init.C155_plain",
    "Mdso.Init.C155_spherical"
   ],
   "note": "For runs that end normally; exact arithmetic. The pixel selector and the matcher are given."
  },
  {
   "property": "C156",
   "status": "proved",
   "theorems": [
    "Mdso.Dense.C156_dense",
    "Mdso.Dense.C156_dense_defined",
    "Mdso.Dense.C156_frame",
    "Mdso.Dense.C156_equal_bounds"
   ],
   "note": "For walks that end (C88); exact arithmetic."
  },
  {
   "property": "C157",
   "status": "proved",
   "theorems": [
    "Mdso.Align.C157_unit",
    "Mdso.Align.C157_coordinates",
    "Mdso.Align.C157_estimate",
    "Mdso.Align.C157_file",
    "Mdso.Align.C157_small_unit_violated"
   ],
   "note": "The last theorem shows that the restriction to movements of at least 0.001 is needed: the threshold is an absolute number."
  },
  {
   "property": "C158",
   "status": "partial",
   "theorems": [
    "Mdso.TraceDraw.C158_strokes_partial",
    "Mdso.TraceDraw.C158_trace",
    "Mdso.TraceDraw.C158_single_violated",
    "Mdso.TraceDraw.C158_equal_violated"
   ],
   "note": "Holds for two or more positions whose energies are not all equal; C158_trace shows that this is so after each successful trace, unless the thresholds are set to odd values. For one position the function reads before the beginning of the vector, for equal energies the colours are NaN (the violated theorems)."
  },
  {
   "property": "C159",
   "status": "partial",
   "theorems": [
    "Mdso.SelectPix.C159_images_partial",
    "Mdso.SelectPix.C159_order",
    "Mdso.SelectPix.C159_unreadable_violated",
    "Mdso.SelectPix.C159_wide_violated",
    "Mdso.SelectPix.C159_flat_violated"
   ],
   "note": "The files shown are a beginning of the expected list, and all of it if the program finishes. It need not finish: an unreadable image and a very wide one end it with an exception, and after an image without gradient the selector does not return (the violated theorems)."
  },
  {
   "property": "C16",
   "status": "partial",
   "theorems": [
    "Mdso.Cloud.C16_cloud_file_partial",
    "Mdso.Cloud.C16_keyframe_files_partial",
    "Mdso.Cloud.C16_output_directory_violated"
   ],
   "note": "The clouds' contents are proved; the keyframe files go to the root directory instead of the output directory (violation proved)."
  },
  {
   "property": "C160",
   "status": "proved",
   "theorems": [
    "Mdso.Tri.C160_lookup",
    "Mdso.Tri.C160_construct",
    "Mdso.Tri.C160_lookup_one",
    "Mdso.Tri.C160_construct_one"
   ],
   "note": "Probability is the share of equally likely coin sequences (Spec/TriChance). That the bits of std::mt19937 are fair and independent is an idealization; the generator is deterministic. The bounds are explicit and far from sharp."
  },
  {
   "property": "C161",
   "status": "partial",
   "theorems": [
    "Mdso.InitPicture.C161_picture_partial",
    "Mdso.InitPicture.C161_plain_violated",
    "Mdso.InitPicture.C161_equal_violated"
   ],
   "note": "Proved for spherical triangulation (the default) with as many depths as key points; colours if the two quantiles differ. With plain triangulation the drawer is never called; if all points have the same depth their colours are not numbers. The curves of the edges are those of C120 and C123."
  },
  {
   "property": "C162",
   "status": "partial",
   "theorems": [
    "Mdso.InitPicture.C162_marks_partial",
    "Mdso.InitPicture.C162_initial_violated",
    "Mdso.InitPicture.C162_equal_violated"
   ],
   "note": "Proved, for colour bounds that differ: exactly the active points whose depth interval is bounded are marked, and the picture is drawn if and only if their depths are set. Violated: the points created at initialization have depths but unbounded intervals, and none of them is marked; and if all depths are equal, the colours are converted from 0/0, which is undefined."
  },
  {
   "property": "C163",
   "status": "proved",
   "theorems": [
    "Mdso.Tri.C163_narrowest",
    "Mdso.Tri.C163_some_iff",
    "Mdso.Tri.C163_repeat"
   ],
   "note": "For exact linear algebra."
  },
  {
   "property": "C164",
   "status": "partial",
   "theorems": [
    "Mdso.Tri.C164_cells_partial",
    "Mdso.Tri.C164_covered_violated",
    "Mdso.Tri.C164_empty_violated"
   ],
   "note": "Proved: the painted pixels are exactly those of the cells (of 11 by 11 pixels, since both corners are included) whose corner is found to be in the hull; all others and the size of the picture are kept. Violated: it is the covered cells that are painted, and with no rays, when nothing is covered, nothing is."
  },
  {
   "property": "C165",
   "status": "partial",
   "theorems": [
    "Mdso.Stereo.C165_chance_partial",
    "Mdso.Stereo.C165_consensus_partial",
    "Mdso.Stereo.C165_all_rounds_partial",
    "Mdso.Stereo.C165_promise_violated"
   ],
   "note": "Proved: exact lower bounds for the probability, with samples that repeat an index taken as lost and the rounds stopped early accounted for; with runMaxRansacIter and a maximum large enough for samples without repetition the promise is kept. Violated: with five agreeing correspondences and 100 rounds the probability is below 98.1%, not 99.9%."
  },
  {
   "property": "C166",
   "status": "proved",
   "theorems": [
    "Mdso.Init.C166_reselection",
    "Mdso.Init.C166_enough"
   ],
   "note": "In exact arithmetic; the selector is arbitrary."
  },
  {
   "property": "C167",
   "status": "proved",
   "theorems": [
    "Mdso.Init.C167_distances",
    "Mdso.Init.C167_between",
    "Mdso.Init.C167_plane"
   ],
   "note": "With averaging and the spherical terrain, which are the defaults, in exact arithmetic, for terrains without a sector of dependent rays; that averaging finds the true motion is a hypothesis (C80 and C116 say when RANSAC does). `C167_demo` meets all hypotheses with five points of a plane."
  },
  {
   "property": "C168",
   "status": "partial",
   "theorems": [
    "Mdso.Bad.C168_activation_partial",
    "Mdso.Bad.C168_budget_violated",
    "Mdso.Bad.C168_adjust_partial",
    "Mdso.Bad.C168_adjust_violated"
   ],
   "note": "Proved: the only effect on activation is the place in the budget, so the distance map and the choice ignore bad points; bundle adjustment gives the same result whatever the marks are. Violated: bad points use up the budget, and their residuals are part of the problem bundle adjustment solves. For tracking see C91."
  },
  {
   "property": "C169",
   "status": "proved",
   "theorems": [
    "Mdso.Life.C169_points",
    "Mdso.Life.C169_bound",
    "Mdso.Life.C169_stay",
    "Mdso.Life.C169_next",
    "Mdso.Life.C169_runs"
   ],
   "note": "For sessions in which no call fails. C169_next and C169_runs: the budget is never why a call fails; calls return whenever the distance map can work with the projected points (C22 and C23 say when it cannot). Loading a snapshot is not part of these sessions."
  },
  {
   "property": "C17",
   "status": "proved",
   "theorems": [
    "Mdso.Dso.C17_poses",
    "Mdso.Traj.C17_written_pose",
    "Mdso.Dso.C17_without_ba"
   ],
   "note": ""
  },
  {
   "property": "C170",
   "status": "partial",
   "theorems": [
    "Mdso.Act.C170_places_partial",
    "Mdso.DistMap.C22_edge_violated",
    "Mdso.DistMap.C23_inside_violated"
   ],
   "note": "Holds if the picture is divided into cells without a rest and no ready candidate is seen in the row or column of cells just behind the picture. Missing: the other cases, in which the distance map has undefined behaviour (C22_edge_violated, C23_inside_violated)."
  },
  {
   "property": "C171",
   "status": "proved",
   "theorems": [
    "Mdso.Perfect.C171_poses",
    "Mdso.Perfect.C171_files",
    "Mdso.Perfect.C171_prediction"
   ],
   "note": "The line-by-line agreement is claimed for tracking from the last keyframe only (C14 is violated otherwise), and the first two keyframes have to be 0.001 apart in both units (C57_static_ub)."
  },
  {
   "property": "C172",
   "status": "proved",
   "theorems": [
    "Mdso.Renumber.C172_run",
    "Mdso.Renumber.C172_trajectory",
    "Mdso.Renumber.C172_prediction",
    "Mdso.Renumber.C172_unit"
   ],
   "note": "For the lines written on destruction the undefined conversion of infinity (C12) has to be on the same side of all numbers in both runs."
  },
  {
   "property": "C173",
   "status": "proved",
   "theorems": [
    "Mdso.Life.C173_estimates"
   ],
   "note": "What tracing a candidate in one frame and one bundle adjustment make of a point are functions given with the frame."
  },
  {
   "property": "C174",
   "status": "partial",
   "theorems": [
    "Mdso.Trace.C174_trace_partial",
    "Mdso.Trace.C174_refused",
    "Mdso.Trace.C174_history_partial",
    "Mdso.Trace.C174_initialized_violated"
   ],
   "note": "Proved with full tracing off for points traced at least once, and through whole histories for points which begin with an infinite deviation. Violated for points of the initializer: they get deviation 1 but count as never traced, so the first attempt may leave a larger deviation. With full tracing the new deviation is taken over unconditionally, which C174_refused says too."
  },
  {
   "property": "C175",
   "status": "proved",
   "theorems": [
    "Mdso.PixSel.C175_returns_iff",
    "Mdso.PixSel.C175_first",
    "Mdso.PixSel.C175_next",
    "Mdso.PixSel.C175_default"
   ],
   "note": "An exact characterisation; C175_next gives the condition after a selection which found a given number of points."
  },
  {
   "property": "C176",
   "status": "partial",
   "theorems": [
    "Mdso.Trace.C176_far_to_near",
    "Mdso.Trace.C176_depths_partial",
    "Mdso.Trace.C176_traced_partial",
    "Mdso.Trace.C176_start_again_violated"
   ],
   "note": "Proved without full tracing, if the other camera is not on the ray of the point: the order and the range of depths always, the depths of candidates and the depth found for intervals with an upper bound. Violated without one: as all places are examined twice, the direction of infinite depth is examined again and given a finite depth, which is what the solver makes of two parallel rays."
  },
  {
   "property": "C177",
   "status": "partial",
   "theorems": [
    "Mdso.Wiring.C177_parts_partial",
    "Mdso.Wiring.C177_defaults",
    "Mdso.Wiring.C177_resumed_partial",
    "Mdso.Wiring.C177_flags_partial",
    "Mdso.Wiring.C177_adjusts",
    "Mdso.Wiring.C177_frames_violated",
    "Mdso.Wiring.C177_distance_map_violated",
    "Mdso.Wiring.C177_no_effect_violated",
    "Mdso.Wiring.C177_flag_violated"
   ],
   "note": "Proved for all parts but frames and distance maps, which are made with default settings (violations proved); five settings and one flag have no effect."
  },
  {
   "property": "C178",
   "status": "proved",
   "theorems": [
    "Mdso.Stereo.C178_candidates",
    "Mdso.Stereo.C178_front",
    "Mdso.Stereo.C178_fits",
    "Mdso.Stereo.C178_residuals",
    "Mdso.Stereo.C178_inliers",
    "Mdso.Stereo.C178_choice",
    "Mdso.Stereo.C178_coarse",
    "Mdso.Stereo.C178_averaging",
    "Mdso.Stereo.C178_match",
    "Mdso.Stereo.C178_precise"
   ],
   "note": "The singular value decomposition, the five-point solver, the triangulation and Ceres are parameters with the assumptions named in the theorems; no assumption relates the decompositions of a matrix and of its transpose."
  },
  {
   "property": "C179",
   "status": "proved",
   "theorems": [
    "Mdso.Relit.C179_trace",
    "Mdso.Relit.C179_life",
    "Mdso.Relit.C179_ready",
    "Mdso.Relit.C179_brightness",
    "Mdso.Relit.C179_transform",
    "Mdso.Relit.C179_gradient",
    "Mdso.Relit.C179_flat",
    "Mdso.Relit.C179_contrast"
   ],
   "note": "Over the reals, so intensities are not cut off at 0 and 255 and not rounded. The interpolator is a parameter whose gradients change with the contrast."
  },
  {
   "property": "C18",
   "status": "partial",
   "theorems": [
    "Mdso.Motion.C18_ratio",
    "Mdso.Motion.C18_screw_repeats",
    "Mdso.Motion.C18_screw_exact",
    "Mdso.Motion.C18_simple_repeats",
    "Mdso.Motion.C18_simple_exact",
    "Mdso.Motion.C18_prediction",
    "Mdso.Motion.C18_estimated_partial",
    "Mdso.Motion.C18_unestimated_violated"
   ],
   "note": "Scaling and exactness are proved; the claim that both poses were estimated fails on the first tracked frame when frames were skipped at initialization (violation proved)."
  },
  {
   "property": "C180",
   "status": "proved",
   "theorems": [
    "Mdso.Relit.C180_track",
    "Mdso.Relit.C180_residuals",
    "Mdso.Relit.C180_pyramid",
    "Mdso.Relit.C180_frame",
    "Mdso.Relit.C180_pictures",
    "Mdso.Relit.C180_same",
    "Mdso.Relit.C180_one_sided",
    "Mdso.Relit.C180_one_sided_match"
   ],
   "note": "Relative to a Ceres that treats two problems with the same residual functions alike (LightFair), and to an interpolation that follows the brightness (InterpFollows; bicubic interpolation does over the reals). Grey values are not cut off at 0 and 255. With an optimized light transform the claim is for a brighter tracked picture, with the bounds of the light transform moved accordingly."
  },
  {
   "property": "C181",
   "status": "proved",
   "theorems": [
    "Mdso.Snap.C181_keyframe",
    "Mdso.Snap.C181_same",
    "Mdso.Snap.C181_copy",
    "Mdso.Snap.C181_order"
   ],
   "note": "Under the conditions of C34 (points sized by the pattern, every frame tracked from one keyframe only). depth_col.txt is not part of the model. The states of optimized points are lost (C32) but are not written either, so they do not show in the files."
  },
  {
   "property": "C182",
   "status": "proved",
   "theorems": [
    "Mdso.TimeName.C182_fits",
    "Mdso.TimeName.C182_format",
    "Mdso.TimeName.C182_distinct",
    "Mdso.TimeName.C182_order",
    "Mdso.TimeName.C182_directory"
   ],
   "note": "The local time is a parameter: the clock and the time zone are outside the model. std::strftime is modelled as in glibc (years are neither padded nor cut). That std::localtime does not fail is an assumption; if it does, the model has undefined behaviour."
  },
  {
   "property": "C183",
   "status": "proved",
   "theorems": [
    "Mdso.Cam.C183_exists",
    "Mdso.Cam.C183_inside",
    "Mdso.Cam.C183_angle",
    "Mdso.Cam.C183_largest"
   ],
   "note": "Over the reals. The angle of a radius that does not grow with the angle (a badly fitted polynomial) is not covered by C183_angle. For rays on the axis C38 has no radius, they are left out of C183_angle."
  },
  {
   "property": "C184",
   "status": "partial",
   "theorems": [
    "Mdso.Pyr.C184_last_partial",
    "Mdso.Pyr.C184_order_partial",
    "Mdso.Base.C184_base_partial",
    "Mdso.Pyr.C184_order_violated",
    "Mdso.Base.C184_nearest_violated"
   ],
   "note": "Violated when points share a pixel: the last point given wins, not the nearest. Proved: which point is shown (the last one), independence of the order as long as no two points share a pixel, and that with tracking from the newest keyframe the points of that keyframe show their own depth. Negations proved with witnesses."
  },
  {
   "property": "C185",
   "status": "partial",
   "theorems": [
    "Mdso.Tri.C185_check",
    "Mdso.Tri.C185_once",
    "Mdso.Tri.C185_axis",
    "Mdso.Tri.C185_dense_partial",
    "Mdso.Tri.C185_dense_violated"
   ],
   "note": "The check: proved. The picture of a sector: proved if no position of the grid is in several sectors (sides included); otherwise violated, the drawing removes sectors and later lookups find no depth."
  },
  {
   "property": "C186",
   "status": "proved",
   "theorems": [
    "Mdso.Frame.C186_selection",
    "Mdso.Frame.C186_contrast",
    "Mdso.Frame.C186_contrast_example",
    "Mdso.Frame.C186_point",
    "Mdso.Frame.C186_keyframe",
    "Mdso.Frame.C186_denser",
    "Mdso.Frame.C186_brightness"
   ],
   "note": "Over the reals, for pictures whose new brightnesses are whole numbers again (no clipping or rounding by the camera)."
  },
  {
   "property": "C187",
   "status": "proved",
   "theorems": [
    "Mdso.Util.C187_flags",
    "Mdso.Util.C187_red",
    "Mdso.Util.C187_blue",
    "Mdso.Util.C187_ends",
    "Mdso.Util.C187_crossed",
    "Mdso.Util.C187_default"
   ],
   "note": "Equal bounds (equal depths, for example) give colours that are no numbers: see C53."
  },
  {
   "property": "C188",
   "status": "proved",
   "theorems": [
    "Mdso.Tri.C188_spherical",
    "Mdso.Tri.C188_plain",
    "Mdso.Init.C188_initialization",
    "Mdso.Init.C188_initialization_plain"
   ],
   "note": "Directions of key points are those of the camera; only depths change their unit. Independence of the rays of a sector follows from general position and a cone around the axis (C153)."
  },
  {
   "property": "C189",
   "status": "proved",
   "theorems": [
    "Mdso.Util.C189_colour",
    "Mdso.Util.C189_bounds",
    "Mdso.Dense.C189_terrain",
    "Mdso.Dense.C189_frame",
    "Mdso.InitPicture.C189_initialization",
    "Mdso.InitPicture.C189_keyframe"
   ],
   "note": "The curves of the edges in the picture after initialization are a parameter, as in C161. Hypotheses on key points are those of C188."
  },
  {
   "property": "C19",
   "status": "proved",
   "theorems": [
    "Mdso.Act.C19_activation",
    "Mdso.Act.C19_point"
   ],
   "note": "For every allowed nth_element and sort. Failures of the distance map itself are C22/C23."
  },
  {
   "property": "C190",
   "status": "proved",
   "theorems": [
    "Mdso.Tri.C190_triangulation",
    "Mdso.Tri.C190_lookup",
    "Mdso.Tri.C190_terrain"
   ],
   "note": "Over the reals: rounding of coordinates far from the origin is not modelled."
  },
  {
   "property": "C191",
   "status": "proved",
   "theorems": [
    "Mdso.Cam.C191_map",
    "Mdso.Cam.C191_unmap",
    "Mdso.Cam.C191_jacobian"
   ],
   "note": "The velocity off the axis follows from C125 and the uniqueness of derivatives; on the axis it is computed, where it is not a number (C125) it counts as zero in both positions."
  },
  {
   "property": "C192",
   "status": "partial",
   "theorems": [
    "Mdso.Trace.C192_finest_partial",
    "Mdso.Trace.C192_trace_partial",
    "Mdso.Trace.C192_camera",
    "Mdso.Trace.C192_triangulate",
    "Mdso.Report.C192_window_partial",
    "Mdso.Trace.C192_level_violated"
   ],
   "note": "Violated for points that are accepted on a coarser level of the pyramid with refinement, where the code takes positions of the full resolution for positions on the level (C30): C192_level_violated. The turned pictures are exact, as if not sampled. C192_window_partial is about whole windows, sequences of frames and the reports of C194."
  },
  {
   "property": "C193",
   "status": "partial",
   "theorems": [
    "Mdso.Trace.C193_even_partial",
    "Mdso.Trace.C193_roll_violated"
   ],
   "note": "Violated in general: C193_roll_violated. Proved for patches with gradients of equal strength in all directions and points that are not accepted on a coarser level (C192)."
  },
  {
   "property": "C194",
   "status": "partial",
   "theorems": [
    "Mdso.Report.C194_report_partial",
    "Mdso.Report.C194_safe",
    "Mdso.Report.C194_levels",
    "Mdso.Report.C194_progress",
    "Mdso.Report.C194_frames",
    "Mdso.Report.C194_level_violated"
   ],
   "note": "Violated for levels: candidates never traced count as traced last on the finest level (C194_level_violated). Proved: the other counts, and that each level's count is of the candidates that remember it, each candidate on exactly one level; and that successes logged add up over sequences of frames."
  },
  {
   "property": "C195",
   "status": "partial",
   "theorems": [
    "Mdso.Out.C195_array",
    "Mdso.Out.C195_log",
    "Mdso.Out.C195_stat_partial",
    "Mdso.Out.C195_schedule",
    "Mdso.Out.C195_light",
    "Mdso.Out.C195_unopened_violated"
   ],
   "note": "Violated if the file cannot be opened: nothing is written, an older file stays, and still all is said to be done (C195_unopened_violated). Proved otherwise. Digits of single numbers are in C135-C137."
  },
  {
   "property": "C196",
   "status": "proved",
   "theorems": [
    "Mdso.Report.C196_unit",
    "Mdso.Report.C196_light"
   ],
   "note": "Lights with the threshold for differences of intensities in the new unit, as in C179."
  },
  {
   "property": "C197",
   "status": "proved",
   "theorems": [
    "Mdso.Report.C197_order",
    "Mdso.Report.C197_groups",
    "Mdso.Report.C197_alone"
   ],
   "note": "For runs without faults; which fault of several ends the program depends on the order."
  },
  {
   "property": "C198",
   "status": "partial",
   "theorems": [
    "Mdso.Trace.C198_resume_partial",
    "Mdso.Trace.C198_untraced",
    "Mdso.Trace.C198_exact",
    "Mdso.Trace.C198_infinite_violated"
   ],
   "note": "Violated for candidates that were traced successfully but have no greatest depth: the number of traces is not saved, and the greatest depth is taken as a sign for it (C198_infinite_violated). Proved: with full tracing, for candidates never traced, and for candidates whose greatest depth is finite exactly if they were traced. C198_exact: for candidates with any history, exactly which of them an interruption can make a difference to."
  },
  {
   "property": "C199",
   "status": "partial",
   "theorems": [
    "Mdso.Dso.C199_resumed_partial",
    "Mdso.Dso.C199_lost_violated"
   ],
   "note": "Proved for systems that track from the last keyframe and go on choosing keyframes, with one observer, saved when one of the two newest keyframes has a tracked frame. Violated if keyframes are no longer chosen: a frame that would have become a keyframe is in no keyframe of the snapshot, so that the resumed system forgets it and accepts its number again. The answers of the tracker and of bundle adjustment are inputs, the same for both systems; that the tracker gets the same prediction is part of the theorem, that it holds the same depths and brightness transformations is not."
  },
  {
   "property": "C20",
   "status": "proved",
   "theorems": [
    "Mdso.Act.C20_budget",
    "Mdso.Act.C20_overfull_ub"
   ],
   "note": ""
  },
  {
   "property": "C21",
   "status": "proved",
   "theorems": [
    "Mdso.DistMap.C21_distance"
   ],
   "note": "For points whose cell is on the map; others are C23."
  },
  {
   "property": "C22",
   "status": "partial",
   "theorems": [
    "Mdso.DistMap.C22_choose_partial",
    "Mdso.DistMap.C22_edge_ub",
    "Mdso.DistMap.C22_edge_violated",
    "Mdso.DistMap.C22_outside_violated",
    "Mdso.DistMap.C22_negative_ub"
   ],
   "note": "Holds when no cell lies just behind the map; otherwise undefined behaviour (proved). Points less than one cell left of or above the picture are accepted (violation proved)."
  },
  {
   "property": "C23",
   "status": "partial",
   "theorems": [
    "Mdso.DistMap.C23_factor",
    "Mdso.DistMap.C23_fits",
    "Mdso.DistMap.C23_inside_partial",
    "Mdso.DistMap.C23_inside_violated",
    "Mdso.DistMap.C23_empty_ub"
   ],
   "note": "The factor is right for all sizes; the cell of an image point is on the map only if the factor divides the dimensions (violation proved for 481x303)."
  },
  {
   "property": "C24",
   "status": "proved",
   "theorems": [
    "Mdso.PixSel.C24_count"
   ],
   "note": "For every shuffle that permutes. Integer overflow of sizes in the shares is not modelled."
  },
  {
   "property": "C25",
   "status": "partial",
   "theorems": [
    "Mdso.PixSel.C25_picks_partial",
    "Mdso.PixSel.C25_filled_with_origin_violated"
   ],
   "note": "Holds when the finest layer has enough points for its share; otherwise the result is filled with (0, 0) (violation proved)."
  },
  {
   "property": "C26",
   "status": "partial",
   "theorems": [
    "Mdso.PixSel.C26_returns_partial",
    "Mdso.PixSel.C26_never_returns_violated"
   ],
   "note": "Holds for adapted block sizes of at least one. After a call that finds nothing the next call never returns (proved for every picture)."
  },
  {
   "property": "C27",
   "status": "proved",
   "theorems": [
    "Mdso.Trace.C27_trace",
    "Mdso.Trace.C27_history"
   ],
   "note": "One trace and any sequence of traces."
  },
  {
   "property": "C28",
   "status": "proved",
   "theorems": [
    "Mdso.Trace.C28_best"
   ],
   "note": "For the candidate list produced by the search."
  },
  {
   "property": "C29",
   "status": "partial",
   "theorems": [
    "Mdso.Trace.C29_refinement_partial",
    "Mdso.Trace.C29_returns",
    "Mdso.Trace.C29_step_direction",
    "Mdso.Trace.C29_flat_violated"
   ],
   "note": "Holds whenever the refinement returns; on patches without gradient along the search direction the step is 0/0 and the image is evaluated at NaN."
  },
  {
   "property": "C30",
   "status": "partial",
   "theorems": [
    "Mdso.Trace.C30_finest_partial",
    "Mdso.Trace.C30_level_violated"
   ],
   "note": "Holds on the finest level; on coarser levels the position is scaled up although it is in full resolution (violation proved with a negative depth)."
  },
  {
   "property": "C31",
   "status": "proved",
   "theorems": [
    "Mdso.Trace.C31_ready",
    "Mdso.Trace.C31_written"
   ],
   "note": "Over all histories of creation, traces, initialisation, deactivation and reloading."
  },
  {
   "property": "C32",
   "status": "partial",
   "theorems": [
    "Mdso.Snap.C32_immature",
    "Mdso.Snap.C32_tracing_reset",
    "Mdso.Snap.C32_optimized_partial",
    "Mdso.Snap.C32_optimized_stored",
    "Mdso.Snap.C32_optimized_state_violated"
   ],
   "note": "Immature points completely (for patterns of at least one pixel); optimized points without their state, which is neither stored nor set on loading (violation proved for every point)."
  },
  {
   "property": "C33",
   "status": "proved",
   "theorems": [
    "Mdso.Snap.C33_keyframe"
   ],
   "note": "Into any directory; the points are the same in the sense of C32."
  },
  {
   "property": "C34",
   "status": "partial",
   "theorems": [
    "Mdso.Snap.C34_history",
    "Mdso.Snap.C34_last_save_partial",
    "Mdso.Snap.C34_stale_violated"
   ],
   "note": "Exact result for every history of saves and every listing order; it is the last save only if no keyframe left the window (violation proved for every other history)."
  },
  {
   "property": "C35",
   "status": "partial",
   "theorems": [
    "Mdso.Dso.C35_recorded",
    "Mdso.Dso.C35_one_observer_partial",
    "Mdso.Dso.C35_poses",
    "Mdso.Dso.C35_resume_running_partial",
    "Mdso.Dso.C35_no_observer_violated",
    "Mdso.Dso.C35_two_observers_violated",
    "Mdso.Dso.C35_order_violated",
    "Mdso.Dso.C35_just_initialized_violated"
   ],
   "note": "Holds with exactly one observer for systems tracking from the last keyframe; violations proved for no observer, several observers, the other tracking mode and freshly initialized systems."
  },
  {
   "property": "C36",
   "status": "partial",
   "theorems": [
    "Mdso.Light.C36_compose_partial",
    "Mdso.Light.C36_inverse_partial",
    "Mdso.Light.C36_inverse_mul_partial",
    "Mdso.Light.C36_compose_violated"
   ],
   "note": "The laws hold exactly for unit multipliers (or vanishing offsets); violated otherwise, proved as equivalences."
  },
  {
   "property": "C37",
   "status": "proved",
   "theorems": [
    "Mdso.Light.C37_normalize",
    "Mdso.Light.C37_residual"
   ],
   "note": ""
  },
  {
   "property": "C38",
   "status": "proved",
   "theorems": [
    "Mdso.Cam.C38_unmap",
    "Mdso.Cam.C38_direction",
    "Mdso.Cam.C38_radius",
    "Mdso.Cam.C38_round_trip",
    "Mdso.Cam.C38_center",
    "Mdso.Cam.C38_best_fit"
   ],
   "note": "Over the reals. The least-squares solver is a parameter with its specification."
  },
  {
   "property": "C39",
   "status": "proved",
   "theorems": [
    "Mdso.Cam.C39_rays",
    "Mdso.Cam.C39_radius"
   ],
   "note": "For positive scale and width."
  },
  {
   "property": "C40",
   "status": "proved",
   "theorems": [
    "Mdso.Cam.C40_pyramid"
   ],
   "note": "For up to 31 levels; beyond, the shift is undefined."
  },
  {
   "property": "C41",
   "status": "partial",
   "theorems": [
    "Mdso.Cam.C41_index_partial",
    "Mdso.Cam.C41_edge_violated"
   ],
   "note": "Holds for offsets strictly less than the border; the box includes its far corner (violation proved for every camera and border)."
  },
  {
   "property": "C42",
   "status": "proved",
   "theorems": [
    "Mdso.Pyr.C42_level",
    "Mdso.Pyr.C42_pyramid",
    "Mdso.Pyr.C42_no_levels",
    "Mdso.Pyr.C42_constant"
   ],
   "note": "Grey values as naturals (accumulated in int). Zero levels is undefined behaviour."
  },
  {
   "property": "C43",
   "status": "partial",
   "theorems": [
    "Mdso.Pyr.C43_cells_partial",
    "Mdso.Pyr.C43_weighted_mean_partial",
    "Mdso.Pyr.C43_outside_ub",
    "Mdso.Pyr.C43_lengths",
    "Mdso.Pyr.C43_small_weight_violated"
   ],
   "note": "Holds for weights above 1e-8; the weighted mean needs points in distinct pixels (a later point replaces an earlier one in its pixel). For smaller weights the cell is empty (violation proved). Exact reals."
  },
  {
   "property": "C44",
   "status": "proved",
   "theorems": [
    "Mdso.Geom.C44_inside",
    "Mdso.Geom.C44_degenerate"
   ],
   "note": ""
  },
  {
   "property": "C45",
   "status": "proved",
   "theorems": [
    "Mdso.Geom.C45_delaunay"
   ],
   "note": ""
  },
  {
   "property": "C46",
   "status": "partial",
   "theorems": [
    "Mdso.Geom.C46_crossing_partial",
    "Mdso.Geom.C46_missed_violated"
   ],
   "note": "What is accepted does cross; crossings are missed depending on the orientation of the first segment (violation proved)."
  },
  {
   "property": "C47",
   "status": "proved",
   "theorems": [
    "Mdso.Geom.C47_curve",
    "Mdso.Geom.C47_too_few"
   ],
   "note": ""
  },
  {
   "property": "C48",
   "status": "partial",
   "theorems": [
    "Mdso.Tri.C48_general_position_partial",
    "Mdso.Tri.C48_any_predicates_partial",
    "Mdso.Tri.C48_violated"
   ],
   "note": "Holds for points in general position, and for arbitrary predicates (so arbitrary rounding) if the convexity test rejects a quadrangle two of whose opposite vertices coincide. The test in the code is not strict and accepts these: two points collinear with a corner of the bounding triangle abort the program."
  },
  {
   "property": "C49",
   "status": "partial",
   "theorems": [
    "Mdso.Tri.C49_partial",
    "Mdso.Tri.C49_general_position_partial",
    "Mdso.Tri.C49_violated",
    "Mdso.Tri.C49_constructor_violated"
   ],
   "note": "Holds whenever no point was merged into another. Violated by repeated points: operator[] returns the vertex of another point or throws, and the constructor itself may read outside of _vertices."
  },
  {
   "property": "C50",
   "status": "proved",
   "theorems": [
    "Mdso.Matcher.C50_filter",
    "Mdso.Matcher.C50_match_aligned",
    "Mdso.Matcher.C50_match_throws"
   ],
   "note": ""
  },
  {
   "property": "C51",
   "status": "partial",
   "theorems": [
    "Mdso.Stereo.C51_ransac_partial",
    "Mdso.Stereo.C51_terminates",
    "Mdso.Stereo.C51_other_matrix_violated"
   ],
   "note": "The maximum is over the hypotheses kept, one matrix per sample: the first of those with which most correspondences agree. Violated for the others: the witness has a single sample with two matrices that all five correspondences agree with; the motion of the second has all five in front of both views, the reported one has fewer."
  },
  {
   "property": "C52",
   "status": "partial",
   "theorems": [
    "Mdso.Gauge.C52_first_fixed",
    "Mdso.Gauge.C52_distance_partial",
    "Mdso.Gauge.C52_distance_unit",
    "Mdso.Gauge.C52_unit_step",
    "Mdso.Gauge.C52_unit_chart",
    "Mdso.Gauge.C52_outcome",
    "Mdso.Gauge.C52_distance_violated",
    "Mdso.Gauge.C52_lost_direction",
    "Mdso.Gauge.C52_opposite_violated"
   ],
   "note": "The first keyframe is never moved (all runs). The distance is either kept or collapses to zero; the collapse is real when the first keyframe is not at the origin, and also in the situation after initialization once the second keyframe has come near the point opposite to its initial position (violations proved)."
  },
  {
   "property": "C53",
   "status": "partial",
   "theorems": [
    "Mdso.Util.C53_bounds",
    "Mdso.Util.C53_bounds_clamped",
    "Mdso.Util.C53_colour_partial",
    "Mdso.Util.C53_equal_depths_violated"
   ],
   "note": "Bounds are proved for all inputs; colours for distinct bounds; coinciding bounds give NaN colours (violation proved)."
  },
  {
   "property": "C54",
   "status": "partial",
   "theorems": [
    "Mdso.Util.C54_even_partial",
    "Mdso.Util.C54_odd_violated"
   ],
   "note": "Holds for all even level counts, undefined behaviour for all odd ones."
  },
  {
   "property": "C55",
   "status": "partial",
   "theorems": [
    "Mdso.Flags.C55_flags_partial",
    "Mdso.Flags.C55_impr_factor_violated",
    "Mdso.Flags.C55_impr_factor_ignored"
   ],
   "note": "One flag is ignored."
  },
  {
   "property": "C56",
   "status": "partial",
   "theorems": [
    "Mdso.Reader.C56_no_newline_partial",
    "Mdso.Reader.C56_newline_violated",
    "Mdso.Reader.C56_malformed_violated"
   ],
   "note": "Holds for files without a final newline; an extra pose otherwise; endless loop on malformed files."
  },
  {
   "property": "C57",
   "status": "proved",
   "theorems": [
    "Mdso.Align.C57_alignment",
    "Mdso.Align.C57_static_ub"
   ],
   "note": ""
  },
  {
   "property": "C58",
   "status": "partial",
   "theorems": [
    "Mdso.Tri.C58_plain",
    "Mdso.Tri.C58_plain_vertex",
    "Mdso.Tri.C58_plain_deterministic",
    "Mdso.Tri.C58_plain_defined",
    "Mdso.Tri.C58_plain_bounds",
    "Mdso.Tri.C58_plain_vertex_violated",
    "Mdso.Tri.C58_spherical_partial",
    "Mdso.Tri.C58_spherical_vertex_partial",
    "Mdso.Tri.C58_spherical_repeat",
    "Mdso.Tri.C58_spherical_history_partial",
    "Mdso.Tri.C58_spherical_no_fault",
    "Mdso.Tri.C58_spherical_history_violated"
   ],
   "note": "Exact arithmetic, points in general position. Plain terrain: a reported depth is the affine interpolation over a triangle that contains the point up to the tolerance, equals the given depth at a given point, and away from the edges depends on the point only and is reported exactly in the triangles between the points; at the given points whether a depth is reported depends on the coins of the walk. Spherical terrain: the reported point lies on the ray and on the flat triangle, for sectors with independent rays; the answer depends on earlier lookups, which erase sectors."
  },
  {
   "property": "C59",
   "status": "partial",
   "theorems": [
    "Mdso.Cloud.C59_same_path_partial",
    "Mdso.Cloud.C59_root_violated"
   ],
   "note": "Holds for every non-empty directory without trailing separator; fails for the root directory."
  },
  {
   "property": "C60",
   "status": "partial",
   "theorems": [
    "Mdso.Init.C60_spherical",
    "Mdso.Init.C60_spherical_geometry",
    "Mdso.Init.C60_no_points_violated",
    "Mdso.Init.C60_no_points_demo",
    "Mdso.Init.C60_plain_partial",
    "Mdso.Init.C60_plain_violated"
   ],
   "note": "Spherical branch (the default): holds whenever the call ends normally, with the depth on the flat triangle between three matched points, and no selected point is lost; if no selected point has a depth the number of points to select is a division by zero converted to int. Plain branch: points without a depth are kept."
  },
  {
   "property": "C61",
   "status": "partial",
   "theorems": [
    "Mdso.Cloud.C61_gt_cloud_partial",
    "Mdso.Cloud.C61_destroyed_early_violated"
   ],
   "note": "Holds for every life that reaches initialization; a system destroyed earlier aborts (violation proved)."
  },
  {
   "property": "C62",
   "status": "proved",
   "theorems": [
    "Mdso.Traj.C62_gt_poses"
   ],
   "note": ""
  },
  {
   "property": "C63",
   "status": "partial",
   "theorems": [
    "Mdso.Matcher.C63_half_pixel_partial",
    "Mdso.Matcher.C63_subpixel_violated"
   ],
   "note": "Coordinates are rounded to whole pixels."
  },
  {
   "property": "C64",
   "status": "proved",
   "theorems": [
    "Mdso.Geom.C64_convex"
   ],
   "note": ""
  },
  {
   "property": "C65",
   "status": "proved",
   "theorems": [
    "Mdso.Geom.C65_contains",
    "Mdso.Geom.C65_degenerate"
   ],
   "note": ""
  },
  {
   "property": "C66",
   "status": "proved",
   "theorems": [
    "Mdso.Geom.C66_angle",
    "Mdso.Geom.C66_angle_laws",
    "Mdso.Geom.C66_angle_zero"
   ],
   "note": ""
  },
  {
   "property": "C67",
   "status": "partial",
   "theorems": [
    "Mdso.Geom.C67_clip_partial",
    "Mdso.Geom.C67_both_in",
    "Mdso.Geom.C67_opposite_aborts",
    "Mdso.Geom.C67_hidden_arc_violated",
    "Mdso.Geom.C67_margin_violated"
   ],
   "note": "Correct when one end is in view and the other out by more than the margin; both other cases have proved violations."
  },
  {
   "property": "C68",
   "status": "proved",
   "theorems": [
    "Mdso.Geom.C68_sector"
   ],
   "note": ""
  },
  {
   "property": "C69",
   "status": "proved",
   "theorems": [
    "Mdso.Geom.C69_triangulate",
    "Mdso.Geom.C69_triangulate_least",
    "Mdso.Geom.C69_essential",
    "Mdso.Geom.C69_essential_converse"
   ],
   "note": ""
  },
  {
   "property": "C70",
   "status": "partial",
   "theorems": [
    "Mdso.PixSel.C70_distinct_in_layer_partial",
    "Mdso.PixSel.C70_same_pixel_twice_violated"
   ],
   "note": "Holds within a layer; across layers the same pixel is returned twice (violation proved)."
  },
  {
   "property": "C71",
   "status": "proved",
   "theorems": [
    "Mdso.Cam.C71_undistort"
   ],
   "note": ""
  },
  {
   "property": "C72",
   "status": "partial",
   "theorems": [
    "Mdso.Cam.C72_accepts",
    "Mdso.Cam.C72_sound_partial",
    "Mdso.Cam.C72_rejects",
    "Mdso.Cam.C72_unreadable_accepted_violated",
    "Mdso.Cam.C72_count_split_violated"
   ],
   "note": "Complete files are read right; a file that ends early is undefined behaviour, an unreadable last coefficient is taken as 0 (violations proved)."
  },
  {
   "property": "C73",
   "status": "proved",
   "theorems": [
    "Mdso.Cam.C73_rejects_iff"
   ],
   "note": "For positive radii, scale and width."
  },
  {
   "property": "C74",
   "status": "partial",
   "theorems": [
    "Mdso.Trace.C74_interval_violated",
    "Mdso.Trace.C74_interval_partial"
   ],
   "note": "Violated: the lower bound may exceed the depth, because candidates are listed twice. Proved: if the triangulated depth falls along the examined positions within two deviations of the best one, the depth lies in the interval. Missing: that the depth falls there."
  },
  {
   "property": "C75",
   "status": "partial",
   "theorems": [
    "Mdso.Trace.C75_between_partial",
    "Mdso.Trace.C75_between_full_partial",
    "Mdso.Trace.C75_twice_violated"
   ],
   "note": "Candidates lie on the segment; each is examined twice."
  },
  {
   "property": "C76",
   "status": "proved",
   "theorems": [
    "Mdso.Trace.C76_ends",
    "Mdso.Trace.C76_ends_full"
   ],
   "note": "With full tracing for settings that test at least both ends."
  },
  {
   "property": "C77",
   "status": "proved",
   "theorems": [
    "Mdso.Trace.C77_level"
   ],
   "note": ""
  },
  {
   "property": "C78",
   "status": "partial",
   "theorems": [
    "Mdso.Trace.C78_single_level_violated",
    "Mdso.Trace.C78_levels_partial"
   ],
   "note": "Violated for a single level: its index is the one rejected as too coarse. Proved: with any other number of levels a point can be traced successfully."
  },
  {
   "property": "C79",
   "status": "proved",
   "theorems": [
    "Mdso.Stereo.C79_coarse",
    "Mdso.Stereo.C79_precise"
   ],
   "note": "The SVD is a parameter with its specification."
  },
  {
   "property": "C80",
   "status": "proved",
   "theorems": [
    "Mdso.Stereo.C80_fits",
    "Mdso.Stereo.C80_decomposition"
   ],
   "note": ""
  },
  {
   "property": "C81",
   "status": "proved",
   "theorems": [
    "Mdso.Stereo.C81_precise"
   ],
   "note": ""
  },
  {
   "property": "C82",
   "status": "proved",
   "theorems": [
    "Mdso.Stereo.C82_match",
    "Mdso.Stereo.C82_match_coarse"
   ],
   "note": ""
  },
  {
   "property": "C83",
   "status": "partial",
   "theorems": [
    "Mdso.Stereo.C83_epipolar_partial",
    "Mdso.Stereo.C83_epipole_violated"
   ],
   "note": "Violated near the epipoles, where the ray is not projected to the epipolar plane."
  },
  {
   "property": "C84",
   "status": "partial",
   "theorems": [
    "Mdso.Stereo.C84_depths_partial",
    "Mdso.Stereo.C84_stale_violated"
   ],
   "note": "Violated when depths() is called between the coarse and the precise estimation."
  },
  {
   "property": "C85",
   "status": "partial",
   "theorems": [
    "Mdso.Stereo.C85_defined_partial",
    "Mdso.Stereo.C85_few",
    "Mdso.Stereo.C85_empty_violated",
    "Mdso.Stereo.C85_no_matrix_violated"
   ],
   "note": "Violated for an empty list and when the minimal solver finds no matrix for the first sample."
  },
  {
   "property": "C86",
   "status": "proved",
   "theorems": [
    "Mdso.Tri.C86_no_fault",
    "Mdso.Tri.C86_can_return"
   ],
   "note": "Arithmetic is exact. The random walk has no bound that holds for every sequence of coins: the theorem says some sequence ends it."
  },
  {
   "property": "C87",
   "status": "proved",
   "theorems": [
    "Mdso.Tri.C87_tiles"
   ],
   "note": "Arithmetic is exact."
  },
  {
   "property": "C88",
   "status": "proved",
   "theorems": [
    "Mdso.Tri.C88_lookup",
    "Mdso.Tri.C88_not_trapped"
   ],
   "note": "Arithmetic is exact. Not trapped: for points on no line through two vertices."
  },
  {
   "property": "C89",
   "status": "partial",
   "theorems": [
    "Mdso.Tri.C89_partial",
    "Mdso.Tri.C89_violated"
   ],
   "note": "Holds for points in the bounding triangle. For every point outside of it operator() returns false and hasInterpolatedDepth dereferences a null pointer."
  },
  {
   "property": "C90",
   "status": "partial",
   "theorems": [
    "Mdso.Init.C60_plain_partial",
    "Mdso.Init.C90_violated",
    "Mdso.Base.C90_consequence"
   ],
   "note": "Holds in the plain branch. In the spherical branch, the default, all points returned are those of a second selection and have an infinite standard deviation; a system resumed from these keyframes gives them weight zero and its depth pyramid is empty above level 0."
  },
  {
   "property": "C91",
   "status": "partial",
   "theorems": [
    "Mdso.Base.C91_partial",
    "Mdso.Base.C91_defined",
    "Mdso.Base.C91_otherwise",
    "Mdso.Base.C91_after_spherical",
    "Mdso.Base.C91_depth_violated",
    "Mdso.Base.C91_pyramid_partial",
    "Mdso.Base.C91_state_violated",
    "Mdso.Base.C91_border_violated"
   ],
   "note": "Everything but: points of keyframes other than the base keyframe are used whatever their state is; after an initialization by plain terrains depths are read that were never set; a point projected exactly to the right or lower border counts as inside."
  },
  {
   "property": "C92",
   "status": "proved",
   "theorems": [
    "Mdso.Track.C92_levels"
   ],
   "note": "Ceres is a parameter, nothing is assumed of it here."
  },
  {
   "property": "C93",
   "status": "proved",
   "theorems": [
    "Mdso.Track.C93_pixels"
   ],
   "note": "Whenever the call ends normally; see C95, C96 for when it does."
  },
  {
   "property": "C94",
   "status": "proved",
   "theorems": [
    "Mdso.Track.C94_descent",
    "Mdso.Track.C94_exact",
    "Mdso.Track.C94_light_fixed",
    "Mdso.Track.C94_rigid"
   ],
   "note": "Relative to the specification of Ceres in Verif/Spec/FrameTracker.lean (IsSolver): constant blocks kept, bounds kept, rotation stays a rotation, cost not increased."
  },
  {
   "property": "C95",
   "status": "partial",
   "theorems": [
    "Mdso.Track.C95_partial",
    "Mdso.Track.C95_one_level_violated",
    "Mdso.Track.C95_seven_levels_violated"
   ],
   "note": "Holds for two to six levels. With one level the constructor reads camPyr[1]; with seven or more every call reads outside the frame's pyramid, because frames are built with the default six levels."
  },
  {
   "property": "C96",
   "status": "partial",
   "theorems": [
    "Mdso.Track.C96_level",
    "Mdso.Track.C96_violated"
   ],
   "note": "Exact condition per level; violated for a point two pixels from the border on the third level. Gradient weighting is off by default."
  },
  {
   "property": "C97",
   "status": "proved",
   "theorems": [
    "Mdso.BA.C97_set",
    "Mdso.BA.C97_frame",
    "Mdso.BA.C97_gauge"
   ],
   "note": "Relative to the specification of Ceres in Verif/Spec/BundleAdjuster.lean (IsSolver). Ending on the first keyframe is possible, see C52."
  },
  {
   "property": "C98",
   "status": "partial",
   "theorems": [
    "Mdso.BA.C98_partial",
    "Mdso.BA.C98_limits",
    "Mdso.BA.C98_infinite_violated"
   ],
   "note": "Finite depths are within the limits; an active point with a non-finite depth is left as it is."
  },
  {
   "property": "C99",
   "status": "partial",
   "theorems": [
    "Mdso.BA.C99_partial",
    "Mdso.BA.C99_median",
    "Mdso.BA.C99_others",
    "Mdso.BA.C99_sign_violated",
    "Mdso.BA.C99_other_violated"
   ],
   "note": "Exact description of the marking. It uses the signed error, so points that match badly because the other picture is darker are kept, and only one keyframe's points are marked."
  }
 ]
}