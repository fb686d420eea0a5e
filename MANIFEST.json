{
 "claims": [
  {
   "property": "C01",
   "status": "proved",
   "theorems": [
    "Verif.Props.align_stops_and_reports",
    "Verif.Props.stall_magnitude"
   ],
   "note": "For every environment (matchers, solvers, hook, evaluators)."
  },
  {
   "property": "C02",
   "status": "partial",
   "theorems": [
    "Verif.Props.align_returns_last_solution_partial",
    "Verif.Props.align_solverError_returns_failed_output",
    "Verif.Props.align_solverError_loses_estimate",
    "Verif.Props.align_solver_calls"
   ],
   "note": "False after a solver failure: the failing solver's output is returned (witness proved)."
  },
  {
   "property": "C03",
   "status": "partial",
   "theorems": [
    "Verif.Props.align_stalled_iff_partial",
    "Verif.Props.align_stall_mixes_references",
    "Verif.Props.stall_magnitude"
   ],
   "note": "Holds component by component; translation and rotation may be small with respect to different references (witness proved)."
  },
  {
   "property": "C04",
   "status": "proved",
   "theorems": [
    "Verif.Props.align_checkpoint_iff",
    "Verif.Props.align_hook_iff"
   ],
   "note": ""
  },
  {
   "property": "C05",
   "status": "partial",
   "theorems": [
    "Verif.Props.align_log_contents",
    "Verif.Props.align_no_ub_partial",
    "Verif.Props.align_details_without_log_ub",
    "Verif.Props.align_zero_iterations_log_ub"
   ],
   "note": "Log contents proved; the memory-safety half is false without a log (proved for every environment)."
  },
  {
   "property": "C06",
   "status": "proved",
   "theorems": [
    "Verif.Props.quality_refuses_bad_weights",
    "Verif.Props.quality_hard_discard",
    "Verif.Props.quality_weighted_average",
    "Verif.Props.quality_in_range",
    "Verif.Props.quality_between",
    "Verif.Props.align_reports_final_quality"
   ],
   "note": ""
  },
  {
   "property": "C07",
   "status": "proved",
   "theorems": [
    "Verif.Props.runSolvers_first_wins",
    "Verif.Props.runSolvers_fails_iff",
    "Verif.Props.runSolvers_rest_irrelevant"
   ],
   "note": ""
  },
  {
   "property": "C08",
   "status": "proved",
   "theorems": [
    "Verif.Props.log_ids_sequential",
    "Verif.Props.log_mutual_exclusion",
    "Verif.Props.log_files_exact",
    "Verif.Props.log_every_dth",
    "Verif.Props.log_ids_wrap"
   ],
   "note": "Up to the wrap of the 32-bit counter, whose effect is also proved (log_ids_wrap)."
  },
  {
   "property": "C09",
   "status": "partial",
   "theorems": [
    "Verif.Props.logFileName_expands_partial",
    "Verif.Props.logFileName_label_reexpanded",
    "Verif.Props.logFileName_label_format",
    "Verif.Props.logFileName_glued"
   ],
   "note": "Holds when labels are free of placeholders/format specials; counterexamples proved for the rest."
  },
  {
   "property": "C10",
   "status": "proved",
   "theorems": [
    "Verif.Props.yaml_list_exact",
    "Verif.Props.yaml_list_no_accumulation",
    "Verif.Props.yaml_list_weights"
   ],
   "note": ""
  },
  {
   "property": "C100",
   "status": "proved",
   "theorems": [
    "Verif.Props.stamps_float_shift",
    "Verif.Props.stamps_float_earliest",
    "Verif.Props.stamps_float_normalize",
    "Verif.Props.stamps_float_absolute",
    "Verif.Props.stamps_float_microsecond",
    "Verif.Props.stamps_float_exact",
    "Verif.Props.stamps_float_first_nan",
    "Verif.Props.stamps_float_later_nan",
    "Verif.Props.stamps_float_middle_overflow",
    "Verif.Props.float_add_special",
    "Verif.Props.float_mul_special",
    "Verif.Props.float_ops_rounded",
    "Verif.Props.float_compare"
   ],
   "note": "Floating point as in Model/Fp.lean."
  },
  {
   "property": "C101",
   "status": "proved",
   "theorems": [
    "Verif.Props.quality_float_range",
    "Verif.Props.quality_float_one",
    "Verif.Props.quality_float_monotone",
    "Verif.Props.quality_float_single",
    "Verif.Props.paired_ratio_float",
    "Verif.Props.kernel_float",
    "Verif.Props.kernel_float_zero_nan"
   ],
   "note": "Floating point as in Model/Fp.lean. Accuracy of the quality itself is not bounded, only its range and order."
  },
  {
   "property": "C102",
   "status": "proved",
   "theorems": [
    "Verif.Props.voxel_float_undefined",
    "Verif.Props.voxel_float_defined",
    "Verif.Props.voxel_float_monotone",
    "Verif.Props.voxel_float_symmetric",
    "Verif.Props.voxel_float_side",
    "Verif.Props.voxel_float_exact",
    "Verif.Props.voxel_float_rounds_up"
   ],
   "note": "The bound for two coordinates in the same voxel is for one axis, on the quotient of the format given by its accuracy."
  },
  {
   "property": "C103",
   "status": "proved",
   "theorems": [
    "Verif.Props.box_float",
    "Verif.Props.box_float_outside",
    "Verif.Props.intensity_float",
    "Verif.Props.range_float",
    "Verif.Props.range_float_nan",
    "Verif.Props.range_float_margin",
    "Verif.Props.range_float_overflow"
   ],
   "note": "Floating point as in Model/Fp.lean; compilers contracting x*x+y*y into fused operations are not covered."
  },
  {
   "property": "C104",
   "status": "proved",
   "theorems": [
    "Verif.Props.icp_machine_stops",
    "Verif.Props.icp_machine_result",
    "Verif.Props.icp_float_stall",
    "Verif.Props.icp_float_nan_step",
    "Verif.Props.icp_float_nan_checkpoint",
    "Verif.Props.icp_float_nan_runs_on",
    "Verif.Props.icp_float_nan_quality",
    "Verif.Props.icp_float_nan_returned"
   ],
   "note": "The same definitions as for C01-C06, instantiated with machine numbers. Pose arithmetic, matchers and solvers are parameters."
  },
  {
   "property": "C105",
   "status": "partial",
   "theorems": [
    "Verif.Props.match_float_dt",
    "Verif.Props.match_float_dt_complete",
    "Verif.Props.match_float_limit_nan",
    "Verif.Props.match_float_far_paired",
    "Verif.Props.match_float_far_example",
    "Verif.Props.match_float_margin",
    "Verif.Props.match_float_ir",
    "Verif.Props.match_float_plane",
    "Verif.Props.match_float_plane_nan",
    "Verif.Props.match_float_adaptive",
    "Verif.Props.match_float_adaptive_exact",
    "Verif.Props.match_float_safe",
    "Verif.Props.match_float_paired_ratio",
    "Verif.Props.match_float_tiny_threshold",
    "Verif.Props.points_used_once_partial",
    "Verif.Props.layers_matched_exactly",
    "Verif.Props.weights_cover_pairings",
    "Verif.Props.missing_layer_error",
    "Verif.Props.dt_limit_never_ok",
    "Verif.Props.adaptive_defined_iff"
   ],
   "note": "Proved for any format, with the margin for float. Part of the property fails: without angular threshold a point whose squared norm overflows has a limit which is not a number and is paired with any neighbour (match_float_far_paired, match_float_far_example), the plane matcher accepts a threshold which is not a number and then pairs everything (match_float_plane_nan); the known defects of C18-C23 remain. One format for all numbers (the code squares the threshold in double and stores it as float)."
  },
  {
   "property": "C106",
   "status": "proved",
   "theorems": [
    "Verif.Props.decimate_float_first",
    "Verif.Props.decimate_float_multi",
    "Verif.Props.decimate_float_undefined",
    "Verif.Props.no_voxel_of_not_finite",
    "Verif.Props.rep_in_voxel",
    "Verif.Props.average_float_error",
    "Verif.Props.average_float32_error",
    "Verif.Props.average_point_close",
    "Verif.Props.average_float_leaves_voxel",
    "Verif.Props.average_float_overflow",
    "Verif.Props.average_float_stagnates"
   ],
   "note": "The sum in the error bound is in the order of the points in the cloud, one rounding per operation."
  },
  {
   "property": "C107",
   "status": "partial",
   "theorems": [
    "Verif.Props.decimate_twice",
    "Verif.Props.decimate_float_twice_partial",
    "Verif.Props.decimate_float_average_twice",
    "Verif.Props.average_in_voxel",
    "Verif.Props.decimate_twice_small_throws",
    "Verif.Props.decimate_twice_mixed"
   ],
   "note": "Without rounding for all methods; in machine arithmetic for all methods but VoxelAverage, for which it is false (proved by an example in single precision). With or without flatten_to; several input layers for FirstPoint (the other methods take one). With a minimum number of points to decimate: one input and FirstPoint; several inputs, and the other methods, fail (both proved)."
  },
  {
   "property": "C108",
   "status": "proved",
   "theorems": [
    "Verif.Props.adaptive_size",
    "Verif.Props.adaptive_size_invariant",
    "Verif.Props.euclid_length",
    "Verif.Props.size_bounds",
    "Verif.Props.adaptive_voxels_per_axis",
    "Verif.Props.adaptive_one_voxel_more",
    "Verif.Props.adaptive_in_range",
    "Verif.Props.adaptive_in_range_around",
    "Verif.Props.adaptive_sized_result",
    "Verif.Props.adaptive_sized_point_ub",
    "Verif.Props.adaptive_float",
    "Verif.Props.adaptive_float_undefined",
    "Verif.Props.adaptive_float_not_finite",
    "Verif.Props.adaptive_float_defined",
    "Verif.Props.adaptive_float_infinite",
    "Verif.Props.adaptive_float_one_voxel"
   ],
   "note": "The bounding box is MRPT's (external): least and greatest coordinates. In machine arithmetic the size itself is not bounded, only what follows from it."
  },
  {
   "property": "C109",
   "status": "partial",
   "theorems": [
    "Verif.Props.frame_and_order_free_partial",
    "Verif.Props.relative_pose_frame_free",
    "Verif.Props.exact_is_clear",
    "Verif.Props.frame_lost_few_points",
    "Verif.Props.frame_matters_angular",
    "Verif.Props.order_matters_ties"
   ],
   "note": "One distance-threshold matcher (allowMatchAlreadyMatchedGlobalPoints) and Horn's solver, exact arithmetic; in each iteration the nearest map points and the best rotation must be unique (met by all exact registrations, exact_is_clear). False, and proved so: with ties the storage order decides (order_matters_ties); with an angular threshold the origin of the map matters (frame_matters_angular); when the solver fails the pose is the identity in any frame (frame_lost_few_points)."
  },
  {
   "property": "C11",
   "status": "partial",
   "theorems": [
    "Verif.Props.pushBack_copy_isMerge",
    "Verif.Props.pushBack_copy_assoc",
    "Verif.Props.pushBack_copy_empty",
    "Verif.Props.empty_pushBack_copy_partial",
    "Verif.Props.empty_pushBack_copy_loses_weights",
    "Verif.Props.pushBack_move_eq_copy_iff_partial",
    "Verif.Props.pushBack_move_not_isMerge"
   ],
   "note": "Copy overload: merge of lists and counter, associative; per-layer weights are lost and the move overload overwrites the counter (both proved)."
  },
  {
   "property": "C110",
   "status": "partial",
   "theorems": [
    "Verif.Props.gn_frame_free_partial",
    "Verif.Props.gn_order_free_partial",
    "Verif.Props.gn_registration_frame_free_partial",
    "Verif.Props.gn_lines_depend_on_frame"
   ],
   "note": "Proved for point-to-point, point-to-line, point-to-plane and plane-to-plane pairings, all builds and schedules, exact arithmetic. False for line-to-line pairings (`gn_lines_depend_on_frame`: the rotation is applied transposed). Missing: floating-point numbers; other matchers at the level of the registration."
  },
  {
   "property": "C111",
   "status": "partial",
   "theorems": [
    "Verif.Props.gn_shift_one_step_partial",
    "Verif.Props.gn_shift_exact_partial",
    "Verif.Props.points_hold",
    "Verif.Props.gn_solves_from",
    "Verif.Props.exact_registration_gn_partial"
   ],
   "note": "Over an ordered field with an exact square root, linear solver and derivative of the exponential; pairings of the four kinds whose residuals are right. Missing: line-to-line pairings (false for them, see gn_leaves_aligned_lines, C62), a prior, guesses with another rotation (these converge: C116, C117), floating point."
  },
  {
   "property": "C112",
   "status": "partial",
   "theorems": [
    "Verif.Props.exact_registration_planes_partial",
    "Verif.Props.gn_solves_planes"
   ],
   "note": "Exact arithmetic; the map's plane search is a parameter, constrained only by the hypotheses on its answers. Missing: guesses with another rotation (near the truth: C119), floating point."
  },
  {
   "property": "C113",
   "status": "partial",
   "theorems": [
    "Verif.Props.covariance_value_partial",
    "Verif.Props.covariance_valid_partial",
    "Verif.Props.covariance_undetermined",
    "Verif.Props.covariance_lines_planes",
    "Verif.Props.covariance_bad_steps",
    "Verif.Props.covariance_ignores_residuals",
    "Verif.Props.covariance_more_pairings",
    "Verif.Props.covariance_gimbal_lock",
    "Verif.Props.covariance_determined_iff",
    "Verif.Props.covariance_of_points",
    "Verif.Props.matrix_inverse_inverts"
   ],
   "note": "Missing: line-to-line pairings together with planes (undefined behaviour, proved), exact arithmetic, estimateJacobian and inverse_LLt are contracts of MRPT. Findings: singular at gimbal lock whatever the pairings; independent of the residuals."
  },
  {
   "property": "C114",
   "status": "partial",
   "theorems": [
    "Verif.Props.gn_gradient_partial",
    "Verif.Props.gn_stationary_iff_partial",
    "Verif.Props.gn_solvable_partial",
    "Verif.Props.gn_downhill_partial",
    "Verif.Props.gn_rests_iff_partial",
    "Verif.Props.gn_weighted_squares_suffice",
    "Verif.Props.gn_shift_never_uphill_partial",
    "Verif.Props.gn_serial_leaves_minimum",
    "Verif.Props.gn_serial_overshoots",
    "Verif.Props.gn_full_step_uphill",
    "Verif.Props.gn_full_step_uphill_case",
    "Verif.Props.se3_derives",
    "Verif.Props.se3_good"
   ],
   "note": "Over the reals. Missing: line-to-line pairings, a prior, tables of weights, floating point. False for the build without TBB (gn_serial_leaves_minimum: it leaves a minimum it has reached) and for full steps, which no line search checks (gn_full_step_uphill)."
  },
  {
   "property": "C115",
   "status": "partial",
   "theorems": [
    "Verif.Props.gn_shift_least_squares_partial",
    "Verif.Props.gn_serial_laguerre",
    "Verif.Props.gn_serial_five",
    "Verif.Lemmas.Lag.laguerre_step"
   ],
   "note": "Exact arithmetic. Proved for the build with TBB; false for the build without TBB, where the error after n steps is exactly that of the guess times the value at 1 of the Laguerre polynomial of degree n (gn_serial_laguerre): -7/15 with the default of 5 iterations. Missing: robust kernels, line-to-line pairings, a prior, tables of weights, floating point."
  },
  {
   "property": "C116",
   "status": "partial",
   "theorems": [
    "Verif.Props.gn_quadratic_partial",
    "Verif.Props.gn_converges_partial",
    "Verif.Props.gn_first_step_quadratic_partial",
    "Verif.Lemmas.Conv.se3_second"
   ],
   "note": "Over the reals. Missing: the build without TBB after its first step (false: C115), pairs of lines, a prior, tables of weights after the first step, pairings that are not exactly aligned, how large the neighbourhood is. se3_second shows that the real exponential map meets the hypothesis."
  },
  {
   "property": "C117",
   "status": "partial",
   "theorems": [
    "Verif.Props.gn_registration_near_partial",
    "Verif.Props.gn_registration_stalls_partial",
    "Verif.Props.gn_squares_near",
    "Verif.Props.gn_stays_rigid",
    "Verif.Props.diffOps_smooth"
   ],
   "note": "Missing: more than one inner step without TBB (C115: not so); how far the guess may be; floating-point numbers; with a prior: C123."
  },
  {
   "property": "C118",
   "status": "partial",
   "theorems": [
    "Verif.Props.overlap_registration",
    "Verif.Props.gn_overlap_near_partial",
    "Verif.Props.gn_overlap_stalls_partial",
    "Verif.Props.close_shared_near",
    "Verif.Props.overlap_near"
   ],
   "note": "The part with the Horn solver is proved in full. Missing with Gauss-Newton: more than one inner step without TBB (C115: not so); how far the guess may be; a prior. Floating-point numbers."
  },
  {
   "property": "C119",
   "status": "partial",
   "theorems": [
    "Verif.Props.gn_planes_near_partial",
    "Verif.Props.gn_planes_stalls_partial",
    "Verif.Props.gn_squares_input",
    "Verif.Props.planes_near",
    "Verif.Props.planes_aligned",
    "Verif.Props.planes_matched",
    "Verif.Props.corner_steady"
   ],
   "note": "Missing: more than one inner step without TBB (C115: not so); how far the guess may be; maps whose answers change in any neighbourhood of T; a prior; floating-point numbers."
  },
  {
   "property": "C12",
   "status": "proved",
   "theorems": [
    "Verif.Props.size_and_empty",
    "Verif.Props.isEmpty_iff_size",
    "Verif.Props.size_pushBack",
    "Verif.Props.contentsSummary_eq"
   ],
   "note": ""
  },
  {
   "property": "C120",
   "status": "partial",
   "theorems": [
    "Verif.Props.gn_prior_no_information",
    "Verif.Props.prior_error_relative",
    "Verif.Props.system_prior",
    "Verif.Props.gn_prior_gradient",
    "Verif.Props.gn_prior_stationary_iff",
    "Verif.Props.gn_prior_downhill_partial",
    "Verif.Props.gn_prior_solvable",
    "Verif.Props.gn_prior_full_unique",
    "Verif.Props.gn_prior_rests_iff",
    "Verif.Props.gn_prior_ignored",
    "Verif.Props.gn_prior_near_partial",
    "Verif.Lemmas.Conv.near_prior_step",
    "Verif.Lemmas.Conv.step_quadratic_err"
   ],
   "note": "Over the reals; the logarithm and its derivative are MRPT's (contract: DerivesLog, SmoothPrior, met by entryPrior). Missing: the build without TBB after its first step (C115), pairs of lines, tables of weights, floating-point numbers, how large the neighbourhood is. False, and proved so: the prior counts only if the pairings leave an error (gn_prior_ignored)."
  },
  {
   "property": "C121",
   "status": "proved",
   "theorems": [
    "Verif.Props.no_gain_already_best",
    "Verif.Props.goes_on_only_downhill",
    "Verif.Props.comes_to_rest",
    "Verif.Props.rests_by_itself",
    "Verif.Props.iteration_fits",
    "Verif.Props.pose_after"
   ],
   "note": "Exact arithmetic over any ordered field; the eigenvector and the norm are contracts (those of C94). The hypotheses on the run (ClearRun) say that the best fit is unique and no pair is near the centroids; both are met in the example, which goes on after its first iteration. Not covered: angular thresholds, for which the misfit is measured anew at each pose (C94: fit_worse_angular), floating-point numbers."
  },
  {
   "property": "C122",
   "status": "proved",
   "theorems": [
    "Verif.Props.limit_only_cuts",
    "Verif.Props.run_continued",
    "Verif.Props.simple_memoryless",
    "Verif.Props.step_memoryless",
    "Verif.Props.continued_differs"
   ],
   "note": "First half for every environment. Second half for environments that are Memoryless (met by the pipeline of C93, simple_memoryless), without quality checkpoints and iteration details; the exception at the first iteration after the limit is needed (continued_differs: another pose is returned). The scale, which the iterations do not read, is the default one in the continued run if it pairs nothing."
  },
  {
   "property": "C123",
   "status": "partial",
   "theorems": [
    "Verif.Props.prior_registration_near_partial",
    "Verif.Props.prior_registration_stalls_partial",
    "Verif.Props.prior_ignored_by_registration",
    "Verif.Props.gn_squares_prior",
    "Verif.Props.no_error_true"
   ],
   "note": "Positive part: TBB build; limit on the cost negative, or zero (default) and the points not on a line (otherwise false: prior_ignored_by_registration, with a case of one point and a guess half a turn away). Missing: priors not centred at the true motion, more than one inner step without TBB, how far the guess may be, floating-point numbers. The logarithm and its derivative are MRPT's (contract SmoothPrior, met by entryPrior)."
  },
  {
   "property": "C124",
   "status": "proved",
   "theorems": [
    "Verif.Props.swapped_gives_inverse",
    "Verif.Props.moved_gives_moved",
    "Verif.Props.scaled_gives_scaled",
    "Verif.Props.repeated_changes_nothing",
    "Verif.Props.tiny_all_alike",
    "Verif.Props.unit_matters"
   ],
   "note": "Exact arithmetic; the eigen-solver by its contract (unit vector of the largest eigenvalue). unit_matters: a case where dividing all coordinates by 100000 changes the rotation, over the reals."
  },
  {
   "property": "C125",
   "status": "partial",
   "theorems": [
    "Verif.Props.unit_free_partial",
    "Verif.Props.relative_pose_unit_free",
    "Verif.Props.diffOps_unit"
   ],
   "note": "Missing: angular thresholds, the other matchers and solvers, ties, floating-point numbers. The fixed distance 0.0001 in the solver makes it false without the proviso (unit_matters)."
  },
  {
   "property": "C126",
   "status": "partial",
   "theorems": [
    "Verif.Props.body_frame_free_partial",
    "Verif.Props.fromFrame_puts",
    "Verif.Props.relative_pose_body_free",
    "Verif.Props.shift_not_free",
    "Verif.Props.diffOps_body"
   ],
   "note": "Missing: angular thresholds, the other matchers and solvers, floating-point numbers. With frames of different origin the stall test compares different numbers (shift_not_free)."
  },
  {
   "property": "C127",
   "status": "partial",
   "theorems": [
    "Verif.Props.out_of_reach_partial",
    "Verif.Props.crop_partial"
   ],
   "note": "Missing: angular thresholds, the other matchers and solvers, floating-point numbers."
  },
  {
   "property": "C13",
   "status": "partial",
   "theorems": [
    "Verif.Props.runMatchers_concatenates_partial",
    "Verif.Props.runMatchers_total",
    "Verif.Props.runMatchers_drops_weights"
   ],
   "note": "Everything except the per-layer weights, which are always dropped (proved)."
  },
  {
   "property": "C14",
   "status": "proved",
   "theorems": [
    "Verif.Props.matcher_runs_iff_inWindow",
    "Verif.Props.solver_runs_iff_inWindow"
   ],
   "note": ""
  },
  {
   "property": "C15",
   "status": "proved",
   "theorems": [
    "Verif.Props.solver_retired_for_good",
    "Verif.Props.solver_not_retired_early",
    "Verif.Props.align_solver_calls"
   ],
   "note": ""
  },
  {
   "property": "C16",
   "status": "proved",
   "theorems": [
    "Verif.Props.pairedRatio_in_range",
    "Verif.Props.runMatchers_accounting",
    "Verif.Props.pointMatchers_pairedRatio"
   ],
   "note": ""
  },
  {
   "property": "C17",
   "status": "proved",
   "theorems": [
    "Verif.Props.flags_are_a_set",
    "Verif.Props.flags_dense_sparse_same",
    "Verif.Props.flags_ub_iff",
    "Verif.Props.initialize_flags"
   ],
   "note": ""
  },
  {
   "property": "C18",
   "status": "partial",
   "theorems": [
    "Verif.Props.points_used_once_partial",
    "Verif.Props.dt_local_forgotten",
    "Verif.Props.adaptive_reuses_global",
    "Verif.Props.tbb_matcher_reuses_global",
    "Verif.Props.serial_matcher_once",
    "Verif.Props.flag_read"
   ],
   "note": "Holds for the serial point matchers for every input; the adaptive matcher and the parallel build ignore the global flags (proved, the latter over the interleaving model)."
  },
  {
   "property": "C19",
   "status": "proved",
   "theorems": [
    "Verif.Props.dt_exact",
    "Verif.Props.dt_pairs_below_limit",
    "Verif.Props.dt_pairs_complete",
    "Verif.Props.dt_pairs_complete_default",
    "Verif.Props.dt_tbb_ignores_angular",
    "Verif.Props.dt_builds_differ",
    "Verif.Props.dt_far_boxes_nothing",
    "Verif.Props.local_points_considered"
   ],
   "note": "Serial build: exact soundness and completeness; the differences of the TBB build are proved too."
  },
  {
   "property": "C20",
   "status": "partial",
   "theorems": [
    "Verif.Props.matcher_memory_safe_partial",
    "Verif.Props.dt_limit_out_of_bounds",
    "Verif.Props.dt_limit_never_ok",
    "Verif.Props.limit_only_first_points",
    "Verif.Props.local_points_considered"
   ],
   "note": "The distance-threshold matcher with a limit in force reads out of bounds on every valid input (proved)."
  },
  {
   "property": "C21",
   "status": "proved",
   "theorems": [
    "Verif.Props.ir_keeps_best",
    "Verif.Props.ir_exact",
    "Verif.Props.ir_no_candidates_throws",
    "Verif.Props.local_points_considered",
    "Verif.Props.flag_read"
   ],
   "note": ""
  },
  {
   "property": "C22",
   "status": "partial",
   "theorems": [
    "Verif.Props.p2pl_within_threshold",
    "Verif.Props.p2pl_complete",
    "Verif.Props.p2pl_exact",
    "Verif.Props.p2ln_exact_partial",
    "Verif.Props.p2ln_fit_partial",
    "Verif.Props.p2ln_fits_far_points",
    "Verif.Props.p2ln_two_points_throws",
    "Verif.Props.local_points_considered",
    "Verif.Props.flag_read",
    "Verif.Props.line_cut"
   ],
   "note": "Planes: full; lines: the fit uses far points too (witness proved)."
  },
  {
   "property": "C23",
   "status": "partial",
   "theorems": [
    "Verif.Props.adaptive_limits_partial",
    "Verif.Props.adaptive_exact",
    "Verif.Props.adaptive_flags",
    "Verif.Props.adaptive_defined_iff",
    "Verif.Props.adaptive_nothing_found_ub",
    "Verif.Props.adaptive_plane_untransformed",
    "Verif.Props.local_points_considered",
    "Verif.Props.flag_read"
   ],
   "note": "Limits proved; undefined exactly when nothing is found (proved)."
  },
  {
   "property": "C24",
   "status": "proved",
   "theorems": [
    "Verif.Props.layers_matched_exactly",
    "Verif.Props.missing_layer_error",
    "Verif.Props.weights_cover_pairings",
    "Verif.Props.weights_table"
   ],
   "note": ""
  },
  {
   "property": "C25",
   "status": "partial",
   "theorems": [
    "Verif.Props.pt2pt_conversion_partial",
    "Verif.Props.pt2pt_conversion_needs_guess",
    "Verif.Props.pt2pt_conversion_drops"
   ],
   "note": "Everything except keeping the point-to-point pairings given, which are always dropped (proved)."
  },
  {
   "property": "C26",
   "status": "proved",
   "theorems": [
    "Verif.Props.centroids_are_inlier_means",
    "Verif.Props.centroids_refused",
    "Verif.Props.centroids_never_ub",
    "Verif.Props.centroids_out_of_range_refused"
   ],
   "note": ""
  },
  {
   "property": "C27",
   "status": "partial",
   "theorems": [
    "Verif.Props.visit_block_weights_partial",
    "Verif.Props.visit_weights_sum_one",
    "Verif.Props.visit_weights_sum_table",
    "Verif.Props.visit_outlier_shifts_blocks",
    "Verif.Props.visit_empty_block_shifts",
    "Verif.Props.visit_short_table_ub"
   ],
   "note": "Full characterisation when no outlier is the first pair of a block and no block is empty; counterexamples proved for the rest."
  },
  {
   "property": "C28",
   "status": "partial",
   "theorems": [
    "Verif.Props.horn_optimal_partial",
    "Verif.Props.horn_optimal_real",
    "Verif.Props.horn_rotation_optimal",
    "Verif.Props.horn_recovers",
    "Verif.Props.horn_weighted_not_optimal",
    "Verif.Props.horn_refuses_no_points",
    "Verif.Props.pose_vocabulary"
   ],
   "note": "Optimal for uniform weights, rotation optimal for all weights, exact for noise-free data; with unequal block weights the translation is never optimal (witness proved)."
  },
  {
   "property": "C29",
   "status": "partial",
   "theorems": [
    "Verif.Props.olae_recovers_partial",
    "Verif.Props.olae_systems_consistent",
    "Verif.Props.olae_succeeds",
    "Verif.Props.olae_tie_singular",
    "Verif.Props.right_angle_tie",
    "Verif.Props.olae_right_angle_wrong"
   ],
   "note": "The systems are consistent for all rotations; recovered if the quaternion has a unique largest component or a z component that is not zero; for every other rotation the system solved is singular (olae_tie_singular), e.g. right angles about x (wrong in a concrete case)."
  },
  {
   "property": "C30",
   "status": "proved",
   "theorems": [
    "Verif.Props.kernel_factor",
    "Verif.Props.kernel_strict",
    "Verif.Props.kernel_none_iff",
    "Verif.Props.kernel_negative_parameter"
   ],
   "note": "For positive kernel parameters; a negative one breaks it (proved)."
  },
  {
   "property": "C31",
   "status": "partial",
   "theorems": [
    "Verif.Props.error_point2point_geometric",
    "Verif.Props.error_point2plane_geometric",
    "Verif.Props.error_point2line_geometric_partial",
    "Verif.Props.error_point2line_needs_unit",
    "Verif.Props.error_plane2plane_geometric_partial",
    "Verif.Props.error_plane2plane_ignores_offset",
    "Verif.Props.error_plane2plane_zero_off_plane",
    "Verif.Props.error_line2line_nonzero_at_alignment",
    "Verif.Props.pose_vocabulary"
   ],
   "note": "Point terms: zero iff on the primitive and squared length = least squared distance (lines: unit director needed, proved). The plane-plane term ignores the offset; the line-line term does not vanish at alignment (both proved)."
  },
  {
   "property": "C32",
   "status": "partial",
   "theorems": [
    "Verif.Props.jacobians_exact_partial",
    "Verif.Props.jacobians_are_derivatives_partial",
    "Verif.Props.line2line_jacobian_translation_partial",
    "Verif.Props.line2line_jacobian_parallel_partial",
    "Verif.Props.line2line_jacobian_wrong",
    "Verif.Props.line2line_true_derivative",
    "Verif.Props.line2line_reported_derivative"
   ],
   "note": "Exact at every pose for the four affine terms (also as derivatives over the reals); the line-line Jacobian is right for translations and wrong for rotations at every pose (proved)."
  },
  {
   "property": "C33",
   "status": "partial",
   "theorems": [
    "Verif.Props.gn_tbb_fresh_partial",
    "Verif.Props.gn_tbb_schedule_independent_partial",
    "Verif.Props.gn_serial_accumulates",
    "Verif.Props.gn_serial_first_fresh_partial",
    "Verif.Props.gn_serial_second_not_fresh",
    "Verif.Props.gn_builds_agree_one_iteration_partial",
    "Verif.Props.gn_builds_differ_on_planes",
    "Verif.Props.gn_racing_cost_bounded",
    "Verif.Props.gn_racing_cost_loses_updates"
   ],
   "note": "Holds for the TBB build without weights table, any schedule; the serial build piles up the systems of all iterations (proved for all inputs)."
  },
  {
   "property": "C34",
   "status": "partial",
   "theorems": [
    "Verif.Props.gn_weights_first_iteration_partial",
    "Verif.Props.gn_weights_later_iterations",
    "Verif.Props.gn_weights_single_block_partial",
    "Verif.Props.gn_weights_second_iteration_wrong",
    "Verif.Props.gn_tbb_weights_depend_on_schedule",
    "Verif.Props.gn_short_table_ub"
   ],
   "note": "Right in the first iteration; afterwards every pair has the last block's weight (proved for all inputs)."
  },
  {
   "property": "C35",
   "status": "partial",
   "theorems": [
    "Verif.Props.covariance_rows_in_bounds",
    "Verif.Props.covariance_rows_partial",
    "Verif.Props.covariance_rows_clash",
    "Verif.Props.covariance_no_pairings",
    "Verif.Props.covariance_ignores_z"
   ],
   "note": "Fails exactly when line pairings and plane pairings are both present (proved for all inputs)."
  },
  {
   "property": "C36",
   "status": "partial",
   "theorems": [
    "Verif.Props.pairings_roundtrip",
    "Verif.Props.pairings_unknown_version_refused",
    "Verif.Props.pairings_reader_safe",
    "Verif.Props.pairings_v0_loads_partial",
    "Verif.Props.pairings_v0_stale_counter"
   ],
   "note": "Round trip, truncation and unknown versions proved for all values (sizes below 2^32); version 0 streams keep the receiver's stale counter instead of resetting it (negation proved)."
  },
  {
   "property": "C37",
   "status": "partial",
   "theorems": [
    "Verif.Props.params_roundtrip_partial",
    "Verif.Props.params_roundtrip_exact",
    "Verif.Props.params_checkpoints_lost",
    "Verif.Props.params_old_versions",
    "Verif.Props.params_unknown_version_refused",
    "Verif.Props.pairWeights_roundtrip",
    "Verif.Props.weights_roundtrip",
    "Verif.Props.weights_v0_loads_partial",
    "Verif.Props.weights_unknown_version_refused",
    "Verif.Props.results_roundtrip",
    "Verif.Props.reason_byte_injective",
    "Verif.Props.results_unknown_version_refused"
   ],
   "note": "Weights and results: full. Parameters: quality_checkpoints are not written and the debug flag is or-ed with an environment variable (negation proved)."
  },
  {
   "property": "C38",
   "status": "proved",
   "theorems": [
    "Verif.Props.map_roundtrip",
    "Verif.Props.map_roundtrip_exact",
    "Verif.Props.map_old_versions",
    "Verif.Props.map_version_2",
    "Verif.Props.map_unknown_version_refused",
    "Verif.Props.georef_roundtrip_present",
    "Verif.Props.georef_absent_keeps_stale"
   ],
   "note": "For all maps whose sizes fit the 32-bit counters, given that MRPT's own serializers are faithful. The stand-alone georeferencing reader keeps a stale value (proved separately); the map reader resets it first."
  },
  {
   "property": "C39",
   "status": "partial",
   "theorems": [
    "Verif.Props.georef_yaml_roundtrip_partial",
    "Verif.Props.georef_yaml_drops_rotation",
    "Verif.Props.georef_yaml_roundtrip_fails",
    "Verif.Props.georef_yaml_refuses_foreign",
    "Verif.Props.yaml_find",
    "Verif.Props.georef_magic"
   ],
   "note": "The rotation of the mean pose is not written, so it is lost; everything else survives."
  },
  {
   "property": "C40",
   "status": "partial",
   "theorems": [
    "Verif.Props.velocity_yaml_roundtrip_partial",
    "Verif.Props.velocity_yaml_result",
    "Verif.Props.velocity_yaml_loses_samples",
    "Verif.Props.velocity_yaml_missing_sections"
   ],
   "note": "Exact for whole-nanosecond stamps and vectors their text form keeps; in general the times are rounded and colliding samples lost (characterised for all buffers, loss proved)."
  },
  {
   "property": "C41",
   "status": "proved",
   "theorems": [
    "Verif.Props.velocity_held_exactly",
    "Verif.Props.velocity_window_in_order",
    "Verif.Props.velocity_one_per_stamp",
    "Verif.Props.velocity_history_sorted"
   ],
   "note": "For every history of calls, also with times out of order."
  },
  {
   "property": "C42",
   "status": "partial",
   "theorems": [
    "Verif.Props.reconstruct_terminates",
    "Verif.Props.reconstruct_empty_iff",
    "Verif.Props.reconstruct_covers_partial",
    "Verif.Props.reconstruct_past_end_iff",
    "Verif.Props.reconstruct_past_end_example",
    "Verif.Props.reconstruct_constant_rate_partial",
    "Verif.Props.closest_within"
   ],
   "note": "Everything but safety: the end of the buffer is dereferenced exactly when no sample lies half a span after the reference (proved)."
  },
  {
   "property": "C43",
   "status": "partial",
   "theorems": [
    "Verif.Props.realize_values_partial",
    "Verif.Props.constant_keeps_value",
    "Verif.Props.unrealized_detected",
    "Verif.Props.realize_succeeds",
    "Verif.Props.realize_refuses_undefined",
    "Verif.Props.failed_formula_stays_broken",
    "Verif.Props.realize_after_failure_wrong",
    "Verif.Props.declare_after_attach_ub",
    "Verif.Props.reattach_uses_old_source",
    "Verif.Props.redeclared_constant_overwritten",
    "Verif.Props.negative_unsigned_ub"
   ],
   "note": "Full for histories that follow the documented protocol and have not thrown; after a failed realize() the formula is never compiled again (proved), and the other ways out of the protocol are shown to be wrong or undefined."
  },
  {
   "property": "C44",
   "status": "partial",
   "theorems": [
    "Verif.Props.merge_contents_partial",
    "Verif.Props.merge_keeps_everything_partial",
    "Verif.Props.merge_refused",
    "Verif.Props.merge_planes_with_pose_throws",
    "Verif.Props.merge_null_ub",
    "Verif.Props.merge_shared_layer_changes_other",
    "Verif.Props.merge_size_partial",
    "Verif.Props.map_size",
    "Verif.Props.map_empty_iff",
    "Verif.Props.empty_size_zero",
    "Verif.Props.size_zero_not_empty"
   ],
   "note": "For maps owning their layers, exactly when the layers are compatible; otherwise it throws or dereferences null (proved). Planes with a pose always throw; shallow copies are changed too (proved)."
  },
  {
   "property": "C45",
   "status": "partial",
   "theorems": [
    "Verif.Props.boundingBox_partitions_partial",
    "Verif.Props.byRange_partitions_partial",
    "Verif.Props.byRing_partitions",
    "Verif.Props.byIntensity_partitions",
    "Verif.Props.partition_counts",
    "Verif.Props.partition_frame",
    "Verif.Props.partition_keeps_partial",
    "Verif.Props.box_contains_iff",
    "Verif.Props.range_inside_iff",
    "Verif.Props.range_negative_min_finding",
    "Verif.Props.filterSnap_throws",
    "Verif.Props.byIntensity_accepted_iff",
    "Verif.Props.byIntensity_high_only_finding",
    "Verif.Props.empty_input_finding",
    "Verif.Props.inserted_point"
   ],
   "note": "Ring and intensity: full for non-empty clouds (an empty one is an error, proved). Box and range: full unless a point is sent to the input layer itself (C46)."
  },
  {
   "property": "C46",
   "status": "partial",
   "theorems": [
    "Verif.Props.byRing_partitions",
    "Verif.Props.byIntensity_partitions",
    "Verif.Props.partition_keeps_partial",
    "Verif.Props.boundingBox_never_ends",
    "Verif.Props.byRange_never_ends",
    "Verif.Props.filterLive_never_ends",
    "Verif.Props.filterLive_partitions",
    "Verif.Props.inserted_point",
    "Verif.Props.range_inside_iff"
   ],
   "note": "Ring and intensity filters terminate and keep the earlier points; box and range filters with output = input never end as soon as one point goes there (proved for all inputs)."
  },
  {
   "property": "C47",
   "status": "partial",
   "theorems": [
    "Verif.Props.normalize_result_partial",
    "Verif.Props.normalize_affine",
    "Verif.Props.normalize_fixed",
    "Verif.Props.normalize_throws",
    "Verif.Props.normalize_history",
    "Verif.Props.normalize_memory_grows",
    "Verif.Props.normalize_memory_unused",
    "Verif.Props.normalize_fixed_reversed"
   ],
   "note": "All clouds and histories; order is reversed exactly when a fixed range is given upside down (proved)."
  },
  {
   "property": "C48",
   "status": "proved",
   "theorems": [
    "Verif.Props.adjust_shifts",
    "Verif.Props.adjust_zero",
    "Verif.Props.adjust_normalize",
    "Verif.Props.adjust_skips",
    "Verif.Props.adjust_keeps_absolute",
    "Verif.Props.adjust_moves_other_layers"
   ],
   "note": "The reference time follows the shift, for the layer adjusted; it is shared, so other layers' absolute stamps move (proved)."
  },
  {
   "property": "C49",
   "status": "partial",
   "theorems": [
    "Verif.Props.decimate_first_partial",
    "Verif.Props.decimate_multi_partial",
    "Verif.Props.decimate_std_map_outputs_nothing",
    "Verif.Props.decimate_multi_small_throws",
    "Verif.Props.decimate_ub",
    "Verif.Props.decimate_small_in_place_never_ends",
    "Verif.Props.decimate_missing_input",
    "Verif.Props.decimate_ignores_missing",
    "Verif.Props.inserted_point",
    "Verif.Props.layer_as_cloud",
    "Verif.Props.truncated_index"
   ],
   "note": "Full for FirstPoint, and for the other methods with the default container; with use_tsl_robin_map=false the others output nothing, a single small cloud is an error, and a small cloud decimated in place never ends (all proved for all inputs)."
  },
  {
   "property": "C50",
   "status": "partial",
   "theorems": [
    "Verif.Props.voxel_side_partial",
    "Verif.Props.voxel_double_side",
    "Verif.Props.voxel_zero_is_double",
    "Verif.Props.coord2idx_interval",
    "Verif.Props.coord2idx_defined_iff",
    "Verif.Props.coord2idx_mono",
    "Verif.Props.truncated_index"
   ],
   "note": "All voxels but those of index 0, which are twice as wide because indices are truncated towards zero (proved, sharp)."
  },
  {
   "property": "C51",
   "status": "partial",
   "theorems": [
    "Verif.Props.adaptive_result_partial",
    "Verif.Props.adaptive_first_pass",
    "Verif.Props.adaptive_covers",
    "Verif.Props.adaptive_loop_ends",
    "Verif.Props.adaptive_first_round",
    "Verif.Props.adaptive_starves",
    "Verif.Props.adaptive_starves_example",
    "Verif.Props.adaptive_empty_input_ub",
    "Verif.Props.adaptive_disabled",
    "Verif.Props.adaptive_no_output_ub",
    "Verif.Props.inserted_point",
    "Verif.Props.truncated_index"
   ],
   "note": "Terminates, no duplicates, at most the target (all inputs). Undefined exactly when no voxel is usable and points are wanted; not round-robin after the first round (proved)."
  },
  {
   "property": "C52",
   "status": "proved",
   "theorems": [
    "Verif.Props.occupancy_partitions",
    "Verif.Props.occTarget_spec",
    "Verif.Props.occ_exclusive",
    "Verif.Props.occupancy_refuses",
    "Verif.Props.inserted_point"
   ],
   "note": ""
  },
  {
   "property": "C53",
   "status": "partial",
   "theorems": [
    "Verif.Props.curvature_result_partial",
    "Verif.Props.curvature_once",
    "Verif.Props.thinned_unique",
    "Verif.Props.curvature_ring_overflow_ub",
    "Verif.Props.curvature_refuses",
    "Verif.Props.isSqrt_real",
    "Verif.Props.curvature_border_depends_on_direction",
    "Verif.Props.inserted_point"
   ],
   "note": "Full for all clouds whose ring ids are below 4999; a point of ring 65535 makes the 16-bit ring count wrap to 0 and the filter divide by zero (proved); the border rule looks at the previous neighbour only (proved)."
  },
  {
   "property": "C54",
   "status": "partial",
   "theorems": [
    "Verif.Props.deskew_result_partial",
    "Verif.Props.deskew_constant_twist",
    "Verif.Props.deskew_motion_constant",
    "Verif.Props.deskew_zero",
    "Verif.Props.deskew_rigid",
    "Verif.Props.deskew_count",
    "Verif.Props.deskew_skip_copies",
    "Verif.Props.deskew_refuses",
    "Verif.Props.deskew_precise_no_translation",
    "Verif.Props.deskew_precise_fallback_still",
    "Verif.Props.deskew_missing_input_created",
    "Verif.Props.deskew_origin_finding",
    "Verif.Props.deskew_motion_precise",
    "Verif.Props.deskew_precise_nearest",
    "Verif.Props.inserted_point",
    "Verif.Props.blank_point"
   ],
   "note": "Count and per-stamp motion: all inputs. Points at the origin are not moved and lose their channels; the precise mode ignores the linear velocity (both proved)."
  },
  {
   "property": "C55",
   "status": "proved",
   "theorems": [
    "Verif.Props.filters_compose",
    "Verif.Props.filters_in_order",
    "Verif.Props.filters_stop_at_exception"
   ],
   "note": ""
  },
  {
   "property": "C56",
   "status": "proved",
   "theorems": [
    "Verif.Props.deleteLayers_exact",
    "Verif.Props.deleteLayers_error_iff",
    "Verif.Props.getOrCreate_spec"
   ],
   "note": ""
  },
  {
   "property": "C57",
   "status": "partial",
   "theorems": [
    "Verif.Props.sm2mm_processes_selected",
    "Verif.Props.sm2mm_calls_partial",
    "Verif.Props.sm2mm_end_max_processes_nothing",
    "Verif.Props.smKF_null",
    "Verif.Props.kf_pose_vars",
    "Verif.Props.kf_twist_vars",
    "Verif.Props.kf_twist_stale",
    "Verif.Props.sm2mm_final_filter_fails",
    "Verif.Props.selected_eq",
    "Verif.Props.initial_variables"
   ],
   "note": "Selection and calls: all maps and ranges but end_index = SIZE_MAX, which wraps and processes nothing; final filters are never attached to the parameter source (both proved)."
  },
  {
   "property": "C58",
   "status": "proved",
   "theorems": [
    "Verif.Props.cut_result",
    "Verif.Props.cut_slice",
    "Verif.Props.join_result",
    "Verif.Props.join_unreadable",
    "Verif.Props.cut_join",
    "Verif.Props.trim_result",
    "Verif.Props.trim_null",
    "Verif.Props.trim_trim",
    "Verif.Props.tf_result",
    "Verif.Props.tf_null_ub",
    "Verif.Props.tf_tf",
    "Verif.Props.tf_inverse",
    "Verif.Props.tf_join",
    "Verif.Props.level_result"
   ],
   "note": ""
  },
  {
   "property": "C59",
   "status": "proved",
   "theorems": [
    "Verif.Props.generators_obs",
    "Verif.Props.generators_frame",
    "Verif.Props.generators_none_refused"
   ],
   "note": ""
  },
  {
   "property": "C60",
   "status": "partial",
   "theorems": [
    "Verif.Props.txt2mm_layer_ignored",
    "Verif.Props.txt2mm_layer_raw",
    "Verif.Props.txt2mm_layer_missing",
    "Verif.Props.txt2mm_result_partial",
    "Verif.Props.txt2mm_colour_ub",
    "Verif.Props.txt2mm_xyzirt_loses_channels",
    "Verif.Props.txt2mm_refuses",
    "Verif.Props.txt2mm_column_past_end",
    "Verif.Props.txt2mm_column_past_end_ub",
    "Verif.Props.columns_needed"
   ],
   "note": "The layer option is ignored and xyzirt loses ring and time (proved for all inputs); the rest holds for columns in range and colours that are bytes (undefined otherwise, proved)."
  },
  {
   "property": "C61",
   "status": "proved",
   "theorems": [
    "Verif.Props.robust_needs_estimate",
    "Verif.Props.solver_horn_robust_never"
   ],
   "note": "Stated as what the code does: a defect of the solvers."
  },
  {
   "property": "C62",
   "status": "partial",
   "theorems": [
    "Verif.Props.gn_fixed_point_serial_partial",
    "Verif.Props.gn_fixed_point_tbb_partial",
    "Verif.Props.gn_leaves_aligned_lines"
   ],
   "note": "Full for all kinds of pairings except line-to-line, for which it is false: started at exact alignment a non-zero step is made (proved, both builds)."
  },
  {
   "property": "C63",
   "status": "partial",
   "theorems": [
    "Verif.Props.gn_terminates_partial",
    "Verif.Props.gn_serial_total",
    "Verif.Props.gn_always_reports_success",
    "Verif.Props.gn_solver_uses_guess"
   ],
   "note": "Terminates; but success is reported with too few pairings, against the documentation."
  },
  {
   "property": "C64",
   "status": "partial",
   "theorems": [
    "Verif.Props.log_roundtrip_partial",
    "Verif.Props.log_file_roundtrip"
   ],
   "note": "All fields but those Parameters loses (C37)."
  },
  {
   "property": "C65",
   "status": "partial",
   "theorems": [
    "Verif.Props.params_yaml_roundtrip_partial",
    "Verif.Props.params_yaml_checkpoints_lost",
    "Verif.Props.pairWeights_yaml_roundtrip",
    "Verif.Props.weights_yaml_roundtrip",
    "Verif.Props.params_yaml_mandatory",
    "Verif.Props.checkpoints_first_entry_wins",
    "Verif.Props.checkpoints_empty_refused",
    "Verif.Props.yaml_find"
   ],
   "note": "Parameters::save_to omits quality_checkpoints."
  },
  {
   "property": "C66",
   "status": "partial",
   "theorems": [
    "Verif.Props.firstStamp_spec",
    "Verif.Props.exportKfs_result",
    "Verif.Props.exportKfs_distinct_partial",
    "Verif.Props.exportRawlog_result",
    "Verif.Props.exportKfs_same_stamp_finding",
    "Verif.Props.exportRawlog_null_ub"
   ],
   "note": "Full for keyframes with pairwise distinct first stamps and non-null observations; otherwise poses are overwritten / behaviour is undefined (proved)."
  },
  {
   "property": "C67",
   "status": "partial",
   "theorems": [
    "Verif.Props.quadratic_result",
    "Verif.Props.quadratic_missing_input",
    "Verif.Props.quadratic_missing_created",
    "Verif.Props.quadratic_refuses",
    "Verif.Props.warp_strictMono",
    "Verif.Props.warp_stretch",
    "Verif.Props.warp_wider_near_origin",
    "Verif.Props.warp_narrower_near_radius",
    "Verif.Props.cell_size",
    "Verif.Props.grid2real_inverse_partial",
    "Verif.Props.grid2real_negative_nan",
    "Verif.Props.quadratic_zero_radius_ub",
    "Verif.Props.inserted_point",
    "Verif.Props.truncated_index"
   ],
   "note": "Full but for: channels other than the position are lost; cells between half the radius and the radius are narrower than the resolution; a missing input with the name of the output is created silently (all proved)."
  },
  {
   "property": "C68",
   "status": "proved",
   "theorems": [
    "Verif.Props.merge_into_cloud",
    "Verif.Props.merge_into_other",
    "Verif.Props.merge_filter_refused_iff",
    "Verif.Props.merge_into_itself",
    "Verif.Props.merged_points",
    "Verif.Props.pose_vocabulary"
   ],
   "note": "Merging a layer into itself doubles it (proved)."
  },
  {
   "property": "C69",
   "status": "partial",
   "theorems": [
    "Verif.Props.slice_range",
    "Verif.Props.slice_result_partial",
    "Verif.Props.slice_rgb_empty",
    "Verif.Props.slice_refuses"
   ],
   "note": "Occupancy voxel maps: full. RGB voxel maps: accepted, but the grid stays empty (proved)."
  },
  {
   "property": "C70",
   "status": "partial",
   "theorems": [
    "Verif.Props.range_image",
    "Verif.Props.range_image_ub",
    "Verif.Props.range_quality_in_range",
    "Verif.Props.range_quality_symmetric",
    "Verif.Props.range_quality_perfect_partial",
    "Verif.Props.range_quality_of_registration",
    "Verif.Props.range_penalty_negative",
    "Verif.Props.truncated_index",
    "Verif.Props.point_seen"
   ],
   "note": "Images, range, symmetry: full for points off the camera plane x=0 (undefined there, proved) and penalties that are not negative. The perfect score is reached with the inverse of the ICP's pose convention (proved)."
  },
  {
   "property": "C71",
   "status": "partial",
   "theorems": [
    "Verif.Props.loss_form",
    "Verif.Props.loss_best",
    "Verif.Props.voxels_quality",
    "Verif.Props.voxels_refused",
    "Verif.Props.voxels_quality_in_range",
    "Verif.Props.voxels_symmetric_partial",
    "Verif.Props.voxels_symmetry_fails",
    "Verif.Props.voxels_self",
    "Verif.Props.pose_vocabulary"
   ],
   "note": "Symmetric for equal resolutions only: global voxels are placed with the local resolution (proved). The score of a pair is highest at unknown occupancy (proved)."
  },
  {
   "property": "C72",
   "status": "partial",
   "theorems": [
    "Verif.Props.range_edges_rot_result_partial",
    "Verif.Props.range_edges_rot_falling_ub",
    "Verif.Props.range_edges_rot_narrow_ub",
    "Verif.Props.range_edges_rot_refuses",
    "Verif.Props.range_edges_rot_misses_steps",
    "Verif.Props.range_edges_rot_finds_noise",
    "Verif.Props.range_edges_rot_flat",
    "Verif.Props.range_edges_3d_planes_lost",
    "Verif.Props.range_edges_3d_same_layer",
    "Verif.Props.range_edges_3d_no_planes_layer",
    "Verif.Props.range_edges_3d_no_target",
    "Verif.Props.range_edges_3d_falling_ub",
    "Verif.Props.range_edges_3d_refuses",
    "Verif.Props.point_placed",
    "Verif.Props.depth_point",
    "Verif.Props.block_mean",
    "Verif.Props.range_differences",
    "Verif.Props.edge_clouds",
    "Verif.Props.scan_consistent",
    "Verif.Props.inserted_point"
   ],
   "note": "Selection: full for scans whose ranges fall over no window and images of which no row of 2..900 blocks ends falling; otherwise undefined behaviour (proved, from 3 blocks on). The layers are not treated as documented: target of rotating scans replaced, plane points lost, empty plane layer is a null dereference (all proved). The score of rotating scans is lower for larger steps (proved)."
  },
  {
   "property": "C73",
   "status": "partial",
   "theorems": [
    "Verif.Props.curv_edges_result_partial",
    "Verif.Props.mem_corners",
    "Verif.Props.curv_edges_refuses",
    "Verif.Props.corner_is_angle",
    "Verif.Props.corner_all",
    "Verif.Props.corner_none",
    "Verif.Props.curv_edges_rigid",
    "Verif.Props.corner_reversed",
    "Verif.Props.curv_process_skips",
    "Verif.Props.curv_process_other",
    "Verif.Props.curv_process_scan",
    "Verif.Props.point_placed",
    "Verif.Props.edge_clouds",
    "Verif.Props.scan_consistent"
   ],
   "note": "Selection, frame and direction independence: full. The target layer is replaced, not appended to as documented for generators (proved)."
  },
  {
   "property": "C74",
   "status": "partial",
   "theorems": [
    "Verif.Props.poles_result_partial",
    "Verif.Props.poles_cell_by_cell_perm",
    "Verif.Props.poles_far_ub",
    "Verif.Props.poles_refuses",
    "Verif.Props.poles_sparse_dropped",
    "Verif.Props.poles_lonely_missed",
    "Verif.Props.poles_lift_invariant",
    "Verif.Props.poles_order_irrelevant",
    "Verif.Props.inserted_point",
    "Verif.Props.truncated_index"
   ],
   "note": "Split, order and height independence: full for cells (and neighbours) with 32-bit indices; beyond: undefined behaviour (proved). Points of cells with fewer than minimum_pole_points go to neither output, and a pole without neighbours is never found (both proved)."
  },
  {
   "property": "C75",
   "status": "partial",
   "theorems": [
    "Verif.Props.edges_planes_result_partial",
    "Verif.Props.edges_planes_refuses",
    "Verif.Props.edges_planes_far_ub",
    "Verif.Props.edges_planes_std_map_empty",
    "Verif.Props.edges_planes_zero_never_ends",
    "Verif.Props.edges_planes_origin_throws",
    "Verif.Props.edges_planes_line_no_edge",
    "Verif.Props.edges_planes_flat_no_edge",
    "Verif.Props.edges_planes_flat_is_plane",
    "Verif.Props.truncated_index",
    "Verif.Props.voxel_classes",
    "Verif.Props.eigen_mean_cov"
   ],
   "note": "Outputs in full for the default container, positive decimation, 32-bit voxel indices and no plane voxel centred at the sensor; each of these excluded cases fails as proved (empty layers, no termination, UB, exception). Straight lines are never classified as edges and voxels with fewer than five points are in no output (proved)."
  },
  {
   "property": "C76",
   "status": "proved",
   "theorems": [
    "Verif.Props.eigen_mean_cov",
    "Verif.Props.eigen_mean_best",
    "Verif.Props.eigen_best_plane",
    "Verif.Props.eigen_best_line",
    "Verif.Props.eigen_values",
    "Verif.Props.eigen_degenerate",
    "Verif.Props.eigen_moved",
    "Verif.Props.eigen_order_irrelevant",
    "Verif.Props.eigen_refuses",
    "Verif.Props.eigen_far_ub",
    "Verif.Props.eigen_both_ignores_indices",
    "Verif.Props.eigen_to_xyz"
   ],
   "note": "The eigendecomposition (Eigen) is a parameter; assumed of it: orthonormal eigenvectors of the matrix given, eigenvalues ascending. Exact arithmetic."
  },
  {
   "property": "C77",
   "status": "partial",
   "theorems": [
    "Verif.Props.gn_steps",
    "Verif.Props.gn_stops_partial",
    "Verif.Props.gn_stops_with_table",
    "Verif.Props.gn_step_minimises",
    "Verif.Props.gn_tbb_steps_minimise"
   ],
   "note": "Steps, side of the update and minimisation: full for the build with TBB and a solver that solves; the stopping rule for both builds without a weights table and for the serial build with one (where from the second iteration on the cost compared uses the last weight only, proved)."
  },
  {
   "property": "C78",
   "status": "partial",
   "theorems": [
    "Verif.Props.gen_skips",
    "Verif.Props.gen_cloud_partial",
    "Verif.Props.gen_cloud_refused",
    "Verif.Props.gen_accumulates",
    "Verif.Props.gen_moves_with_robot",
    "Verif.Props.gen_imu",
    "Verif.Props.gen_general",
    "Verif.Props.gen_depth",
    "Verif.Props.gen_velodyne",
    "Verif.Props.gen_custom",
    "Verif.Props.gen_refuses",
    "Verif.Props.gen_frame",
    "Verif.Props.gen_velodyne_always_handled",
    "Verif.Props.gen_custom_gps_throws",
    "Verif.Props.gen_empty_target",
    "Verif.Props.gen_imu_leaves_layer",
    "Verif.Props.inserted_point",
    "Verif.Props.reference_time",
    "Verif.Props.pose_vocabulary"
   ],
   "note": "Full, where the code does it. Not met by it (proved): a Velodyne scan is reported as handled even if nothing was inserted; GPS and pose observations are not skipped with a custom map; an empty target name is accepted for clouds; an unhandled IMU observation leaves an empty layer. insertObservationInto is external."
  },
  {
   "property": "C79",
   "status": "proved",
   "theorems": [
    "Verif.Props.mapdef_ini",
    "Verif.Props.mapdef_refused_iff",
    "Verif.Props.mapdef_needs_class",
    "Verif.Props.mapdef_all_empty",
    "Verif.Props.mapdef_default_iff"
   ],
   "note": "The value of a formula is a parameter (its evaluation: C40). The INI is a table of values; an all-null definition is treated as none (proved)."
  },
  {
   "property": "C80",
   "status": "proved",
   "theorems": [
    "Verif.Props.icp_yaml_exact",
    "Verif.Props.icp_yaml_sizes",
    "Verif.Props.icp_yaml_mandatory",
    "Verif.Props.icp_yaml_derived_ignores_params",
    "Verif.Props.icp_yaml_incomplete"
   ],
   "note": "Class factory, plugins and the objects' own initialisation are parameters. Stated as what the code does: params is ignored beside derived; a pipeline without solvers is accepted and refused by align only."
  },
  {
   "property": "C81",
   "status": "partial",
   "theorems": [
    "Verif.Props.georef_extract",
    "Verif.Props.georef_inject_partial",
    "Verif.Props.georef_transfer",
    "Verif.Props.georef_error_writes_nothing",
    "Verif.Props.georef_flags",
    "Verif.Props.georef_inject_crash",
    "Verif.Props.georef_inject_unreported",
    "Verif.Props.georef_inject_creates",
    "Verif.Props.load_saved",
    "Verif.Props.load_cut"
   ],
   "note": "Full for binary georeference files and maps with metadata (empty metadata comes back cleared, C36); the YAML text is a parameter. A failed save is not reported and a missing map file is created unless MRPT's stream constructors throw (both proved)."
  },
  {
   "property": "C82",
   "status": "partial",
   "theorems": [
    "Verif.Props.mm_rename",
    "Verif.Props.mm_rename_refused",
    "Verif.Props.mm_filter_result",
    "Verif.Props.mm_filter_files",
    "Verif.Props.mm_filter_arguments",
    "Verif.Props.mm2txt_result",
    "Verif.Props.mm2txt_no_clash",
    "Verif.Props.mm2txt_unwritten_unreported",
    "Verif.Props.mm2txt_bad_layer",
    "Verif.Props.kitti2mm_result_partial",
    "Verif.Props.kitti2mm_refuses",
    "Verif.Props.rename_separator"
   ],
   "note": "The option --layer of kitti2mm has no effect, and mm2txt leaves out, without an error, the files it cannot write (both proved). Text of clouds and KITTI reader are external."
  },
  {
   "property": "C83",
   "status": "partial",
   "theorems": [
    "Verif.Props.rawlog_result_partial",
    "Verif.Props.rawlog_stateless",
    "Verif.Props.rawlog_labels_distinct",
    "Verif.Props.rawlog_stops",
    "Verif.Props.rawlog_to_max"
   ],
   "note": "Full for --to below SIZE_MAX; with SIZE_MAX the output is empty (proved)."
  },
  {
   "property": "C84",
   "status": "partial",
   "theorems": [
    "Verif.Props.config_accepted_iff_partial",
    "Verif.Props.config_members",
    "Verif.Props.config_defaults",
    "Verif.Props.config_again_keeps",
    "Verif.Props.intensity_config_partial",
    "Verif.Props.intensity_high_only_refused",
    "Verif.Props.intensity_documented_refused",
    "Verif.Props.matcher_documented_config_refused",
    "Verif.Props.paired_ratio_config",
    "Verif.Props.paired_ratio_documented_refused",
    "Verif.Props.failed_config_changes_members"
   ],
   "note": "False of the code for FilterByIntensity (a high-only configuration is refused), the distance matcher (thresholdAngularDeg is mandatory though undocumented) and the paired-ratio evaluator's documented configuration (refused): all proved. Full for the other classes. Conversions of scalars are parameters."
  },
  {
   "property": "C85",
   "status": "partial",
   "theorems": [
    "Verif.Props.view_result_partial",
    "Verif.Props.view_lines_partial",
    "Verif.Props.view_hidden_lines_shown",
    "Verif.Props.view_lengths_ignored",
    "Verif.Props.view_point_size_misplaced",
    "Verif.Props.view_sets_free_flag",
    "Verif.Props.coordinate_used"
   ],
   "note": "Full but for: hidden lines are shown and individual lengths ignored; point sizes of clouds that keep their colours go to the first cloud of the view; the free-space flag of voxel maps is changed (each proved)."
  },
  {
   "property": "C86",
   "status": "proved",
   "theorems": [
    "Verif.Props.pairings_view",
    "Verif.Props.pairings_view_residual"
   ],
   "note": ""
  },
  {
   "property": "C87",
   "status": "partial",
   "theorems": [
    "Verif.Pm.libpm_result",
    "Verif.Pm.libpm_unavailable",
    "Verif.Pm.libpm_refused",
    "Verif.Pm.libpm_voxels_refused",
    "Verif.Pm.libpm_right_pose",
    "Verif.Pm.libpm_pose_right_iff",
    "Verif.Pm.libpm_from_identity_partial",
    "Verif.Pm.libpm_wrong_order",
    "Verif.Pm.libpm_ratio_quality_zero",
    "Verif.Props.pose_vocabulary"
   ],
   "note": "False of the code in general: the guess and the correction are composed in the wrong order (right for the identity guess, wrong in a concrete case, exact condition proved); the quality from paired ratios is always 0, the covariance always the default, and maps with voxel layers only are refused (each proved)."
  },
  {
   "property": "C88",
   "status": "partial",
   "theorems": [
    "Verif.IcpRun.input_kind",
    "Verif.IcpRun.input_kind_documented_partial",
    "Verif.IcpRun.input_kind_mm_anywhere",
    "Verif.IcpRun.input_loaded",
    "Verif.IcpRun.input_rawlog_index",
    "Verif.IcpRun.icp_run_result",
    "Verif.IcpRun.icp_run_exit",
    "Verif.Props.truncated_index"
   ],
   "note": "Full but for the kind of a file name: `.mm` or `.icplog` anywhere in the path decides, not the extension (proved); negative or huge indices of rawlog entries are undefined behaviour and fractions are truncated (proved)."
  },
  {
   "property": "C89",
   "status": "proved",
   "theorems": [
    "Verif.MapUtil.plugin_found_iff",
    "Verif.MapUtil.plugin_loaded_iff",
    "Verif.MapUtil.plugin_again",
    "Verif.Props.text_pieces"
   ],
   "note": ""
  },
  {
   "property": "C90",
   "status": "partial",
   "theorems": [
    "Verif.MapUtil.sanity_iff_partial",
    "Verif.MapUtil.xyz_loaded_iff",
    "Verif.MapUtil.point_layer_iff",
    "Verif.MapUtil.map_to_points_iff",
    "Verif.MapUtil.map_to_interface",
    "Verif.MapUtil.umap_empty_iff",
    "Verif.MapUtil.summary_result",
    "Verif.MapUtil.summary_blank",
    "Verif.Props.summary_texts"
   ],
   "note": "False of the code in corners, all proved: an XYZIRT cloud with points and empty channels passes the check; a text file with one point is refused; a map with only empty clouds has a blank summary; cells of coloured voxel maps are not counted."
  },
  {
   "property": "C91",
   "status": "partial",
   "theorems": [
    "Verif.SmCli.smcli_dispatch",
    "Verif.SmCli.smcli_help",
    "Verif.SmCli.smcli_done",
    "Verif.SmCli.smcli_success_only_if",
    "Verif.SmCli.smcli_failure_writes_nothing_partial",
    "Verif.SmCli.smcli_unwritable_unreported",
    "Verif.SmCli.smcli_twists_left",
    "Verif.SmCli.info_result",
    "Verif.Props.keyframes_exported"
   ],
   "note": "False of the code: an output that cannot be written still gives exit code 0; export-keyframes leaves a twist file behind when it fails (both proved). Otherwise full; info for maps whose keyframes have poses and whose observations exist."
  },
  {
   "property": "C92",
   "status": "partial",
   "theorems": [
    "Verif.SmApp.sm2mm_program_partial",
    "Verif.SmApp.sm2mm_failure_writes_nothing",
    "Verif.SmApp.sm2mm_then_load",
    "Verif.SmApp.sm2mm_default_pipeline",
    "Verif.SmApp.sm2mm_plugins_ignored",
    "Verif.SmApp.sm2mm_read_error_ignored",
    "Verif.SmApp.sm2mm_nothing_selected",
    "Verif.SmApp.mm_info_result",
    "Verif.SmApp.mm_info_refused",
    "Verif.SmApp.mm_info_unreadable"
   ],
   "note": "False of the code, each proved: --load-plugins has no effect; a read error that leaves keyframes in the object is not noticed; indices that select nothing give an empty map and exit code 0; mm-info describes an unreadable file as empty. The rest in full."
  },
  {
   "property": "C93",
   "status": "proved",
   "theorems": [
    "Verif.Props.exact_registration",
    "Verif.Props.few_points_lost",
    "Verif.Props.exact_registration_any",
    "Verif.Props.exact_registration_olae",
    "Verif.Props.tied_rotation_lost"
   ],
   "note": "Also with OLAE, if the quaternion of the true rotation has a unique largest component or a z component that is not zero (exact_registration_olae), and with any solver exact on exact pairings (exact_registration_any); OLAE leaves the true pose for every other rotation (tied_rotation_lost). Assumed: exact arithmetic, exact eigen-solver, a nearest-neighbour search that is right, default weights, one layer on each side. few_points_lost is the negative half: the identity is returned with quality 1."
  },
  {
   "property": "C94",
   "status": "partial",
   "theorems": [
    "Verif.Props.fit_never_worse_step_partial",
    "Verif.Props.misfit_no_angle",
    "Verif.Props.fit_never_worse_partial",
    "Verif.Props.fit_lost_few_points",
    "Verif.Props.fit_worse_angular"
   ],
   "note": "Steps: full, with or without angular threshold (limits taken at the pose the iteration starts from). Pairs within the solver's tolerance of the centroids (Horn drops them from the attitude) are covered with an explicit bound on what they may cost (nearSlack: zero if there are none, at most 4 eps times the sum of the distances to the centroids). Whole runs: without angular threshold; with one the misfit truncated at the plain threshold can grow (fit_worse_angular). False when the solver fails: the pose is reset to the identity (fit_lost_few_points)."
  },
  {
   "property": "C95",
   "status": "proved",
   "theorems": [
    "Verif.Props.one_log_in_memory",
    "Verif.Props.viewer_shows_selected",
    "Verif.Props.all_layers_at_start",
    "Verif.Props.viewer_never_fails"
   ],
   "note": "Slider values are exact rationals; camera, colours and point sizes are not in the scene; files do not change while the program runs."
  },
  {
   "property": "C96",
   "status": "partial",
   "theorems": [
    "Verif.Props.buttons_visit_neighbours_partial",
    "Verif.Props.half_way_skips",
    "Verif.Props.autoplay_runs_off",
    "Verif.Props.initial_guess_box_partial",
    "Verif.Props.manual_change_partial",
    "Verif.Props.manual_changes_lost",
    "Verif.Props.missing_layer_stale"
   ],
   "note": "False in the code for slider values half way between records (a record is passed over), play mode near the end (slider leaves its range), the initial guess with logged iterations (the first logged iteration is shown instead), manual changes (not shown with logged iterations, lost when another record is selected) and missing layers (the maps of another record are shown): each proved as a negative theorem."
  },
  {
   "property": "C97",
   "status": "partial",
   "theorems": [
    "Verif.Props.mm_viewer_starts",
    "Verif.Props.mm_viewer_shows_partial",
    "Verif.Props.mm_viewer_never_fails",
    "Verif.Props.mm_viewer_boxes",
    "Verif.Props.mm_viewer_fit",
    "Verif.Props.mm_viewer_clip",
    "Verif.Props.second_map_not_shown",
    "Verif.Props.second_map_empty",
    "Verif.Props.missing_file_checks_all",
    "Verif.Props.bad_cloud_half_loaded",
    "Verif.Props.export_overwrites",
    "Verif.Props.old_box_dead",
    "Verif.Props.options_do_not_determine_view"
   ],
   "note": "Proved for all histories in which no second map is loaded. False in the code otherwise, each proved as a negative theorem: a second map with the same layer names is not shown, one with other layers gives an empty window, a missing file checks all boxes, a map with a bad cloud is half loaded, old boxes stay and do nothing, export ignores the marks and overwrites; with original colours and voxels as points the view depends on the history."
  },
  {
   "property": "C98",
   "status": "partial",
   "theorems": [
    "Verif.Props.turn_keeps_eye",
    "Verif.Props.keys_slide",
    "Verif.Props.keys_undo",
    "Verif.Props.key_frame_round_trip",
    "Verif.Props.key_frames_recorded",
    "Verif.Props.travel_times_partial",
    "Verif.Props.travel_stops_early",
    "Verif.Props.travel_begins",
    "Verif.Props.flat_view_kept",
    "Verif.Props.travel_overrides_flat",
    "Verif.Props.bad_rate_freezes",
    "Verif.Props.settings_restored",
    "Verif.Props.boxes_not_restored"
   ],
   "note": "False in the code: the last key frame is never shown (travel_stops_early), the 2D view is not kept while travelling, a bad frame rate freezes the path, the boxes of the layers are not saved. Rounding of time stamps (100 ns) and of the texts of numbers is not modelled."
  },
  {
   "property": "C99",
   "status": "proved",
   "theorems": [
    "Verif.Props.norm_float_range",
    "Verif.Props.norm_float",
    "Verif.Props.norm_float_memory",
    "Verif.Props.norm_float_first_nan",
    "Verif.Props.norm_float_later_nan",
    "Verif.Props.norm_float_memory_spoiled",
    "Verif.Props.norm_float_accuracy",
    "Verif.Props.norm_float_max_not_one",
    "Verif.Props.norm_float_tiny_range",
    "Verif.Props.float_add_special",
    "Verif.Props.float_mul_special",
    "Verif.Props.float_div_special",
    "Verif.Props.fl_rounded",
    "Verif.Props.float_ops_rounded",
    "Verif.Props.float_compare"
   ],
   "note": "Floating point as in Model/Fp.lean: one zero, one NaN, one rounding per operation."
  }
 ]
}