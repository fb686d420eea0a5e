# Axioms of each claimed theorem

Generated by `tools/axioms.sh` (`#print axioms`).

| Property | Theorem | Axioms |
|---|---|---|
| C01 | `Verif.Props.align_stops_and_reports` | Classical.choice, Quot.sound, propext |
| C01 | `Verif.Props.stall_magnitude` | Classical.choice, Quot.sound, propext |
| C02 | `Verif.Props.align_returns_last_solution_partial` | Classical.choice, Quot.sound, propext |
| C02 | `Verif.Props.align_solverError_returns_failed_output` | Classical.choice, Quot.sound, propext |
| C02 | `Verif.Props.align_solverError_loses_estimate` | Classical.choice, Quot.sound, propext |
| C02 | `Verif.Props.align_solver_calls` | Classical.choice, Quot.sound, propext |
| C03 | `Verif.Props.align_stalled_iff_partial` | Classical.choice, Quot.sound, propext |
| C03 | `Verif.Props.align_stall_mixes_references` | Classical.choice, Quot.sound, propext |
| C03 | `Verif.Props.stall_magnitude` | Classical.choice, Quot.sound, propext |
| C04 | `Verif.Props.align_checkpoint_iff` | Classical.choice, Quot.sound, propext |
| C04 | `Verif.Props.align_hook_iff` | Classical.choice, Quot.sound, propext |
| C05 | `Verif.Props.align_log_contents` | Classical.choice, Quot.sound, propext |
| C05 | `Verif.Props.align_no_ub_partial` | Quot.sound, propext |
| C05 | `Verif.Props.align_details_without_log_ub` | Classical.choice, Quot.sound, propext |
| C05 | `Verif.Props.align_zero_iterations_log_ub` | Quot.sound, propext |
| C06 | `Verif.Props.quality_refuses_bad_weights` | Quot.sound, propext |
| C06 | `Verif.Props.quality_hard_discard` | Quot.sound, propext |
| C06 | `Verif.Props.quality_weighted_average` | Classical.choice, Quot.sound, propext |
| C06 | `Verif.Props.quality_in_range` | Classical.choice, Quot.sound, propext |
| C06 | `Verif.Props.quality_between` | Classical.choice, Quot.sound, propext |
| C06 | `Verif.Props.align_reports_final_quality` | Classical.choice, Quot.sound, propext |
| C07 | `Verif.Props.runSolvers_first_wins` | Quot.sound, propext |
| C07 | `Verif.Props.runSolvers_fails_iff` | Quot.sound, propext |
| C07 | `Verif.Props.runSolvers_rest_irrelevant` | Quot.sound, propext |
| C08 | `Verif.Props.log_ids_sequential` | Classical.choice, Quot.sound, propext |
| C08 | `Verif.Props.log_mutual_exclusion` | Quot.sound, propext |
| C08 | `Verif.Props.log_files_exact` | Classical.choice, Quot.sound, propext |
| C08 | `Verif.Props.log_every_dth` | Classical.choice, Quot.sound, propext |
| C08 | `Verif.Props.log_ids_wrap` | Classical.choice, Quot.sound, propext |
| C09 | `Verif.Props.logFileName_expands_partial` | Classical.choice, Quot.sound, propext |
| C09 | `Verif.Props.logFileName_label_reexpanded` | Classical.choice, Quot.sound, propext |
| C09 | `Verif.Props.logFileName_label_format` | Classical.choice, Quot.sound, propext |
| C09 | `Verif.Props.logFileName_glued` | Classical.choice, Quot.sound, propext |
| C10 | `Verif.Props.yaml_list_exact` | propext |
| C10 | `Verif.Props.yaml_list_no_accumulation` | propext |
| C10 | `Verif.Props.yaml_list_weights` | propext |
| C100 | `Verif.Props.stamps_float_shift` | Classical.choice, Quot.sound, propext |
| C100 | `Verif.Props.stamps_float_earliest` | Classical.choice, Quot.sound, propext |
| C100 | `Verif.Props.stamps_float_normalize` | Classical.choice, Quot.sound, propext |
| C100 | `Verif.Props.stamps_float_absolute` | Classical.choice, Quot.sound, propext |
| C100 | `Verif.Props.stamps_float_microsecond` | Classical.choice, Quot.sound, propext |
| C100 | `Verif.Props.stamps_float_exact` | Classical.choice, Quot.sound, propext |
| C100 | `Verif.Props.stamps_float_first_nan` | Classical.choice, Quot.sound, propext |
| C100 | `Verif.Props.stamps_float_later_nan` | Classical.choice, Quot.sound, propext |
| C100 | `Verif.Props.stamps_float_middle_overflow` | Classical.choice, Quot.sound, propext |
| C100 | `Verif.Props.float_add_special` | Classical.choice, Quot.sound, propext |
| C100 | `Verif.Props.float_mul_special` | Classical.choice, Quot.sound, propext |
| C100 | `Verif.Props.float_ops_rounded` | Classical.choice, Quot.sound, propext |
| C100 | `Verif.Props.float_compare` | Classical.choice, Quot.sound, propext |
| C101 | `Verif.Props.quality_float_range` | Classical.choice, Quot.sound, propext |
| C101 | `Verif.Props.quality_float_one` | Classical.choice, Quot.sound, propext |
| C101 | `Verif.Props.quality_float_monotone` | Classical.choice, Quot.sound, propext |
| C101 | `Verif.Props.quality_float_single` | Classical.choice, Quot.sound, propext |
| C101 | `Verif.Props.paired_ratio_float` | Classical.choice, Quot.sound, propext |
| C101 | `Verif.Props.kernel_float` | Classical.choice, Quot.sound, propext |
| C101 | `Verif.Props.kernel_float_zero_nan` | Classical.choice, Quot.sound, propext |
| C102 | `Verif.Props.voxel_float_undefined` | Classical.choice, Quot.sound, propext |
| C102 | `Verif.Props.voxel_float_defined` | Classical.choice, Quot.sound, propext |
| C102 | `Verif.Props.voxel_float_monotone` | Classical.choice, Quot.sound, propext |
| C102 | `Verif.Props.voxel_float_symmetric` | Classical.choice, Quot.sound, propext |
| C102 | `Verif.Props.voxel_float_side` | Classical.choice, Quot.sound, propext |
| C102 | `Verif.Props.voxel_float_exact` | Classical.choice, Quot.sound, propext |
| C102 | `Verif.Props.voxel_float_rounds_up` | Classical.choice, Quot.sound, propext |
| C103 | `Verif.Props.box_float` | Classical.choice, Quot.sound, propext |
| C103 | `Verif.Props.box_float_outside` | propext |
| C103 | `Verif.Props.intensity_float` | Classical.choice, Quot.sound, propext |
| C103 | `Verif.Props.range_float` | Classical.choice, Quot.sound, propext |
| C103 | `Verif.Props.range_float_nan` | Classical.choice, Quot.sound, propext |
| C103 | `Verif.Props.range_float_margin` | Classical.choice, Quot.sound, propext |
| C103 | `Verif.Props.range_float_overflow` | Classical.choice, Quot.sound, propext |
| C104 | `Verif.Props.icp_machine_stops` | Classical.choice, Quot.sound, propext |
| C104 | `Verif.Props.icp_machine_result` | Classical.choice, Quot.sound, propext |
| C104 | `Verif.Props.icp_float_stall` | Classical.choice, Quot.sound, propext |
| C104 | `Verif.Props.icp_float_nan_step` | Classical.choice, Quot.sound, propext |
| C104 | `Verif.Props.icp_float_nan_checkpoint` | Classical.choice, Quot.sound, propext |
| C104 | `Verif.Props.icp_float_nan_runs_on` | Classical.choice, Quot.sound, propext |
| C104 | `Verif.Props.icp_float_nan_quality` | Classical.choice, Quot.sound, propext |
| C104 | `Verif.Props.icp_float_nan_returned` | Classical.choice, Quot.sound, propext |
| C105 | `Verif.Props.match_float_dt` | Classical.choice, Quot.sound, propext |
| C105 | `Verif.Props.match_float_dt_complete` | Classical.choice, Quot.sound, propext |
| C105 | `Verif.Props.match_float_limit_nan` | Classical.choice, Quot.sound, propext |
| C105 | `Verif.Props.match_float_far_paired` | Classical.choice, Quot.sound, propext |
| C105 | `Verif.Props.match_float_far_example` | Classical.choice, Quot.sound, propext |
| C105 | `Verif.Props.match_float_margin` | Classical.choice, Quot.sound, propext |
| C105 | `Verif.Props.match_float_ir` | Classical.choice, Quot.sound, propext |
| C105 | `Verif.Props.match_float_plane` | Classical.choice, Quot.sound, propext |
| C105 | `Verif.Props.match_float_plane_nan` | Classical.choice, Quot.sound, propext |
| C105 | `Verif.Props.match_float_adaptive` | Classical.choice, Quot.sound, propext |
| C105 | `Verif.Props.match_float_adaptive_exact` | Classical.choice, Quot.sound, propext |
| C105 | `Verif.Props.match_float_safe` | Classical.choice, Quot.sound, propext |
| C105 | `Verif.Props.match_float_paired_ratio` | Classical.choice, Quot.sound, propext |
| C105 | `Verif.Props.match_float_tiny_threshold` | Classical.choice, Quot.sound, propext |
| C105 | `Verif.Props.points_used_once_partial` | Classical.choice, Quot.sound, propext |
| C105 | `Verif.Props.layers_matched_exactly` | Classical.choice, Quot.sound, propext |
| C105 | `Verif.Props.weights_cover_pairings` | Classical.choice, Quot.sound, propext |
| C105 | `Verif.Props.missing_layer_error` | Classical.choice, Quot.sound, propext |
| C105 | `Verif.Props.dt_limit_never_ok` | Classical.choice, Quot.sound, propext |
| C105 | `Verif.Props.adaptive_defined_iff` | Classical.choice, Quot.sound, propext |
| C106 | `Verif.Props.decimate_float_first` | Classical.choice, Quot.sound, propext |
| C106 | `Verif.Props.decimate_float_multi` | Classical.choice, Quot.sound, propext |
| C106 | `Verif.Props.decimate_float_undefined` | Classical.choice, Quot.sound, propext |
| C106 | `Verif.Props.no_voxel_of_not_finite` | Classical.choice, Quot.sound, propext |
| C106 | `Verif.Props.rep_in_voxel` | Classical.choice, Quot.sound, propext |
| C106 | `Verif.Props.average_float_error` | Classical.choice, Quot.sound, propext |
| C106 | `Verif.Props.average_float32_error` | Classical.choice, Quot.sound, propext |
| C106 | `Verif.Props.average_point_close` | Classical.choice, Quot.sound, propext |
| C106 | `Verif.Props.average_float_leaves_voxel` | Classical.choice, Quot.sound, propext |
| C106 | `Verif.Props.average_float_overflow` | Classical.choice, Quot.sound, propext |
| C106 | `Verif.Props.average_float_stagnates` | Classical.choice, Quot.sound, propext |
| C107 | `Verif.Props.decimate_twice` | Classical.choice, Quot.sound, propext |
| C107 | `Verif.Props.decimate_float_twice_partial` | Classical.choice, Quot.sound, propext |
| C107 | `Verif.Props.decimate_float_average_twice` | Classical.choice, Quot.sound, propext |
| C107 | `Verif.Props.average_in_voxel` | Classical.choice, Quot.sound, propext |
| C107 | `Verif.Props.decimate_twice_small_throws` | Classical.choice, Quot.sound, propext |
| C107 | `Verif.Props.decimate_twice_mixed` | Classical.choice, Quot.sound, propext |
| C108 | `Verif.Props.adaptive_size` | Classical.choice, Quot.sound, propext |
| C108 | `Verif.Props.adaptive_size_invariant` | Classical.choice, Quot.sound, propext |
| C108 | `Verif.Props.euclid_length` | Classical.choice, Quot.sound, propext |
| C108 | `Verif.Props.size_bounds` | Classical.choice, Quot.sound, propext |
| C108 | `Verif.Props.adaptive_voxels_per_axis` | Classical.choice, Quot.sound, propext |
| C108 | `Verif.Props.adaptive_one_voxel_more` | Classical.choice, Quot.sound, propext |
| C108 | `Verif.Props.adaptive_in_range` | Classical.choice, Quot.sound, propext |
| C108 | `Verif.Props.adaptive_in_range_around` | Classical.choice, Quot.sound, propext |
| C108 | `Verif.Props.adaptive_sized_result` | Classical.choice, Quot.sound, propext |
| C108 | `Verif.Props.adaptive_sized_point_ub` | Classical.choice, Quot.sound, propext |
| C108 | `Verif.Props.adaptive_float` | Classical.choice, Quot.sound, propext |
| C108 | `Verif.Props.adaptive_float_undefined` | Classical.choice, Quot.sound, propext |
| C108 | `Verif.Props.adaptive_float_not_finite` | Classical.choice, Quot.sound, propext |
| C108 | `Verif.Props.adaptive_float_defined` | Classical.choice, Quot.sound, propext |
| C108 | `Verif.Props.adaptive_float_infinite` | Classical.choice, Quot.sound, propext |
| C108 | `Verif.Props.adaptive_float_one_voxel` | Classical.choice, Quot.sound, propext |
| C109 | `Verif.Props.frame_and_order_free_partial` | Classical.choice, Quot.sound, propext |
| C109 | `Verif.Props.relative_pose_frame_free` | Quot.sound, propext |
| C109 | `Verif.Props.exact_is_clear` | Classical.choice, Quot.sound, propext |
| C109 | `Verif.Props.frame_lost_few_points` | Classical.choice, Quot.sound, propext |
| C109 | `Verif.Props.frame_matters_angular` | Classical.choice, Quot.sound, propext |
| C109 | `Verif.Props.order_matters_ties` | Classical.choice, Quot.sound, propext |
| C11 | `Verif.Props.pushBack_copy_isMerge` | none |
| C11 | `Verif.Props.pushBack_copy_assoc` | propext |
| C11 | `Verif.Props.pushBack_copy_empty` | propext |
| C11 | `Verif.Props.empty_pushBack_copy_partial` | propext |
| C11 | `Verif.Props.empty_pushBack_copy_loses_weights` | none |
| C11 | `Verif.Props.pushBack_move_eq_copy_iff_partial` | Classical.choice, Quot.sound, propext |
| C11 | `Verif.Props.pushBack_move_not_isMerge` | none |
| C110 | `Verif.Props.gn_frame_free_partial` | Classical.choice, Quot.sound, propext |
| C110 | `Verif.Props.gn_order_free_partial` | Classical.choice, Quot.sound, propext |
| C110 | `Verif.Props.gn_registration_frame_free_partial` | Classical.choice, Quot.sound, propext |
| C110 | `Verif.Props.gn_lines_depend_on_frame` | Classical.choice, Quot.sound, propext |
| C111 | `Verif.Props.gn_shift_one_step_partial` | Classical.choice, Quot.sound, propext |
| C111 | `Verif.Props.gn_shift_exact_partial` | Classical.choice, Quot.sound, propext |
| C111 | `Verif.Props.points_hold` | Classical.choice, Quot.sound, propext |
| C111 | `Verif.Props.gn_solves_from` | Classical.choice, Quot.sound, propext |
| C111 | `Verif.Props.exact_registration_gn_partial` | Classical.choice, Quot.sound, propext |
| C112 | `Verif.Props.exact_registration_planes_partial` | Classical.choice, Quot.sound, propext |
| C112 | `Verif.Props.gn_solves_planes` | Classical.choice, Quot.sound, propext |
| C113 | `Verif.Props.covariance_value_partial` | Classical.choice, Quot.sound, propext |
| C113 | `Verif.Props.covariance_valid_partial` | Classical.choice, Quot.sound, propext |
| C113 | `Verif.Props.covariance_undetermined` | Classical.choice, Quot.sound, propext |
| C113 | `Verif.Props.covariance_lines_planes` | Classical.choice, Quot.sound, propext |
| C113 | `Verif.Props.covariance_bad_steps` | Quot.sound, propext |
| C113 | `Verif.Props.covariance_ignores_residuals` | Classical.choice, Quot.sound, propext |
| C113 | `Verif.Props.covariance_more_pairings` | Classical.choice, Quot.sound, propext |
| C113 | `Verif.Props.covariance_gimbal_lock` | Classical.choice, Quot.sound, propext |
| C113 | `Verif.Props.covariance_determined_iff` | Classical.choice, Quot.sound, propext |
| C113 | `Verif.Props.covariance_of_points` | Classical.choice, Quot.sound, propext |
| C113 | `Verif.Props.matrix_inverse_inverts` | Classical.choice, Quot.sound, propext |
| C114 | `Verif.Props.gn_gradient_partial` | Classical.choice, Quot.sound, propext |
| C114 | `Verif.Props.gn_stationary_iff_partial` | Classical.choice, Quot.sound, propext |
| C114 | `Verif.Props.gn_solvable_partial` | Classical.choice, Quot.sound, propext |
| C114 | `Verif.Props.gn_downhill_partial` | Classical.choice, Quot.sound, propext |
| C114 | `Verif.Props.gn_rests_iff_partial` | Classical.choice, Quot.sound, propext |
| C114 | `Verif.Props.gn_weighted_squares_suffice` | Classical.choice, Quot.sound, propext |
| C114 | `Verif.Props.gn_shift_never_uphill_partial` | Classical.choice, Quot.sound, propext |
| C114 | `Verif.Props.gn_serial_leaves_minimum` | Classical.choice, Quot.sound, propext |
| C114 | `Verif.Props.gn_serial_overshoots` | Classical.choice, Quot.sound, propext |
| C114 | `Verif.Props.gn_full_step_uphill` | Classical.choice, Quot.sound, propext |
| C114 | `Verif.Props.gn_full_step_uphill_case` | Classical.choice, Quot.sound, propext |
| C114 | `Verif.Props.se3_derives` | Classical.choice, Quot.sound, propext |
| C114 | `Verif.Props.se3_good` | Classical.choice, Quot.sound, propext |
| C115 | `Verif.Props.gn_shift_least_squares_partial` | Classical.choice, Quot.sound, propext |
| C115 | `Verif.Props.gn_serial_laguerre` | Classical.choice, Quot.sound, propext |
| C115 | `Verif.Props.gn_serial_five` | Classical.choice, Quot.sound, propext |
| C115 | `Verif.Lemmas.Lag.laguerre_step` | Classical.choice, Quot.sound, propext |
| C116 | `Verif.Props.gn_quadratic_partial` | Classical.choice, Quot.sound, propext |
| C116 | `Verif.Props.gn_converges_partial` | Classical.choice, Quot.sound, propext |
| C116 | `Verif.Props.gn_first_step_quadratic_partial` | Classical.choice, Quot.sound, propext |
| C116 | `Verif.Lemmas.Conv.se3_second` | Classical.choice, Quot.sound, propext |
| C117 | `Verif.Props.gn_registration_near_partial` | Classical.choice, Quot.sound, propext |
| C117 | `Verif.Props.gn_registration_stalls_partial` | Classical.choice, Quot.sound, propext |
| C117 | `Verif.Props.gn_squares_near` | Classical.choice, Quot.sound, propext |
| C117 | `Verif.Props.gn_stays_rigid` | Classical.choice, Quot.sound, propext |
| C117 | `Verif.Props.diffOps_smooth` | Classical.choice, Quot.sound, propext |
| C118 | `Verif.Props.overlap_registration` | Classical.choice, Quot.sound, propext |
| C118 | `Verif.Props.gn_overlap_near_partial` | Classical.choice, Quot.sound, propext |
| C118 | `Verif.Props.gn_overlap_stalls_partial` | Classical.choice, Quot.sound, propext |
| C118 | `Verif.Props.close_shared_near` | Classical.choice, Quot.sound, propext |
| C118 | `Verif.Props.overlap_near` | Classical.choice, Quot.sound, propext |
| C119 | `Verif.Props.gn_planes_near_partial` | Classical.choice, Quot.sound, propext |
| C119 | `Verif.Props.gn_planes_stalls_partial` | Classical.choice, Quot.sound, propext |
| C119 | `Verif.Props.gn_squares_input` | Classical.choice, Quot.sound, propext |
| C119 | `Verif.Props.planes_near` | Classical.choice, Quot.sound, propext |
| C119 | `Verif.Props.planes_aligned` | Classical.choice, Quot.sound, propext |
| C119 | `Verif.Props.planes_matched` | Classical.choice, Quot.sound, propext |
| C119 | `Verif.Props.corner_steady` | Classical.choice, Quot.sound, propext |
| C12 | `Verif.Props.size_and_empty` | propext |
| C12 | `Verif.Props.isEmpty_iff_size` | propext |
| C12 | `Verif.Props.size_pushBack` | Classical.choice, Quot.sound, propext |
| C12 | `Verif.Props.contentsSummary_eq` | Classical.choice, Quot.sound, propext |
| C120 | `Verif.Props.gn_prior_no_information` | Classical.choice, Quot.sound, propext |
| C120 | `Verif.Props.prior_error_relative` | Classical.choice, Quot.sound, propext |
| C120 | `Verif.Props.system_prior` | Classical.choice, Quot.sound, propext |
| C120 | `Verif.Props.gn_prior_gradient` | Classical.choice, Quot.sound, propext |
| C120 | `Verif.Props.gn_prior_stationary_iff` | Classical.choice, Quot.sound, propext |
| C120 | `Verif.Props.gn_prior_downhill_partial` | Classical.choice, Quot.sound, propext |
| C120 | `Verif.Props.gn_prior_solvable` | Classical.choice, Quot.sound, propext |
| C120 | `Verif.Props.gn_prior_full_unique` | Classical.choice, Quot.sound, propext |
| C120 | `Verif.Props.gn_prior_rests_iff` | Classical.choice, Quot.sound, propext |
| C120 | `Verif.Props.gn_prior_ignored` | Classical.choice, Quot.sound, propext |
| C120 | `Verif.Props.gn_prior_near_partial` | Classical.choice, Quot.sound, propext |
| C120 | `Verif.Lemmas.Conv.near_prior_step` | Classical.choice, Quot.sound, propext |
| C120 | `Verif.Lemmas.Conv.step_quadratic_err` | Classical.choice, Quot.sound, propext |
| C121 | `Verif.Props.no_gain_already_best` | Classical.choice, Quot.sound, propext |
| C121 | `Verif.Props.goes_on_only_downhill` | Classical.choice, Quot.sound, propext |
| C121 | `Verif.Props.comes_to_rest` | Classical.choice, Quot.sound, propext |
| C121 | `Verif.Props.rests_by_itself` | Classical.choice, Quot.sound, propext |
| C121 | `Verif.Props.iteration_fits` | Classical.choice, Quot.sound, propext |
| C121 | `Verif.Props.pose_after` | Quot.sound, propext |
| C122 | `Verif.Props.limit_only_cuts` | Classical.choice, Quot.sound, propext |
| C122 | `Verif.Props.run_continued` | Classical.choice, Quot.sound, propext |
| C122 | `Verif.Props.simple_memoryless` | Classical.choice, Quot.sound, propext |
| C122 | `Verif.Props.step_memoryless` | Classical.choice, Quot.sound, propext |
| C122 | `Verif.Props.continued_differs` | Classical.choice, Quot.sound, propext |
| C123 | `Verif.Props.prior_registration_near_partial` | Classical.choice, Quot.sound, propext |
| C123 | `Verif.Props.prior_registration_stalls_partial` | Classical.choice, Quot.sound, propext |
| C123 | `Verif.Props.prior_ignored_by_registration` | Classical.choice, Quot.sound, propext |
| C123 | `Verif.Props.gn_squares_prior` | Classical.choice, Quot.sound, propext |
| C123 | `Verif.Props.no_error_true` | Classical.choice, Quot.sound, propext |
| C124 | `Verif.Props.swapped_gives_inverse` | Classical.choice, Quot.sound, propext |
| C124 | `Verif.Props.moved_gives_moved` | Classical.choice, Quot.sound, propext |
| C124 | `Verif.Props.scaled_gives_scaled` | Classical.choice, Quot.sound, propext |
| C124 | `Verif.Props.repeated_changes_nothing` | Classical.choice, Quot.sound, propext |
| C124 | `Verif.Props.tiny_all_alike` | Classical.choice, Quot.sound, propext |
| C124 | `Verif.Props.unit_matters` | Classical.choice, Quot.sound, propext |
| C125 | `Verif.Props.unit_free_partial` | Classical.choice, Quot.sound, propext |
| C125 | `Verif.Props.relative_pose_unit_free` | Quot.sound, propext |
| C125 | `Verif.Props.diffOps_unit` | Classical.choice, Quot.sound, propext |
| C126 | `Verif.Props.body_frame_free_partial` | Classical.choice, Quot.sound, propext |
| C126 | `Verif.Props.fromFrame_puts` | Quot.sound, propext |
| C126 | `Verif.Props.relative_pose_body_free` | Quot.sound, propext |
| C126 | `Verif.Props.shift_not_free` | Classical.choice, Quot.sound, propext |
| C126 | `Verif.Props.diffOps_body` | Classical.choice, Quot.sound, propext |
| C127 | `Verif.Props.out_of_reach_partial` | Classical.choice, Quot.sound, propext |
| C127 | `Verif.Props.crop_partial` | Classical.choice, Quot.sound, propext |
| C13 | `Verif.Props.runMatchers_concatenates_partial` | Quot.sound, propext |
| C13 | `Verif.Props.runMatchers_total` | propext |
| C13 | `Verif.Props.runMatchers_drops_weights` | Quot.sound, propext |
| C14 | `Verif.Props.matcher_runs_iff_inWindow` | Classical.choice, Quot.sound, propext |
| C14 | `Verif.Props.solver_runs_iff_inWindow` | Classical.choice, Quot.sound, propext |
| C15 | `Verif.Props.solver_retired_for_good` | Classical.choice, Quot.sound, propext |
| C15 | `Verif.Props.solver_not_retired_early` | Classical.choice, Quot.sound, propext |
| C15 | `Verif.Props.align_solver_calls` | Classical.choice, Quot.sound, propext |
| C16 | `Verif.Props.pairedRatio_in_range` | Classical.choice, Quot.sound, propext |
| C16 | `Verif.Props.runMatchers_accounting` | Quot.sound, propext |
| C16 | `Verif.Props.pointMatchers_pairedRatio` | Classical.choice, Quot.sound, propext |
| C17 | `Verif.Props.flags_are_a_set` | Quot.sound, propext |
| C17 | `Verif.Props.flags_dense_sparse_same` | Quot.sound, propext |
| C17 | `Verif.Props.flags_ub_iff` | Quot.sound, propext |
| C17 | `Verif.Props.initialize_flags` | Classical.choice, Quot.sound, propext |
| C18 | `Verif.Props.points_used_once_partial` | Classical.choice, Quot.sound, propext |
| C18 | `Verif.Props.dt_local_forgotten` | Classical.choice, Quot.sound, propext |
| C18 | `Verif.Props.adaptive_reuses_global` | Classical.choice, Quot.sound, propext |
| C18 | `Verif.Props.tbb_matcher_reuses_global` | Quot.sound, propext |
| C18 | `Verif.Props.serial_matcher_once` | Quot.sound, propext |
| C18 | `Verif.Props.flag_read` | Classical.choice, Quot.sound, propext |
| C19 | `Verif.Props.dt_exact` | Classical.choice, Quot.sound, propext |
| C19 | `Verif.Props.dt_pairs_below_limit` | Classical.choice, Quot.sound, propext |
| C19 | `Verif.Props.dt_pairs_complete` | Classical.choice, Quot.sound, propext |
| C19 | `Verif.Props.dt_pairs_complete_default` | Classical.choice, Quot.sound, propext |
| C19 | `Verif.Props.dt_tbb_ignores_angular` | Classical.choice, Quot.sound, propext |
| C19 | `Verif.Props.dt_builds_differ` | Classical.choice, Quot.sound, propext |
| C19 | `Verif.Props.dt_far_boxes_nothing` | Classical.choice, Quot.sound, propext |
| C19 | `Verif.Props.local_points_considered` | Classical.choice, Quot.sound, propext |
| C20 | `Verif.Props.matcher_memory_safe_partial` | Classical.choice, Quot.sound, propext |
| C20 | `Verif.Props.dt_limit_out_of_bounds` | Classical.choice, Quot.sound, propext |
| C20 | `Verif.Props.dt_limit_never_ok` | Classical.choice, Quot.sound, propext |
| C20 | `Verif.Props.limit_only_first_points` | Classical.choice, Quot.sound, propext |
| C20 | `Verif.Props.local_points_considered` | Classical.choice, Quot.sound, propext |
| C21 | `Verif.Props.ir_keeps_best` | Classical.choice, Quot.sound, propext |
| C21 | `Verif.Props.ir_exact` | Classical.choice, Quot.sound, propext |
| C21 | `Verif.Props.ir_no_candidates_throws` | Classical.choice, Quot.sound, propext |
| C21 | `Verif.Props.local_points_considered` | Classical.choice, Quot.sound, propext |
| C21 | `Verif.Props.flag_read` | Classical.choice, Quot.sound, propext |
| C22 | `Verif.Props.p2pl_within_threshold` | Classical.choice, Quot.sound, propext |
| C22 | `Verif.Props.p2pl_complete` | Classical.choice, Quot.sound, propext |
| C22 | `Verif.Props.p2pl_exact` | Classical.choice, Quot.sound, propext |
| C22 | `Verif.Props.p2ln_exact_partial` | Classical.choice, Quot.sound, propext |
| C22 | `Verif.Props.p2ln_fit_partial` | Classical.choice, Quot.sound, propext |
| C22 | `Verif.Props.p2ln_fits_far_points` | Classical.choice, Quot.sound, propext |
| C22 | `Verif.Props.p2ln_two_points_throws` | Classical.choice, Quot.sound, propext |
| C22 | `Verif.Props.local_points_considered` | Classical.choice, Quot.sound, propext |
| C22 | `Verif.Props.flag_read` | Classical.choice, Quot.sound, propext |
| C22 | `Verif.Props.line_cut` | Classical.choice, Quot.sound, propext |
| C23 | `Verif.Props.adaptive_limits_partial` | Classical.choice, Quot.sound, propext |
| C23 | `Verif.Props.adaptive_exact` | Classical.choice, Quot.sound, propext |
| C23 | `Verif.Props.adaptive_flags` | Classical.choice, Quot.sound, propext |
| C23 | `Verif.Props.adaptive_defined_iff` | Classical.choice, Quot.sound, propext |
| C23 | `Verif.Props.adaptive_nothing_found_ub` | Classical.choice, Quot.sound, propext |
| C23 | `Verif.Props.adaptive_plane_untransformed` | Classical.choice, Quot.sound, propext |
| C23 | `Verif.Props.local_points_considered` | Classical.choice, Quot.sound, propext |
| C23 | `Verif.Props.flag_read` | Classical.choice, Quot.sound, propext |
| C24 | `Verif.Props.layers_matched_exactly` | Classical.choice, Quot.sound, propext |
| C24 | `Verif.Props.missing_layer_error` | Classical.choice, Quot.sound, propext |
| C24 | `Verif.Props.weights_cover_pairings` | Classical.choice, Quot.sound, propext |
| C24 | `Verif.Props.weights_table` | Classical.choice, Quot.sound, propext |
| C25 | `Verif.Props.pt2pt_conversion_partial` | Classical.choice, Quot.sound, propext |
| C25 | `Verif.Props.pt2pt_conversion_needs_guess` | Quot.sound, propext |
| C25 | `Verif.Props.pt2pt_conversion_drops` | Quot.sound, propext |
| C26 | `Verif.Props.centroids_are_inlier_means` | Quot.sound, propext |
| C26 | `Verif.Props.centroids_refused` | Quot.sound, propext |
| C26 | `Verif.Props.centroids_never_ub` | Quot.sound, propext |
| C26 | `Verif.Props.centroids_out_of_range_refused` | Classical.choice, Quot.sound, propext |
| C27 | `Verif.Props.visit_block_weights_partial` | Classical.choice, Quot.sound, propext |
| C27 | `Verif.Props.visit_weights_sum_one` | Classical.choice, Quot.sound, propext |
| C27 | `Verif.Props.visit_weights_sum_table` | Classical.choice, Quot.sound, propext |
| C27 | `Verif.Props.visit_outlier_shifts_blocks` | Classical.choice, Quot.sound, propext |
| C27 | `Verif.Props.visit_empty_block_shifts` | Classical.choice, Quot.sound, propext |
| C27 | `Verif.Props.visit_short_table_ub` | Classical.choice, Quot.sound, propext |
| C28 | `Verif.Props.horn_optimal_partial` | Classical.choice, Quot.sound, propext |
| C28 | `Verif.Props.horn_optimal_real` | Classical.choice, Quot.sound, propext |
| C28 | `Verif.Props.horn_rotation_optimal` | Classical.choice, Quot.sound, propext |
| C28 | `Verif.Props.horn_recovers` | Classical.choice, Quot.sound, propext |
| C28 | `Verif.Props.horn_weighted_not_optimal` | Classical.choice, Quot.sound, propext |
| C28 | `Verif.Props.horn_refuses_no_points` | Classical.choice, Quot.sound, propext |
| C28 | `Verif.Props.pose_vocabulary` | propext |
| C29 | `Verif.Props.olae_recovers_partial` | Classical.choice, Quot.sound, propext |
| C29 | `Verif.Props.olae_systems_consistent` | Classical.choice, Quot.sound, propext |
| C29 | `Verif.Props.olae_succeeds` | Classical.choice, Quot.sound, propext |
| C29 | `Verif.Props.olae_tie_singular` | Classical.choice, Quot.sound, propext |
| C29 | `Verif.Props.right_angle_tie` | Classical.choice, Quot.sound, propext |
| C29 | `Verif.Props.olae_right_angle_wrong` | Classical.choice, Quot.sound, propext |
| C30 | `Verif.Props.kernel_factor` | Classical.choice, Quot.sound, propext |
| C30 | `Verif.Props.kernel_strict` | Classical.choice, Quot.sound, propext |
| C30 | `Verif.Props.kernel_none_iff` | Quot.sound, propext |
| C30 | `Verif.Props.kernel_negative_parameter` | Classical.choice, Quot.sound, propext |
| C31 | `Verif.Props.error_point2point_geometric` | Classical.choice, Quot.sound, propext |
| C31 | `Verif.Props.error_point2plane_geometric` | Classical.choice, Quot.sound, propext |
| C31 | `Verif.Props.error_point2line_geometric_partial` | Classical.choice, Quot.sound, propext |
| C31 | `Verif.Props.error_point2line_needs_unit` | Classical.choice, Quot.sound, propext |
| C31 | `Verif.Props.error_plane2plane_geometric_partial` | Classical.choice, Quot.sound, propext |
| C31 | `Verif.Props.error_plane2plane_ignores_offset` | Quot.sound, propext |
| C31 | `Verif.Props.error_plane2plane_zero_off_plane` | Classical.choice, Quot.sound, propext |
| C31 | `Verif.Props.error_line2line_nonzero_at_alignment` | Classical.choice, Quot.sound, propext |
| C31 | `Verif.Props.pose_vocabulary` | propext |
| C32 | `Verif.Props.jacobians_exact_partial` | Classical.choice, Quot.sound, propext |
| C32 | `Verif.Props.jacobians_are_derivatives_partial` | Classical.choice, Quot.sound, propext |
| C32 | `Verif.Props.line2line_jacobian_translation_partial` | Classical.choice, Quot.sound, propext |
| C32 | `Verif.Props.line2line_jacobian_parallel_partial` | Classical.choice, Quot.sound, propext |
| C32 | `Verif.Props.line2line_jacobian_wrong` | Classical.choice, Quot.sound, propext |
| C32 | `Verif.Props.line2line_true_derivative` | Classical.choice, Quot.sound, propext |
| C32 | `Verif.Props.line2line_reported_derivative` | Classical.choice, Quot.sound, propext |
| C33 | `Verif.Props.gn_tbb_fresh_partial` | Classical.choice, Quot.sound, propext |
| C33 | `Verif.Props.gn_tbb_schedule_independent_partial` | Classical.choice, Quot.sound, propext |
| C33 | `Verif.Props.gn_serial_accumulates` | Classical.choice, Quot.sound, propext |
| C33 | `Verif.Props.gn_serial_first_fresh_partial` | Classical.choice, Quot.sound, propext |
| C33 | `Verif.Props.gn_serial_second_not_fresh` | Classical.choice, Quot.sound, propext |
| C33 | `Verif.Props.gn_builds_agree_one_iteration_partial` | Classical.choice, Quot.sound, propext |
| C33 | `Verif.Props.gn_builds_differ_on_planes` | Classical.choice, Quot.sound, propext |
| C33 | `Verif.Props.gn_racing_cost_bounded` | Classical.choice, Quot.sound, propext |
| C33 | `Verif.Props.gn_racing_cost_loses_updates` | Classical.choice, Quot.sound, propext |
| C34 | `Verif.Props.gn_weights_first_iteration_partial` | Classical.choice, Quot.sound, propext |
| C34 | `Verif.Props.gn_weights_later_iterations` | Classical.choice, Quot.sound, propext |
| C34 | `Verif.Props.gn_weights_single_block_partial` | Classical.choice, Quot.sound, propext |
| C34 | `Verif.Props.gn_weights_second_iteration_wrong` | Classical.choice, Quot.sound, propext |
| C34 | `Verif.Props.gn_tbb_weights_depend_on_schedule` | Classical.choice, Quot.sound, propext |
| C34 | `Verif.Props.gn_short_table_ub` | Classical.choice, Quot.sound, propext |
| C35 | `Verif.Props.covariance_rows_in_bounds` | Classical.choice, Quot.sound, propext |
| C35 | `Verif.Props.covariance_rows_partial` | Classical.choice, Quot.sound, propext |
| C35 | `Verif.Props.covariance_rows_clash` | Classical.choice, Quot.sound, propext |
| C35 | `Verif.Props.covariance_no_pairings` | Quot.sound, propext |
| C35 | `Verif.Props.covariance_ignores_z` | Quot.sound, propext |
| C36 | `Verif.Props.pairings_roundtrip` | Classical.choice, Quot.sound, propext |
| C36 | `Verif.Props.pairings_unknown_version_refused` | Classical.choice, Quot.sound, propext |
| C36 | `Verif.Props.pairings_reader_safe` | Classical.choice, Quot.sound, propext |
| C36 | `Verif.Props.pairings_v0_loads_partial` | Classical.choice, Quot.sound, propext |
| C36 | `Verif.Props.pairings_v0_stale_counter` | Classical.choice, Quot.sound, propext |
| C37 | `Verif.Props.params_roundtrip_partial` | Classical.choice, Quot.sound, propext |
| C37 | `Verif.Props.params_roundtrip_exact` | Classical.choice, Quot.sound, propext |
| C37 | `Verif.Props.params_checkpoints_lost` | Classical.choice, Quot.sound, propext |
| C37 | `Verif.Props.params_old_versions` | Classical.choice, Quot.sound, propext |
| C37 | `Verif.Props.params_unknown_version_refused` | Classical.choice, Quot.sound, propext |
| C37 | `Verif.Props.pairWeights_roundtrip` | Quot.sound, propext |
| C37 | `Verif.Props.weights_roundtrip` | Classical.choice, Quot.sound, propext |
| C37 | `Verif.Props.weights_v0_loads_partial` | Classical.choice, Quot.sound, propext |
| C37 | `Verif.Props.weights_unknown_version_refused` | Classical.choice, Quot.sound, propext |
| C37 | `Verif.Props.results_roundtrip` | Classical.choice, Quot.sound, propext |
| C37 | `Verif.Props.reason_byte_injective` | propext |
| C37 | `Verif.Props.results_unknown_version_refused` | Classical.choice, Quot.sound, propext |
| C38 | `Verif.Props.map_roundtrip` | Classical.choice, Quot.sound, propext |
| C38 | `Verif.Props.map_roundtrip_exact` | Classical.choice, Quot.sound, propext |
| C38 | `Verif.Props.map_old_versions` | Classical.choice, Quot.sound, propext |
| C38 | `Verif.Props.map_version_2` | Classical.choice, Quot.sound, propext |
| C38 | `Verif.Props.map_unknown_version_refused` | Classical.choice, Quot.sound, propext |
| C38 | `Verif.Props.georef_roundtrip_present` | Classical.choice, Quot.sound, propext |
| C38 | `Verif.Props.georef_absent_keeps_stale` | Classical.choice, Quot.sound, propext |
| C39 | `Verif.Props.georef_yaml_roundtrip_partial` | Classical.choice, Quot.sound, propext |
| C39 | `Verif.Props.georef_yaml_drops_rotation` | Classical.choice, Quot.sound, propext |
| C39 | `Verif.Props.georef_yaml_roundtrip_fails` | Classical.choice, Quot.sound, propext |
| C39 | `Verif.Props.georef_yaml_refuses_foreign` | Classical.choice, Quot.sound, propext |
| C39 | `Verif.Props.yaml_find` | Classical.choice, Quot.sound, propext |
| C39 | `Verif.Props.georef_magic` | none |
| C40 | `Verif.Props.velocity_yaml_roundtrip_partial` | Classical.choice, Quot.sound, propext |
| C40 | `Verif.Props.velocity_yaml_result` | Classical.choice, Quot.sound, propext |
| C40 | `Verif.Props.velocity_yaml_loses_samples` | Classical.choice, Quot.sound, propext |
| C40 | `Verif.Props.velocity_yaml_missing_sections` | Quot.sound, propext |
| C41 | `Verif.Props.velocity_held_exactly` | Quot.sound, propext |
| C41 | `Verif.Props.velocity_window_in_order` | Classical.choice, Quot.sound, propext |
| C41 | `Verif.Props.velocity_one_per_stamp` | Quot.sound, propext |
| C41 | `Verif.Props.velocity_history_sorted` | Quot.sound, propext |
| C42 | `Verif.Props.reconstruct_terminates` | Classical.choice, Quot.sound, propext |
| C42 | `Verif.Props.reconstruct_empty_iff` | Classical.choice, Quot.sound, propext |
| C42 | `Verif.Props.reconstruct_covers_partial` | Classical.choice, Quot.sound, propext |
| C42 | `Verif.Props.reconstruct_past_end_iff` | Classical.choice, Quot.sound, propext |
| C42 | `Verif.Props.reconstruct_past_end_example` | Classical.choice, Quot.sound, propext |
| C42 | `Verif.Props.reconstruct_constant_rate_partial` | Classical.choice, Quot.sound, propext |
| C42 | `Verif.Props.closest_within` | Quot.sound, propext |
| C43 | `Verif.Props.realize_values_partial` | Classical.choice, Quot.sound, propext |
| C43 | `Verif.Props.constant_keeps_value` | Classical.choice, Quot.sound, propext |
| C43 | `Verif.Props.unrealized_detected` | Classical.choice, Quot.sound, propext |
| C43 | `Verif.Props.realize_succeeds` | Classical.choice, Quot.sound, propext |
| C43 | `Verif.Props.realize_refuses_undefined` | Classical.choice, Quot.sound, propext |
| C43 | `Verif.Props.failed_formula_stays_broken` | Quot.sound, propext |
| C43 | `Verif.Props.realize_after_failure_wrong` | Quot.sound, propext |
| C43 | `Verif.Props.declare_after_attach_ub` | propext |
| C43 | `Verif.Props.reattach_uses_old_source` | propext |
| C43 | `Verif.Props.redeclared_constant_overwritten` | propext |
| C43 | `Verif.Props.negative_unsigned_ub` | propext |
| C44 | `Verif.Props.merge_contents_partial` | Classical.choice, Quot.sound, propext |
| C44 | `Verif.Props.merge_keeps_everything_partial` | Classical.choice, Quot.sound, propext |
| C44 | `Verif.Props.merge_refused` | Classical.choice, Quot.sound, propext |
| C44 | `Verif.Props.merge_planes_with_pose_throws` | Classical.choice, Quot.sound, propext |
| C44 | `Verif.Props.merge_null_ub` | Classical.choice, Quot.sound, propext |
| C44 | `Verif.Props.merge_shared_layer_changes_other` | Classical.choice, Quot.sound, propext |
| C44 | `Verif.Props.merge_size_partial` | Classical.choice, Quot.sound, propext |
| C44 | `Verif.Props.map_size` | Classical.choice, Quot.sound, propext |
| C44 | `Verif.Props.map_empty_iff` | Classical.choice, Quot.sound, propext |
| C44 | `Verif.Props.empty_size_zero` | propext |
| C44 | `Verif.Props.size_zero_not_empty` | none |
| C45 | `Verif.Props.boundingBox_partitions_partial` | Classical.choice, Quot.sound, propext |
| C45 | `Verif.Props.byRange_partitions_partial` | Classical.choice, Quot.sound, propext |
| C45 | `Verif.Props.byRing_partitions` | Classical.choice, Quot.sound, propext |
| C45 | `Verif.Props.byIntensity_partitions` | Classical.choice, Quot.sound, propext |
| C45 | `Verif.Props.partition_counts` | Classical.choice, Quot.sound, propext |
| C45 | `Verif.Props.partition_frame` | Classical.choice, Quot.sound, propext |
| C45 | `Verif.Props.partition_keeps_partial` | Classical.choice, Quot.sound, propext |
| C45 | `Verif.Props.box_contains_iff` | Quot.sound, propext |
| C45 | `Verif.Props.range_inside_iff` | Classical.choice, Quot.sound, propext |
| C45 | `Verif.Props.range_negative_min_finding` | Classical.choice, Quot.sound, propext |
| C45 | `Verif.Props.filterSnap_throws` | Classical.choice, Quot.sound, propext |
| C45 | `Verif.Props.byIntensity_accepted_iff` | Quot.sound, propext |
| C45 | `Verif.Props.byIntensity_high_only_finding` | Classical.choice, Quot.sound, propext |
| C45 | `Verif.Props.empty_input_finding` | Classical.choice, Quot.sound, propext |
| C45 | `Verif.Props.inserted_point` | propext |
| C46 | `Verif.Props.byRing_partitions` | Classical.choice, Quot.sound, propext |
| C46 | `Verif.Props.byIntensity_partitions` | Classical.choice, Quot.sound, propext |
| C46 | `Verif.Props.partition_keeps_partial` | Classical.choice, Quot.sound, propext |
| C46 | `Verif.Props.boundingBox_never_ends` | Classical.choice, Quot.sound, propext |
| C46 | `Verif.Props.byRange_never_ends` | Classical.choice, Quot.sound, propext |
| C46 | `Verif.Props.filterLive_never_ends` | Classical.choice, Quot.sound, propext |
| C46 | `Verif.Props.filterLive_partitions` | Classical.choice, Quot.sound, propext |
| C46 | `Verif.Props.inserted_point` | propext |
| C46 | `Verif.Props.range_inside_iff` | Classical.choice, Quot.sound, propext |
| C47 | `Verif.Props.normalize_result_partial` | Classical.choice, Quot.sound, propext |
| C47 | `Verif.Props.normalize_affine` | Classical.choice, Quot.sound, propext |
| C47 | `Verif.Props.normalize_fixed` | Classical.choice, Quot.sound, propext |
| C47 | `Verif.Props.normalize_throws` | Classical.choice, Quot.sound, propext |
| C47 | `Verif.Props.normalize_history` | Classical.choice, Quot.sound, propext |
| C47 | `Verif.Props.normalize_memory_grows` | Classical.choice, Quot.sound, propext |
| C47 | `Verif.Props.normalize_memory_unused` | Classical.choice, Quot.sound, propext |
| C47 | `Verif.Props.normalize_fixed_reversed` | Classical.choice, Quot.sound, propext |
| C48 | `Verif.Props.adjust_shifts` | Classical.choice, Quot.sound, propext |
| C48 | `Verif.Props.adjust_zero` | Classical.choice, Quot.sound, propext |
| C48 | `Verif.Props.adjust_normalize` | Classical.choice, Quot.sound, propext |
| C48 | `Verif.Props.adjust_skips` | Classical.choice, Quot.sound, propext |
| C48 | `Verif.Props.adjust_keeps_absolute` | Classical.choice, Quot.sound, propext |
| C48 | `Verif.Props.adjust_moves_other_layers` | Classical.choice, Quot.sound, propext |
| C49 | `Verif.Props.decimate_first_partial` | Classical.choice, Quot.sound, propext |
| C49 | `Verif.Props.decimate_multi_partial` | Classical.choice, Quot.sound, propext |
| C49 | `Verif.Props.decimate_std_map_outputs_nothing` | Classical.choice, Quot.sound, propext |
| C49 | `Verif.Props.decimate_multi_small_throws` | Classical.choice, Quot.sound, propext |
| C49 | `Verif.Props.decimate_ub` | Classical.choice, Quot.sound, propext |
| C49 | `Verif.Props.decimate_small_in_place_never_ends` | Classical.choice, Quot.sound, propext |
| C49 | `Verif.Props.decimate_missing_input` | Classical.choice, Quot.sound, propext |
| C49 | `Verif.Props.decimate_ignores_missing` | Classical.choice, Quot.sound, propext |
| C49 | `Verif.Props.inserted_point` | propext |
| C49 | `Verif.Props.layer_as_cloud` | Classical.choice, Quot.sound, propext |
| C49 | `Verif.Props.truncated_index` | Quot.sound, propext |
| C50 | `Verif.Props.voxel_side_partial` | Classical.choice, Quot.sound, propext |
| C50 | `Verif.Props.voxel_double_side` | Classical.choice, Quot.sound, propext |
| C50 | `Verif.Props.voxel_zero_is_double` | Classical.choice, Quot.sound, propext |
| C50 | `Verif.Props.coord2idx_interval` | Classical.choice, Quot.sound, propext |
| C50 | `Verif.Props.coord2idx_defined_iff` | Classical.choice, Quot.sound, propext |
| C50 | `Verif.Props.coord2idx_mono` | Classical.choice, Quot.sound, propext |
| C50 | `Verif.Props.truncated_index` | Quot.sound, propext |
| C51 | `Verif.Props.adaptive_result_partial` | Classical.choice, Quot.sound, propext |
| C51 | `Verif.Props.adaptive_first_pass` | Classical.choice, Quot.sound, propext |
| C51 | `Verif.Props.adaptive_covers` | Classical.choice, Quot.sound, propext |
| C51 | `Verif.Props.adaptive_loop_ends` | Classical.choice, Quot.sound, propext |
| C51 | `Verif.Props.adaptive_first_round` | Classical.choice, Quot.sound, propext |
| C51 | `Verif.Props.adaptive_starves` | Quot.sound, propext |
| C51 | `Verif.Props.adaptive_starves_example` | propext |
| C51 | `Verif.Props.adaptive_empty_input_ub` | Classical.choice, Quot.sound, propext |
| C51 | `Verif.Props.adaptive_disabled` | Classical.choice, Quot.sound, propext |
| C51 | `Verif.Props.adaptive_no_output_ub` | Classical.choice, Quot.sound, propext |
| C51 | `Verif.Props.inserted_point` | propext |
| C51 | `Verif.Props.truncated_index` | Quot.sound, propext |
| C52 | `Verif.Props.occupancy_partitions` | Classical.choice, Quot.sound, propext |
| C52 | `Verif.Props.occTarget_spec` | Classical.choice, Quot.sound, propext |
| C52 | `Verif.Props.occ_exclusive` | Quot.sound, propext |
| C52 | `Verif.Props.occupancy_refuses` | Classical.choice, Quot.sound, propext |
| C52 | `Verif.Props.inserted_point` | propext |
| C53 | `Verif.Props.curvature_result_partial` | Classical.choice, Quot.sound, propext |
| C53 | `Verif.Props.curvature_once` | Classical.choice, Quot.sound, propext |
| C53 | `Verif.Props.thinned_unique` | Classical.choice, Quot.sound, propext |
| C53 | `Verif.Props.curvature_ring_overflow_ub` | Classical.choice, Quot.sound, propext |
| C53 | `Verif.Props.curvature_refuses` | Classical.choice, Quot.sound, propext |
| C53 | `Verif.Props.isSqrt_real` | Classical.choice, Quot.sound, propext |
| C53 | `Verif.Props.curvature_border_depends_on_direction` | Classical.choice, Quot.sound, propext |
| C53 | `Verif.Props.inserted_point` | propext |
| C54 | `Verif.Props.deskew_result_partial` | Classical.choice, Quot.sound, propext |
| C54 | `Verif.Props.deskew_constant_twist` | Quot.sound, propext |
| C54 | `Verif.Props.deskew_motion_constant` | Quot.sound, propext |
| C54 | `Verif.Props.deskew_zero` | Quot.sound, propext |
| C54 | `Verif.Props.deskew_rigid` | Quot.sound, propext |
| C54 | `Verif.Props.deskew_count` | Classical.choice, Quot.sound, propext |
| C54 | `Verif.Props.deskew_skip_copies` | Classical.choice, Quot.sound, propext |
| C54 | `Verif.Props.deskew_refuses` | Classical.choice, Quot.sound, propext |
| C54 | `Verif.Props.deskew_precise_no_translation` | Quot.sound, propext |
| C54 | `Verif.Props.deskew_precise_fallback_still` | Quot.sound, propext |
| C54 | `Verif.Props.deskew_missing_input_created` | Classical.choice, Quot.sound, propext |
| C54 | `Verif.Props.deskew_origin_finding` | Classical.choice, Quot.sound, propext |
| C54 | `Verif.Props.deskew_motion_precise` | Quot.sound, propext |
| C54 | `Verif.Props.deskew_precise_nearest` | Quot.sound, propext |
| C54 | `Verif.Props.inserted_point` | propext |
| C54 | `Verif.Props.blank_point` | Quot.sound, propext |
| C55 | `Verif.Props.filters_compose` | propext |
| C55 | `Verif.Props.filters_in_order` | none |
| C55 | `Verif.Props.filters_stop_at_exception` | propext |
| C56 | `Verif.Props.deleteLayers_exact` | Classical.choice, Quot.sound, propext |
| C56 | `Verif.Props.deleteLayers_error_iff` | Classical.choice, Quot.sound, propext |
| C56 | `Verif.Props.getOrCreate_spec` | Classical.choice, Quot.sound, propext |
| C57 | `Verif.Props.sm2mm_processes_selected` | Classical.choice, Quot.sound, propext |
| C57 | `Verif.Props.sm2mm_calls_partial` | Classical.choice, Quot.sound, propext |
| C57 | `Verif.Props.sm2mm_end_max_processes_nothing` | Classical.choice, Quot.sound, propext |
| C57 | `Verif.Props.smKF_null` | Classical.choice, Quot.sound, propext |
| C57 | `Verif.Props.kf_pose_vars` | Classical.choice, Quot.sound, propext |
| C57 | `Verif.Props.kf_twist_vars` | Classical.choice, Quot.sound, propext |
| C57 | `Verif.Props.kf_twist_stale` | Classical.choice, Quot.sound, propext |
| C57 | `Verif.Props.sm2mm_final_filter_fails` | Classical.choice, Quot.sound, propext |
| C57 | `Verif.Props.selected_eq` | Classical.choice, Quot.sound, propext |
| C57 | `Verif.Props.initial_variables` | Classical.choice, Quot.sound, propext |
| C58 | `Verif.Props.cut_result` | Classical.choice, Quot.sound, propext |
| C58 | `Verif.Props.cut_slice` | Classical.choice, Quot.sound, propext |
| C58 | `Verif.Props.join_result` | propext |
| C58 | `Verif.Props.join_unreadable` | propext |
| C58 | `Verif.Props.cut_join` | Classical.choice, Quot.sound, propext |
| C58 | `Verif.Props.trim_result` | Quot.sound, propext |
| C58 | `Verif.Props.trim_null` | propext |
| C58 | `Verif.Props.trim_trim` | Quot.sound, propext |
| C58 | `Verif.Props.tf_result` | Quot.sound, propext |
| C58 | `Verif.Props.tf_null_ub` | propext |
| C58 | `Verif.Props.tf_tf` | Quot.sound, propext |
| C58 | `Verif.Props.tf_inverse` | Quot.sound, propext |
| C58 | `Verif.Props.tf_join` | Quot.sound, propext |
| C58 | `Verif.Props.level_result` | Quot.sound, propext |
| C59 | `Verif.Props.generators_obs` | Quot.sound, propext |
| C59 | `Verif.Props.generators_frame` | Quot.sound, propext |
| C59 | `Verif.Props.generators_none_refused` | propext |
| C60 | `Verif.Props.txt2mm_layer_ignored` | Classical.choice, Quot.sound, propext |
| C60 | `Verif.Props.txt2mm_layer_raw` | Classical.choice, Quot.sound, propext |
| C60 | `Verif.Props.txt2mm_layer_missing` | Classical.choice, Quot.sound, propext |
| C60 | `Verif.Props.txt2mm_result_partial` | Classical.choice, Quot.sound, propext |
| C60 | `Verif.Props.txt2mm_colour_ub` | Classical.choice, Quot.sound, propext |
| C60 | `Verif.Props.txt2mm_xyzirt_loses_channels` | Classical.choice, Quot.sound, propext |
| C60 | `Verif.Props.txt2mm_refuses` | Classical.choice, Quot.sound, propext |
| C60 | `Verif.Props.txt2mm_column_past_end` | Quot.sound, propext |
| C60 | `Verif.Props.txt2mm_column_past_end_ub` | Quot.sound, propext |
| C60 | `Verif.Props.columns_needed` | Classical.choice, Quot.sound, propext |
| C61 | `Verif.Props.robust_needs_estimate` | Quot.sound, propext |
| C61 | `Verif.Props.solver_horn_robust_never` | Classical.choice, Quot.sound, propext |
| C62 | `Verif.Props.gn_fixed_point_serial_partial` | Classical.choice, Quot.sound, propext |
| C62 | `Verif.Props.gn_fixed_point_tbb_partial` | Classical.choice, Quot.sound, propext |
| C62 | `Verif.Props.gn_leaves_aligned_lines` | Classical.choice, Quot.sound, propext |
| C63 | `Verif.Props.gn_terminates_partial` | Classical.choice, Quot.sound, propext |
| C63 | `Verif.Props.gn_serial_total` | Classical.choice, Quot.sound, propext |
| C63 | `Verif.Props.gn_always_reports_success` | Classical.choice, Quot.sound, propext |
| C63 | `Verif.Props.gn_solver_uses_guess` | Classical.choice, Quot.sound, propext |
| C64 | `Verif.Props.log_roundtrip_partial` | Classical.choice, Quot.sound, propext |
| C64 | `Verif.Props.log_file_roundtrip` | Classical.choice, Quot.sound, propext |
| C65 | `Verif.Props.params_yaml_roundtrip_partial` | Classical.choice, Quot.sound, propext |
| C65 | `Verif.Props.params_yaml_checkpoints_lost` | Classical.choice, Quot.sound, propext |
| C65 | `Verif.Props.pairWeights_yaml_roundtrip` | Classical.choice, Quot.sound, propext |
| C65 | `Verif.Props.weights_yaml_roundtrip` | Classical.choice, Quot.sound, propext |
| C65 | `Verif.Props.params_yaml_mandatory` | Classical.choice, Quot.sound, propext |
| C65 | `Verif.Props.checkpoints_first_entry_wins` | Classical.choice, Quot.sound, propext |
| C65 | `Verif.Props.checkpoints_empty_refused` | Classical.choice, Quot.sound, propext |
| C65 | `Verif.Props.yaml_find` | Classical.choice, Quot.sound, propext |
| C66 | `Verif.Props.firstStamp_spec` | Quot.sound, propext |
| C66 | `Verif.Props.exportKfs_result` | Quot.sound, propext |
| C66 | `Verif.Props.exportKfs_distinct_partial` | Classical.choice, Quot.sound, propext |
| C66 | `Verif.Props.exportRawlog_result` | Quot.sound, propext |
| C66 | `Verif.Props.exportKfs_same_stamp_finding` | propext |
| C66 | `Verif.Props.exportRawlog_null_ub` | propext |
| C67 | `Verif.Props.quadratic_result` | Classical.choice, Quot.sound, propext |
| C67 | `Verif.Props.quadratic_missing_input` | Classical.choice, Quot.sound, propext |
| C67 | `Verif.Props.quadratic_missing_created` | Classical.choice, Quot.sound, propext |
| C67 | `Verif.Props.quadratic_refuses` | Classical.choice, Quot.sound, propext |
| C67 | `Verif.Props.warp_strictMono` | Classical.choice, Quot.sound, propext |
| C67 | `Verif.Props.warp_stretch` | Classical.choice, Quot.sound, propext |
| C67 | `Verif.Props.warp_wider_near_origin` | Classical.choice, Quot.sound, propext |
| C67 | `Verif.Props.warp_narrower_near_radius` | Classical.choice, Quot.sound, propext |
| C67 | `Verif.Props.cell_size` | Classical.choice, Quot.sound, propext |
| C67 | `Verif.Props.grid2real_inverse_partial` | Classical.choice, Quot.sound, propext |
| C67 | `Verif.Props.grid2real_negative_nan` | Classical.choice, Quot.sound, propext |
| C67 | `Verif.Props.quadratic_zero_radius_ub` | Classical.choice, Quot.sound, propext |
| C67 | `Verif.Props.inserted_point` | propext |
| C67 | `Verif.Props.truncated_index` | Quot.sound, propext |
| C68 | `Verif.Props.merge_into_cloud` | Classical.choice, Quot.sound, propext |
| C68 | `Verif.Props.merge_into_other` | Classical.choice, Quot.sound, propext |
| C68 | `Verif.Props.merge_filter_refused_iff` | Classical.choice, Quot.sound, propext |
| C68 | `Verif.Props.merge_into_itself` | Classical.choice, Quot.sound, propext |
| C68 | `Verif.Props.merged_points` | none |
| C68 | `Verif.Props.pose_vocabulary` | propext |
| C69 | `Verif.Props.slice_range` | Classical.choice, Quot.sound, propext |
| C69 | `Verif.Props.slice_result_partial` | Classical.choice, Quot.sound, propext |
| C69 | `Verif.Props.slice_rgb_empty` | Classical.choice, Quot.sound, propext |
| C69 | `Verif.Props.slice_refuses` | Classical.choice, Quot.sound, propext |
| C70 | `Verif.Props.range_image` | Classical.choice, Quot.sound, propext |
| C70 | `Verif.Props.range_image_ub` | Classical.choice, Quot.sound, propext |
| C70 | `Verif.Props.range_quality_in_range` | Classical.choice, Quot.sound, propext |
| C70 | `Verif.Props.range_quality_symmetric` | Classical.choice, Quot.sound, propext |
| C70 | `Verif.Props.range_quality_perfect_partial` | Classical.choice, Quot.sound, propext |
| C70 | `Verif.Props.range_quality_of_registration` | Classical.choice, Quot.sound, propext |
| C70 | `Verif.Props.range_penalty_negative` | Classical.choice, Quot.sound, propext |
| C70 | `Verif.Props.truncated_index` | Quot.sound, propext |
| C70 | `Verif.Props.point_seen` | Quot.sound, propext |
| C71 | `Verif.Props.loss_form` | Classical.choice, Quot.sound, propext |
| C71 | `Verif.Props.loss_best` | Classical.choice, Quot.sound, propext |
| C71 | `Verif.Props.voxels_quality` | Classical.choice, Quot.sound, propext |
| C71 | `Verif.Props.voxels_refused` | Quot.sound, propext |
| C71 | `Verif.Props.voxels_quality_in_range` | Classical.choice, Quot.sound, propext |
| C71 | `Verif.Props.voxels_symmetric_partial` | Classical.choice, Quot.sound, propext |
| C71 | `Verif.Props.voxels_symmetry_fails` | Classical.choice, Quot.sound, propext |
| C71 | `Verif.Props.voxels_self` | Classical.choice, Quot.sound, propext |
| C71 | `Verif.Props.pose_vocabulary` | propext |
| C72 | `Verif.Props.range_edges_rot_result_partial` | Classical.choice, Quot.sound, propext |
| C72 | `Verif.Props.range_edges_rot_falling_ub` | Classical.choice, Quot.sound, propext |
| C72 | `Verif.Props.range_edges_rot_narrow_ub` | Classical.choice, Quot.sound, propext |
| C72 | `Verif.Props.range_edges_rot_refuses` | Classical.choice, Quot.sound, propext |
| C72 | `Verif.Props.range_edges_rot_misses_steps` | Classical.choice, Quot.sound, propext |
| C72 | `Verif.Props.range_edges_rot_finds_noise` | Classical.choice, Quot.sound, propext |
| C72 | `Verif.Props.range_edges_rot_flat` | Quot.sound, propext |
| C72 | `Verif.Props.range_edges_3d_planes_lost` | Classical.choice, Quot.sound, propext |
| C72 | `Verif.Props.range_edges_3d_same_layer` | Classical.choice, Quot.sound, propext |
| C72 | `Verif.Props.range_edges_3d_no_planes_layer` | Classical.choice, Quot.sound, propext |
| C72 | `Verif.Props.range_edges_3d_no_target` | Classical.choice, Quot.sound, propext |
| C72 | `Verif.Props.range_edges_3d_falling_ub` | Classical.choice, Quot.sound, propext |
| C72 | `Verif.Props.range_edges_3d_refuses` | Classical.choice, Quot.sound, propext |
| C72 | `Verif.Props.point_placed` | Quot.sound, propext |
| C72 | `Verif.Props.depth_point` | Quot.sound, propext |
| C72 | `Verif.Props.block_mean` | Quot.sound, propext |
| C72 | `Verif.Props.range_differences` | Classical.choice, Quot.sound, propext |
| C72 | `Verif.Props.edge_clouds` | Quot.sound, propext |
| C72 | `Verif.Props.scan_consistent` | Classical.choice, Quot.sound, propext |
| C72 | `Verif.Props.inserted_point` | propext |
| C73 | `Verif.Props.curv_edges_result_partial` | Classical.choice, Quot.sound, propext |
| C73 | `Verif.Props.mem_corners` | Classical.choice, Quot.sound, propext |
| C73 | `Verif.Props.curv_edges_refuses` | Classical.choice, Quot.sound, propext |
| C73 | `Verif.Props.corner_is_angle` | Classical.choice, Quot.sound, propext |
| C73 | `Verif.Props.corner_all` | Classical.choice, Quot.sound, propext |
| C73 | `Verif.Props.corner_none` | Classical.choice, Quot.sound, propext |
| C73 | `Verif.Props.curv_edges_rigid` | Classical.choice, Quot.sound, propext |
| C73 | `Verif.Props.corner_reversed` | Quot.sound, propext |
| C73 | `Verif.Props.curv_process_skips` | Classical.choice, Quot.sound, propext |
| C73 | `Verif.Props.curv_process_other` | Classical.choice, Quot.sound, propext |
| C73 | `Verif.Props.curv_process_scan` | Classical.choice, Quot.sound, propext |
| C73 | `Verif.Props.point_placed` | Quot.sound, propext |
| C73 | `Verif.Props.edge_clouds` | Quot.sound, propext |
| C73 | `Verif.Props.scan_consistent` | Classical.choice, Quot.sound, propext |
| C74 | `Verif.Props.poles_result_partial` | Classical.choice, Quot.sound, propext |
| C74 | `Verif.Props.poles_cell_by_cell_perm` | Classical.choice, Quot.sound, propext |
| C74 | `Verif.Props.poles_far_ub` | Classical.choice, Quot.sound, propext |
| C74 | `Verif.Props.poles_refuses` | Classical.choice, Quot.sound, propext |
| C74 | `Verif.Props.poles_sparse_dropped` | Quot.sound, propext |
| C74 | `Verif.Props.poles_lonely_missed` | Classical.choice, Quot.sound, propext |
| C74 | `Verif.Props.poles_lift_invariant` | Classical.choice, Quot.sound, propext |
| C74 | `Verif.Props.poles_order_irrelevant` | Classical.choice, Quot.sound, propext |
| C74 | `Verif.Props.inserted_point` | propext |
| C74 | `Verif.Props.truncated_index` | Quot.sound, propext |
| C75 | `Verif.Props.edges_planes_result_partial` | Classical.choice, Quot.sound, propext |
| C75 | `Verif.Props.edges_planes_refuses` | Classical.choice, Quot.sound, propext |
| C75 | `Verif.Props.edges_planes_far_ub` | Classical.choice, Quot.sound, propext |
| C75 | `Verif.Props.edges_planes_std_map_empty` | Classical.choice, Quot.sound, propext |
| C75 | `Verif.Props.edges_planes_zero_never_ends` | Classical.choice, Quot.sound, propext |
| C75 | `Verif.Props.edges_planes_origin_throws` | Classical.choice, Quot.sound, propext |
| C75 | `Verif.Props.edges_planes_line_no_edge` | Classical.choice, Quot.sound, propext |
| C75 | `Verif.Props.edges_planes_flat_no_edge` | Classical.choice, Quot.sound, propext |
| C75 | `Verif.Props.edges_planes_flat_is_plane` | Classical.choice, Quot.sound, propext |
| C75 | `Verif.Props.truncated_index` | Quot.sound, propext |
| C75 | `Verif.Props.voxel_classes` | Classical.choice, Quot.sound, propext |
| C75 | `Verif.Props.eigen_mean_cov` | Classical.choice, Quot.sound, propext |
| C76 | `Verif.Props.eigen_mean_cov` | Classical.choice, Quot.sound, propext |
| C76 | `Verif.Props.eigen_mean_best` | Classical.choice, Quot.sound, propext |
| C76 | `Verif.Props.eigen_best_plane` | Classical.choice, Quot.sound, propext |
| C76 | `Verif.Props.eigen_best_line` | Classical.choice, Quot.sound, propext |
| C76 | `Verif.Props.eigen_values` | Classical.choice, Quot.sound, propext |
| C76 | `Verif.Props.eigen_degenerate` | Classical.choice, Quot.sound, propext |
| C76 | `Verif.Props.eigen_moved` | Classical.choice, Quot.sound, propext |
| C76 | `Verif.Props.eigen_order_irrelevant` | Quot.sound, propext |
| C76 | `Verif.Props.eigen_refuses` | Quot.sound, propext |
| C76 | `Verif.Props.eigen_far_ub` | Quot.sound, propext |
| C76 | `Verif.Props.eigen_both_ignores_indices` | Quot.sound, propext |
| C76 | `Verif.Props.eigen_to_xyz` | Quot.sound, propext |
| C77 | `Verif.Props.gn_steps` | Classical.choice, Quot.sound, propext |
| C77 | `Verif.Props.gn_stops_partial` | Classical.choice, Quot.sound, propext |
| C77 | `Verif.Props.gn_stops_with_table` | Classical.choice, Quot.sound, propext |
| C77 | `Verif.Props.gn_step_minimises` | Classical.choice, Quot.sound, propext |
| C77 | `Verif.Props.gn_tbb_steps_minimise` | Classical.choice, Quot.sound, propext |
| C78 | `Verif.Props.gen_skips` | Classical.choice, Quot.sound, propext |
| C78 | `Verif.Props.gen_cloud_partial` | Classical.choice, Quot.sound, propext |
| C78 | `Verif.Props.gen_cloud_refused` | Classical.choice, Quot.sound, propext |
| C78 | `Verif.Props.gen_accumulates` | Classical.choice, Quot.sound, propext |
| C78 | `Verif.Props.gen_moves_with_robot` | Quot.sound, propext |
| C78 | `Verif.Props.gen_imu` | Classical.choice, Quot.sound, propext |
| C78 | `Verif.Props.gen_general` | Classical.choice, Quot.sound, propext |
| C78 | `Verif.Props.gen_depth` | Classical.choice, Quot.sound, propext |
| C78 | `Verif.Props.gen_velodyne` | Classical.choice, Quot.sound, propext |
| C78 | `Verif.Props.gen_custom` | Classical.choice, Quot.sound, propext |
| C78 | `Verif.Props.gen_refuses` | Classical.choice, Quot.sound, propext |
| C78 | `Verif.Props.gen_frame` | Classical.choice, Quot.sound, propext |
| C78 | `Verif.Props.gen_velodyne_always_handled` | Classical.choice, Quot.sound, propext |
| C78 | `Verif.Props.gen_custom_gps_throws` | Classical.choice, Quot.sound, propext |
| C78 | `Verif.Props.gen_empty_target` | Classical.choice, Quot.sound, propext |
| C78 | `Verif.Props.gen_imu_leaves_layer` | Classical.choice, Quot.sound, propext |
| C78 | `Verif.Props.inserted_point` | propext |
| C78 | `Verif.Props.reference_time` | none |
| C78 | `Verif.Props.pose_vocabulary` | propext |
| C79 | `Verif.Props.mapdef_ini` | Classical.choice, Quot.sound, propext |
| C79 | `Verif.Props.mapdef_refused_iff` | Classical.choice, Quot.sound, propext |
| C79 | `Verif.Props.mapdef_needs_class` | Classical.choice, Quot.sound, propext |
| C79 | `Verif.Props.mapdef_all_empty` | Classical.choice, Quot.sound, propext |
| C79 | `Verif.Props.mapdef_default_iff` | Classical.choice, Quot.sound, propext |
| C80 | `Verif.Props.icp_yaml_exact` | Quot.sound, propext |
| C80 | `Verif.Props.icp_yaml_sizes` | Quot.sound, propext |
| C80 | `Verif.Props.icp_yaml_mandatory` | Quot.sound, propext |
| C80 | `Verif.Props.icp_yaml_derived_ignores_params` | Quot.sound, propext |
| C80 | `Verif.Props.icp_yaml_incomplete` | Quot.sound, propext |
| C81 | `Verif.Props.georef_extract` | Classical.choice, Quot.sound, propext |
| C81 | `Verif.Props.georef_inject_partial` | Classical.choice, Quot.sound, propext |
| C81 | `Verif.Props.georef_transfer` | Classical.choice, Quot.sound, propext |
| C81 | `Verif.Props.georef_error_writes_nothing` | Classical.choice, Quot.sound, propext |
| C81 | `Verif.Props.georef_flags` | Classical.choice, Quot.sound, propext |
| C81 | `Verif.Props.georef_inject_crash` | Classical.choice, Quot.sound, propext |
| C81 | `Verif.Props.georef_inject_unreported` | Classical.choice, Quot.sound, propext |
| C81 | `Verif.Props.georef_inject_creates` | Classical.choice, Quot.sound, propext |
| C81 | `Verif.Props.load_saved` | Classical.choice, Quot.sound, propext |
| C81 | `Verif.Props.load_cut` | Classical.choice, Quot.sound, propext |
| C82 | `Verif.Props.mm_rename` | Classical.choice, Quot.sound, propext |
| C82 | `Verif.Props.mm_rename_refused` | Classical.choice, Quot.sound, propext |
| C82 | `Verif.Props.mm_filter_result` | Classical.choice, Quot.sound, propext |
| C82 | `Verif.Props.mm_filter_files` | Classical.choice, Quot.sound, propext |
| C82 | `Verif.Props.mm_filter_arguments` | Classical.choice, Quot.sound, propext |
| C82 | `Verif.Props.mm2txt_result` | Classical.choice, Quot.sound, propext |
| C82 | `Verif.Props.mm2txt_no_clash` | Classical.choice, Quot.sound, propext |
| C82 | `Verif.Props.mm2txt_unwritten_unreported` | Classical.choice, Quot.sound, propext |
| C82 | `Verif.Props.mm2txt_bad_layer` | Classical.choice, Quot.sound, propext |
| C82 | `Verif.Props.kitti2mm_result_partial` | Classical.choice, Quot.sound, propext |
| C82 | `Verif.Props.kitti2mm_refuses` | Classical.choice, Quot.sound, propext |
| C82 | `Verif.Props.rename_separator` | propext |
| C83 | `Verif.Props.rawlog_result_partial` | Classical.choice, Quot.sound, propext |
| C83 | `Verif.Props.rawlog_stateless` | propext |
| C83 | `Verif.Props.rawlog_labels_distinct` | Classical.choice, Quot.sound, propext |
| C83 | `Verif.Props.rawlog_stops` | Classical.choice, Quot.sound, propext |
| C83 | `Verif.Props.rawlog_to_max` | propext |
| C84 | `Verif.Props.config_accepted_iff_partial` | Quot.sound, propext |
| C84 | `Verif.Props.config_members` | Quot.sound, propext |
| C84 | `Verif.Props.config_defaults` | Quot.sound, propext |
| C84 | `Verif.Props.config_again_keeps` | Quot.sound, propext |
| C84 | `Verif.Props.intensity_config_partial` | Quot.sound, propext |
| C84 | `Verif.Props.intensity_high_only_refused` | Quot.sound, propext |
| C84 | `Verif.Props.intensity_documented_refused` | Quot.sound, propext |
| C84 | `Verif.Props.matcher_documented_config_refused` | Quot.sound, propext |
| C84 | `Verif.Props.paired_ratio_config` | Classical.choice, Quot.sound, propext |
| C84 | `Verif.Props.paired_ratio_documented_refused` | Classical.choice, Quot.sound, propext |
| C84 | `Verif.Props.failed_config_changes_members` | propext |
| C85 | `Verif.Props.view_result_partial` | Classical.choice, Quot.sound, propext |
| C85 | `Verif.Props.view_lines_partial` | Classical.choice, Quot.sound, propext |
| C85 | `Verif.Props.view_hidden_lines_shown` | Quot.sound, propext |
| C85 | `Verif.Props.view_lengths_ignored` | Quot.sound, propext |
| C85 | `Verif.Props.view_point_size_misplaced` | Classical.choice, Quot.sound, propext |
| C85 | `Verif.Props.view_sets_free_flag` | Quot.sound, propext |
| C85 | `Verif.Props.coordinate_used` | propext |
| C86 | `Verif.Props.pairings_view` | Classical.choice, Quot.sound, propext |
| C86 | `Verif.Props.pairings_view_residual` | Classical.choice, Quot.sound, propext |
| C87 | `Verif.Pm.libpm_result` | Quot.sound, propext |
| C87 | `Verif.Pm.libpm_unavailable` | Quot.sound, propext |
| C87 | `Verif.Pm.libpm_refused` | Quot.sound, propext |
| C87 | `Verif.Pm.libpm_voxels_refused` | Quot.sound, propext |
| C87 | `Verif.Pm.libpm_right_pose` | Quot.sound, propext |
| C87 | `Verif.Pm.libpm_pose_right_iff` | Quot.sound, propext |
| C87 | `Verif.Pm.libpm_from_identity_partial` | Quot.sound, propext |
| C87 | `Verif.Pm.libpm_wrong_order` | Classical.choice, Quot.sound, propext |
| C87 | `Verif.Pm.libpm_ratio_quality_zero` | Classical.choice, Quot.sound, propext |
| C87 | `Verif.Props.pose_vocabulary` | propext |
| C88 | `Verif.IcpRun.input_kind` | Classical.choice, Quot.sound, propext |
| C88 | `Verif.IcpRun.input_kind_documented_partial` | Classical.choice, Quot.sound, propext |
| C88 | `Verif.IcpRun.input_kind_mm_anywhere` | Classical.choice, Quot.sound, propext |
| C88 | `Verif.IcpRun.input_loaded` | Classical.choice, Quot.sound, propext |
| C88 | `Verif.IcpRun.input_rawlog_index` | Classical.choice, Quot.sound, propext |
| C88 | `Verif.IcpRun.icp_run_result` | Classical.choice, Quot.sound, propext |
| C88 | `Verif.IcpRun.icp_run_exit` | Classical.choice, Quot.sound, propext |
| C88 | `Verif.Props.truncated_index` | Quot.sound, propext |
| C89 | `Verif.MapUtil.plugin_found_iff` | Classical.choice, Quot.sound, propext |
| C89 | `Verif.MapUtil.plugin_loaded_iff` | Classical.choice, Quot.sound, propext |
| C89 | `Verif.MapUtil.plugin_again` | Classical.choice, Quot.sound, propext |
| C89 | `Verif.Props.text_pieces` | Classical.choice, Quot.sound, propext |
| C90 | `Verif.MapUtil.sanity_iff_partial` | Classical.choice, Quot.sound, propext |
| C90 | `Verif.MapUtil.xyz_loaded_iff` | Quot.sound, propext |
| C90 | `Verif.MapUtil.point_layer_iff` | Classical.choice, Quot.sound, propext |
| C90 | `Verif.MapUtil.map_to_points_iff` | Quot.sound, propext |
| C90 | `Verif.MapUtil.map_to_interface` | Quot.sound, propext |
| C90 | `Verif.MapUtil.umap_empty_iff` | Quot.sound, propext |
| C90 | `Verif.MapUtil.summary_result` | Classical.choice, Quot.sound, propext |
| C90 | `Verif.MapUtil.summary_blank` | Classical.choice, Quot.sound, propext |
| C90 | `Verif.Props.summary_texts` | Classical.choice, Quot.sound, propext |
| C91 | `Verif.SmCli.smcli_dispatch` | propext |
| C91 | `Verif.SmCli.smcli_help` | Classical.choice, Quot.sound, propext |
| C91 | `Verif.SmCli.smcli_done` | Classical.choice, Quot.sound, propext |
| C91 | `Verif.SmCli.smcli_success_only_if` | Classical.choice, Quot.sound, propext |
| C91 | `Verif.SmCli.smcli_failure_writes_nothing_partial` | Classical.choice, Quot.sound, propext |
| C91 | `Verif.SmCli.smcli_unwritable_unreported` | Classical.choice, Quot.sound, propext |
| C91 | `Verif.SmCli.smcli_twists_left` | Classical.choice, Quot.sound, propext |
| C91 | `Verif.SmCli.info_result` | Classical.choice, Quot.sound, propext |
| C91 | `Verif.Props.keyframes_exported` | propext |
| C92 | `Verif.SmApp.sm2mm_program_partial` | Classical.choice, Quot.sound, propext |
| C92 | `Verif.SmApp.sm2mm_failure_writes_nothing` | Classical.choice, Quot.sound, propext |
| C92 | `Verif.SmApp.sm2mm_then_load` | Classical.choice, Quot.sound, propext |
| C92 | `Verif.SmApp.sm2mm_default_pipeline` | propext |
| C92 | `Verif.SmApp.sm2mm_plugins_ignored` | Classical.choice, Quot.sound, propext |
| C92 | `Verif.SmApp.sm2mm_read_error_ignored` | Classical.choice, Quot.sound, propext |
| C92 | `Verif.SmApp.sm2mm_nothing_selected` | Classical.choice, Quot.sound, propext |
| C92 | `Verif.SmApp.mm_info_result` | Classical.choice, Quot.sound, propext |
| C92 | `Verif.SmApp.mm_info_refused` | Classical.choice, Quot.sound, propext |
| C92 | `Verif.SmApp.mm_info_unreadable` | Classical.choice, Quot.sound, propext |
| C93 | `Verif.Props.exact_registration` | Classical.choice, Quot.sound, propext |
| C93 | `Verif.Props.few_points_lost` | Classical.choice, Quot.sound, propext |
| C93 | `Verif.Props.exact_registration_any` | Classical.choice, Quot.sound, propext |
| C93 | `Verif.Props.exact_registration_olae` | Classical.choice, Quot.sound, propext |
| C93 | `Verif.Props.tied_rotation_lost` | Classical.choice, Quot.sound, propext |
| C94 | `Verif.Props.fit_never_worse_step_partial` | Classical.choice, Quot.sound, propext |
| C94 | `Verif.Props.misfit_no_angle` | Quot.sound, propext |
| C94 | `Verif.Props.fit_never_worse_partial` | Classical.choice, Quot.sound, propext |
| C94 | `Verif.Props.fit_lost_few_points` | Classical.choice, Quot.sound, propext |
| C94 | `Verif.Props.fit_worse_angular` | Classical.choice, Quot.sound, propext |
| C95 | `Verif.Props.one_log_in_memory` | Classical.choice, Quot.sound, propext |
| C95 | `Verif.Props.viewer_shows_selected` | Classical.choice, Quot.sound, propext |
| C95 | `Verif.Props.all_layers_at_start` | Classical.choice, Quot.sound, propext |
| C95 | `Verif.Props.viewer_never_fails` | Classical.choice, Quot.sound, propext |
| C96 | `Verif.Props.buttons_visit_neighbours_partial` | Classical.choice, Quot.sound, propext |
| C96 | `Verif.Props.half_way_skips` | Classical.choice, Quot.sound, propext |
| C96 | `Verif.Props.autoplay_runs_off` | Classical.choice, Quot.sound, propext |
| C96 | `Verif.Props.initial_guess_box_partial` | Classical.choice, Quot.sound, propext |
| C96 | `Verif.Props.manual_change_partial` | Classical.choice, Quot.sound, propext |
| C96 | `Verif.Props.manual_changes_lost` | Classical.choice, Quot.sound, propext |
| C96 | `Verif.Props.missing_layer_stale` | Classical.choice, Quot.sound, propext |
| C97 | `Verif.Props.mm_viewer_starts` | Classical.choice, Quot.sound, propext |
| C97 | `Verif.Props.mm_viewer_shows_partial` | Classical.choice, Quot.sound, propext |
| C97 | `Verif.Props.mm_viewer_never_fails` | Classical.choice, Quot.sound, propext |
| C97 | `Verif.Props.mm_viewer_boxes` | Classical.choice, Quot.sound, propext |
| C97 | `Verif.Props.mm_viewer_fit` | Classical.choice, Quot.sound, propext |
| C97 | `Verif.Props.mm_viewer_clip` | Classical.choice, Quot.sound, propext |
| C97 | `Verif.Props.second_map_not_shown` | Classical.choice, Quot.sound, propext |
| C97 | `Verif.Props.second_map_empty` | Classical.choice, Quot.sound, propext |
| C97 | `Verif.Props.missing_file_checks_all` | Classical.choice, Quot.sound, propext |
| C97 | `Verif.Props.bad_cloud_half_loaded` | Classical.choice, Quot.sound, propext |
| C97 | `Verif.Props.export_overwrites` | Classical.choice, Quot.sound, propext |
| C97 | `Verif.Props.old_box_dead` | Classical.choice, Quot.sound, propext |
| C97 | `Verif.Props.options_do_not_determine_view` | Classical.choice, Quot.sound, propext |
| C98 | `Verif.Props.turn_keeps_eye` | Quot.sound, propext |
| C98 | `Verif.Props.keys_slide` | Classical.choice, Quot.sound, propext |
| C98 | `Verif.Props.keys_undo` | Classical.choice, Quot.sound, propext |
| C98 | `Verif.Props.key_frame_round_trip` | Classical.choice, Quot.sound, propext |
| C98 | `Verif.Props.key_frames_recorded` | Classical.choice, Quot.sound, propext |
| C98 | `Verif.Props.travel_times_partial` | Classical.choice, Quot.sound, propext |
| C98 | `Verif.Props.travel_stops_early` | Classical.choice, Quot.sound, propext |
| C98 | `Verif.Props.travel_begins` | Classical.choice, Quot.sound, propext |
| C98 | `Verif.Props.flat_view_kept` | Classical.choice, Quot.sound, propext |
| C98 | `Verif.Props.travel_overrides_flat` | Classical.choice, Quot.sound, propext |
| C98 | `Verif.Props.bad_rate_freezes` | Classical.choice, Quot.sound, propext |
| C98 | `Verif.Props.settings_restored` | Classical.choice, Quot.sound, propext |
| C98 | `Verif.Props.boxes_not_restored` | Classical.choice, Quot.sound, propext |
| C99 | `Verif.Props.norm_float_range` | Classical.choice, Quot.sound, propext |
| C99 | `Verif.Props.norm_float` | Classical.choice, Quot.sound, propext |
| C99 | `Verif.Props.norm_float_memory` | Classical.choice, Quot.sound, propext |
| C99 | `Verif.Props.norm_float_first_nan` | Classical.choice, Quot.sound, propext |
| C99 | `Verif.Props.norm_float_later_nan` | Classical.choice, Quot.sound, propext |
| C99 | `Verif.Props.norm_float_memory_spoiled` | Classical.choice, Quot.sound, propext |
| C99 | `Verif.Props.norm_float_accuracy` | Classical.choice, Quot.sound, propext |
| C99 | `Verif.Props.norm_float_max_not_one` | Classical.choice, Quot.sound, propext |
| C99 | `Verif.Props.norm_float_tiny_range` | Classical.choice, Quot.sound, propext |
| C99 | `Verif.Props.float_add_special` | Classical.choice, Quot.sound, propext |
| C99 | `Verif.Props.float_mul_special` | Classical.choice, Quot.sound, propext |
| C99 | `Verif.Props.float_div_special` | Classical.choice, Quot.sound, propext |
| C99 | `Verif.Props.fl_rounded` | Classical.choice, Quot.sound, propext |
| C99 | `Verif.Props.float_ops_rounded` | Classical.choice, Quot.sound, propext |
| C99 | `Verif.Props.float_compare` | Classical.choice, Quot.sound, propext |
