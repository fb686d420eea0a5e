c("C01","proved","align_stops_and_reports stall_magnitude","For every environment (matchers, solvers, hook, evaluators).")
c("C02","partial","align_returns_last_solution_partial align_solverError_returns_failed_output align_solverError_loses_estimate align_solver_calls","False after a solver failure: the failing solver's output is returned (witness proved).")
c("C03","partial","align_stalled_iff_partial align_stall_mixes_references stall_magnitude","Holds component by component; translation and rotation may be small with respect to different references (witness proved).")
c("C04","proved","align_checkpoint_iff align_hook_iff","")
c("C05","partial","align_log_contents align_no_ub_partial align_details_without_log_ub align_zero_iterations_log_ub","Log contents proved; the memory-safety half is false without a log (proved for every environment).")
c("C06","proved","quality_refuses_bad_weights quality_hard_discard quality_weighted_average quality_in_range quality_between align_reports_final_quality","")
c("C07","proved","runSolvers_first_wins runSolvers_fails_iff runSolvers_rest_irrelevant","")
c("C11","partial","pushBack_copy_isMerge pushBack_copy_assoc pushBack_copy_empty empty_pushBack_copy_partial empty_pushBack_copy_loses_weights pushBack_move_eq_copy_iff_partial pushBack_move_not_isMerge","Copy overload: merge of lists and counter, associative; per-layer weights are lost and the move overload overwrites the counter (both proved).")
c("C12","proved","size_and_empty isEmpty_iff_size size_pushBack contentsSummary_eq","")
c("C13","partial","runMatchers_concatenates_partial runMatchers_total runMatchers_drops_weights","Everything except the per-layer weights, which are always dropped (proved).")
c("C14","proved","matcher_runs_iff_inWindow solver_runs_iff_inWindow","")
c("C15","proved","solver_retired_for_good solver_not_retired_early align_solver_calls","")
c("C16","proved","pairedRatio_in_range runMatchers_accounting pointMatchers_pairedRatio","")
c("C26","proved","centroids_are_inlier_means centroids_refused centroids_never_ub centroids_out_of_range_refused","")
c("C08","proved","log_ids_sequential log_mutual_exclusion log_files_exact log_every_dth log_ids_wrap","Up to the wrap of the 32-bit counter, whose effect is also proved (log_ids_wrap).")
c("C09","partial","logFileName_expands_partial logFileName_label_reexpanded logFileName_label_format logFileName_glued","Holds when labels are free of placeholders/format specials; counterexamples proved for the rest.")
c("C10","proved","yaml_list_exact yaml_list_no_accumulation yaml_list_weights","")
c("C17","proved","flags_are_a_set flags_dense_sparse_same flags_ub_iff initialize_flags","")
c("C55","proved","filters_compose filters_in_order filters_stop_at_exception","")
c("C56","proved","deleteLayers_exact deleteLayers_error_iff getOrCreate_spec","")
c("C59","proved","generators_obs generators_frame generators_none_refused","")
c("C18","partial","points_used_once_partial dt_local_forgotten adaptive_reuses_global tbb_matcher_reuses_global serial_matcher_once flag_read","Holds for the serial point matchers for every input; the adaptive matcher and the parallel build ignore the global flags (proved, the latter over the interleaving model).")
c("C19","proved","dt_exact dt_pairs_below_limit dt_pairs_complete dt_pairs_complete_default dt_tbb_ignores_angular dt_builds_differ dt_far_boxes_nothing local_points_considered","Serial build: exact soundness and completeness; the differences of the TBB build are proved too.")
c("C20","partial","matcher_memory_safe_partial dt_limit_out_of_bounds dt_limit_never_ok limit_only_first_points local_points_considered","The distance-threshold matcher with a limit in force reads out of bounds on every valid input (proved).")
c("C21","proved","ir_keeps_best ir_exact ir_no_candidates_throws local_points_considered flag_read","")
c("C22","partial","p2pl_within_threshold p2pl_complete p2pl_exact p2ln_exact_partial p2ln_fit_partial p2ln_fits_far_points p2ln_two_points_throws local_points_considered flag_read line_cut","Planes: full; lines: the fit uses far points too (witness proved).")
c("C23","partial","adaptive_limits_partial adaptive_exact adaptive_flags adaptive_defined_iff adaptive_nothing_found_ub adaptive_plane_untransformed local_points_considered flag_read","Limits proved; undefined exactly when nothing is found (proved).")
c("C24","proved","layers_matched_exactly missing_layer_error weights_cover_pairings weights_table","")
c("C25","partial","pt2pt_conversion_partial pt2pt_conversion_needs_guess pt2pt_conversion_drops","Everything except keeping the point-to-point pairings given, which are always dropped (proved).")
c("C27","partial","visit_block_weights_partial visit_weights_sum_one visit_weights_sum_table visit_outlier_shifts_blocks visit_empty_block_shifts visit_short_table_ub","Full characterisation when no outlier is the first pair of a block and no block is empty; counterexamples proved for the rest.")
c("C28","partial","horn_optimal_partial horn_optimal_real horn_rotation_optimal horn_recovers horn_weighted_not_optimal horn_refuses_no_points pose_vocabulary","Optimal for uniform weights, rotation optimal for all weights, exact for noise-free data; with unequal block weights the translation is never optimal (witness proved).")
c("C29","partial","olae_recovers_partial olae_systems_consistent olae_succeeds olae_tie_singular right_angle_tie olae_right_angle_wrong","The systems are consistent for all rotations; recovered if the quaternion has a unique largest component or a z component that is not zero; for every other rotation the system solved is singular (olae_tie_singular), e.g. right angles about x (wrong in a concrete case).")
c("C30","proved","kernel_factor kernel_strict kernel_none_iff kernel_negative_parameter","For positive kernel parameters; a negative one breaks it (proved).")
c("C61","proved","robust_needs_estimate solver_horn_robust_never","Stated as what the code does: a defect of the solvers.")
c("C31","partial","error_point2point_geometric error_point2plane_geometric error_point2line_geometric_partial error_point2line_needs_unit error_plane2plane_geometric_partial error_plane2plane_ignores_offset error_plane2plane_zero_off_plane error_line2line_nonzero_at_alignment pose_vocabulary","Point terms: zero iff on the primitive and squared length = least squared distance (lines: unit director needed, proved). The plane-plane term ignores the offset; the line-line term does not vanish at alignment (both proved).")
c("C32","partial","jacobians_exact_partial jacobians_are_derivatives_partial line2line_jacobian_translation_partial line2line_jacobian_parallel_partial line2line_jacobian_wrong line2line_true_derivative line2line_reported_derivative","Exact at every pose for the four affine terms (also as derivatives over the reals); the line-line Jacobian is right for translations and wrong for rotations at every pose (proved).")
c("C33","partial","gn_tbb_fresh_partial gn_tbb_schedule_independent_partial gn_serial_accumulates gn_serial_first_fresh_partial gn_serial_second_not_fresh gn_builds_agree_one_iteration_partial gn_builds_differ_on_planes gn_racing_cost_bounded gn_racing_cost_loses_updates","Holds for the TBB build without weights table, any schedule; the serial build piles up the systems of all iterations (proved for all inputs).")
c("C34","partial","gn_weights_first_iteration_partial gn_weights_later_iterations gn_weights_single_block_partial gn_weights_second_iteration_wrong gn_tbb_weights_depend_on_schedule gn_short_table_ub","Right in the first iteration; afterwards every pair has the last block's weight (proved for all inputs).")
c("C35","partial","covariance_rows_in_bounds covariance_rows_partial covariance_rows_clash covariance_no_pairings covariance_ignores_z","Fails exactly when line pairings and plane pairings are both present (proved for all inputs).")
c("C62","partial","gn_fixed_point_serial_partial gn_fixed_point_tbb_partial gn_leaves_aligned_lines","Full for all kinds of pairings except line-to-line, for which it is false: started at exact alignment a non-zero step is made (proved, both builds).")
c("C63","partial","gn_terminates_partial gn_serial_total gn_always_reports_success gn_solver_uses_guess","Terminates; but success is reported with too few pairings, against the documentation.")
c("C36","partial","pairings_roundtrip pairings_unknown_version_refused pairings_reader_safe pairings_v0_loads_partial pairings_v0_stale_counter","Round trip, truncation and unknown versions proved for all values (sizes below 2^32); version 0 streams keep the receiver's stale counter instead of resetting it (negation proved).")
c("C37","partial","params_roundtrip_partial params_roundtrip_exact params_checkpoints_lost params_old_versions params_unknown_version_refused pairWeights_roundtrip weights_roundtrip weights_v0_loads_partial weights_unknown_version_refused results_roundtrip reason_byte_injective results_unknown_version_refused","Weights and results: full. Parameters: quality_checkpoints are not written and the debug flag is or-ed with an environment variable (negation proved).")
c("C38","proved","map_roundtrip map_roundtrip_exact map_old_versions map_version_2 map_unknown_version_refused georef_roundtrip_present georef_absent_keeps_stale","For all maps whose sizes fit the 32-bit counters, given that MRPT's own serializers are faithful. The stand-alone georeferencing reader keeps a stale value (proved separately); the map reader resets it first.")
c("C39","partial","georef_yaml_roundtrip_partial georef_yaml_drops_rotation georef_yaml_roundtrip_fails georef_yaml_refuses_foreign yaml_find georef_magic","The rotation of the mean pose is not written, so it is lost; everything else survives.")
c("C64","partial","log_roundtrip_partial log_file_roundtrip","All fields but those Parameters loses (C37).")
c("C65","partial","params_yaml_roundtrip_partial params_yaml_checkpoints_lost pairWeights_yaml_roundtrip weights_yaml_roundtrip params_yaml_mandatory checkpoints_first_entry_wins checkpoints_empty_refused yaml_find","Parameters::save_to omits quality_checkpoints.")

c("C40","partial","velocity_yaml_roundtrip_partial velocity_yaml_result velocity_yaml_loses_samples velocity_yaml_missing_sections","Exact for whole-nanosecond stamps and vectors their text form keeps; in general the times are rounded and colliding samples lost (characterised for all buffers, loss proved).")
c("C41","proved","velocity_held_exactly velocity_window_in_order velocity_one_per_stamp velocity_history_sorted","For every history of calls, also with times out of order.")
c("C42","partial","reconstruct_terminates reconstruct_empty_iff reconstruct_covers_partial reconstruct_past_end_iff reconstruct_past_end_example reconstruct_constant_rate_partial closest_within","Everything but safety: the end of the buffer is dereferenced exactly when no sample lies half a span after the reference (proved).")
c("C43","partial","realize_values_partial constant_keeps_value unrealized_detected realize_succeeds realize_refuses_undefined failed_formula_stays_broken realize_after_failure_wrong declare_after_attach_ub reattach_uses_old_source redeclared_constant_overwritten negative_unsigned_ub","Full for histories that follow the documented protocol and have not thrown; after a failed realize() the formula is never compiled again (proved), and the other ways out of the protocol are shown to be wrong or undefined.")
c("C44","partial","merge_contents_partial merge_keeps_everything_partial merge_refused merge_planes_with_pose_throws merge_null_ub merge_shared_layer_changes_other merge_size_partial map_size map_empty_iff empty_size_zero size_zero_not_empty","For maps owning their layers, exactly when the layers are compatible; otherwise it throws or dereferences null (proved). Planes with a pose always throw; shallow copies are changed too (proved).")
c("C45","partial","boundingBox_partitions_partial byRange_partitions_partial byRing_partitions byIntensity_partitions partition_counts partition_frame partition_keeps_partial box_contains_iff range_inside_iff range_negative_min_finding filterSnap_throws byIntensity_accepted_iff byIntensity_high_only_finding empty_input_finding inserted_point","Ring and intensity: full for non-empty clouds (an empty one is an error, proved). Box and range: full unless a point is sent to the input layer itself (C46).")
c("C46","partial","byRing_partitions byIntensity_partitions partition_keeps_partial boundingBox_never_ends byRange_never_ends filterLive_never_ends filterLive_partitions inserted_point range_inside_iff","Ring and intensity filters terminate and keep the earlier points; box and range filters with output = input never end as soon as one point goes there (proved for all inputs).")
c("C47","partial","normalize_result_partial normalize_affine normalize_fixed normalize_throws normalize_history normalize_memory_grows normalize_memory_unused normalize_fixed_reversed","All clouds and histories; order is reversed exactly when a fixed range is given upside down (proved).")
c("C48","proved","adjust_shifts adjust_zero adjust_normalize adjust_skips adjust_keeps_absolute adjust_moves_other_layers","The reference time follows the shift, for the layer adjusted; it is shared, so other layers' absolute stamps move (proved).")
c("C49","partial","decimate_first_partial decimate_multi_partial decimate_std_map_outputs_nothing decimate_multi_small_throws decimate_ub decimate_small_in_place_never_ends decimate_missing_input decimate_ignores_missing inserted_point layer_as_cloud truncated_index","Full for FirstPoint, and for the other methods with the default container; with use_tsl_robin_map=false the others output nothing, a single small cloud is an error, and a small cloud decimated in place never ends (all proved for all inputs).")
c("C50","partial","voxel_side_partial voxel_double_side voxel_zero_is_double coord2idx_interval coord2idx_defined_iff coord2idx_mono truncated_index","All voxels but those of index 0, which are twice as wide because indices are truncated towards zero (proved, sharp).")
c("C51","partial","adaptive_result_partial adaptive_first_pass adaptive_covers adaptive_loop_ends adaptive_first_round adaptive_starves adaptive_starves_example adaptive_empty_input_ub adaptive_disabled adaptive_no_output_ub inserted_point truncated_index","Terminates, no duplicates, at most the target (all inputs). Undefined exactly when no voxel is usable and points are wanted; not round-robin after the first round (proved).")
c("C52","proved","occupancy_partitions occTarget_spec occ_exclusive occupancy_refuses inserted_point","")
c("C53","partial","curvature_result_partial curvature_once thinned_unique curvature_ring_overflow_ub curvature_refuses isSqrt_real curvature_border_depends_on_direction inserted_point","Full for all clouds whose ring ids are below 4999; a point of ring 65535 makes the 16-bit ring count wrap to 0 and the filter divide by zero (proved); the border rule looks at the previous neighbour only (proved).")
c("C54","partial","deskew_result_partial deskew_constant_twist deskew_motion_constant deskew_zero deskew_rigid deskew_count deskew_skip_copies deskew_refuses deskew_precise_no_translation deskew_precise_fallback_still deskew_missing_input_created deskew_origin_finding deskew_motion_precise deskew_precise_nearest inserted_point blank_point","Count and per-stamp motion: all inputs. Points at the origin are not moved and lose their channels; the precise mode ignores the linear velocity (both proved).")
c("C57","partial","sm2mm_processes_selected sm2mm_calls_partial sm2mm_end_max_processes_nothing smKF_null kf_pose_vars kf_twist_vars kf_twist_stale sm2mm_final_filter_fails selected_eq initial_variables","Selection and calls: all maps and ranges but end_index = SIZE_MAX, which wraps and processes nothing; final filters are never attached to the parameter source (both proved).")
c("C58","proved","cut_result cut_slice join_result join_unreadable cut_join trim_result trim_null trim_trim tf_result tf_null_ub tf_tf tf_inverse tf_join level_result","")
c("C60","partial","txt2mm_layer_ignored txt2mm_layer_raw txt2mm_layer_missing txt2mm_result_partial txt2mm_colour_ub txt2mm_xyzirt_loses_channels txt2mm_refuses txt2mm_column_past_end txt2mm_column_past_end_ub columns_needed","The layer option is ignored and xyzirt loses ring and time (proved for all inputs); the rest holds for columns in range and colours that are bytes (undefined otherwise, proved).")
c("C66","partial","firstStamp_spec exportKfs_result exportKfs_distinct_partial exportRawlog_result exportKfs_same_stamp_finding exportRawlog_null_ub","Full for keyframes with pairwise distinct first stamps and non-null observations; otherwise poses are overwritten / behaviour is undefined (proved).")

c("C67","partial","quadratic_result quadratic_missing_input quadratic_missing_created quadratic_refuses warp_strictMono warp_stretch warp_wider_near_origin warp_narrower_near_radius cell_size grid2real_inverse_partial grid2real_negative_nan quadratic_zero_radius_ub inserted_point truncated_index","Full but for: channels other than the position are lost; cells between half the radius and the radius are narrower than the resolution; a missing input with the name of the output is created silently (all proved).")
c("C68","proved","merge_into_cloud merge_into_other merge_filter_refused_iff merge_into_itself merged_points pose_vocabulary","Merging a layer into itself doubles it (proved).")
c("C69","partial","slice_range slice_result_partial slice_rgb_empty slice_refuses","Occupancy voxel maps: full. RGB voxel maps: accepted, but the grid stays empty (proved).")
c("C70","partial","range_image range_image_ub range_quality_in_range range_quality_symmetric range_quality_perfect_partial range_quality_of_registration range_penalty_negative truncated_index point_seen","Images, range, symmetry: full for points off the camera plane x=0 (undefined there, proved) and penalties that are not negative. The perfect score is reached with the inverse of the ICP's pose convention (proved).")
c("C71","partial","loss_form loss_best voxels_quality voxels_refused voxels_quality_in_range voxels_symmetric_partial voxels_symmetry_fails voxels_self pose_vocabulary","Symmetric for equal resolutions only: global voxels are placed with the local resolution (proved). The score of a pair is highest at unknown occupancy (proved).")
c("C72","partial","range_edges_rot_result_partial range_edges_rot_falling_ub range_edges_rot_narrow_ub range_edges_rot_refuses range_edges_rot_misses_steps range_edges_rot_finds_noise range_edges_rot_flat range_edges_3d_planes_lost range_edges_3d_same_layer range_edges_3d_no_planes_layer range_edges_3d_no_target range_edges_3d_falling_ub range_edges_3d_refuses point_placed depth_point block_mean range_differences edge_clouds scan_consistent inserted_point","Selection: full for scans whose ranges fall over no window and images of which no row of 2..900 blocks ends falling; otherwise undefined behaviour (proved, from 3 blocks on). The layers are not treated as documented: target of rotating scans replaced, plane points lost, empty plane layer is a null dereference (all proved). The score of rotating scans is lower for larger steps (proved).")
c("C73","partial","curv_edges_result_partial mem_corners curv_edges_refuses corner_is_angle corner_all corner_none curv_edges_rigid corner_reversed curv_process_skips curv_process_other curv_process_scan point_placed edge_clouds scan_consistent","Selection, frame and direction independence: full. The target layer is replaced, not appended to as documented for generators (proved).")
c("C74","partial","poles_result_partial poles_cell_by_cell_perm poles_far_ub poles_refuses poles_sparse_dropped poles_lonely_missed poles_lift_invariant poles_order_irrelevant inserted_point truncated_index","Split, order and height independence: full for cells (and neighbours) with 32-bit indices; beyond: undefined behaviour (proved). Points of cells with fewer than minimum_pole_points go to neither output, and a pole without neighbours is never found (both proved).")
c("C75","partial","edges_planes_result_partial edges_planes_refuses edges_planes_far_ub edges_planes_std_map_empty edges_planes_zero_never_ends edges_planes_origin_throws edges_planes_line_no_edge edges_planes_flat_no_edge edges_planes_flat_is_plane truncated_index voxel_classes eigen_mean_cov","Outputs in full for the default container, positive decimation, 32-bit voxel indices and no plane voxel centred at the sensor; each of these excluded cases fails as proved (empty layers, no termination, UB, exception). Straight lines are never classified as edges and voxels with fewer than five points are in no output (proved).")
c("C76","proved","eigen_mean_cov eigen_mean_best eigen_best_plane eigen_best_line eigen_values eigen_degenerate eigen_moved eigen_order_irrelevant eigen_refuses eigen_far_ub eigen_both_ignores_indices eigen_to_xyz","The eigendecomposition (Eigen) is a parameter; assumed of it: orthonormal eigenvectors of the matrix given, eigenvalues ascending. Exact arithmetic.")
c("C77","partial","gn_steps gn_stops_partial gn_stops_with_table gn_step_minimises gn_tbb_steps_minimise","Steps, side of the update and minimisation: full for the build with TBB and a solver that solves; the stopping rule for both builds without a weights table and for the serial build with one (where from the second iteration on the cost compared uses the last weight only, proved).")
c("C78","partial","gen_skips gen_cloud_partial gen_cloud_refused gen_accumulates gen_moves_with_robot gen_imu gen_general gen_depth gen_velodyne gen_custom gen_refuses gen_frame gen_velodyne_always_handled gen_custom_gps_throws gen_empty_target gen_imu_leaves_layer inserted_point reference_time pose_vocabulary","Full, where the code does it. Not met by it (proved): a Velodyne scan is reported as handled even if nothing was inserted; GPS and pose observations are not skipped with a custom map; an empty target name is accepted for clouds; an unhandled IMU observation leaves an empty layer. insertObservationInto is external.")
c("C79","proved","mapdef_ini mapdef_refused_iff mapdef_needs_class mapdef_all_empty mapdef_default_iff","The value of a formula is a parameter (its evaluation: C40). The INI is a table of values; an all-null definition is treated as none (proved).")
c("C80","proved","icp_yaml_exact icp_yaml_sizes icp_yaml_mandatory icp_yaml_derived_ignores_params icp_yaml_incomplete","Class factory, plugins and the objects' own initialisation are parameters. Stated as what the code does: params is ignored beside derived; a pipeline without solvers is accepted and refused by align only.")
c("C81","partial","georef_extract georef_inject_partial georef_transfer georef_error_writes_nothing georef_flags georef_inject_crash georef_inject_unreported georef_inject_creates load_saved load_cut","Full for binary georeference files and maps with metadata (empty metadata comes back cleared, C36); the YAML text is a parameter. A failed save is not reported and a missing map file is created unless MRPT's stream constructors throw (both proved).")
c("C82","partial","mm_rename mm_rename_refused mm_filter_result mm_filter_files mm_filter_arguments mm2txt_result mm2txt_no_clash mm2txt_unwritten_unreported mm2txt_bad_layer kitti2mm_result_partial kitti2mm_refuses rename_separator","The option --layer of kitti2mm has no effect, and mm2txt leaves out, without an error, the files it cannot write (both proved). Text of clouds and KITTI reader are external.")
c("C83","partial","rawlog_result_partial rawlog_stateless rawlog_labels_distinct rawlog_stops rawlog_to_max","Full for --to below SIZE_MAX; with SIZE_MAX the output is empty (proved).")
c("C84","partial","config_accepted_iff_partial config_members config_defaults config_again_keeps intensity_config_partial intensity_high_only_refused intensity_documented_refused matcher_documented_config_refused paired_ratio_config paired_ratio_documented_refused failed_config_changes_members","False of the code for FilterByIntensity (a high-only configuration is refused), the distance matcher (thresholdAngularDeg is mandatory though undocumented) and the paired-ratio evaluator's documented configuration (refused): all proved. Full for the other classes. Conversions of scalars are parameters.")
c("C85","partial","view_result_partial view_lines_partial view_hidden_lines_shown view_lengths_ignored view_point_size_misplaced view_sets_free_flag coordinate_used","Full but for: hidden lines are shown and individual lengths ignored; point sizes of clouds that keep their colours go to the first cloud of the view; the free-space flag of voxel maps is changed (each proved).")
c("C86","proved","pairings_view pairings_view_residual","")
c("C87","partial","libpm_result libpm_unavailable libpm_refused libpm_voxels_refused libpm_right_pose libpm_pose_right_iff libpm_from_identity_partial libpm_wrong_order libpm_ratio_quality_zero pose_vocabulary","False of the code in general: the guess and the correction are composed in the wrong order (right for the identity guess, wrong in a concrete case, exact condition proved); the quality from paired ratios is always 0, the covariance always the default, and maps with voxel layers only are refused (each proved).")
c("C88","partial","input_kind input_kind_documented_partial input_kind_mm_anywhere input_loaded input_rawlog_index icp_run_result icp_run_exit truncated_index","Full but for the kind of a file name: `.mm` or `.icplog` anywhere in the path decides, not the extension (proved); negative or huge indices of rawlog entries are undefined behaviour and fractions are truncated (proved).")
c("C89","proved","plugin_found_iff plugin_loaded_iff plugin_again text_pieces","")
c("C90","partial","sanity_iff_partial xyz_loaded_iff point_layer_iff map_to_points_iff map_to_interface umap_empty_iff summary_result summary_blank summary_texts","False of the code in corners, all proved: an XYZIRT cloud with points and empty channels passes the check; a text file with one point is refused; a map with only empty clouds has a blank summary; cells of coloured voxel maps are not counted.")
c("C91","partial","smcli_dispatch smcli_help smcli_done smcli_success_only_if smcli_failure_writes_nothing_partial smcli_unwritable_unreported smcli_twists_left info_result keyframes_exported","False of the code: an output that cannot be written still gives exit code 0; export-keyframes leaves a twist file behind when it fails (both proved). Otherwise full; info for maps whose keyframes have poses and whose observations exist.")
c("C92","partial","sm2mm_program_partial sm2mm_failure_writes_nothing sm2mm_then_load sm2mm_default_pipeline sm2mm_plugins_ignored sm2mm_read_error_ignored sm2mm_nothing_selected mm_info_result mm_info_refused mm_info_unreadable","False of the code, each proved: --load-plugins has no effect; a read error that leaves keyframes in the object is not noticed; indices that select nothing give an empty map and exit code 0; mm-info describes an unreadable file as empty. The rest in full.")
c("C93","proved","exact_registration few_points_lost exact_registration_any exact_registration_olae tied_rotation_lost","Also with OLAE, if the quaternion of the true rotation has a unique largest component or a z component that is not zero (exact_registration_olae), and with any solver exact on exact pairings (exact_registration_any); OLAE leaves the true pose for every other rotation (tied_rotation_lost). Assumed: exact arithmetic, exact eigen-solver, a nearest-neighbour search that is right, default weights, one layer on each side. few_points_lost is the negative half: the identity is returned with quality 1.")
c("C94","partial","fit_never_worse_step_partial misfit_no_angle fit_never_worse_partial fit_lost_few_points fit_worse_angular","Steps: full, with or without angular threshold (limits taken at the pose the iteration starts from). Pairs within the solver's tolerance of the centroids (Horn drops them from the attitude) are covered with an explicit bound on what they may cost (nearSlack: zero if there are none, at most 4 eps times the sum of the distances to the centroids). Whole runs: without angular threshold; with one the misfit truncated at the plain threshold can grow (fit_worse_angular). False when the solver fails: the pose is reset to the identity (fit_lost_few_points).")
c("C95","proved","one_log_in_memory viewer_shows_selected all_layers_at_start viewer_never_fails","Slider values are exact rationals; camera, colours and point sizes are not in the scene; files do not change while the program runs.")
c("C96","partial","buttons_visit_neighbours_partial half_way_skips autoplay_runs_off initial_guess_box_partial manual_change_partial manual_changes_lost missing_layer_stale","False in the code for slider values half way between records (a record is passed over), play mode near the end (slider leaves its range), the initial guess with logged iterations (the first logged iteration is shown instead), manual changes (not shown with logged iterations, lost when another record is selected) and missing layers (the maps of another record are shown): each proved as a negative theorem.")
c("C97","partial","mm_viewer_starts mm_viewer_shows_partial mm_viewer_never_fails mm_viewer_boxes mm_viewer_fit mm_viewer_clip second_map_not_shown second_map_empty missing_file_checks_all bad_cloud_half_loaded export_overwrites old_box_dead options_do_not_determine_view","Proved for all histories in which no second map is loaded. False in the code otherwise, each proved as a negative theorem: a second map with the same layer names is not shown, one with other layers gives an empty window, a missing file checks all boxes, a map with a bad cloud is half loaded, old boxes stay and do nothing, export ignores the marks and overwrites; with original colours and voxels as points the view depends on the history.")
c("C98","partial","turn_keeps_eye keys_slide keys_undo key_frame_round_trip key_frames_recorded travel_times_partial travel_stops_early travel_begins flat_view_kept travel_overrides_flat bad_rate_freezes settings_restored boxes_not_restored","False in the code: the last key frame is never shown (travel_stops_early), the 2D view is not kept while travelling, a bad frame rate freezes the path, the boxes of the layers are not saved. Rounding of time stamps (100 ns) and of the texts of numbers is not modelled.")
c("C99","proved","norm_float_range norm_float norm_float_memory norm_float_first_nan norm_float_later_nan norm_float_memory_spoiled norm_float_accuracy norm_float_max_not_one norm_float_tiny_range float_add_special float_mul_special float_div_special fl_rounded float_ops_rounded float_compare","Floating point as in Model/Fp.lean: one zero, one NaN, one rounding per operation.")
c("C100","proved","stamps_float_shift stamps_float_earliest stamps_float_normalize stamps_float_absolute stamps_float_microsecond stamps_float_exact stamps_float_first_nan stamps_float_later_nan stamps_float_middle_overflow float_add_special float_mul_special float_ops_rounded float_compare","Floating point as in Model/Fp.lean.")
c("C101","proved","quality_float_range quality_float_one quality_float_monotone quality_float_single paired_ratio_float kernel_float kernel_float_zero_nan","Floating point as in Model/Fp.lean. Accuracy of the quality itself is not bounded, only its range and order.")
c("C102","proved","voxel_float_undefined voxel_float_defined voxel_float_monotone voxel_float_symmetric voxel_float_side voxel_float_exact voxel_float_rounds_up","The bound for two coordinates in the same voxel is for one axis, on the quotient of the format given by its accuracy.")
c("C103","proved","box_float box_float_outside intensity_float range_float range_float_nan range_float_margin range_float_overflow","Floating point as in Model/Fp.lean; compilers contracting x*x+y*y into fused operations are not covered.")
c("C104","proved","icp_machine_stops icp_machine_result icp_float_stall icp_float_nan_step icp_float_nan_checkpoint icp_float_nan_runs_on icp_float_nan_quality icp_float_nan_returned","The same definitions as for C01-C06, instantiated with machine numbers. Pose arithmetic, matchers and solvers are parameters.")
c("C105","partial","match_float_dt match_float_dt_complete match_float_limit_nan match_float_far_paired match_float_far_example match_float_margin match_float_ir match_float_plane match_float_plane_nan match_float_adaptive match_float_adaptive_exact match_float_safe match_float_paired_ratio match_float_tiny_threshold points_used_once_partial layers_matched_exactly weights_cover_pairings missing_layer_error dt_limit_never_ok adaptive_defined_iff","Proved for any format, with the margin for float. Part of the property fails: without angular threshold a point whose squared norm overflows has a limit which is not a number and is paired with any neighbour (match_float_far_paired, match_float_far_example), the plane matcher accepts a threshold which is not a number and then pairs everything (match_float_plane_nan); the known defects of C18-C23 remain. One format for all numbers (the code squares the threshold in double and stores it as float).")
c("C106","proved","decimate_float_first decimate_float_multi decimate_float_undefined no_voxel_of_not_finite rep_in_voxel average_float_error average_float32_error average_point_close average_float_leaves_voxel average_float_overflow average_float_stagnates","The sum in the error bound is in the order of the points in the cloud, one rounding per operation.")
c("C107","partial","decimate_twice decimate_float_twice_partial decimate_float_average_twice average_in_voxel decimate_twice_small_throws decimate_twice_mixed","Without rounding for all methods; in machine arithmetic for all methods but VoxelAverage, for which it is false (proved by an example in single precision). With or without flatten_to; several input layers for FirstPoint (the other methods take one). With a minimum number of points to decimate: one input and FirstPoint; several inputs, and the other methods, fail (both proved).")
c("C108","proved","adaptive_size adaptive_size_invariant euclid_length size_bounds adaptive_voxels_per_axis adaptive_one_voxel_more adaptive_in_range adaptive_in_range_around adaptive_sized_result adaptive_sized_point_ub adaptive_float adaptive_float_undefined adaptive_float_not_finite adaptive_float_defined adaptive_float_infinite adaptive_float_one_voxel","The bounding box is MRPT's (external): least and greatest coordinates. In machine arithmetic the size itself is not bounded, only what follows from it.")
c("C109","partial","frame_and_order_free_partial relative_pose_frame_free exact_is_clear frame_lost_few_points frame_matters_angular order_matters_ties","One distance-threshold matcher (allowMatchAlreadyMatchedGlobalPoints) and Horn's solver, exact arithmetic; in each iteration the nearest map points and the best rotation must be unique (met by all exact registrations, exact_is_clear). False, and proved so: with ties the storage order decides (order_matters_ties); with an angular threshold the origin of the map matters (frame_matters_angular); when the solver fails the pose is the identity in any frame (frame_lost_few_points).")
c("C110","partial","gn_frame_free_partial gn_order_free_partial gn_registration_frame_free_partial gn_lines_depend_on_frame","Proved for point-to-point, point-to-line, point-to-plane and plane-to-plane pairings, all builds and schedules, exact arithmetic. False for line-to-line pairings (`gn_lines_depend_on_frame`: the rotation is applied transposed). Missing: floating-point numbers; other matchers at the level of the registration.")
c("C111","partial","gn_shift_one_step_partial gn_shift_exact_partial points_hold gn_solves_from exact_registration_gn_partial","Over an ordered field with an exact square root, linear solver and derivative of the exponential; pairings of the four kinds whose residuals are right. Missing: line-to-line pairings (false for them, see gn_leaves_aligned_lines, C62), a prior, guesses with another rotation (these converge: C116, C117), floating point.")
c("C112","partial","exact_registration_planes_partial gn_solves_planes","Exact arithmetic; the map's plane search is a parameter, constrained only by the hypotheses on its answers. Missing: guesses with another rotation (near the truth: C119), floating point.")
c("C113","partial","covariance_value_partial covariance_valid_partial covariance_undetermined covariance_lines_planes covariance_bad_steps covariance_ignores_residuals covariance_more_pairings covariance_gimbal_lock covariance_determined_iff covariance_of_points matrix_inverse_inverts","Missing: line-to-line pairings together with planes (undefined behaviour, proved), exact arithmetic, estimateJacobian and inverse_LLt are contracts of MRPT. Findings: singular at gimbal lock whatever the pairings; independent of the residuals.")
c("C114","partial","gn_gradient_partial gn_stationary_iff_partial gn_solvable_partial gn_downhill_partial gn_rests_iff_partial gn_weighted_squares_suffice gn_shift_never_uphill_partial gn_serial_leaves_minimum gn_serial_overshoots gn_full_step_uphill gn_full_step_uphill_case se3_derives se3_good","Over the reals. Missing: line-to-line pairings, a prior, tables of weights, floating point. False for the build without TBB (gn_serial_leaves_minimum: it leaves a minimum it has reached) and for full steps, which no line search checks (gn_full_step_uphill).")
c("C115","partial","gn_shift_least_squares_partial gn_serial_laguerre gn_serial_five laguerre_step","Exact arithmetic. Proved for the build with TBB; false for the build without TBB, where the error after n steps is exactly that of the guess times the value at 1 of the Laguerre polynomial of degree n (gn_serial_laguerre): -7/15 with the default of 5 iterations. Missing: robust kernels, line-to-line pairings, a prior, tables of weights, floating point.")
c("C116","partial","gn_quadratic_partial gn_converges_partial gn_first_step_quadratic_partial se3_second","Over the reals. Missing: the build without TBB after its first step (false: C115), pairs of lines, a prior, tables of weights after the first step, pairings that are not exactly aligned, how large the neighbourhood is. se3_second shows that the real exponential map meets the hypothesis.")
c("C117","partial","gn_registration_near_partial gn_registration_stalls_partial gn_squares_near gn_stays_rigid diffOps_smooth","Missing: more than one inner step without TBB (C115: not so); how far the guess may be; floating-point numbers; with a prior: C123.")
c("C118","partial","overlap_registration gn_overlap_near_partial gn_overlap_stalls_partial close_shared_near overlap_near","The part with the Horn solver is proved in full. Missing with Gauss-Newton: more than one inner step without TBB (C115: not so); how far the guess may be; a prior. Floating-point numbers.")
c("C119","partial","gn_planes_near_partial gn_planes_stalls_partial gn_squares_input planes_near planes_aligned planes_matched corner_steady","Missing: more than one inner step without TBB (C115: not so); how far the guess may be; maps whose answers change in any neighbourhood of T; a prior; floating-point numbers.")
c("C120","partial","gn_prior_no_information prior_error_relative system_prior gn_prior_gradient gn_prior_stationary_iff gn_prior_downhill_partial gn_prior_solvable gn_prior_full_unique gn_prior_rests_iff gn_prior_ignored gn_prior_near_partial near_prior_step step_quadratic_err","Over the reals; the logarithm and its derivative are MRPT's (contract: DerivesLog, SmoothPrior, met by entryPrior). Missing: the build without TBB after its first step (C115), pairs of lines, tables of weights, floating-point numbers, how large the neighbourhood is. False, and proved so: the prior counts only if the pairings leave an error (gn_prior_ignored).")
c("C121","proved","no_gain_already_best goes_on_only_downhill comes_to_rest rests_by_itself iteration_fits pose_after","Exact arithmetic over any ordered field; the eigenvector and the norm are contracts (those of C94). The hypotheses on the run (ClearRun) say that the best fit is unique and no pair is near the centroids; both are met in the example, which goes on after its first iteration. Not covered: angular thresholds, for which the misfit is measured anew at each pose (C94: fit_worse_angular), floating-point numbers.")
c("C122","proved","limit_only_cuts run_continued simple_memoryless step_memoryless continued_differs","First half for every environment. Second half for environments that are Memoryless (met by the pipeline of C93, simple_memoryless), without quality checkpoints and iteration details; the exception at the first iteration after the limit is needed (continued_differs: another pose is returned). The scale, which the iterations do not read, is the default one in the continued run if it pairs nothing.")
c("C123","partial","prior_registration_near_partial prior_registration_stalls_partial prior_ignored_by_registration gn_squares_prior no_error_true","Positive part: TBB build; limit on the cost negative, or zero (default) and the points not on a line (otherwise false: prior_ignored_by_registration, with a case of one point and a guess half a turn away). Missing: priors not centred at the true motion, more than one inner step without TBB, how far the guess may be, floating-point numbers. The logarithm and its derivative are MRPT's (contract SmoothPrior, met by entryPrior).")
c("C124","proved","swapped_gives_inverse moved_gives_moved scaled_gives_scaled repeated_changes_nothing tiny_all_alike unit_matters","Exact arithmetic; the eigen-solver by its contract (unit vector of the largest eigenvalue). unit_matters: a case where dividing all coordinates by 100000 changes the rotation, over the reals.")
c("C125","partial","unit_free_partial relative_pose_unit_free diffOps_unit","Missing: angular thresholds, the other matchers and solvers, ties, floating-point numbers. The fixed distance 0.0001 in the solver makes it false without the proviso (unit_matters).")
c("C126","partial","body_frame_free_partial fromFrame_puts relative_pose_body_free shift_not_free diffOps_body","Missing: angular thresholds, the other matchers and solvers, floating-point numbers. With frames of different origin the stall test compares different numbers (shift_not_free).")
c("C127","partial","out_of_reach_partial crop_partial","Missing: angular thresholds, the other matchers and solvers, floating-point numbers.")
