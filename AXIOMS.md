# Axioms of the property theorems

Output of `#print axioms` for every theorem of `MANIFEST.json`, grouped by the set of axioms.

## none

`C03_copyTo_refuted`, `C22_getNextStance`, `C25_zero_refuted`

## propext

`C02_shift_rejects`, `C17_params`, `C17_status`, `C17_failure`, `C22_support_foot`, `C22_undefined_refuted`, `C36_construct`, `C39_horizontal_reject`, `C103_second_file_refuted`, `C103_lost_refuted`, `C103_never_refuted`

## propext, Quot.sound

`C04_count`, `C04_count_append`, `C07_push_order`, `C10_unique`, `C14_task`, `C14_default`, `C17_calls`, `C22_accepted`, `C24_additive`, `C24_additive_error`, `C24_deterministic`, `C24_history`, `C25_terminal_refuted`, `C29_ends`, `C29_start_partial`, `C29_reject`, `C29_points`, `C30_reject`, `C32_reject`, `C38_covers`, `C39_horizontal3_reject`, `C40_row_reject_partial`, `C40_row_negative_refuted`, `C40_column_refuted`, `C44_uninitialised`, `C45_vector_injective`, `C48_section`, `C49_guess_reject`, `C49_guess`, `C49_oneLevel_stale`, `C50_reject`, `C56_additive`, `C65_refuted`, `C65_success_partial`, `C68_commanded`, `C70_current_position_partial`, `C73_first`, `C85_guess_reset`, `C85_guess_throws`, `C88_saved`, `C89_other`, `C89_upToDate`, `C89_upToDate_refuted`, `C91_reorder`, `C97_read`, `C97_rejects`, `C97_missing_lists`, `C97_unknown`, `C97_stale_ids_refuted`, `C97_ik`, `C103_threaded`, `C103_accepted`

## propext, Classical.choice, Quot.sound

`C01_checkLength_exact`, `C01_end_exact`, `C02_shift`, `C02_shift_shift`, `C03_copyTo_partial`, `C03_rejects`, `C03_initFrom`, `C03_roundtrip`, `C03_setLoc`, `C04_count_zero`, `C05_determineActiveSet`, `C06_computeViolations`, `C07_layout`, `C08_allConstraints`, `C08_generalConstraints`, `C09_split`, `C10_bounds`, `C10_feasible`, `C10_weighted_refuted`, `C11_objective`, `C11_reject`, `C12_reject`, `C12_oneLevel`, `C12_twoLevels_ABAL`, `C12_twoLevels_ILUALU`, `C13_distribute`, `C13_distribute_short`, `C13_roundtrip`, `C13_hierarchy`, `C14_level`, `C14_hierarchy`, `C15_location`, `C15_unknown`, `C15_cover`, `C15_duplicate`, `C16_warmStart`, `C16_unique`, `C18_checkInputs`, `C19_dense`, `C19_block`, `C19_agree`, `C19_reject`, `C19_unique`, `C20_block`, `C20_dense`, `C20_pipeline`, `C20_groups_partial`, `C20_groups_call_partial`, `C20_groups_refuted`, `C21_timeInvariant`, `C21_empty`, `C22_legal_walk_partial`, `C22_durations`, `C22_marks`, `C23_number_of_steps_partial`, `C23_steps_left`, `C24_time_in_range`, `C24_conservation`, `C24_returns_partial`, `C24_returns_refuted`, `C25_preview_partial`, `C25_sum`, `C25_begins_partial`, `C26_acceleration`, `C26_velocity`, `C26_position`, `C26_agree_acceleration`, `C26_agree_velocity`, `C26_agree_position`, `C27_polynomial`, `C27_compose`, `C27_derivative`, `C27_start`, `C28_acceleration`, `C28_velocity`, `C28_position`, `C28_full`, `C29_between`, `C29_end_partial`, `C29_end_refuted`, `C29_derivative`, `C29_jerk`, `C29_scale`, `C29_scale_defined`, `C30_ends`, `C30_height`, `C30_horizontal_partial`, `C30_vertical_partial`, `C30_vertical_refuted`, `C30_states_partial`, `C30_end_refuted`, `C31_foot_and_back`, `C31_ads_and_back`, `C31_distance`, `C31_step`, `C31_reject`, `C32_mirror`, `C32_ordered`, `C32_nominal`, `C32_fixed`, `C32_aligned`, `C32_cop`, `C32_cop_tight`, `C33_product`, `C33_left`, `C33_agree`, `C33_skew`, `C33_injective`, `C34_euler_rotation`, `C34_euler_meaning`, `C34_extract`, `C34_eigen`, `C34_convert`, `C34_angles_partial`, `C34_angles_refuted`, `C34_reject`, `C34_rates`, `C34_rodrigues_rotation`, `C34_identity`, `C34_additive`, `C34_rodrigues_velocity`, `C34_simple_partial`, `C34_simple_refuted`, `C34_error`, `C34_error_axis`, `C35_lossless`, `C35_lossless_state`, `C35_output`, `C35_command`, `C35_start`, `C35_motion`, `C35_zmp_velocity`, `C35_capture_point`, `C35_whole`, `C36_evaluate`, `C36_evaluate_triangular`, `C36_evaluate_single`, `C36_evaluate_single_triangular`, `C36_function`, `C36_determined`, `C36_multiply`, `C36_multiply_triangular`, `C36_multiply_vector`, `C36_multiply_single_partial`, `C36_multiply_single_triangular_partial`, `C36_multiply_left_single_triangular_partial`, `C36_multiply_vector_single`, `C36_reject`, `C36_stale_result_refuted`, `C36_left_sizes_refuted`, `C37_sparsity`, `C37_operator`, `C37_right_partial`, `C37_left_partial`, `C37_reject`, `C37_rectangular_refuted`, `C37_rectangular_wide_refuted`, `C38_list`, `C38_copies`, `C39_vertical_partial`, `C39_same_columns_partial`, `C39_reject`, `C39_adjacent_refuted`, `C39_horizontal2`, `C39_horizontal3`, `C39_horizontal_refuted`, `C40_row`, `C40_row_end_refuted`, `C40_column_partial`, `C40_column_end_refuted`, `C41_select`, `C41_selection_matrix`, `C42_getATA`, `C42_getATAOffset`, `C42_addATA`, `C42_addATAOffset`, `C42_convert`, `C42_symmetric`, `C43_direct`, `C43_elimination_partial`, `C43_agree_partial`, `C43_refused`, `C43_hierarchy`, `C43_hierarchy_elimination_partial`, `C43_elimination_refuted`, `C43_status_refuted`, `C43_stale`, `C43_oneLevel_refuted`, `C44_once`, `C44_order`, `C44_delivered`, `C44_safe`, `C44_returns`, `C45_path`, `C45_empty`, `C45_injective`, `C45_vector`, `C46_msgpack`, `C46_msgpack_stream`, `C46_yaml_partial`, `C46_yaml_accuracy`, `C46_yaml_digits_refuted`, `C47_effect`, `C47_partial`, `C47_refuted`, `C48_relaxed`, `C48_relaxed_values`, `C48_strict`, `C49_report`, `C49_report_reject`, `C49_roundtrip`, `C49_oneLevel`, `C49_lastBound_refuted`, `C50_translation`, `C51_horizon`, `C51_positive`, `C51_starts_partial`, `C51_outcome`, `C51_success_partial`, `C51_end_refuted`, `C51_end_throws`, `C51_transitions_refuted`, `C51_duration_refuted`, `C51_zero_refuted`, `C51_reentered_refuted`, `C51_starts_refuted`, `C52_criterion`, `C52_aligned_partial`, `C52_refuted`, `C52_support_refuted`, `C53_accepted`, `C53_result`, `C53_initial`, `C53_walk_partial`, `C53_interval`, `C53_sampled_partial`, `C53_transition_refuted`, `C53_default_refuted`, `C54_pepper`, `C54_pepper_next`, `C54_wpg`, `C54_wpg_next`, `C55_accepted`, `C55_rejected`, `C55_derived`, `C55_zero_refuted`, `C56_removes`, `C56_total`, `C56_unlimited`, `C56_single`, `C57_queue`, `C57_single`, `C57_determined`, `C57_agree`, `C57_receding`, `C57_zero_sampling`, `C58_milliseconds`, `C58_seconds_partial`, `C58_negative_refuted`, `C59_state_partial`, `C59_wrong_state`, `C59_seconds_partial`, `C59_refuted`, `C60_cop`, `C61_bounds`, `C62_partial`, `C62_refuted`, `C63_positions`, `C63_wheels`, `C63_velocities_partial`, `C63_velocities_refuted`, `C63_urdf`, `C64_variables`, `C64_gain_partial`, `C64_zero_partial`, `C64_gain_refuted`, `C64_range`, `C64_selected`, `C64_infeasible`, `C66_reuse_partial`, `C66_oneLevel`, `C66_oneLevel_refuted`, `C67_quadprog`, `C67_qpmad`, `C67_qpoases`, `C67_qpoases_oneLevel`, `C68_nextState`, `C68_start`, `C68_conversion`, `C69_masses_refuted`, `C69_masses_partial`, `C70_heights_refuted`, `C70_setters_partial`, `C71_update`, `C71_queue`, `C71_profiles`, `C71_motion`, `C72_criterion`, `C72_history_partial`, `C72_refuted`, `C73_guess`, `C73_lengths_refuted`, `C74_turns`, `C74_current`, `C74_velocities`, `C74_bounds`, `C75_matrices`, `C75_motion`, `C75_profiles`, `C76_state`, `C76_beyond`, `C76_end`, `C77_landing`, `C77_landing_refuted`, `C77_next`, `C77_agrees_partial`, `C77_agrees_refuted`, `C78_guess_partial`, `C78_first`, `C78_guess_refuted`, `C79_continues`, `C79_stops`, `C79_count`, `C79_time`, `C79_one_refuted`, `C80_support`, `C80_feet`, `C80_step`, `C80_last`, `C80_possible`, `C81_ready`, `C81_footsteps`, `C81_fixed`, `C81_fixed_within`, `C81_cop`, `C81_comVelocity`, `C81_copVelocity`, `C81_terminal`, `C81_capturable`, `C81_copPosition`, `C81_first`, `C82_footsteps_guess`, `C82_cop_guess`, `C82_setup`, `C82_form`, `C82_guess`, `C82_guess_throws`, `C82_process`, `C82_quadprog`, `C82_qpmad`, `C82_qpoases`, `C83_solve`, `C83_complete`, `C83_undefined`, `C83_short_guess`, `C84_iteration`, `C84_stops`, `C84_loop`, `C84_steps`, `C84_run`, `C84_completes`, `C85_velocityBounds`, `C85_accelerationBounds`, `C85_copBounds`, `C85_bodyBounds_partial`, `C85_baseJerk`, `C85_basePosition`, `C85_baseVelocity`, `C85_bodyJerk`, `C85_copCentering`, `C85_guess`, `C85_bodyBounds_refuted`, `C85_bodyPosition_refuted`, `C86_setup`, `C86_form`, `C86_guess`, `C86_guess_throws`, `C86_process`, `C86_quadprog`, `C86_qpmad`, `C86_qpoases`, `C87_iteration`, `C87_stops`, `C87_safe`, `C87_cop`, `C87_acceleration`, `C87_run`, `C87_unlimited`, `C87_standing`, `C87_completes`, `C88_motion`, `C88_command`, `C88_limits`, `C88_rejects`, `C88_failure_refuted`, `C88_rolls`, `C89_correct`, `C89_correctFrom`, `C90_position`, `C90_planar`, `C90_orientation`, `C91_indices`, `C91_roundtrip`, `C92_complete`, `C92_undefined`, `C92_needs_update`, `C92_translation`, `C92_rotation`, `C92_com`, `C92_partial_com`, `C93_point`, `C93_fixed`, `C93_partial_com`, `C93_com`, `C93_load`, `C93_unknown_refuted`, `C93_pose`, `C94_load`, `C94_update`, `C94_jointsBounds`, `C94_jointsReference`, `C94_fixArms`, `C94_fixHead`, `C94_baseCoM`, `C94_bodyCoM`, `C94_bodyCoM_flags`, `C94_baseOrientation`, `C94_tagOrientation`, `C94_tagPose`, `C94_tagPose_unknown`, `C94_tagPose3Dof`, `C94_tagPose3Dof_refuted`, `C94_tagAngularVelocity`, `C94_tagCompleteVelocity_partial`, `C94_tagCompleteVelocity_refuted`, `C94_stateError`, `C94_next`, `C95_setup`, `C95_hierarchies`, `C95_form`, `C95_level`, `C95_qpoases`, `C95_complete`, `C95_kkt`, `C95_next`, `C95_v2_refuted`, `C96_elimination`, `C96_elimination_refused`, `C96_elimination_close`, `C96_qpoases`, `C96_kkt`, `C96_solve`, `C96_control`, `C96_run`, `C96_references`, `C96_test_001`, `C96_last`, `C96_limits`, `C96_fixed`, `C96_fixed_commands`, `C96_close_base`, `C96_close_body`, `C96_feasibility`, `C96_grid`, `C96_grid_test_003`, `C96_test_003`, `C97_push`, `C97_write`, `C97_round_trip_partial`, `C97_same_ids_refuted`, `C97_unknown_refuted`, `C97_missing_section`, `C97_wpg`, `C97_registered`, `C97_mpc`, `C98_measured`, `C98_feedback`, `C98_iteration`, `C98_constant`, `C98_unique`, `C98_run`, `C98_unlimited`, `C98_commands`, `C98_period`, `C98_yaw_partial`, `C98_yaw_refuted`, `C99_history`, `C99_recovers`, `C99_construct`, `C99_set`, `C99_resize`, `C99_resize_unknown`, `C99_setBlockSize`, `C99_has_blocks`, `C99_access`, `C99_covered`, `C99_out_of_range`, `C99_assign`, `C99_select_partial`, `C99_kronecker`, `C99_set_refuted`, `C99_setBlockSize_refuted`, `C99_select_refuted`, `C100_violations`, `C100_places`, `C100_satisfied`, `C100_active`, `C100_agree`, `C100_mismatch`, `C100_exact`, `C100_degenerate_refuted`, `C100_stale_refuted`, `C100_copy`, `C100_copy_refused`, `C100_initFrom`, `C101_states`, `C101_walking`, `C101_feet`, `C101_wpgMpc`, `C101_wpgState`, `C101_pepperMpc`, `C101_pepperIk`, `C101_solvers`, `C101_solution_partial`, `C101_kkt_partial`, `C101_pepperRobot_effect`, `C101_pepperRobot_partial`, `C101_defaults_states`, `C101_defaults_walking`, `C101_defaults_pepper`, `C101_consistent`, `C101_pepperRobot_refuted`, `C101_kkt_refuted`, `C101_solution_refuted`, `C101_wbc_refuted`, `C101_solvers_refuted`, `C101_members_refuted`, `C102_roundtrip`, `C102_order`, `C102_nearest`, `C102_truncated`, `C102_outside`, `C102_truncated_partial`, `C102_truncated_refuted`, `C102_timer`, `C102_timer_accuracy`, `C102_timer_nonneg`, `C103_direct`, `C103_direct_partial`, `C104_walking_run`, `C104_pepper_run`, `C104_entries`, `C104_places`, `C104_different`, `C104_active_set`, `C104_fsm`, `C104_violations`, `C104_solutions`, `C104_problem`, `C104_solvers`, `C104_states`, `C104_walking`, `C104_pepper`, `C104_inverse_kinematics`, `C104_apostrophe_refuted`, `C104_same_name_refuted`, `C104_name_ignored_refuted`, `C105_nearest`, `C105_order`, `C105_legible`, `C105_timer`, `C105_stream`, `C105_digits`, `C105_parameter`, `C105_seventeen`, `C105_double_refuted`, `C105_stream_refuted`, `C106_iteration`, `C106_run`, `C106_unique`, `C106_same`, `C106_outcome`, `C106_completes`, `C106_measures`, `C106_program`, `C107_unique`, `C107_same`, `C107_outcome`, `C108_moved`, `C108_outcome`, `C108_translation`, `C108_mirror`, `C108_quarter`, `C108_andThen`, `C108_computed`, `C108_turns_refuted`, `C109_moved`, `C109_outcome`, `C109_plane`, `C110_capture`, `C110_reports`, `C110_falls`, `C110_bounded`, `C110_unprotected`, `C111_continues`, `C111_when`, `C111_last`, `C111_lost_refuted`, `C112_state`, `C112_between`, `C112_reported`, `C113_reported`, `C113_base`, `C113_cop`, `C113_parts`, `C113_parts_reported`, `C113_relative`, `C113_uniform`, `C113_sharp`, `C114_placed`, `C114_apart`, `C114_uncrossed`, `C114_default`, `C115_formed`, `C115_levels`, `C115_unsatisfiable`, `C115_infeasible`, `C115_program`, `C116_quadprog`, `C116_quadprog_thrown`, `C116_quadprog_completes`, `C116_quadprog_same`, `C116_quadprog_apart`, `C116_quadprog_balanced`, `C116_qpmad`, `C116_qpmad_thrown`, `C116_qpmad_completes`, `C116_qpmad_same`, `C116_qpmad_apart`, `C116_qpmad_balanced`, `C117_quadprog`, `C117_quadprog_thrown`, `C117_quadprog_same`, `C117_quadprog_reaches`, `C117_quadprog_safe`, `C117_quadprog_cop`, `C117_quadprog_parts`, `C117_qpmad`, `C117_qpmad_thrown`, `C117_qpmad_same`, `C117_qpmad_reaches`, `C117_qpmad_safe`, `C117_qpmad_cop`, `C117_qpmad_parts`, `C118_command`, `C118_rotation_partial`, `C118_follows_partial`, `C118_straight`, `C118_follows_refuted`, `C118_wheels_refuted`, `C119_accepts`, `C119_dense`, `C119_other_partial`, `C119_rows`, `C119_index_refuted`, `C119_offset_refuted`, `C120_average_partial`, `C120_failure`, `C120_none_refuted`, `C120_length_refuted`
