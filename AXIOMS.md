* `Classical.choice`, `Quot.sound`, `propext`: `C01_nodes_keep_coordinates`, `C02_single_node_counterexample`, `C02_supports_partial`, `C03_loads_partial`, `C03_single_node_counterexample`, `C04_insertion_order_irrelevant_partial`, `C04_single_node_counterexample`, `C05_build_succeeds_iff`, `C05_no_silent_misassignment`, `C06_degrees_of_freedom_partial`, `C06_width_counterexample`, `C07_build_idempotent_partial`, `C07_build_idempotent_stable`, `C07_unstable_sort_counterexample`, `C08_missing_tables_rejected`, `C08_no_supports_all_free`, `C100_load_reverses`, `C100_one_dof_followed`, `C100_snap_through`, `C101_run_follows_path`, `C101_single_step_run`, `C101_two_bar_snap_through`, `C102_follows_free_path`, `C102_two_bar_default_control`, `C103_run_follows_free_path`, `C103_single_step_run`, `C103_two_bar_default_run`, `C104_linear_solution`, `C104_load_control_run`, `C104_load_path`, `C104_small_load_run`, `C105_follows_path`, `C105_newton_converges`, `C105_single_step_run`, `C106_run_follows_stages`, `C107_elastic_free_path`, `C107_elastic_path`, `C107_elastic_stages`, `C107_plastic_two_bar`, `C108_driven_run`, `C108_two_bar_set`, `C109_newton_rounded`, `C10_delete_element_partial`, `C110_residual_rounded`, `C110_stiffness_rounded`, `C111_follows_path_rounded`, `C112_double_rounds`, `C112_ieee_rounds`, `C113_run_rounded`, `C114_accepted_finite`, `C114_unusable_element`, `C114_unusable_load`, `C115_array_rejected`, `C116_default_iterations`, `C116_newton_quadratic`, `C116_run_iterations`, `C116_stages_iterations`, `C116_truss_newton_quadratic`, `C117_order_of_loads`, `C117_response`, `C117_runs_follow_loads`, `C117_unloading`, `C118_build_again`, `C118_completed_steps_kept`, `C119_energy_balance`, `C119_error_elastic`, `C119_total_balance`, `C11_assign_etype`, `C11_assign_geometries_partial`, `C11_assign_geometry_partial`, `C11_assign_material_partial`, `C11_assign_mtype`, `C11_geometry_widths`, `C11_integer_table_counterexample`, `C11_short_list_counterexample`, `C120_bundled_runs`, `C120_element_without_area`, `C120_state_variables`, `C121_no_influence`, `C122_choosing_solver_counterexample`, `C122_mirror_plane`, `C122_symmetric_run`, `C123_held_elements`, `C124_limit_and_increments`, `C124_results_obey_settings`, `C124_some_component_moves`, `C12_lookup`, `C14_yield_condition`, `C15_hardening_partial`, `C15_softening_counterexample`, `C16_elastic_unloading`, `C17_reevaluation`, `C18_increment_size_irrelevant`, `C19_dissipation`, `C20_tangent`, `C20_tangent_elastic`, `C21_element_forces`, `C22_self_equilibrated`, `C23_internal_forces`, `C23_residual`, `C23_stiffness`, `C23_unattached_node`, `C24_forces`, `C24_stiffness`, `C25_symmetric`, `C25_translations`, `C26_stiffness_is_jacobian`, `C27_extended_jacobian`, `C27_next_step`, `C27_states_of_step`, `C27_step_jacobian`, `C28_frame_indifference`, `C29_undeformed`, `C30_supported_components`, `C30_supports_never_move`, `C31_depends_only`, `C31_element_results`, `C31_history_independent`, `C32_newton_success`, `C32_pure_residual`, `C33_affine`, `C34_exact`, `C34_recorded_increments`, `C35_control_component`, `C35_plus_minus`, `C36_cycl_counterexample`, `C36_reduce_counterexample`, `C36_terminates`, `C36_terminates_stepcontrol`, `C37_maxfac_counterexample`, `C37_minfac_counterexample`, `C37_step_width`, `C38_limit_stop`, `C39_snapshots`, `C40_committed_once`, `C40_history_of_bar`, `C41_first_result`, `C41_no_steps_counterexample`, `C41_result_list_layout_partial`, `C42_empty_step_counterexample`, `C42_loads_continuous`, `C42_step_loads`, `C42_total_load_real`, `C43_displacements_continuous`, `C44_predictor_counterexample`, `C44_results_consistent_partial`, `C45_no_lost_increment`, `C46_nan_raises`, `C46_nfev_one`, `C46_no_active_dof`, `C46_no_active_dof_raises`, `C47_rerun_counterexample`, `C47_rerun_loses_history`, `C47_rerun_partial`, `C48_exact_labels`, `C48_large_labels_counterexample`, `C48_right_nodes_partial`, `C48_wrong_nodes_counterexample`, `C49_counts_twice_counterexample`, `C49_plotted_loads`, `C49_undeformed_loads`, `C50_history_aligned`, `C50_history_length`, `C50_increment_axis`, `C50_path_aligned`, `C50_path_errors`, `C50_state_variable_counterexample`, `C51_all_increments_partial`, `C51_file_in_the_way`, `C51_movie_exists`, `C51_movie_in_order_partial`, `C51_not_in_order`, `C51_order_counterexample`, `C53_finished_results_keep`, `C53_record_is_faithful`, `C53_recorded_increments_keep`, `C54_unknown_type_counterexample`, `C56_evaluation_total`, `C57_contour_limits`, `C58_residual_is_energy_gradient`, `C59_quadratic_form`, `C59_tension_is_stable`, `C60_rotations`, `C61_bars_complete`, `C61_structure_as_entered`, `C62_accepted_is_equilibrium`, `C62_recorded_residual`, `C63_reactions_balance_loads`, `C63_residual_balances_loads`, `C64_valid_model_runs`, `C64_valid_model_runs_controlled`, `C65_labels_are_names`, `C66_later_steps_do_not_matter`, `C67_more_increments_extend_the_path`, `C68_error_ends_step_partial`, `C68_run_continues_counterexample`, `C69_first_result_partial`, `C69_stretch_counterexample`, `C70_newton_converges`, `C70_truss_newton_converges`, `C71_small_steps_accepted`, `C71_small_steps_accepted_fixed`, `C72_regular_iff_stable`, `C73_first_increment_accepted`, `C73_single_increment_run`, `C74_plane_picture`, `C74_space_picture`, `C75_fixed_limits`, `C75_given_limits`, `C75_height_counterexample`, `C75_no_limits`, `C75_plane_limits`, `C75_six_limits`, `C75_six_limits_frame`, `C75_space_limits_partial`, `C76_automatic_colours`, `C76_given_colour_limits`, `C76_no_colours`, `C76_no_limits_raises`, `C77_end_ticks`, `C77_path_axis`, `C77_range_labels`, `C77_range_ticks`, `C78_before_build`, `C78_before_run`, `C78_preview`, `C78_preview_only`, `C79_every_result_drawable`, `C79_movie`, `C80_history_rejects`, `C80_history_rejects_x`, `C80_path_rejects`, `C80_unknown_name_is_nan`, `C81_equilibrium`, `C81_extended_residual`, `C81_newton`, `C81_residual`, `C81_stiffness`, `C81_tolerance_has_units`, `C83_predictor_counterexample`, `C83_reduced_displacements`, `C83_reduced_forces_counterexample`, `C83_reduced_forces_never_set`, `C83_tables`, `C84_content`, `C84_inverse`, `C84_when`, `C85_cautious_growth`, `C86_congruent_runs`, `C86_congruent_runs_same_settings`, `C86_shifted_structure`, `C87_log_level`, `C87_printing_harmless`, `C88_error_messages`, `C88_exit`, `C88_no_message`, `C88_printed_factors`, `C88_protocol`, `C89_levels`, `C89_quiet`, `C90_durations`, `C90_fences`, `C90_summary`, `C92_hardening_of_run`, `C92_perfect_plasticity`, `C92_plastic_bars`, `C93_limit_load`, `C93_virtual_work`, `C94_forces`, `C94_stiffness`, `C95_change_load`, `C95_change_support`, `C95_deleted_node_rejected`, `C95_edit_and_rebuild`, `C95_edited_as_entered`, `C95_same_meaning`, `C95_second_load_rejected`, `C95_second_support_rejected`, `C95_stray_rejected`, `C96_deleted_after_raise`, `C96_forgotten_support`, `C96_left_by_delete`, `C96_raised_element`, `C96_raised_is_refused_partial`, `C97_correct_and_build`, `C97_corrected_as_entered`, `C97_remove_stray_load`, `C97_remove_stray_support`, `C98_accepted_norm`, `C98_complete_text`, `C98_iteration_rows`, `C98_repeated_cycle_number`, `C99_follows_path`.
* `Quot.sound`, `propext`: `C09_bound_edits_partial`, `C09_force_edits`, `C09_node_delete_ok`, `C09_node_edits`, `C10_types_counterexample`, `C115_defaults_kept`, `C115_edited_default`, `C115_property_forms_partial`, `C115_short_names`, `C118_same_outcome`, `C45_predictor_keeps_vector`, `C52_output_goes_to_log`, `C52_stdout_restored`, `C54_unknown_type_partial`, `C74_unknown_view`, `C77_empty_path`, `C77_gap_ticks`, `C77_list_ticks`, `C82_plt_never_succeeds`, `C87_zero_reduce_later`, `C91_inactive_message`, `C91_width_messages`, `C96_left_by_add`, `C97_left_by_wrong_width`, `C97_no_stale_results`, `C97_same_result`.
* `propext`: `C09_delete_from_empty`, `C09_single_bound_counterexample`, `C118_log_changes_nothing`, `C118_model_kept`, `C11_assign_geometry_width`, `C13_elastic_law`, `C52_exception_counterexample`, `C52_interleaved_counterexample`, `C52_not_run_counterexample`, `C52_own_log`, `C53_adopted_result_counterexample`, `C55_property_keywords`, `C76_contour_tuple`, `C82_no_thermal_supports`, `C87_control_component`, `C87_zero_reduce`, `C96_same_results`.
* none: `C32_newton_no_iterations`, `C82_boundaryT_never_accepted`.
