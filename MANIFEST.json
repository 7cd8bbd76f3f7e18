{
 "claims": [
  {
   "property": "C01",
   "status": "proved",
   "theorems": [
    "TrussPy.C01_nodes_keep_coordinates"
   ],
   "note": "For every argsort that sorts; distinct labels."
  },
  {
   "property": "C02",
   "status": "partial",
   "theorems": [
    "TrussPy.C02_supports_partial",
    "TrussPy.C02_single_node_counterexample"
   ],
   "note": "Partial: needs at least two nodes or no foreign label; the one-node case is refuted (np.allclose broadcasting)."
  },
  {
   "property": "C03",
   "status": "partial",
   "theorems": [
    "TrussPy.C03_loads_partial",
    "TrussPy.C03_single_node_counterexample"
   ],
   "note": "Partial: as C02, the one-node case is refuted."
  },
  {
   "property": "C04",
   "status": "partial",
   "theorems": [
    "TrussPy.C04_insertion_order_irrelevant_partial",
    "TrussPy.C04_single_node_counterexample"
   ],
   "note": "Partial: at least two nodes. A single-node model accepts duplicate loads, which keep their insertion order (C04_single_node_counterexample)."
  },
  {
   "property": "C05",
   "status": "proved",
   "theorems": [
    "TrussPy.C05_no_silent_misassignment",
    "TrussPy.C05_build_succeeds_iff"
   ],
   "note": "Exact characterisation of when the label checks of build succeed."
  },
  {
   "property": "C06",
   "status": "partial",
   "theorems": [
    "TrussPy.C06_degrees_of_freedom_partial",
    "TrussPy.C06_width_counterexample"
   ],
   "note": "Partial: supports must have three components; refuted otherwise by C06_width_counterexample."
  },
  {
   "property": "C07",
   "status": "partial",
   "theorems": [
    "TrussPy.C07_build_idempotent_partial",
    "TrussPy.C07_build_idempotent_stable",
    "TrussPy.C07_unstable_sort_counterexample"
   ],
   "note": "Partial: distinct node labels and two nodes for any correct argsort (C07_build_idempotent_partial); all models, without any assumption on the tables, for an argsort that leaves ascending lists alone (C07_build_idempotent_stable). For an unstable sort the full statement is false with duplicate labels (C07_unstable_sort_counterexample)."
  },
  {
   "property": "C08",
   "status": "proved",
   "theorems": [
    "TrussPy.C08_missing_tables_rejected",
    "TrussPy.C08_no_supports_all_free"
   ],
   "note": "Both the rejected inputs and the accepted input without supports."
  },
  {
   "property": "C09",
   "status": "partial",
   "theorems": [
    "TrussPy.C09_node_edits",
    "TrussPy.C09_node_delete_ok",
    "TrussPy.C09_delete_from_empty",
    "TrussPy.C09_force_edits",
    "TrussPy.C09_bound_edits_partial",
    "TrussPy.C09_single_bound_counterexample"
   ],
   "note": "Partial for supports: a table with a single support row is one-dimensional and cannot be deleted from (counterexample)."
  },
  {
   "property": "C10",
   "status": "partial",
   "theorems": [
    "TrussPy.C10_delete_element_partial",
    "TrussPy.C10_types_counterexample"
   ],
   "note": "Partial: elem_type and mat_type are not deleted (counterexample)."
  },
  {
   "property": "C11",
   "status": "partial",
   "theorems": [
    "TrussPy.C11_assign_mtype",
    "TrussPy.C11_assign_etype",
    "TrussPy.C11_assign_geometries_partial",
    "TrussPy.C11_short_list_counterexample",
    "TrussPy.C11_geometry_widths",
    "TrussPy.C11_assign_material_partial",
    "TrussPy.C11_integer_table_counterexample",
    "TrussPy.C11_assign_geometry_partial",
    "TrussPy.C11_assign_geometry_width"
   ],
   "note": "Partial: integer tables truncate (counterexample). assign_mtype/assign_etype/assign_geometries as setters: a list which is too short silently leaves the last elements unchanged (C11_short_list_counterexample)."
  },
  {
   "property": "C12",
   "status": "proved",
   "theorems": [
    "TrussPy.C12_lookup"
   ],
   "note": "Look-ups in the element table, distinct labels."
  },
  {
   "property": "C13",
   "status": "proved",
   "theorems": [
    "TrussPy.C13_elastic_law"
   ],
   "note": "Any arithmetic."
  },
  {
   "property": "C14",
   "status": "proved",
   "theorems": [
    "TrussPy.C14_yield_condition"
   ],
   "note": "Exact arithmetic, plastic law."
  },
  {
   "property": "C15",
   "status": "partial",
   "theorems": [
    "TrussPy.C15_hardening_partial",
    "TrussPy.C15_softening_counterexample"
   ],
   "note": "Partial: K >= 0. Softening K < 0 is refuted by C15_softening_counterexample."
  },
  {
   "property": "C16",
   "status": "proved",
   "theorems": [
    "TrussPy.C16_elastic_unloading"
   ],
   "note": "Exact arithmetic."
  },
  {
   "property": "C17",
   "status": "proved",
   "theorems": [
    "TrussPy.C17_reevaluation"
   ],
   "note": "Exact arithmetic."
  },
  {
   "property": "C18",
   "status": "proved",
   "theorems": [
    "TrussPy.C18_increment_size_irrelevant"
   ],
   "note": "Exact arithmetic."
  },
  {
   "property": "C19",
   "status": "proved",
   "theorems": [
    "TrussPy.C19_dissipation"
   ],
   "note": "Exact arithmetic."
  },
  {
   "property": "C20",
   "status": "proved",
   "theorems": [
    "TrussPy.C20_tangent",
    "TrussPy.C20_tangent_elastic"
   ],
   "note": "HasDerivAt off the yield kink."
  },
  {
   "property": "C21",
   "status": "proved",
   "theorems": [
    "TrussPy.C21_element_forces"
   ],
   "note": "Exact arithmetic; every call of truss with residual stage."
  },
  {
   "property": "C22",
   "status": "proved",
   "theorems": [
    "TrussPy.C22_self_equilibrated"
   ],
   "note": "Exact arithmetic; elements connect two different nodes."
  },
  {
   "property": "C23",
   "status": "proved",
   "theorems": [
    "TrussPy.C23_internal_forces",
    "TrussPy.C23_stiffness",
    "TrussPy.C23_residual",
    "TrussPy.C23_unattached_node"
   ],
   "note": "Exact arithmetic; C23_residual adds that the residual is external minus internal force."
  },
  {
   "property": "C24",
   "status": "proved",
   "theorems": [
    "TrussPy.C24_forces",
    "TrussPy.C24_stiffness"
   ],
   "note": "Exact arithmetic; any permutation and any flipped subset."
  },
  {
   "property": "C25",
   "status": "proved",
   "theorems": [
    "TrussPy.C25_symmetric",
    "TrussPy.C25_translations"
   ],
   "note": "Exact arithmetic."
  },
  {
   "property": "C26",
   "status": "proved",
   "theorems": [
    "TrussPy.C26_stiffness_is_jacobian"
   ],
   "note": "Exact arithmetic; Frechet derivative at states with no collapsed bar and no plastic bar exactly at yield."
  },
  {
   "property": "C27",
   "status": "proved",
   "theorems": [
    "TrussPy.C27_extended_jacobian",
    "TrussPy.C27_states_of_step",
    "TrussPy.C27_next_step",
    "TrussPy.C27_step_jacobian"
   ],
   "note": "Exact arithmetic; f0red as set up by init_analysis."
  },
  {
   "property": "C28",
   "status": "proved",
   "theorems": [
    "TrussPy.C28_frame_indifference"
   ],
   "note": "Exact arithmetic; any orthogonal matrix (reflections included) and translation."
  },
  {
   "property": "C29",
   "status": "proved",
   "theorems": [
    "TrussPy.C29_undeformed"
   ],
   "note": "Exact arithmetic; yield stresses not negative."
  },
  {
   "property": "C30",
   "status": "proved",
   "theorems": [
    "TrussPy.C30_supports_never_move",
    "TrussPy.C30_supported_components"
   ],
   "note": "Any arithmetic, any solver, all runs; second theorem in terms of the supports entered by the user."
  },
  {
   "property": "C31",
   "status": "proved",
   "theorems": [
    "TrussPy.C31_depends_only",
    "TrussPy.C31_history_independent",
    "TrussPy.C31_element_results"
   ],
   "note": "Any arithmetic and any tables; the displacements of locked degrees of freedom are inputs too."
  },
  {
   "property": "C32",
   "status": "proved",
   "theorems": [
    "TrussPy.C32_newton_success",
    "TrussPy.C32_newton_no_iterations",
    "TrussPy.C32_pure_residual"
   ],
   "note": "Any arithmetic, any residual."
  },
  {
   "property": "C33",
   "status": "proved",
   "theorems": [
    "TrussPy.C33_affine"
   ],
   "note": "Exact arithmetic and exact linear solver."
  },
  {
   "property": "C34",
   "status": "proved",
   "theorems": [
    "TrussPy.C34_recorded_increments",
    "TrussPy.C34_exact"
   ],
   "note": "Any arithmetic; C34_exact for exact arithmetic."
  },
  {
   "property": "C35",
   "status": "proved",
   "theorems": [
    "TrussPy.C35_control_component",
    "TrussPy.C35_plus_minus"
   ],
   "note": "Exact arithmetic."
  },
  {
   "property": "C36",
   "status": "proved",
   "theorems": [
    "TrussPy.C36_terminates",
    "TrussPy.C36_terminates_stepcontrol",
    "TrussPy.C36_cycl_counterexample",
    "TrussPy.C36_reduce_counterexample"
   ],
   "note": "cycl > 0 without step control, reduce > 1 and minfac > 0 with it, as stated; both side conditions are shown to be necessary by counterexamples."
  },
  {
   "property": "C37",
   "status": "proved",
   "theorems": [
    "TrussPy.C37_step_width",
    "TrussPy.C37_maxfac_counterexample",
    "TrussPy.C37_minfac_counterexample"
   ],
   "note": "Corrected bounds; the documented ones are refuted."
  },
  {
   "property": "C38",
   "status": "proved",
   "theorems": [
    "TrussPy.C38_limit_stop"
   ],
   "note": "Any arithmetic."
  },
  {
   "property": "C39",
   "status": "proved",
   "theorems": [
    "TrussPy.C39_snapshots"
   ],
   "note": "Any arithmetic."
  },
  {
   "property": "C40",
   "status": "proved",
   "theorems": [
    "TrussPy.C40_committed_once",
    "TrussPy.C40_history_of_bar"
   ],
   "note": "Any arithmetic. Per increment, and as a whole history of a plastic bar (commitAll over accepted strains)."
  },
  {
   "property": "C41",
   "status": "partial",
   "theorems": [
    "TrussPy.C41_result_list_layout_partial",
    "TrussPy.C41_first_result",
    "TrussPy.C41_no_steps_counterexample"
   ],
   "note": "Any arithmetic; partial because a run with nsteps = 0 leaves two entries (counterexample proved)."
  },
  {
   "property": "C42",
   "status": "proved",
   "theorems": [
    "TrussPy.C42_loads_continuous",
    "TrussPy.C42_step_loads",
    "TrussPy.C42_total_load_real",
    "TrussPy.C42_empty_step_counterexample"
   ],
   "note": "Any arithmetic, under the quantifier of the property (each step has increments); counterexample for a step without increments. Total-load form over the reals."
  },
  {
   "property": "C43",
   "status": "proved",
   "theorems": [
    "TrussPy.C43_displacements_continuous"
   ],
   "note": "Any arithmetic."
  },
  {
   "property": "C44",
   "status": "partial",
   "theorems": [
    "TrussPy.C44_results_consistent_partial",
    "TrussPy.C44_predictor_counterexample"
   ],
   "note": "Any arithmetic; partial because increments ended by the predictor record inconsistent data (counterexample proved)."
  },
  {
   "property": "C45",
   "status": "proved",
   "theorems": [
    "TrussPy.C45_no_lost_increment",
    "TrussPy.C45_predictor_keeps_vector"
   ],
   "note": "Exact arithmetic / any arithmetic."
  },
  {
   "property": "C46",
   "status": "proved",
   "theorems": [
    "TrussPy.C46_nfev_one",
    "TrussPy.C46_no_active_dof",
    "TrussPy.C46_nan_raises",
    "TrussPy.C46_no_active_dof_raises"
   ],
   "note": "Any arithmetic."
  },
  {
   "property": "C47",
   "status": "partial",
   "theorems": [
    "TrussPy.C47_rerun_partial",
    "TrussPy.C47_rerun_loses_history",
    "TrussPy.C47_rerun_counterexample"
   ],
   "note": "The claim is false: C47_rerun_loses_history refutes it for every model with a non-trivial history; C47_rerun_partial states what run does instead."
  },
  {
   "property": "C48",
   "status": "partial",
   "theorems": [
    "TrussPy.C48_right_nodes_partial",
    "TrussPy.C48_exact_labels",
    "TrussPy.C48_wrong_nodes_counterexample",
    "TrussPy.C48_large_labels_counterexample"
   ],
   "note": "The claim holds for tables whose node labels are 1..n in order (C48_exact_labels shows that this is necessary and sufficient for every bar); for other labels wrong bars are drawn or IndexError is raised (counterexamples). Colours, line widths and rendering are not modelled."
  },
  {
   "property": "C49",
   "status": "proved",
   "theorems": [
    "TrussPy.C49_plotted_loads",
    "TrussPy.C49_undeformed_loads",
    "TrussPy.C49_counts_twice_counterexample"
   ],
   "note": "For every model and increment index in Python range -len..len-1; C49_counts_twice_counterexample shows what happens below -len. Arrow drawing is not modelled."
  },
  {
   "property": "C50",
   "status": "proved",
   "theorems": [
    "TrussPy.C50_history_length",
    "TrussPy.C50_history_aligned",
    "TrussPy.C50_path_aligned",
    "TrussPy.C50_path_errors",
    "TrussPy.C50_increment_axis",
    "TrussPy.C50_state_variable_counterexample"
   ],
   "note": "For every model, result list and quantity name; C50_state_variable_counterexample: 'State Variable' curves are indexed by node although rows belong to elements."
  },
  {
   "property": "C51",
   "status": "partial",
   "theorems": [
    "TrussPy.C51_movie_in_order_partial",
    "TrussPy.C51_all_increments_partial",
    "TrussPy.C51_movie_exists",
    "TrussPy.C51_file_in_the_way",
    "TrussPy.C51_not_in_order",
    "TrussPy.C51_order_counterexample"
   ],
   "note": "In order for increments 0..999 (3-digit names sort like numbers); C51_not_in_order shows that order is lost as soon as increments 999 and 1000 are both plotted. Writing of the files is modelled as a directory; imageio is external. C51_file_in_the_way: a plain file named figures makes plot_movie raise."
  },
  {
   "property": "C52",
   "status": "proved",
   "theorems": [
    "TrussPy.C52_stdout_restored",
    "TrussPy.C52_output_goes_to_log",
    "TrussPy.C52_own_log",
    "TrussPy.C52_interleaved_counterexample",
    "TrussPy.C52_exception_counterexample",
    "TrussPy.C52_not_run_counterexample"
   ],
   "note": "Restored for every well nested history of models created with logfile and run; counterexamples for interleaved models, raising run and models that are never run."
  },
  {
   "property": "C53",
   "status": "proved",
   "theorems": [
    "TrussPy.C53_recorded_increments_keep",
    "TrussPy.C53_finished_results_keep",
    "TrussPy.C53_record_is_faithful",
    "TrussPy.C53_adopted_result_counterexample"
   ],
   "note": "For every sequence of memory statements (views, aliases, in-place writes, deep copies) of build and run, at the level of Heap.lean. C53_adopted_result_counterexample: passing a recorded result as argument `analysis` of equilibrium/stiffness makes it live."
  },
  {
   "property": "C54",
   "status": "partial",
   "theorems": [
    "TrussPy.C54_unknown_type_partial",
    "TrussPy.C54_unknown_type_counterexample"
   ],
   "note": "False as stated; partial theorem: an unknown type in the first element raises, counterexample otherwise."
  },
  {
   "property": "C55",
   "status": "proved",
   "theorems": [
    "TrussPy.C55_property_keywords"
   ],
   "note": "Any arithmetic."
  },
  {
   "property": "C56",
   "status": "proved",
   "theorems": [
    "TrussPy.C56_evaluation_total"
   ],
   "note": "Any arithmetic."
  },
  {
   "property": "C57",
   "status": "proved",
   "theorems": [
    "TrussPy.C57_contour_limits"
   ],
   "note": "Exact arithmetic (abs and max of reals)."
  },
  {
   "property": "C58",
   "status": "proved",
   "theorems": [
    "TrussPy.C58_residual_is_energy_gradient"
   ],
   "note": "Exact arithmetic; elastic bars, no collapsed bar (the length is not differentiable there)."
  },
  {
   "property": "C59",
   "status": "proved",
   "theorems": [
    "TrussPy.C59_quadratic_form",
    "TrussPy.C59_tension_is_stable"
   ],
   "note": "Exact arithmetic; quadratic form for every structure, positive semidefiniteness for structures without compressed bars and the usual constants."
  },
  {
   "property": "C60",
   "status": "proved",
   "theorems": [
    "TrussPy.C60_rotations"
   ],
   "note": "Exact arithmetic; every structure, elastic or plastic."
  },
  {
   "property": "C61",
   "status": "proved",
   "theorems": [
    "TrussPy.C61_structure_as_entered",
    "TrussPy.C61_bars_complete"
   ],
   "note": "Every arithmetic; input with distinct labels."
  },
  {
   "property": "C62",
   "status": "proved",
   "theorems": [
    "TrussPy.C62_recorded_residual",
    "TrussPy.C62_accepted_is_equilibrium"
   ],
   "note": "Residual statement for every arithmetic; balance with the entered loads in exact arithmetic. ExamplesAccept exhibits a complete real run with an accepted increment."
  },
  {
   "property": "C63",
   "status": "proved",
   "theorems": [
    "TrussPy.C63_residual_balances_loads",
    "TrussPy.C63_reactions_balance_loads"
   ],
   "note": "Exact arithmetic. Results left by a predictor alone are excluded (they carry no matching force data, see C44)."
  },
  {
   "property": "C64",
   "status": "proved",
   "theorems": [
    "TrussPy.C64_valid_model_runs",
    "TrussPy.C64_valid_model_runs_controlled"
   ],
   "note": "No NaN (SignTotal) and a solver that returns vectors of the right size are hypotheses; with step control exact arithmetic."
  },
  {
   "property": "C65",
   "status": "proved",
   "theorems": [
    "TrussPy.C65_labels_are_names"
   ],
   "note": "Node renamings must keep the order, since results are stored in label order (the order of entry is covered by C04)."
  },
  {
   "property": "C66",
   "status": "proved",
   "theorems": [
    "TrussPy.C66_later_steps_do_not_matter"
   ],
   "note": "R[0] is left out because its extForces holds the load table of all steps."
  },
  {
   "property": "C67",
   "status": "proved",
   "theorems": [
    "TrussPy.C67_more_increments_extend_the_path"
   ],
   "note": "Any F; the analysis with fewer increments in its last step records a prefix of the results."
  },
  {
   "property": "C68",
   "status": "partial",
   "theorems": [
    "TrussPy.C68_error_ends_step_partial",
    "TrussPy.C68_run_continues_counterexample"
   ],
   "note": "Claim refuted by C68_run_continues_counterexample; proved: an error is the last entry of its step and all steps are carried out."
  },
  {
   "property": "C69",
   "status": "partial",
   "theorems": [
    "TrussPy.C69_first_result_partial",
    "TrussPy.C69_stretch_counterexample"
   ],
   "note": "Stretch 0 in every run: C69_stretch_counterexample."
  },
  {
   "property": "C70",
   "status": "proved",
   "theorems": [
    "TrussPy.C70_newton_converges",
    "TrussPy.C70_truss_newton_converges"
   ],
   "note": "Exact arithmetic and a linear solver which solves regular systems exactly. Linear rate is proved (residual at least halved per iteration), not the quadratic rate."
  },
  {
   "property": "C71",
   "status": "proved",
   "theorems": [
    "TrussPy.C71_small_steps_accepted",
    "TrussPy.C71_small_steps_accepted_fixed"
   ],
   "note": "C71_small_steps_accepted: control component chosen by the solver, with predictor. C71_small_steps_accepted_fixed: component given by the user. Exact arithmetic, exact linear solver."
  },
  {
   "property": "C72",
   "status": "proved",
   "theorems": [
    "TrussPy.C72_regular_iff_stable"
   ],
   "note": "Both directions, through the entered data (labels, supports by name).  Scope: the virgin structure right after build (stress-free), real arithmetic, three-dimensional models."
  },
  {
   "property": "C73",
   "status": "proved",
   "theorems": [
    "TrussPy.C73_first_increment_accepted",
    "TrussPy.C73_single_increment_run"
   ],
   "note": "Scope: real arithmetic, exact solver and argsort, first increment of the first step; t0 and C depend on the input, not on limits, steps, increments or order of the calls."
  },
  {
   "property": "C74",
   "status": "proved",
   "theorems": [
    "TrussPy.C74_plane_picture",
    "TrussPy.C74_space_picture",
    "TrussPy.C74_unknown_view"
   ],
   "note": "Selected data are those of C48 and C49 (pModel). An unknown view never returns."
  },
  {
   "property": "C75",
   "status": "partial",
   "theorems": [
    "TrussPy.C75_plane_limits",
    "TrussPy.C75_space_limits_partial",
    "TrussPy.C75_given_limits",
    "TrussPy.C75_six_limits",
    "TrussPy.C75_six_limits_frame",
    "TrussPy.C75_fixed_limits",
    "TrussPy.C75_no_limits",
    "TrussPy.C75_height_counterexample"
   ],
   "note": "Partial: plane views completely; in the 3-d view x and y only. The z limits are taken from x and y, so a tall structure is cut (C75_height_counterexample). Six limits are accepted in the 3-d view only."
  },
  {
   "property": "C76",
   "status": "proved",
   "theorems": [
    "TrussPy.C76_automatic_colours",
    "TrussPy.C76_given_colour_limits",
    "TrussPy.C76_contour_tuple",
    "TrussPy.C76_no_colours",
    "TrussPy.C76_no_limits_raises"
   ],
   "note": "C76_no_limits_raises: cbar_limits=None never gives a picture although plot_elems has a branch for it."
  },
  {
   "property": "C77",
   "status": "proved",
   "theorems": [
    "TrussPy.C77_path_axis",
    "TrussPy.C77_range_ticks",
    "TrussPy.C77_end_ticks",
    "TrussPy.C77_list_ticks",
    "TrussPy.C77_gap_ticks",
    "TrussPy.C77_range_labels",
    "TrussPy.C77_empty_path"
   ],
   "note": "NumPy arrays as paths are not modelled (x == range(..) would be elementwise)."
  },
  {
   "property": "C78",
   "status": "proved",
   "theorems": [
    "TrussPy.C78_before_build",
    "TrussPy.C78_before_run",
    "TrussPy.C78_preview",
    "TrussPy.C78_preview_only"
   ],
   "note": "Proved over every arithmetic for the failing calls, over the reals for the preview (adding zero and multiplying by one are exact). Increment -2 is the known defect of counting from the end twice (C49)."
  },
  {
   "property": "C79",
   "status": "proved",
   "theorems": [
    "TrussPy.C79_every_result_drawable",
    "TrussPy.C79_movie"
   ],
   "note": "Holds for every arithmetic. ContourOK and LimOK exclude exactly the argument combinations for which the code raises (see C75, C77); view other raises (C74-C77)."
  },
  {
   "property": "C80",
   "status": "proved",
   "theorems": [
    "TrussPy.C80_path_rejects",
    "TrussPy.C80_history_rejects",
    "TrussPy.C80_history_rejects_x",
    "TrussPy.C80_unknown_name_is_nan"
   ],
   "note": "C80_unknown_name_is_nan is a finding: misspelt names silently give an empty picture. int() of the last character is modelled for ASCII digits."
  },
  {
   "property": "C81",
   "status": "proved",
   "theorems": [
    "TrussPy.C81_residual",
    "TrussPy.C81_stiffness",
    "TrussPy.C81_equilibrium",
    "TrussPy.C81_extended_residual",
    "TrussPy.C81_newton",
    "TrussPy.C81_tolerance_has_units"
   ],
   "note": "C81_residual, C81_stiffness, C81_equilibrium, C81_extended_residual, C81_newton: unit conversion of evaluations and of the Newton system on the reals. C81_tolerance_has_units: the absolute tolerance ftol makes acceptance depend on the unit of force."
  },
  {
   "property": "C82",
   "status": "proved",
   "theorems": [
    "TrussPy.C82_plt_never_succeeds",
    "TrussPy.C82_no_thermal_supports",
    "TrussPy.C82_boundaryT_never_accepted"
   ],
   "note": "Arguments of plt_* are strings or integers. The handler keeps the difference between a missing attribute and None."
  },
  {
   "property": "C83",
   "status": "proved",
   "theorems": [
    "TrussPy.C83_tables",
    "TrussPy.C83_reduced_displacements",
    "TrussPy.C83_reduced_forces_never_set",
    "TrussPy.C83_reduced_forces_counterexample",
    "TrussPy.C83_predictor_counterexample"
   ],
   "note": "The statement names the exception (predictor); the counterexamples show it is needed and that the reduced internal forces are stale."
  },
  {
   "property": "C84",
   "status": "proved",
   "theorems": [
    "TrussPy.C84_when",
    "TrussPy.C84_content",
    "TrussPy.C84_inverse"
   ],
   "note": "Copies are values here; that they are independent objects is C53."
  },
  {
   "property": "C85",
   "status": "proved",
   "theorems": [
    "TrussPy.C85_cautious_growth"
   ],
   "note": "For runs in exact real arithmetic, as C37. The log of all passes is defined in Spec/Width.lean."
  },
  {
   "property": "C86",
   "status": "proved",
   "theorems": [
    "TrussPy.C86_congruent_runs",
    "TrussPy.C86_congruent_runs_same_settings",
    "TrussPy.C86_shifted_structure"
   ],
   "note": "Simulation of the two runs. The model of a solver that keeps signs: multiplying equations and unknowns by -1 multiplies the entries of the answer; shown to hold for the solver that returns the unique solution. Node labels are kept: a permutation of the nodes may change the control component when several components are equally large. Load rows have a length divisible by three (three components per step)."
  },
  {
   "property": "C87",
   "status": "proved",
   "theorems": [
    "TrussPy.C87_printing_harmless",
    "TrussPy.C87_log_level",
    "TrussPy.C87_control_component",
    "TrussPy.C87_zero_reduce",
    "TrussPy.C87_zero_reduce_later"
   ],
   "note": "the protocol is modelled line by line in Verif/Report.lean (kinds of lines with their values, not the wording)"
  },
  {
   "property": "C88",
   "status": "proved",
   "theorems": [
    "TrussPy.C88_protocol",
    "TrussPy.C88_printed_factors",
    "TrussPy.C88_error_messages",
    "TrussPy.C88_no_message",
    "TrussPy.C88_exit"
   ],
   "note": "final LPF lines in the order of the records, one message per error, exit and summary lines; for every run and every log level"
  },
  {
   "property": "C89",
   "status": "proved",
   "theorems": [
    "TrussPy.C89_levels",
    "TrussPy.C89_quiet"
   ],
   "note": "examples beside the theorems show that level 0 is not silent"
  },
  {
   "property": "C90",
   "status": "proved",
   "theorems": [
    "TrussPy.C90_fences",
    "TrussPy.C90_summary",
    "TrussPy.C90_durations"
   ],
   "note": "findings: unbalanced fence, exchanged labels"
  },
  {
   "property": "C91",
   "status": "proved",
   "theorems": [
    "TrussPy.C91_width_messages",
    "TrussPy.C91_inactive_message"
   ],
   "note": "each call of dxmax_control: a message about a division or multiplication of the width is printed exactly if it happened, with the factor; the return to the greatest width is not announced (finding)"
  },
  {
   "property": "C92",
   "status": "proved",
   "theorems": [
    "TrussPy.C92_plastic_bars",
    "TrussPy.C92_hardening_of_run",
    "TrussPy.C92_perfect_plasticity"
   ],
   "note": "C92_plastic_bars (initial state, states of all results, unaccepted increments, accepted increments with PlasticIncrement), C92_hardening_of_run (yield stress = Sy + K * variation), C92_perfect_plasticity."
  },
  {
   "property": "C93",
   "status": "proved",
   "theorems": [
    "TrussPy.C93_virtual_work",
    "TrussPy.C93_limit_load"
   ],
   "note": "C93_virtual_work, C93_limit_load; elongations are taken in the recorded (deformed) configuration; tolerance in the 1-norm of the virtual displacement."
  },
  {
   "property": "C94",
   "status": "proved",
   "theorems": [
    "TrussPy.C94_forces",
    "TrussPy.C94_stiffness"
   ],
   "note": "C94_forces (residual, internal forces, parts), C94_stiffness."
  },
  {
   "property": "C95",
   "status": "proved",
   "theorems": [
    "TrussPy.C95_same_meaning",
    "TrussPy.C95_edited_as_entered",
    "TrussPy.C95_edit_and_rebuild",
    "TrussPy.C95_stray_rejected",
    "TrussPy.C95_change_load",
    "TrussPy.C95_change_support",
    "TrussPy.C95_second_support_rejected",
    "TrussPy.C95_second_load_rejected",
    "TrussPy.C95_deleted_node_rejected"
   ],
   "note": "Elements and settings are left alone by the edits."
  },
  {
   "property": "C96",
   "status": "partial",
   "theorems": [
    "TrussPy.C96_same_results",
    "TrussPy.C96_raised_is_refused_partial",
    "TrussPy.C96_raised_element",
    "TrussPy.C96_deleted_after_raise",
    "TrussPy.C96_forgotten_support",
    "TrussPy.C96_left_by_add",
    "TrussPy.C96_left_by_delete"
   ],
   "note": "Partial: false for supports if every support call except the first raised and every node was named by one (C96_forgotten_support: build accepts a one-dimensional support table), and false for sessions with delete calls (C96_deleted_after_raise: a node gets the coordinates of another one)."
  },
  {
   "property": "C97",
   "status": "proved",
   "theorems": [
    "TrussPy.C97_same_result",
    "TrussPy.C97_no_stale_results",
    "TrussPy.C97_corrected_as_entered",
    "TrussPy.C97_correct_and_build",
    "TrussPy.C97_remove_stray_support",
    "TrussPy.C97_remove_stray_load",
    "TrussPy.C97_left_by_wrong_width"
   ],
   "note": "Elements and settings are left alone by the corrections; three-dimensional models."
  },
  {
   "property": "C98",
   "status": "proved",
   "theorems": [
    "TrussPy.C98_iteration_rows",
    "TrussPy.C98_complete_text",
    "TrussPy.C98_accepted_norm",
    "TrussPy.C98_repeated_cycle_number"
   ],
   "note": "A cycle number can be repeated (C98_repeated_cycle_number). Excluded as in C87: step control with reduce = 0. Text layout (spaces, number formats) is not modelled."
  },
  {
   "property": "C99",
   "status": "proved",
   "theorems": [
    "TrussPy.C99_follows_path"
   ],
   "note": "Elastic bars or plastic bars below yield, fixed control component, no step control, exact reals and exact linear solver."
  },
  {
   "property": "C100",
   "status": "proved",
   "theorems": [
    "TrussPy.C100_one_dof_followed",
    "TrussPy.C100_snap_through",
    "TrussPy.C100_load_reverses"
   ],
   "note": "Displacement control; same limits as C99."
  },
  {
   "property": "C101",
   "status": "proved",
   "theorems": [
    "TrussPy.C101_run_follows_path",
    "TrussPy.C101_single_step_run",
    "TrussPy.C101_two_bar_snap_through"
   ],
   "note": "Exact real arithmetic, exact linear solver; elastic elements or plastic ones below yield, fixed control component, no step control, first step of the run. Equilibrium, path and supports are stated from the entered structure (Spec/Trail.lean)."
  },
  {
   "property": "C102",
   "status": "proved",
   "theorems": [
    "TrussPy.C102_follows_free_path",
    "TrussPy.C102_two_bar_default_control"
   ],
   "note": "Exact real arithmetic and exact linear solver; elastic bars or plastic bars below yield. dxtol must exceed 1 (the default settings have 1.000001); the load factor must grow at the beginning, as the first control component is the load factor."
  },
  {
   "property": "C103",
   "status": "proved",
   "theorems": [
    "TrussPy.C103_run_follows_free_path",
    "TrussPy.C103_single_step_run",
    "TrussPy.C103_two_bar_default_run"
   ],
   "note": "Exact real arithmetic and exact linear solver; elastic elements or plastic ones below yield, first step. dxtol must exceed 1+eta (its default 1.000001 allows this with smaller steps). Combines C102 with the build and run theorems."
  },
  {
   "property": "C104",
   "status": "proved",
   "theorems": [
    "TrussPy.C104_linear_solution",
    "TrussPy.C104_load_path",
    "TrussPy.C104_load_control_run",
    "TrussPy.C104_small_load_run"
   ],
   "note": "First step of a run, exact real arithmetic, exact linear solver. The size of the load range is not given explicitly. No path hypothesis: existence follows from stability by the inverse function theorem."
  },
  {
   "property": "C105",
   "status": "proved",
   "theorems": [
    "TrussPy.C105_newton_converges",
    "TrussPy.C105_follows_path",
    "TrussPy.C105_single_step_run"
   ],
   "note": "Fixed control component, first step of a run; all arithmetic but that of the linear solver is exact. Because the control equation is solved inexactly too, the overshoot limit dxtol must leave room for the tolerance."
  },
  {
   "property": "C106",
   "status": "proved",
   "theorems": [
    "TrussPy.C106_run_follows_stages"
   ],
   "note": "Elastic elements or plastic ones below yield, the same fixed control component in all steps, exact arithmetic and linear solver. Limits must keep the tolerance away from the paths, since a limit may otherwise end a step early."
  },
  {
   "property": "C107",
   "status": "proved",
   "theorems": [
    "TrussPy.C107_elastic_path",
    "TrussPy.C107_elastic_free_path",
    "TrussPy.C107_elastic_stages",
    "TrussPy.C107_plastic_two_bar"
   ],
   "note": "Same limits as C101, C103 and C106: exact real arithmetic and exact linear solver. Nothing is claimed about paths on which elements yield."
  },
  {
   "property": "C108",
   "status": "proved",
   "theorems": [
    "TrussPy.C108_driven_run",
    "TrussPy.C108_two_bar_set"
   ],
   "note": "One free direction only, with the displacement as control component; with more free directions the plastic path is not in closed form. Exact real arithmetic and exact linear solver. The bars must keep a length in the visited positions: the model divides by the length, numpy would produce NaN."
  },
  {
   "property": "C109",
   "status": "proved",
   "theorems": [
    "TrussPy.C109_newton_rounded"
   ],
   "note": "The number format is described by Rounds: each operation on numbers up to 1/delta returns the exact result up to delta(1+|result|). That IEEE double precision satisfies it (delta about 2^-52) is not proved here. Negation and comparisons are exact, as in IEEE arithmetic."
  },
  {
   "property": "C110",
   "status": "proved",
   "theorems": [
    "TrussPy.C110_residual_rounded",
    "TrussPy.C110_stiffness_rounded"
   ],
   "note": "Operations are only assumed to be accurate on numbers up to 1/d and for divisors not below d, so overflow and undefined results are included. The real structure has exactly the numbers the rounded data stand for. Elastic bars only: the branch of the plastic law is chosen by a comparison and can differ near yield."
  },
  {
   "property": "C111",
   "status": "proved",
   "theorems": [
    "TrussPy.C111_follows_path_rounded"
   ],
   "note": "Whole Newton-Raphson path following, not only its exact version: C99 needs exact arithmetic and an exact solver, C105 an inexact solver in exact arithmetic. The numbers of the structure in the format stand exactly for those of the real structure. Elastic bars, fixed control component, no step control."
  },
  {
   "property": "C112",
   "status": "proved",
   "theorems": [
    "TrussPy.C112_ieee_rounds",
    "TrussPy.C112_double_rounds"
   ],
   "note": "The rounding of the individual operations is assumed as in the standard, not derived from the hardware. A concrete format with these operations is constructed (`Bin`), and path following in it is shown in the example beside the theorem."
  },
  {
   "property": "C113",
   "status": "proved",
   "theorems": [
    "TrussPy.C113_run_rounded"
   ],
   "note": "One step, elastic law, fixed control component; the other modes are covered in exact arithmetic (C101 to C108). The example beside the theorem pushes the two-bar truss through its flat position in the floating-point format `Bin`."
  },
  {
   "property": "C114",
   "status": "proved",
   "theorems": [
    "TrussPy.C114_accepted_finite",
    "TrussPy.C114_unusable_element",
    "TrussPy.C114_unusable_load"
   ],
   "note": "The element must have a free component: an example beside the theorem shows that an element without material between two held nodes is accepted with a force of NaN. `NonFinite` is proved for the rational numbers with NaN (`nq_nonFinite`)."
  },
  {
   "property": "C115",
   "status": "partial",
   "theorems": [
    "TrussPy.C115_property_forms_partial",
    "TrussPy.C115_short_names",
    "TrussPy.C115_array_rejected",
    "TrussPy.C115_defaults_kept",
    "TrussPy.C115_edited_default"
   ],
   "note": "False for arrays with two or more entries under the long names, although documented as array_like: the comparison with [np.nan] raises ValueError (`C115_array_rejected`). False once the properties of an element made without any have been edited in place: the default list is shared by all calls (`C115_edited_default`). Proved for all other cases."
  },
  {
   "property": "C116",
   "status": "proved",
   "theorems": [
    "TrussPy.C116_newton_quadratic",
    "TrussPy.C116_truss_newton_quadratic",
    "TrussPy.C116_run_iterations",
    "TrussPy.C116_stages_iterations",
    "TrussPy.C116_default_iterations"
   ],
   "note": "Exact linear solver and arithmetic. The bound on the step width depends on the structure only; it is not computed. A corollary is that the requirement on the iterations in C99, C101, C102, C103 and C106 is now `halving or squaring`."
  },
  {
   "property": "C117",
   "status": "proved",
   "theorems": [
    "TrussPy.C117_response",
    "TrussPy.C117_runs_follow_loads",
    "TrussPy.C117_order_of_loads",
    "TrussPy.C117_unloading"
   ],
   "note": "Exact arithmetic, load control (j_fixed with the load factor as control component). Loads are small if all that acts together stays below a bound of the structure; beyond it limit points make the state depend on the history (C100)."
  },
  {
   "property": "C118",
   "status": "proved",
   "theorems": [
    "TrussPy.C118_same_outcome",
    "TrussPy.C118_completed_steps_kept",
    "TrussPy.C118_log_changes_nothing",
    "TrussPy.C118_model_kept",
    "TrussPy.C118_build_again"
   ],
   "note": "The analysis object after an interruption is an arbitrary value. Building again: distinct node labels, two or more nodes, as in C07; dimension and number of internal variables unchanged."
  },
  {
   "property": "C119",
   "status": "proved",
   "theorems": [
    "TrussPy.C119_energy_balance",
    "TrussPy.C119_error_elastic",
    "TrussPy.C119_total_balance"
   ],
   "note": "Exact real arithmetic. Both results must have been accepted (the undeformed state counts as accepted without loads); results of failed increments are no equilibria."
  },
  {
   "property": "C120",
   "status": "proved",
   "theorems": [
    "TrussPy.C120_bundled_runs",
    "TrussPy.C120_state_variables",
    "TrussPy.C120_element_without_area"
   ],
   "note": "The run-level counterpart of C94. Real arithmetic has 0/0 = 0: an additional element between two nodes at the same place (where NumPy yields NaN) is not excluded by the hypotheses, but the statement says nothing about the code there."
  },
  {
   "property": "C121",
   "status": "proved",
   "theorems": [
    "TrussPy.C121_no_influence"
   ],
   "note": "Both builds are assumed to succeed (a load on an unknown node makes build raise). In particular an element type other than 1 is accepted and ignored."
  },
  {
   "property": "C122",
   "status": "proved",
   "theorems": [
    "TrussPy.C122_symmetric_run",
    "TrussPy.C122_mirror_plane",
    "TrussPy.C122_choosing_solver_counterexample"
   ],
   "note": "A solver that picks one of several solutions of a singular system may leave the symmetric path: C122_choosing_solver_counterexample runs such a case. Such solvers are excluded by the hypothesis UniqueSolver."
  },
  {
   "property": "C123",
   "status": "proved",
   "theorems": [
    "TrussPy.C123_held_elements"
   ],
   "note": "Internal forces and residuals at the supports where added elements end are not compared. Added plastic elements need a first model with two state variables (a plastic element or settings.nstatev = 2)."
  },
  {
   "property": "C124",
   "status": "proved",
   "theorems": [
    "TrussPy.C124_results_obey_settings",
    "TrussPy.C124_some_component_moves",
    "TrussPy.C124_limit_and_increments"
   ],
   "note": "The bounds of the multiple are those of C37: the documented [minfac, maxfac] is violated (C37 counterexamples). Increments which the predictor already solves note no step width. C124_some_component_moves needs free choice of the control component, an exact solver and widths not small against the tolerances."
  }
 ]
}