{
 "claims": [
  {
   "property": "C01",
   "status": "proved",
   "theorems": [
    "Verif.Props.C01_step_between"
   ],
   "note": ""
  },
  {
   "property": "C02",
   "status": "proved",
   "theorems": [
    "Verif.Props.C02_step_monotone"
   ],
   "note": ""
  },
  {
   "property": "C03",
   "status": "proved",
   "theorems": [
    "Verif.Props.C03_target_after_horizon",
    "Verif.Props.C03_first_and_last_plateau",
    "Verif.Props.C03_constant",
    "Verif.Props.C03_constant_any_fields",
    "Verif.Props.C03_every_type_ends_at_target"
   ],
   "note": ""
  },
  {
   "property": "C04",
   "status": "proved",
   "theorems": [
    "Verif.Props.C04_step_plateau_value",
    "Verif.Props.C04_step_plateaus_cover",
    "Verif.Props.C04_step_values_distinct"
   ],
   "note": ""
  },
  {
   "property": "C05",
   "status": "proved",
   "theorems": [
    "Verif.Props.C05_curved_between_and_monotone",
    "Verif.Props.C05_curved_bracket_linear",
    "Verif.Props.C05_curvature_one",
    "Verif.Props.C05_negative_curvature"
   ],
   "note": ""
  },
  {
   "property": "C06",
   "status": "proved",
   "theorems": [
    "Verif.Props.C06_sawtooth_between",
    "Verif.Props.C06_bad_counts_rejected",
    "Verif.Props.C06_sawtooth_in_cycle",
    "Verif.Props.C06_sawtooth_fract"
   ],
   "note": ""
  },
  {
   "property": "C07",
   "status": "partial",
   "theorems": [
    "Verif.Props.C07_sawtooth_cycle_end_misses_target",
    "Verif.Props.C07_sawtooth_cycle_end_partial"
   ],
   "note": "The documented claim is false of the code: C07_sawtooth_cycle_end_misses_target proves the negation for all cycles but the last; the _partial theorem gives the exact value instead."
  },
  {
   "property": "C08",
   "status": "proved",
   "theorems": [
    "Verif.Props.C08_to_one_ratio",
    "Verif.Props.C08_to_one_factories"
   ],
   "note": ""
  },
  {
   "property": "C09",
   "status": "proved",
   "theorems": [
    "Verif.Props.C09_from_defaults_iff",
    "Verif.Props.C09_from_defaults_keeps_values",
    "Verif.Props.C09_curvature_not_defaulted",
    "Verif.Props.C09_none_has_no_value"
   ],
   "note": ""
  },
  {
   "property": "C10",
   "status": "proved",
   "theorems": [
    "Verif.Props.C10_from_config_idempotent",
    "Verif.Props.C10_rebuild_same_values"
   ],
   "note": ""
  },
  {
   "property": "C11",
   "status": "proved",
   "theorems": [
    "Verif.Props.C11_values_last_write_wins",
    "Verif.Props.C11_register",
    "Verif.Props.C11_errors_propagate",
    "Verif.Props.C11_set_iters_max"
   ],
   "note": ""
  },
  {
   "property": "C12",
   "status": "proved",
   "theorems": [
    "Verif.Props.C12_exp_slowdown",
    "Verif.Props.C12_exp_accelerate",
    "Verif.Props.C12_exp_slowdown_rejects"
   ],
   "note": ""
  },
  {
   "property": "C13",
   "status": "partial",
   "theorems": [
    "Verif.Props.C13_oc_box",
    "Verif.Props.C13_oc_box_or_nan_partial",
    "Verif.Props.C13_positive_sensitivity_nan"
   ],
   "note": "Proved for non-positive sensitivities (C13_oc_box); for arbitrary ones only 'in the box or NaN', and C13_positive_sensitivity_nan proves the claim false otherwise (np.power of a negative base)."
  },
  {
   "property": "C14",
   "status": "proved",
   "theorems": [
    "Verif.Props.C14_oc_move_limit",
    "Verif.Props.C14_oc_rate_limit"
   ],
   "note": ""
  },
  {
   "property": "C15",
   "status": "proved",
   "theorems": [
    "Verif.Props.C15_bisection_terminates",
    "Verif.Props.C15_bisection_log_bound",
    "Verif.Props.C15_default_bracket_40"
   ],
   "note": ""
  },
  {
   "property": "C16",
   "status": "proved",
   "theorems": [
    "Verif.Props.C16_bisection_finds_feasible",
    "Verif.Props.C16_bisection_continuous",
    "Verif.Props.C16_update_feasible",
    "Verif.Props.C16_update_meets_volume",
    "Verif.Props.C16_update_best_possible"
   ],
   "note": ""
  },
  {
   "property": "C17",
   "status": "proved",
   "theorems": [
    "Verif.Props.C17_reported_error_is_of_returned_design"
   ],
   "note": ""
  },
  {
   "property": "C18",
   "status": "proved",
   "theorems": [
    "Verif.Props.C18_candidate_antitone",
    "Verif.Props.C18_volume_antitone",
    "Verif.Props.C18_update_is_oc_law",
    "Verif.Props.C18_law_antitone",
    "Verif.Props.C18_law_volume_antitone"
   ],
   "note": ""
  },
  {
   "property": "C19",
   "status": "proved",
   "theorems": [
    "Verif.Props.C19_logmoc_box",
    "Verif.Props.C19_logmoc_move_limit"
   ],
   "note": ""
  },
  {
   "property": "C20",
   "status": "proved",
   "theorems": [
    "Verif.Props.C20_update_is_log_law",
    "Verif.Props.C20_recorded_is_lagrangian_gradient",
    "Verif.Props.C20_logmoc_descent",
    "Verif.Props.C20_logmoc_strict_descent",
    "Verif.Props.C20_recorded_derivative"
   ],
   "note": ""
  },
  {
   "property": "C21",
   "status": "partial",
   "theorems": [
    "Verif.Props.C21_multiplier_of_history",
    "Verif.Props.C21_multiplier_in_range",
    "Verif.Props.C21_ema_no_windup",
    "Verif.Props.C21_initial_multiplier_ignored",
    "Verif.Props.C21_first_multiplier_partial"
   ],
   "note": "Range part proved for all histories (a, b); the second half is false of the code: C21_initial_multiplier_ignored proves the configured lambda_v has no effect."
  },
  {
   "property": "C22",
   "status": "proved",
   "theorems": [
    "Verif.Props.C22_heaviside_range_and_monotone",
    "Verif.Props.C22_heaviside_one",
    "Verif.Props.C22_heaviside_beta_zero"
   ],
   "note": ""
  },
  {
   "property": "C23",
   "status": "proved",
   "theorems": [
    "Verif.Props.C23_derivative_correct",
    "Verif.Props.C23_inplace_agree",
    "Verif.Props.C23_derivative_pos"
   ],
   "note": ""
  },
  {
   "property": "C24",
   "status": "proved",
   "theorems": [
    "Verif.Props.C24_simp_range_and_monotone",
    "Verif.Props.C24_simp_antitone_in_penalty",
    "Verif.Props.C24_sensitivity_modulus_agrees",
    "Verif.Props.C24_lame_admissible"
   ],
   "note": ""
  },
  {
   "property": "C25",
   "status": "proved",
   "theorems": [
    "Verif.Props.C25_simp_derivative",
    "Verif.Props.C25_simp_sensitivity_nonpos",
    "Verif.Props.C25_simp_sensitivity_physical"
   ],
   "note": ""
  },
  {
   "property": "C26",
   "status": "partial",
   "theorems": [
    "Verif.Props.C26_ramp_range_and_monotone",
    "Verif.Props.C26_ramp_derivative_wrong",
    "Verif.Props.C26_ramp_sensitivity_wrong_sign",
    "Verif.Props.C26_ramp_derivative_partial",
    "Verif.Props.C26_ramp_inplace_agree",
    "Verif.Props.C26_ramp_same_modulus",
    "Verif.Props.C26_interpolation_selection",
    "Verif.Props.C26_sensitivity_mode"
   ],
   "note": "The claim is false of the code: the RAMP derivative routine is not the derivative of the RAMP modulus (negation proved)."
  },
  {
   "property": "C27",
   "status": "proved",
   "theorems": [
    "Verif.Props.C27_spacial_average",
    "Verif.Props.C27_spacial_local",
    "Verif.Props.C27_spacial_weights",
    "Verif.Props.C27_filter_matrix_stochastic",
    "Verif.Props.C27_update_radius",
    "Verif.Props.C27_weights_decrease",
    "Verif.Props.C27_center_is_mean"
   ],
   "note": ""
  },
  {
   "property": "C28",
   "status": "proved",
   "theorems": [
    "Verif.Props.C28_spacial_transpose",
    "Verif.Props.C28_gradient_is_adjoint",
    "Verif.Props.C28_gradient_sign_and_total",
    "Verif.Props.C28_gradient_uses_last_forward"
   ],
   "note": ""
  },
  {
   "property": "C29",
   "status": "proved",
   "theorems": [
    "Verif.Props.C29_helmholtz_unique_solution",
    "Verif.Props.C29_helmholtz_maximum_principle",
    "Verif.Props.C29_helmholtz_volume",
    "Verif.Props.C29_helmholtz_monotone_linear"
   ],
   "note": ""
  },
  {
   "property": "C30",
   "status": "partial",
   "theorems": [
    "Verif.Props.C30_radius_misused",
    "Verif.Props.C30_operator_partial"
   ],
   "note": "False of the code (C30_radius_misused): the radius enters as r^4 times a radius-dependent Laplacian; the _partial theorem gives the operator actually assembled."
  },
  {
   "property": "C31",
   "status": "partial",
   "theorems": [
    "Verif.Props.C31_gradient_adjoint_iff_equal_volumes",
    "Verif.Props.C31_weighted_adjoint_partial"
   ],
   "note": "False for unequal volumes: exact characterisation (iff) proved; the volume-weighted adjointness holds always."
  },
  {
   "property": "C32",
   "status": "proved",
   "theorems": [
    "Verif.Props.C32_element_to_node_range",
    "Verif.Props.C32_node_to_element_range",
    "Verif.Props.C32_nodal_gradient_nonpos",
    "Verif.Props.C32_nodal_forward_range",
    "Verif.Props.C32_nodal_solve_conserves"
   ],
   "note": ""
  },
  {
   "property": "C33",
   "status": "proved",
   "theorems": [
    "Verif.Driver.C33_split_run_equals_full_run",
    "Verif.Driver.C33_steps_then_optimize"
   ],
   "note": ""
  },
  {
   "property": "C34",
   "status": "proved",
   "theorems": [
    "Verif.Driver.C34_completed_is_inert",
    "Verif.Driver.C34_nonpositive_steps_noop",
    "Verif.Driver.C34_optimize_completes"
   ],
   "note": ""
  },
  {
   "property": "C35",
   "status": "proved",
   "theorems": [
    "Verif.Driver.C35_iterations_consecutive",
    "Verif.Driver.C35_steps_at_most"
   ],
   "note": ""
  },
  {
   "property": "C36",
   "status": "proved",
   "theorems": [
    "Verif.Driver.C36_loaded_and_fixed_have_density_one",
    "Verif.Driver.C36_non_design_untouched"
   ],
   "note": ""
  },
  {
   "property": "C37",
   "status": "proved",
   "theorems": [
    "Verif.Driver.C37_last_iteration_saved",
    "Verif.Driver.C37_full_run_snapshots_subset"
   ],
   "note": ""
  },
  {
   "property": "C38",
   "status": "partial",
   "theorems": [
    "Verif.Driver.C38_too_many_records_raises",
    "Verif.Driver.C38_admissible_never_raises_partial",
    "Verif.Driver.C38_admissible_record_times_partial"
   ],
   "note": "False as stated: max_iters < record_times raises ZeroDivisionError in the first iteration (C38_too_many_records_raises). Proved for 1 <= record_times <= max_iters."
  },
  {
   "property": "C39",
   "status": "partial",
   "theorems": [
    "Verif.Snapshot.C39_names_injective",
    "Verif.Snapshot.C39_finds_maximum",
    "Verif.Snapshot.C39_none_iff",
    "Verif.Snapshot.C39_snapshot_recognised",
    "Verif.Snapshot.C39_newest_snapshot_partial",
    "Verif.Snapshot.C39_million_invisible",
    "Verif.Snapshot.C39_backup_copy_counts",
    "Verif.Driver.C39_restart_resumes_newest_partial",
    "Verif.Driver.C39_restart_from_chosen",
    "Verif.Driver.C39_save_restart_round_trip",
    "Verif.Driver.C39_restart_imports_histories"
   ],
   "note": "Holds below iteration 1,000,000 and for directories without foreign files; refuted beyond (C39_million_invisible, C39_backup_copy_counts)."
  },
  {
   "property": "C40",
   "status": "partial",
   "theorems": [
    "Verif.Driver.C40_memoryless_restart_reproduces_partial",
    "Verif.Props.C40_oc_restart_differs"
   ],
   "note": "False for the OC optimizer: running_scale is not in the snapshot (C40_oc_restart_differs gives two elements whose next densities differ). Proved for update rules without carried state."
  },
  {
   "property": "C41",
   "status": "partial",
   "theorems": [
    "Verif.Task.C41_design_fixed_partition",
    "Verif.Task.C41_design_exact",
    "Verif.Task.C41_loaded_not_design",
    "Verif.Task.C41_fails_iff_no_design",
    "Verif.Task.C41_free_dofs_exact",
    "Verif.Task.C41_unequal_dirichlet_regions_rejected"
   ],
   "note": "Partition, design set, load elements, free dofs and the failure condition are proved for one Dirichlet region (and any number of load regions). For several Dirichlet regions of unequal size construction always fails (C41_unequal_dirichlet_regions_rejected), so 'fails exactly when no design element is left' is false there."
  },
  {
   "property": "C42",
   "status": "partial",
   "theorems": [
    "Verif.Mesh.C42_elements_by_nodes_exact_partial",
    "Verif.Mesh.C42_stale_cache_wrong",
    "Verif.Mesh.C42_adjacent_elements_exact",
    "Verif.Mesh.C42_adjacent_elements_fast_exact",
    "Verif.Mesh.C42_adjacent_variants_agree",
    "Verif.Mesh.C42_uint8_overflow"
   ],
   "note": "The node query is exact while connectivity ids are not reused (C42_elements_by_nodes_exact_partial); with a reused id the cached table answers for the wrong mesh (C42_stale_cache_wrong). Adjacent elements are exact and the variants agree for elements of fewer than 256 nodes; at 256 shared nodes the uint8 count wraps (C42_uint8_overflow)."
  },
  {
   "property": "C43",
   "status": "proved",
   "theorems": [
    "Verif.Geometry.C43_tets_positive_same_vertices",
    "Verif.Geometry.C43_second_application_changes_nothing",
    "Verif.Geometry.C43_repaired_mesh_volumes",
    "Verif.Geometry.C43_repaired_volumes_geometric",
    "Verif.Geometry.C43_volumes_reject_inverted"
   ],
   "note": ""
  },
  {
   "property": "C44",
   "status": "partial",
   "theorems": [
    "Verif.Geometry.C44_hex_volume_wrong",
    "Verif.Geometry.C44_volume_fractions_exact_partial"
   ],
   "note": "False: a parallelepiped gets 7/6 (VTK corner order) or 5/6 (skfem corner order) of its volume (C44_hex_volume_wrong). Volume fractions over parallelepiped meshes are nevertheless exact (C44_volume_fractions_exact_partial)."
  },
  {
   "property": "C45",
   "status": "partial",
   "theorems": [
    "Verif.History.C45_built_well_named",
    "Verif.History.C45_homogeneous_histories_regular",
    "Verif.History.C45_round_trip_partial",
    "Verif.History.C45_header_name_lost",
    "Verif.History.C45_missing_suffix_restores_nothing",
    "Verif.History.C45_mixed_history_fails",
    "Verif.History.C45_empty_history_forgotten",
    "Verif.History.C45_headerless_file",
    "Verif.History.C45_short_header"
   ],
   "note": "Round trip proved for .npz file names and history names that do not end in _header (and are not 'file'). Outside that it is false: C45_header_name_lost, C45_missing_suffix_restores_nothing. Mixed histories make export fail (C45_mixed_history_fails); histories without data are dropped (C45_empty_history_forgotten)."
  },
  {
   "property": "C46",
   "status": "proved",
   "theorems": [
    "Verif.History.C46_each_history_one_cell",
    "Verif.History.C46_cells_in_grid",
    "Verif.History.C46_page_names_distinct"
   ],
   "note": ""
  },
  {
   "property": "C47",
   "status": "proved",
   "theorems": [
    "Verif.Timer.C47_sections_recorded_once",
    "Verif.Timer.C47_stack_restored",
    "Verif.Timer.C47_add_and_reset"
   ],
   "note": ""
  },
  {
   "property": "C48",
   "status": "partial",
   "theorems": [
    "Verif.Timer.C48_statistics_consistent",
    "Verif.Timer.C48_children_within_parent_partial",
    "Verif.Timer.C48_self_times_add_up_partial",
    "Verif.Timer.C48_separator_in_name_miscounted",
    "Verif.Timer.C48_summary_sorted",
    "Verif.Timer.C48_summary_sort_keys"
   ],
   "note": "Nesting inequality, exact self times and 'self times add up to the outermost totals' proved for section names without the separator (all names the optimizer uses), any program, any exceptions. For names containing the separator it is false (C48_separator_in_name_miscounted)."
  },
  {
   "property": "C49",
   "status": "proved",
   "theorems": [
    "Verif.Solver.C49_iteration_limit",
    "Verif.Solver.C49_explicit_solver_used_as_is",
    "Verif.Solver.C49_no_fallback_unless_auto",
    "Verif.Solver.C49_unknown_rejected",
    "Verif.Solver.C49_auto",
    "Verif.Solver.C49_auto_total",
    "Verif.Solver.C49_multi_load",
    "Verif.Solver.C49_solve_u"
   ],
   "note": ""
  },
  {
   "property": "C50",
   "status": "proved",
   "theorems": [
    "Verif.Solver.C50_merge_field_by_field",
    "Verif.Solver.C50_normalize_field_by_field",
    "Verif.Solver.C50_resolution_idempotent",
    "Verif.Solver.C50_spdirect",
    "Verif.Solver.C50_spdirect_accepts",
    "Verif.Solver.C50_user_options_win",
    "Verif.Solver.C50_config_then_solve",
    "Verif.Solver.C50_config_spdirect_objects",
    "Verif.Solver.C50_config_without_petsc",
    "Verif.Solver.C50_resolution_without_petsc"
   ],
   "note": ""
  },
  {
   "property": "C51",
   "status": "partial",
   "theorems": [
    "Verif.Load.C51_scale_unscale_restores_partial",
    "Verif.Load.C51_multi_load_scaled_linearly",
    "Verif.Load.C51_single_load_count_wrong",
    "Verif.Load.C51_scaled_sensitivity_diluted",
    "Verif.Load.C51_optimizer_unscale_restores"
   ],
   "note": "Coordinates and loads are restored and loads scale linearly. False for one load case: after scaling the reported number of load cases is the number of dofs (C51_single_load_count_wrong), which dilutes sensitivities (C51_scaled_sensitivity_diluted). Element volumes are not rescaled."
  },
  {
   "property": "C52",
   "status": "partial",
   "theorems": [
    "Verif.Heat.C52_constant_density_partial",
    "Verif.Heat.C52_wrong_elements_averaged",
    "Verif.Heat.C52_what_is_averaged",
    "Verif.Heat.C52_right_iff",
    "Verif.Heat.C52_wrong_on_meshes"
   ],
   "note": "The divisor is right and constant densities are reproduced (C52_constant_density_partial). For other densities the claim is false: np.repeat pairs densities with the wrong vertices (C52_wrong_elements_averaged). The exact value, the exact condition under which it is right, and a general class of meshes where it is wrong are proved (C52_what_is_averaged, C52_right_iff, C52_wrong_on_meshes)."
  },
  {
   "property": "C53",
   "status": "partial",
   "theorems": [
    "Verif.Cli.C53_command_line_kept",
    "Verif.Cli.C53_rejected_iff",
    "Verif.Cli.C53_prefix_dropped",
    "Verif.Cli.C53_configuration"
   ],
   "note": "Proved for every command line that gives the step numbers (C53_command_line_kept, C53_configuration). False otherwise: the default command line is rejected (C53_rejected_iff), keys beginning with a group name such as petsc_options are dropped (C53_prefix_dropped), --eta_init/--eta_step have no effect."
  },
  {
   "property": "C54",
   "status": "partial",
   "theorems": [
    "Verif.Props.C54_restart_raises",
    "Verif.Props.C54_consecutive_updates_succeed_partial",
    "Verif.Run.C54_restarted_run_raises"
   ],
   "note": "False of the code: C54_restart_raises and, for whole runs, C54_restarted_run_raises: every call on a resumed LogMOC optimizer raises AttributeError (running_scale never initialised); runs from iteration 1 are proved fine (C94)."
  },
  {
   "property": "C55",
   "status": "partial",
   "theorems": [
    "Verif.Props.C55_volume_gradient_partial",
    "Verif.Props.C55_default_filter_wrong"
   ],
   "note": "Proved for filters whose gradient is the adjoint of forward (the spatial filter, C28). Refuted for the default nodal filter: C55_default_filter_wrong (four cubes, one design element): the derivative used is <= 0 or 27/32 too large."
  },
  {
   "property": "C56",
   "status": "partial",
   "theorems": [
    "Verif.Props.C56_nodal_gradient_not_linear",
    "Verif.Props.C56_nodal_gradient_not_adjoint"
   ],
   "note": "False of the code: the clamp to non-positive values makes the gradient non-linear, so it is the adjoint of no map (proved)."
  },
  {
   "property": "C57",
   "status": "partial",
   "theorems": [
    "Verif.Props.C57_tet_faces",
    "Verif.Props.C57_hex_faces",
    "Verif.Props.C57_tet_neighbours",
    "Verif.Props.C57_hex_faces_skfem_wrong",
    "Verif.Props.C57_hex_neighbours_skfem_lost",
    "Verif.Props.C57_adjacency_symmetric",
    "Verif.Props.C57_adjacency_exact",
    "Verif.Props.C57_face_key_order_free"
   ],
   "note": "Tetrahedral, triangle and quadrilateral adjacency is proved. For hexahedra the face table is right for VTK vertex order (C57_hex_faces) but wrong for scikit-fem's vertex order: no listed quadruple is a face (C57_hex_faces_skfem_wrong), so neighbouring cubes are not found adjacent (C57_hex_neighbours_skfem_lost)."
  },
  {
   "property": "C58",
   "status": "partial",
   "theorems": [
    "Verif.Driver.C58_no_load_elements_pins_everything",
    "Verif.Driver.C58_design_elements_get_update"
   ],
   "note": "False as stated for tasks without load elements (C58_no_load_elements_pins_everything); proved when load elements are given."
  },
  {
   "property": "C59",
   "status": "partial",
   "theorems": [
    "Verif.Driver.C59_exception_loses_progress",
    "Verif.Driver.C59_resumed_run_differs",
    "Verif.Driver.C59_single_step_resumable"
   ],
   "note": "False as stated (C59_exception_loses_progress, C59_resumed_run_differs); holds for single steps."
  },
  {
   "property": "C60",
   "status": "partial",
   "theorems": [
    "Verif.Driver.C60_stale_snapshot_survives",
    "Verif.Driver.C60_restart_uses_old_run"
   ],
   "note": "False as stated: old snapshots survive (C60_stale_snapshot_survives) and hijack a restart (C60_restart_uses_old_run)."
  },
  {
   "property": "C61",
   "status": "partial",
   "theorems": [
    "Verif.Geometry.C61_hex_first_corner_partial",
    "Verif.Geometry.C61_hex_repair_incomplete"
   ],
   "note": "The first corner becomes right-handed and the vertex set is kept (C61_hex_first_corner_partial); for an inverted element whose repair swaps only the two tested edges the other corners can stay left-handed (C61_hex_repair_incomplete)."
  },
  {
   "property": "C62",
   "status": "partial",
   "theorems": [
    "Verif.Task.C62_every_element_accounted",
    "Verif.Task.C62_non_design_density_one",
    "Verif.Task.C62_restart_restores",
    "Verif.Task.C62_second_optimizer_loses_elements"
   ],
   "note": "Proved for an optimizer built on a fresh task. False when the task is reused: an element excluded by a first optimizer with design_dirichlet=False is neither designed, pinned nor fixed in a second one with design_dirichlet=True (C62_second_optimizer_loses_elements)."
  },
  {
   "property": "C63",
   "status": "partial",
   "theorems": [
    "Verif.Load.C63_numbered_tags_in_numeric_order",
    "Verif.Load.C63_elastic_numbered_dirichlet_fails",
    "Verif.Load.C63_heat_single_dirichlet_fails",
    "Verif.Load.C63_heat_numbered_tags",
    "Verif.Load.C63_elastic_tags"
   ],
   "note": "The order of numbered tags is proved, also for the tasks built from them (C63_heat_numbered_tags, C63_elastic_tags). False for elastic tasks with numbered Dirichlet tags (prefix typo, C63_elastic_numbered_dirichlet_fails) and heat tasks with a single dirichlet tag (C63_heat_single_dirichlet_fails)."
  },
  {
   "property": "C64",
   "status": "proved",
   "theorems": [
    "Verif.Load.C64_resultant_is_prescribed_force",
    "Verif.Load.C64_length_mismatch_rejected",
    "Verif.Load.C64_bad_direction_rejected"
   ],
   "note": ""
  },
  {
   "property": "C65",
   "status": "proved",
   "theorems": [
    "Verif.History.C65_statistics_bracket_field",
    "Verif.History.C65_rejections",
    "Verif.History.C65_feed_changes_only_named",
    "Verif.History.C65_scalars_in_order"
   ],
   "note": ""
  },
  {
   "property": "C66",
   "status": "partial",
   "theorems": [
    "Verif.Timer.C66_running_average_is_mean_partial",
    "Verif.Timer.C66_plot_values",
    "Verif.Timer.C66_bar_chart_mixes_sections",
    "Verif.Timer.C66_label_shows_depth_and_name"
   ],
   "note": "The update rule is the arithmetic mean per label. False for bar charts of hierarchical timers: sections with the same last name and depth share a label and are averaged together (C66_bar_chart_mixes_sections)."
  },
  {
   "property": "C67",
   "status": "partial",
   "theorems": [
    "Verif.Solver.C67_status_ignored",
    "Verif.Solver.C67_exceptions_reported_partial"
   ],
   "note": "Refuted: C67_status_ignored shows the status of CG and PETSc solves never influences the result (it is only logged), so an unconverged iterate is returned as displacement. Proved part: exceptions of the back end reach the caller (C67_exceptions_reported_partial)."
  },
  {
   "property": "C68",
   "status": "partial",
   "theorems": [
    "Verif.Elastic.C68_load_cases_independent_partial",
    "Verif.Elastic.C68_petsc_iteration_limits_differ"
   ],
   "note": "Proved for exact direct solves. Refuted in general: C68_petsc_iteration_limits_differ \u2014 the single-load path passes an iteration limit to PETSc, the multi-load path none."
  },
  {
   "property": "C69",
   "status": "proved",
   "theorems": [
    "Verif.Elastic.C69_compliance_is_twice_energy",
    "Verif.Elastic.C69_energy_nonneg",
    "Verif.Elastic.C69_load_factor"
   ],
   "note": ""
  },
  {
   "property": "C70",
   "status": "proved",
   "theorems": [
    "Verif.Elastic.C70_more_material_never_softer"
   ],
   "note": ""
  },
  {
   "property": "C71",
   "status": "proved",
   "theorems": [
    "Verif.Elastic.C71_sensitivity_is_gradient"
   ],
   "note": ""
  },
  {
   "property": "C72",
   "status": "partial",
   "theorems": [
    "Verif.Pipeline.C72_sensitivity_is_gradient_partial",
    "Verif.Pipeline.C72_default_filter_not_gradient"
   ],
   "note": "Proved for the spatial filter with SIMP and any number of load cases. Refuted for the default nodal Helmholtz filter (C72_default_filter_not_gradient); RAMP is refuted by C26."
  },
  {
   "property": "C73",
   "status": "proved",
   "theorems": [
    "Verif.Elastic.C73_unique_solution",
    "Verif.Elastic.C73_zero_Emin_singular"
   ],
   "note": ""
  },
  {
   "property": "C74",
   "status": "partial",
   "theorems": [
    "Verif.Pipeline.C74_sensitivity_nonpos",
    "Verif.Pipeline.C74_spacial",
    "Verif.Pipeline.C74_nodal_partial",
    "Verif.Pipeline.C74_sensitivity_filter_wrong_sign"
   ],
   "note": "Proved for the spatial filter (with and without sensitivity filtering) and for the nodal filter without sensitivity filtering; refuted for the nodal filter with sensitivity_filter and non-design elements (C74_sensitivity_filter_wrong_sign)."
  },
  {
   "property": "C75",
   "status": "proved",
   "theorems": [
    "Verif.Props.C75_volume_error",
    "Verif.Props.C75_multiplier_accumulates_errors",
    "Verif.Props.C75_multiplier_sign",
    "Verif.Props.C75_recorded_derivative_is_lagrangian_gradient",
    "Verif.Props.C75_centered"
   ],
   "note": ""
  },
  {
   "property": "C76",
   "status": "partial",
   "theorems": [
    "Verif.Props.C76_oc_residual_certifies",
    "Verif.Props.C76_logmoc_residual_certifies",
    "Verif.Props.C76_logmoc_residual_nonneg",
    "Verif.Props.C76_residual_nonneg",
    "Verif.Props.C76_logmoc_residual_of_old_design_partial"
   ],
   "note": "Proved for OC (design after the update). For LogMOC the residual certifies, in units of the running scale, the design before the update; C76_logmoc_residual_of_old_design_partial shows that it says nothing about the new design."
  },
  {
   "property": "C77",
   "status": "proved",
   "theorems": [
    "Verif.Driver.C77_box_over_all_histories",
    "Verif.Driver.C77_logmoc_box",
    "Verif.Run.C77_oc_box"
   ],
   "note": ""
  },
  {
   "property": "C78",
   "status": "proved",
   "theorems": [
    "Verif.Run.C78_well_posed_run",
    "Verif.Run.C78_optimize_completes"
   ],
   "note": ""
  },
  {
   "property": "C79",
   "status": "proved",
   "theorems": [
    "Verif.Task.C79_dirichlet_dofs",
    "Verif.Task.C79_from_facets_elements",
    "Verif.Task.C79_from_facets_dirichlet"
   ],
   "note": ""
  },
  {
   "property": "C80",
   "status": "proved",
   "theorems": [
    "Verif.Run.C80_run_refines_algorithm"
   ],
   "note": ""
  },
  {
   "property": "C81",
   "status": "proved",
   "theorems": [
    "Verif.Run.C81_restarted_run"
   ],
   "note": ""
  },
  {
   "property": "C82",
   "status": "partial",
   "theorems": [
    "Verif.Heat.C82_heat_balance_partial",
    "Verif.Heat.C82_other_regions_wrong",
    "Verif.Heat.C82_extra_regions_ignored",
    "Verif.Heat.C82_other_solvers_rejected"
   ],
   "note": "Proved when all load cases use the same Dirichlet nodes. False otherwise: the matrix is enforced with the first region only (C82_other_regions_wrong), further regions of a single temperature are ignored (C82_extra_regions_ignored)."
  },
  {
   "property": "C83",
   "status": "proved",
   "theorems": [
    "Verif.Heat.C83_heat_unique_solution"
   ],
   "note": ""
  },
  {
   "property": "C84",
   "status": "partial",
   "theorems": [
    "Verif.Heat.C84_compliance_gradient_partial",
    "Verif.Heat.C84_prescribed_temperature_wrong_sign",
    "Verif.Heat.C84_averaged_temp_wrong",
    "Verif.Heat.C84_heat_exchange_wrong",
    "Verif.Heat.C84_ramp_wrong"
   ],
   "note": "Proved for compliance, SIMP, zero prescribed temperatures and directions averaged correctly. False for non-zero prescribed temperatures (wrong sign), averaged_temp, heat_exchange and RAMP (four refutations)."
  },
  {
   "property": "C85",
   "status": "partial",
   "theorems": [
    "Verif.Heat.C85_design_robin_has_no_effect"
   ],
   "note": "False of the code: C85_design_robin_has_no_effect proves that the option never changes anything."
  },
  {
   "property": "C86",
   "status": "proved",
   "theorems": [
    "Verif.Heat.C86_compliance_is_dissipation",
    "Verif.Heat.C86_compliance_nonneg",
    "Verif.Heat.C86_no_robin_uniform"
   ],
   "note": ""
  },
  {
   "property": "C87",
   "status": "partial",
   "theorems": [
    "Verif.Cli.C87_fields_set_partial",
    "Verif.Cli.C87_unknown_ignored"
   ],
   "note": "Given and default fields are right (C87_fields_set_partial); unknown names are silently ignored instead of rejected (C87_unknown_ignored)."
  },
  {
   "property": "C88",
   "status": "partial",
   "theorems": [
    "Verif.Heat.C88_objective_values_partial",
    "Verif.Heat.C88_averaged_temp_is_sum",
    "Verif.Heat.C88_weighted_objective_constant"
   ],
   "note": "Values proved for compliance, heat_exchange without weight or with a single load case, and the sum of temperatures (C88_objective_values_partial). False: averaged_temp is the sum of nodal values, not an average (C88_averaged_temp_is_sum); with several load cases and a weight the mean objective is a constant independent of the design (C88_weighted_objective_constant)."
  },
  {
   "property": "C89",
   "status": "partial",
   "theorems": [
    "Verif.Heat.C89_exchange_adjoint",
    "Verif.Heat.C89_no_interface",
    "Verif.Heat.C89_compliance_adjoint",
    "Verif.Heat.C89_conductivity_gradient_partial",
    "Verif.Heat.C89_prescribed_temperature_wrong",
    "Verif.Heat.C89_heat_exchange_load_too_small"
   ],
   "note": "Proved for averaged_temp with prescribed temperature 0 (C89_conductivity_gradient_partial). False for non-zero prescribed temperatures (adjoint forced to the temperature, C89_prescribed_temperature_wrong) and heat_exchange (adjoint load uses another film coefficient, C89_heat_exchange_load_too_small)."
  },
  {
   "property": "C90",
   "status": "proved",
   "theorems": [
    "Verif.Stress.C90_is_equivalent_stress",
    "Verif.Stress.C90_frame_invariant",
    "Verif.Stress.C90_zero_iff_pressure",
    "Verif.Stress.C90_pressure_insensitive",
    "Verif.Stress.C90_homogeneous",
    "Verif.Stress.C90_uniaxial_and_shear"
   ],
   "note": ""
  },
  {
   "property": "C91",
   "status": "partial",
   "theorems": [
    "Verif.Stress.C91_integrand_is_hooke",
    "Verif.Stress.C91_integrated_stress_partial",
    "Verif.Stress.C91_right_iff_unit_volume",
    "Verif.Stress.C91_equivalent_stress_scaled",
    "Verif.Stress.C91_reports_volume_times_stress"
   ],
   "note": "The integrand is Hooke's law and the returned tensor is symmetric (C91_integrated_stress_partial), but .elemental integrates: the result is volume x stress, right exactly for elements of volume 1 or without stress (C91_right_iff_unit_volume, C91_reports_volume_times_stress)."
  },
  {
   "property": "C92",
   "status": "partial",
   "theorems": [
    "Verif.ConfigFile.C92_plain_fields_survive_partial",
    "Verif.ConfigFile.C92_imported_configuration_unusable",
    "Verif.ConfigFile.C92_own_configuration_usable",
    "Verif.ConfigFile.C92_unknown_keys"
   ],
   "note": "Plain fields and PETSc options survive, schedules come back as plain dictionaries that contain all their data (C92_plain_fields_survive_partial). The claim is false: setting up the schedules of any imported configuration raises AttributeError (C92_imported_configuration_unusable)."
  },
  {
   "property": "C93",
   "status": "partial",
   "theorems": [
    "Verif.Props.C93_maximum_principle_partial",
    "Verif.Props.C93_negative_filtered_density"
   ],
   "note": "Refuted for small radii: four unit cubes in a row, radius 1/sqrt 12, densities 1,0,0,0: the last cube's filtered density is -1/490 and its projected density is negative for every beta > 0 (C93_negative_filtered_density). Proved whenever no two different nodes are positively coupled by M + r^2 K."
  },
  {
   "property": "C94",
   "status": "proved",
   "theorems": [
    "Verif.Run.C94_well_posed_run"
   ],
   "note": ""
  },
  {
   "property": "C95",
   "status": "proved",
   "theorems": [
    "Verif.Run.C95_run_refines_algorithm"
   ],
   "note": ""
  },
  {
   "property": "C96",
   "status": "proved",
   "theorems": [
    "Verif.Run.C96_bad_percentage_oc",
    "Verif.Run.C96_bad_percentage_logmoc",
    "Verif.Run.C96_bad_load_scale",
    "Verif.Run.C96_bad_percentage_heat",
    "Verif.Run.C96_bad_percentage_heat_logmoc"
   ],
   "note": ""
  },
  {
   "property": "C97",
   "status": "proved",
   "theorems": [
    "Verif.Run.C97_same_run",
    "Verif.Run.C97_load_case_order",
    "Verif.Run.C97_load_direction",
    "Verif.Run.C97_units",
    "Verif.Run.C97_numbering"
   ],
   "note": ""
  },
  {
   "property": "C98",
   "status": "proved",
   "theorems": [
    "Verif.Run.C98_symmetric_design"
   ],
   "note": ""
  },
  {
   "property": "C99",
   "status": "proved",
   "theorems": [
    "Verif.Run.C99_same_run",
    "Verif.Run.C99_symmetric_design",
    "Verif.Run.C99_load_cases",
    "Verif.Run.C99_units"
   ],
   "note": ""
  },
  {
   "property": "C100",
   "status": "proved",
   "theorems": [
    "Verif.Run.C100_well_posed_run",
    "Verif.Run.C100_optimize_completes"
   ],
   "note": ""
  },
  {
   "property": "C101",
   "status": "proved",
   "theorems": [
    "Verif.Run.C101_run_refines_algorithm",
    "Verif.Run.C101_restarted_run"
   ],
   "note": ""
  },
  {
   "property": "C102",
   "status": "proved",
   "theorems": [
    "Verif.Run.C102_well_posed_run",
    "Verif.Run.C102_run_refines_algorithm",
    "Verif.Run.C102_restarted_run_raises"
   ],
   "note": ""
  },
  {
   "property": "C103",
   "status": "partial",
   "theorems": [
    "Verif.Run.C103_positive_sensitivity_nan",
    "Verif.Run.C103_no_nan_partial",
    "Verif.Run.C103_nan_run"
   ],
   "note": "False of the code: C103_nan_run is a kernel-checked run (compliance with Robin boundaries, spatial filter) whose first iteration computes NaN; C103_positive_sensitivity_nan is the general condition. Proved: no NaN with the default filter, other objectives or without Robin boundaries."
  },
  {
   "property": "C104",
   "status": "proved",
   "theorems": [
    "Verif.Run.C104_same_designs",
    "Verif.Run.C104_same_designs_logmoc"
   ],
   "note": ""
  },
  {
   "property": "C105",
   "status": "proved",
   "theorems": [
    "Verif.Run.C105_no_robin_no_design"
   ],
   "note": ""
  },
  {
   "property": "C106",
   "status": "partial",
   "theorems": [
    "Verif.Run.C106_design_dirichlet_solid",
    "Verif.Run.C106_design_dirichlet_solid_logmoc"
   ],
   "note": "False of the code: C106_design_dirichlet_solid (and _logmoc) prove that every density of every such run is 1 after every history of calls, because neumann_elements is None and indexing with None pins all elements."
  },
  {
   "property": "C107",
   "status": "proved",
   "theorems": [
    "Verif.Submesh.C107_exported_mesh",
    "Verif.Submesh.C107_same_geometry",
    "Verif.Submesh.C107_nothing_left_raises"
   ],
   "note": ""
  },
  {
   "property": "C108",
   "status": "partial",
   "theorems": [
    "Verif.Driver.C108_written_on_completion",
    "Verif.Run.C108_final_mesh_partial",
    "Verif.Run.C108_physical_design_missing"
   ],
   "note": "False of the code: _finalize cuts the mesh at the raw design densities (not rho_projected) and at 0.5 (not beta_eta). Witness run C108_physical_design_missing; proved: the mesh shows the non-design elements and the elements with final design density above 1/2, written exactly on completion."
  },
  {
   "property": "C109",
   "status": "partial",
   "theorems": [
    "Verif.Run.C109_law_selected",
    "Verif.Run.C109_ramp_run_partial",
    "Verif.Run.C109_ramp_logmoc",
    "Verif.Run.C109_positive_sensitivity_nan",
    "Verif.Run.C109_nan_run"
   ],
   "note": "Proved for LogMOC, and for OC with the default (Helmholtz) filter or penalties at most 1; the sensitivities are the code's (not the derivative, C26). False for OC with the spatial filter and p > 1: C109_nan_run is a well-posed run, harmless with SIMP, whose first iteration computes NaN densities because the wrong RAMP derivative turns positive on dense elements."
  },
  {
   "property": "C110",
   "status": "partial",
   "theorems": [
    "Verif.Run.C110_scaled_run_partial",
    "Verif.Run.C110_optimize_completes",
    "Verif.Run.C110_same_designs",
    "Verif.Run.C110_scaling_changes_the_filter"
   ],
   "note": "Same designs as the run without scaling whose filter radius is multiplied by the box edge and whose absolute tolerances are in its units; the claim as stated is refuted (filter_radius is not converted)."
  },
  {
   "property": "C111",
   "status": "proved",
   "theorems": [
    "Verif.BoxMesh.C111_box_mesh_fills_box",
    "Verif.BoxMesh.C111_invalid_sizes",
    "Verif.BoxMesh.C111_all_elements_equal"
   ],
   "note": ""
  },
  {
   "property": "C112",
   "status": "partial",
   "theorems": [
    "Verif.BoxMesh.C112_faces_are_sides",
    "Verif.BoxMesh.C112_supports",
    "Verif.BoxMesh.C112_end_face_loaded_partial",
    "Verif.BoxMesh.C112_interior_faces_loaded",
    "Verif.BoxMesh.C112_coarse_mesh_unloaded"
   ],
   "note": "Refuted for the load: facets_satisfying is called without boundaries_only, so faces inside the body carry load as well (C112_interior_faces_loaded), and from mesh size 8 on no face is loaded (C112_coarse_mesh_unloaded). Below mesh size 0.12 more than the end face may be clamped."
  },
  {
   "property": "C113",
   "status": "partial",
   "theorems": [
    "Verif.Mesh.C113_entry_counts_shared_nodes_partial",
    "Verif.Mesh.C113_nonzero_iff_share_node",
    "Verif.Mesh.C113_symmetric",
    "Verif.Mesh.C113_fast_zero_one",
    "Verif.Mesh.C113_entries_not_one",
    "Verif.Mesh.C113_variants_differ"
   ],
   "note": "the nonzero pattern, the symmetry and the fast variant are proved; that the entries are 1 is refuted (they count the common nodes), and the two builders differ on the diagonal"
  },
  {
   "property": "C114",
   "status": "partial",
   "theorems": [
    "Verif.Condition.C114_node_colours_partial",
    "Verif.Condition.C114_facet_colours_partial",
    "Verif.Condition.C114_elasticity_all_robin",
    "Verif.Condition.C114_heat_free_nodes_look_loaded",
    "Verif.Condition.C114_element_colours_partial",
    "Verif.Condition.C114_support_elements_not_fixed",
    "Verif.Condition.C114_facet_file_written",
    "Verif.Condition.C114_unsupported_mesh",
    "Verif.Condition.C114_condition_file_wrong",
    "Verif.Condition.C114_ragged_robin_nodes_fail"
   ],
   "note": "proved when all three boundaries are given; refuted for elasticity tasks (every node is shown as Robin), for heat tasks (free nodes are shown as Neumann) and for support elements that are not designed"
  },
  {
   "property": "C115",
   "status": "proved",
   "theorems": [
    "Verif.Env.C115_mode_restored",
    "Verif.Env.C115_nothing_else",
    "Verif.Env.C115_mode_irrelevant",
    "Verif.Env.C115_session"
   ],
   "note": ""
  },
  {
   "property": "C116",
   "status": "proved",
   "theorems": [
    "Verif.Recorder.C116_oc_histories",
    "Verif.Recorder.C116_logmoc_histories",
    "Verif.Recorder.C116_plot_types",
    "Verif.Recorder.C116_views",
    "Verif.Recorder.C116_views_fail",
    "Verif.Recorder.C116_oc_latest",
    "Verif.Recorder.C116_histories_file"
   ],
   "note": ""
  },
  {
   "property": "C117",
   "status": "proved",
   "theorems": [
    "Verif.Recorder.C117_true_iff",
    "Verif.Recorder.C117_close_iff",
    "Verif.Recorder.C117_reflexive",
    "Verif.Recorder.C117_round_trip",
    "Verif.Recorder.C117_ragged_rejected",
    "Verif.Recorder.C117_not_symmetric"
   ],
   "note": ""
  },
  {
   "property": "C118",
   "status": "partial",
   "theorems": [
    "Verif.Vtu.C118_file_partial",
    "Verif.Vtu.C118_rejected",
    "Verif.Vtu.C118_hexahedra_twisted",
    "Verif.Vtu.C118_box_cells_twisted",
    "Verif.Vtu.C118_reordered"
   ],
   "note": "the fields, nodes and tetrahedral cells are right (C118_file_partial), but hexahedra are written in the corner order of skfem under VTK's type hexahedron: for every box mesh every cell is twisted (C118_hexahedra_twisted, C118_box_cells_twisted); C118_reordered gives the order that would be right"
  },
  {
   "property": "C119",
   "status": "partial",
   "theorems": [
    "Verif.Loader.C119_material_of_file_partial",
    "Verif.Loader.C119_wrong_material",
    "Verif.Loader.C119_default_wrong",
    "Verif.Loader.C119_mesh_class"
   ],
   "note": "false of the code: E and nu are passed as Lame constants; the matrix is that of another material (C119_material_of_file_partial), equal only for E=1 and 2nu^2+2nu=1 (C119_wrong_material)"
  },
  {
   "property": "C120",
   "status": "proved",
   "theorems": [
    "Verif.Gif.C120_matching",
    "Verif.Gif.C120_frames_in_order",
    "Verif.Gif.C120_kinds_apart",
    "Verif.Gif.C120_files_carry_iteration",
    "Verif.Gif.C120_mesh_files_no_frames",
    "Verif.Gif.C120_limit_sharp"
   ],
   "note": ""
  },
  {
   "property": "C121",
   "status": "partial",
   "theorems": [
    "Verif.Project.C121_histories_continue_partial",
    "Verif.Project.C121_stopped_process_loses_lines",
    "Verif.Project.C121_earlier_restart_duplicates"
   ],
   "note": "Proved when every process finishes its run (C121_histories_continue_partial). Refuted otherwise: histories.npz is written only by _finalize, so a process that stops early loses its lines although its snapshots stay (C121_stopped_process_loses_lines); a restart from an earlier iteration keeps the later lines and repeats their numbers (C121_earlier_restart_duplicates)."
  },
  {
   "property": "C122",
   "status": "proved",
   "theorems": [
    "Verif.Props.C122_created_iff",
    "Verif.Props.C122_refused_unchanged",
    "Verif.Props.C122_like_new",
    "Verif.Props.C122_direct_exact",
    "Verif.Props.C122_gradient_is_forward",
    "Verif.Props.C122_default_pyamg",
    "Verif.Props.C122_settings_after_update"
   ],
   "note": ""
  },
  {
   "property": "C123",
   "status": "partial",
   "theorems": [
    "Verif.Props.C123_cg_accuracy_partial",
    "Verif.Props.C123_small_mesh_zero",
    "Verif.Props.C123_small_mesh_raises"
   ],
   "note": "Proved for at least four elements (C123_cg_accuracy_partial, in exact arithmetic, with an error bound). False below: with fewer than four elements maxiter is n//4 = 0, SciPy returns the zero start vector with info 0 and the filter answers zeros (C123_small_mesh_zero); with four to seven elements one pass is allowed, after which SciPy never tests the residual, so every nonzero density raises RuntimeError (C123_small_mesh_raises)."
  },
  {
   "property": "C124",
   "status": "partial",
   "theorems": [
    "Verif.Crash.C124_events_describe_program",
    "Verif.Crash.C124_kill_between_writes_partial",
    "Verif.Crash.C124_restart_resumes",
    "Verif.Crash.C124_torn_snapshot_blocks_restart",
    "Verif.Crash.C124_torn_histories_blocks_restart",
    "Verif.Crash.C124_killed_before_first_snapshot",
    "Verif.Crash.C124_killed_run_finishes_partial",
    "Verif.Crash.C124_many_kills_partial",
    "Verif.Crash.C124_kills_bounded",
    "Verif.Crash.C124_killed_again_and_again_partial"
   ],
   "note": "Proved for kills that are not in the middle of a file write (C124_kill_between_writes_partial, C124_killed_run_finishes_partial, C124_restart_resumes), also for any number of kills in a row (C124_many_kills_partial, C124_kills_bounded, C124_killed_again_and_again_partial); refuted for kills during a snapshot (C124_torn_snapshot_blocks_restart), during histories.npz (C124_torn_histories_blocks_restart) and in the first iteration (C124_killed_before_first_snapshot)."
  },
  {
   "property": "C125",
   "status": "partial",
   "theorems": [
    "Verif.Run.C125_lines_describe_designs_partial",
    "Verif.Run.C125_unchanged_design",
    "Verif.Run.C125_last_objective_stale"
   ],
   "note": "Refuted for the last design: C125_last_objective_stale is a well-posed run whose last recorded objective is strictly larger than that of its final densities. Proved: every line records the objective value of the design before its update (C125_lines_describe_designs_partial), hence of the final one if the last update changed nothing (C125_unchanged_design)."
  },
  {
   "property": "C126",
   "status": "partial",
   "theorems": [
    "Verif.Entry.C126_single_load_partial",
    "Verif.Entry.C126_same_as_module",
    "Verif.Entry.C126_solve_u",
    "Verif.Entry.C126_multi_load_always_raises"
   ],
   "note": "Single-load functions and solve_u proved (C126_single_load_partial, C126_same_as_module, C126_solve_u). Refuted for several load cases: the wrappers pass n_joblib, which the wrapped functions do not accept, so every call raises TypeError (C126_multi_load_always_raises)."
  },
  {
   "property": "C127",
   "status": "partial",
   "theorems": [
    "Verif.Entry.C127_config_takes_precedence",
    "Verif.Entry.C127_settings_reach_solver_partial",
    "Verif.Entry.C127_fallback_flag_ignored"
   ],
   "note": "Precedence and the use of tolerance and limit proved; the flag allow_fallback_to_spsolve of the configuration is ignored by the analysis (C127_fallback_flag_ignored)."
  },
  {
   "property": "C128",
   "status": "partial",
   "theorems": [
    "Verif.Entry.C128_loads_returned_partial",
    "Verif.Entry.C128_one_case_returns_compliance"
   ],
   "note": "Proved for two or more load cases; with one load case the compliance is returned instead of the load (C128_one_case_returns_compliance)."
  },
  {
   "property": "C129",
   "status": "partial",
   "theorems": [
    "Verif.Entry.C129_each_case_right",
    "Verif.Entry.C129_sizes_checked",
    "Verif.Entry.C129_shared_is_heat_analysis",
    "Verif.Entry.C129_shared_right_partial",
    "Verif.Entry.C129_shared_wrong"
   ],
   "note": "solve_scipy_heat_multi_enforce proved for arbitrary Dirichlet sets, solve_scipy for equal ones; for different sets solve_scipy is wrong (C129_shared_wrong)."
  },
  {
   "property": "C130",
   "status": "proved",
   "theorems": [
    "Verif.Spec.Format.C130_format_directed",
    "Verif.Rounded.C130_candidate_in_box",
    "Verif.Rounded.C130_oc_update",
    "Verif.Rounded.C130_logmoc_update",
    "Verif.Rounded.C130_oc_run",
    "Verif.Rounded.C130_logmoc_run",
    "Verif.Rounded.C130_exact_arithmetic_agrees",
    "Verif.Rounded.C130_exact_bisection_agrees",
    "Verif.Rounded.C130_exact_oc_update_agrees",
    "Verif.Rounded.C130_exact_logmoc_agrees"
   ],
   "note": ""
  },
  {
   "property": "C131",
   "status": "proved",
   "theorems": [
    "Verif.Spec.Format.C131_format_signs",
    "Verif.Rounded.C131_double_precision_run",
    "Verif.Rounded.C131_oc_update",
    "Verif.Rounded.C131_oc_run",
    "Verif.Rounded.C131_logmoc_update",
    "Verif.Rounded.C131_logmoc_run"
   ],
   "note": ""
  },
  {
   "property": "C132",
   "status": "proved",
   "theorems": [
    "Verif.Spec.Format.C132_format_halves",
    "Verif.Rounded.C132_oc_multiplier",
    "Verif.Rounded.C132_logmoc_multiplier",
    "Verif.Rounded.C132_exact_multiplier_agrees"
   ],
   "note": ""
  },
  {
   "property": "C133",
   "status": "partial",
   "theorems": [
    "Sized.C133_step_value_partial",
    "Sized.C133_whole_steps",
    "Sized.C133_step_begins_late"
   ],
   "note": "Proved except at iterations where a step begins exactly and m/n is rounded up (C133_step_value_partial; never with a whole number of iterations per step, C133_whole_steps). There the step begins one iteration late: C133_step_begins_late (100 iterations, 6 steps, iteration 50: 1.8 instead of 2.2)."
  },
  {
   "property": "C134",
   "status": "partial",
   "theorems": [
    "Sized.C134_sawtooth_value_partial",
    "Sized.C134_restart_missed",
    "Sized.C134_whole_cycles"
   ],
   "note": "Proved except at iterations where a cycle begins exactly and m/n is rounded up; there the value is the target instead of the initial value (C134_sawtooth_value_partial). With the default arguments (100 iterations, 6 cycles) this happens at iteration 51 (C134_restart_missed). Never with a whole number of iterations per cycle (C134_whole_cycles)."
  },
  {
   "property": "C135",
   "status": "partial",
   "theorems": [
    "Sized.C135_range_partial",
    "Sized.C135_to_one",
    "Sized.C135_after_horizon",
    "Sized.C135_leaves_interval"
   ],
   "note": "Exact ends, and the interval up to 2^-50 relative, proved (C135_range_partial, C135_to_one, C135_after_horizon). The interval is left by rounding: C135_leaves_interval (a schedule from 3 to 3 takes the value 3 - 2^-51)."
  },
  {
   "property": "C136",
   "status": "proved",
   "theorems": [
    "Verif.Spec.Format.C136_projection_unit",
    "Verif.Spec.Format.C136_projection_monotone",
    "Verif.Spec.Format.C136_derivative_nonneg"
   ],
   "note": ""
  },
  {
   "property": "C137",
   "status": "proved",
   "theorems": [
    "Verif.Spec.Format.C137_simp_modulus",
    "Verif.Spec.Format.C137_simp_monotone",
    "Verif.Spec.Format.C137_ramp_modulus",
    "Verif.Spec.Format.C137_simp_sensitivity"
   ],
   "note": ""
  },
  {
   "property": "C138",
   "status": "partial",
   "theorems": [
    "Verif.Spec.Format.C138_filter_range",
    "Verif.Spec.Format.C138_above_one"
   ],
   "note": "C138_filter_range proves [0, 1 + 2^-11]; the exact range [0, 1] is refuted by C138_above_one"
  },
  {
   "property": "C139",
   "status": "proved",
   "theorems": [
    "Verif.Spec.Format.C139_no_nan",
    "Verif.Spec.Format.C139_schedules"
   ],
   "note": ""
  },
  {
   "property": "C140",
   "status": "proved",
   "theorems": [
    "Verif.Spec.Format.C140_double_logs",
    "Verif.Spec.Format.C140_double_bounded",
    "Verif.Spec.Format.C140_analysis",
    "Verif.Spec.Format.C140_no_nan"
   ],
   "note": ""
  },
  {
   "property": "C141",
   "status": "proved",
   "theorems": [
    "Verif.Parallel.C141_orientation_every_schedule",
    "Verif.Parallel.C141_orientation_finishes",
    "Verif.Parallel.C141_tet_volumes_every_schedule",
    "Verif.Parallel.C141_hex_volumes_every_schedule",
    "Verif.Parallel.C141_volumes_finish"
   ],
   "note": ""
  },
  {
   "property": "C142",
   "status": "partial",
   "theorems": [
    "Verif.Attributes.C142_elements_read_as_written_partial",
    "Verif.Attributes.C142_force_nodes_lost",
    "Verif.Attributes.C142_force_elements_all_raises",
    "Verif.Attributes.C142_force_roundtrip_solves_the_same",
    "Verif.Attributes.C142_force_roundtrip_tasks_partial",
    "Verif.Attributes.C142_single_force_roundtrip_multiplies_tasks",
    "Verif.Attributes.C142_design_mask"
   ],
   "note": "The loaded and the clamped-or-loaded elements read as written (C142_elements_read_as_written_partial), writing force back keeps the solved loads, and with two or more loads the number of tasks; design_mask is exact on every built task. The full claim is false of the code: force_nodes reads the loaded elements (C142_force_nodes_lost), force_elements_all always raises, and with one load writing force back makes n_tasks the number of degrees of freedom (C142_single_force_roundtrip_multiplies_tasks)."
  },
  {
   "property": "C143",
   "status": "partial",
   "theorems": [
    "Verif.ToyMsh.C143_down_problems_partial",
    "Verif.ToyMsh.C143_pull_always_raises",
    "Verif.ToyMsh.C143_unknown_name_raises"
   ],
   "note": "Proved for the names down and down_box on every usable mesh, and rejection of unknown names. The full claim is false of the code: for pull and pull_2 a trailing comma makes the x range a tuple of length one, and setting the problem up raises on every mesh (C143_pull_always_raises)."
  },
  {
   "property": "C144",
   "status": "proved",
   "theorems": [
    "Verif.Supported.C144_tetrahedra_solvable_iff",
    "Verif.Supported.C144_hexahedra_solvable_iff",
    "Verif.Supported.C144_clamped",
    "Verif.Supported.C144_free_direction",
    "Verif.Supported.C144_turns_about_line",
    "Verif.Supported.C144_tetrahedra_logmoc_run",
    "Verif.Supported.C144_hexahedra_logmoc_run",
    "Verif.Supported.C144_tetrahedra_run",
    "Verif.Supported.C144_hexahedra_run",
    "Verif.Supported.C144_one_point_not_solvable",
    "Verif.Supported.C144_box_mesh",
    "Verif.Supported.C144_toy_base"
   ],
   "note": ""
  },
  {
   "property": "C145",
   "status": "proved",
   "theorems": [
    "Verif.Supported.C145_tetrahedra_unique_iff",
    "Verif.Supported.C145_hexahedra_unique_iff",
    "Verif.Supported.C145_tetrahedra_cooled",
    "Verif.Supported.C145_hexahedra_cooled",
    "Verif.Supported.C145_one_node",
    "Verif.Supported.C145_tetrahedra_run",
    "Verif.Supported.C145_hexahedra_run",
    "Verif.Supported.C145_tetrahedra_logmoc_run",
    "Verif.Supported.C145_hexahedra_logmoc_run",
    "Verif.Supported.C145_box_mesh",
    "Verif.Supported.C145_one_point_not_unique"
   ],
   "note": ""
  },
  {
   "property": "C146",
   "status": "proved",
   "theorems": [
    "Verif.HeatSource.C146_result",
    "Verif.HeatSource.C146_total_heat",
    "Verif.HeatSource.C146_mesh_surface"
   ],
   "note": ""
  },
  {
   "property": "C147",
   "status": "proved",
   "theorems": [
    "Verif.BoxMesh.C147_toy2_problem",
    "Verif.BoxMesh.C147_toy2_analysed"
   ],
   "note": ""
  },
  {
   "property": "C148",
   "status": "proved",
   "theorems": [
    "Verif.Props.C148_derivative",
    "Verif.Props.C148_averages",
    "Verif.Props.C148_chain_rule"
   ],
   "note": ""
  },
  {
   "property": "C149",
   "status": "partial",
   "theorems": [
    "Verif.Props.C149_yes_no",
    "Verif.Props.C149_number_or_nothing_partial",
    "Verif.Props.C149_nan_accepted"
   ],
   "note": "The last part is refuted: NaN gets through as \"+nan\" (C149_nan_accepted), given that Python's float reads NaN there. Everything else is proved for every text and every float function."
  },
  {
   "property": "C150",
   "status": "proved",
   "theorems": [
    "Verif.Props.C150_between_monotone",
    "Verif.Props.C150_plateaus",
    "Verif.Props.C150_no_steps",
    "Verif.Props.C150_whole",
    "Verif.Props.C150_not_finite"
   ],
   "note": ""
  },
  {
   "property": "C151",
   "status": "partial",
   "theorems": [
    "Verif.Run.C151_temperature_shifts",
    "Verif.Run.C151_same_designs_partial",
    "Verif.Run.C151_same_designs_logmoc_partial",
    "Verif.Run.C151_compliance_moves",
    "Verif.Run.C151_zero_matters"
   ],
   "note": "True for the objectives averaged_temp and heat_exchange, and without Robin boundaries. Refuted for compliance with Robin boundaries (C151_compliance_moves gives the exact change of the sensitivities, C151_zero_matters a case): its explicit gradient uses 2 Tenv T - T^2."
  },
  {
   "property": "C152",
   "status": "partial",
   "theorems": [
    "Verif.Run.C152_load_cases",
    "Verif.Run.C152_load_cases_logmoc",
    "Verif.Run.C152_heat_load_cases_partial",
    "Verif.Run.C152_heat_load_cases_logmoc_partial",
    "Verif.Run.C152_repetition_recorded"
   ],
   "note": "True for elasticity, and for the designs of heat runs. The recorded objective of a heat run changes when a single load case is repeated and the objective heat_exchange has a weight on the temperature (C152_repetition_recorded): the terms are divided by their mean size only if there are several load cases."
  },
  {
   "property": "C153",
   "status": "proved",
   "theorems": [
    "Verif.Driver.C153_call",
    "Verif.Driver.C153_recording_harmless",
    "Verif.Run.C153_oc"
   ],
   "note": ""
  },
  {
   "property": "C154",
   "status": "proved",
   "theorems": [
    "Verif.Props.C154_same_scheduler",
    "Verif.Props.C154_to_one_same",
    "Verif.Props.C154_rejected",
    "Verif.Props.C154_to_one_staircase",
    "Verif.Props.C154_missing_curvature",
    "Verif.Props.C154_missing_values",
    "Verif.Props.C154_from_config_on_subclass"
   ],
   "note": ""
  },
  {
   "property": "C155",
   "status": "partial",
   "theorems": [
    "Verif.Props.Petsc.C155_settings",
    "Verif.Props.Petsc.C155_factor_package",
    "Verif.Props.Petsc.C155_package_under_database",
    "Verif.Props.Petsc.C155_columns",
    "Verif.Props.Petsc.C155_vector",
    "Verif.Props.Petsc.C155_unavailable",
    "Verif.Props.Petsc.C155_spdirect_partial",
    "Verif.Props.Petsc.C155_spdirect_overridden",
    "Verif.Props.Petsc.C155_load_cases_partial",
    "Verif.Props.Petsc.C155_iteration_limits_differ"
   ],
   "note": "Refuted parts: a global -ksp_type/-pc_type entry replaces the direct method of petsc_spdirect (C155_spdirect_overridden; C155_spdirect_partial gives the case without such an entry); without a configured limit a load case solved alone gets at most 1000 iterations but PETSc's own limit among several load cases (C155_iteration_limits_differ; C155_load_cases_partial compares with solve_u under the same limit). The other clauses are proved in full."
  },
  {
   "property": "C156",
   "status": "partial",
   "theorems": [
    "Verif.Timer.C156_stacked_bars_partial",
    "Verif.Timer.C156_inner_sections_without_row",
    "Verif.Timer.C156_self_time_subtracted_twice",
    "Verif.Timer.C156_pie",
    "Verif.Timer.C156_pie_self_time_partial",
    "Verif.Timer.C156_pie_counts_twice"
   ],
   "note": "Proved for top-level sections whose names do not contain the separator (C156_stacked_bars_partial) and for pies of self times (C156_pie_self_time_partial). Refuted: inner sections with children get no row (C156_inner_sections_without_row), use_self_time subtracts children twice in stacked bars (C156_self_time_subtracted_twice), and by default a pie counts nested time repeatedly (C156_pie_counts_twice)."
  },
  {
   "property": "C157",
   "status": "proved",
   "theorems": [
    "Verif.Run.C157_temperature_scales",
    "Verif.Run.C157_sensitivity_scales",
    "Verif.Run.C157_same_run",
    "Verif.Run.C157_same_run_logmoc"
   ],
   "note": ""
  },
  {
   "property": "C158",
   "status": "partial",
   "theorems": [
    "Verif.Run.C158_element_numbering_runs_partial",
    "Verif.Run.C158_element_numbering_runs_logmoc_partial",
    "Verif.Run.C158_temperature",
    "Verif.Run.C158_node_numbering_partial",
    "Verif.Run.C158_node_numbering_logmoc_partial",
    "Verif.Run.C158_element_numbering_partial",
    "Verif.Run.C158_element_response_partial",
    "Verif.Run.C158_element_numbering_matters"
   ],
   "note": "Proved for the nodes (complete OC and LogMOC runs) and, without Robin boundaries, for the elements (temperatures, the recorded objective and the sensitivity of every element for every load case; complete OC and new LogMOC runs with renumbered elements). False for the elements with Robin boundaries: np.repeat(rho, k) is paired with t.ravel(), so the nodal densities depend on the numbers of the elements; C158_element_numbering_matters exhibits two rods whose computed temperatures change with the numbering."
  },
  {
   "property": "C159",
   "status": "partial",
   "theorems": [
    "Verif.Run.C159_law_selected",
    "Verif.Run.C159_ramp_run_partial",
    "Verif.Run.C159_ramp_restarted_partial",
    "Verif.Run.C159_ramp_logmoc_partial",
    "Verif.Run.C159_solid_slope"
   ],
   "note": "False for the sensitivities: compliance_sensitivity_multi_load always differentiates the SIMP law (C159_solid_slope: p/(1+p) of the true slope at solid elements). Everything else is proved."
  },
  {
   "property": "C160",
   "status": "partial",
   "theorems": [
    "Verif.Stats.C160_report_partial",
    "Verif.Stats.C160_missing_group",
    "Verif.Stats.C160_one_element_raises"
   ],
   "note": "Proved for tasks with both groups of elements and at least two elements. Refuted otherwise: without Neumann facets (every heat task) the bar 'force' shows the volume of the whole mesh (C160_missing_group), and a mesh with one element raises ValueError (C160_one_element_raises)."
  },
  {
   "property": "C161",
   "status": "proved",
   "theorems": [
    "Verif.Heat.C161_averaged_temperature",
    "Verif.Heat.C161_averaged_on_simplices",
    "Verif.Heat.C161_energies",
    "Verif.Heat.C161_gradient_densities"
   ],
   "note": ""
  },
  {
   "property": "C162",
   "status": "proved",
   "theorems": [
    "Verif.Run.C162_length_units",
    "Verif.Run.C162_same_temperatures",
    "Verif.Run.C162_length_units_logmoc"
   ],
   "note": ""
  }
 ]
}