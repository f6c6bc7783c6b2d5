{
 "claims": [
  {
   "property": "C01",
   "status": "proved",
   "theorems": [
    "OpenMDAO.C01_evenly_distrib_partition",
    "OpenMDAO.C01_evenly_distrib_zero"
   ],
   "note": "All numbers of divisions and items; error branch for 0 divisions."
  },
  {
   "property": "C02",
   "status": "proved",
   "theorems": [
    "OpenMDAO.C02_to_slice_exact",
    "OpenMDAO.C02_to_slice_only_increasing"
   ],
   "note": "Numpy indexing semantics are the specification (Idx.positions)."
  },
  {
   "property": "C03",
   "status": "proved",
   "theorems": [
    "OpenMDAO.C03_forward_transfer_delivers",
    "OpenMDAO.C03_byobj_transfer",
    "OpenMDAO.C03_empty_connection_rejected",
    "OpenMDAO.C03_construction_fails_iff"
   ],
   "note": "FileRef copying of pass-by-object values is not modelled."
  },
  {
   "property": "C04",
   "status": "proved",
   "theorems": [
    "OpenMDAO.C04_reverse_transfer_accumulates",
    "OpenMDAO.C04_reverse_is_adjoint"
   ],
   "note": ""
  },
  {
   "property": "C05",
   "status": "proved",
   "theorems": [
    "OpenMDAO.C05_variables_tile_vector"
   ],
   "note": "Local process only: remote variables own no storage. Shapes and complex-step storage are not modelled."
  },
  {
   "property": "C06",
   "status": "proved",
   "theorems": [
    "OpenMDAO.C06_read_returns_last_assignment",
    "OpenMDAO.C06_assignment_effect"
   ],
   "note": "Includes unit-less reads; shapes (ndarray reshape) and complex-step mode are not modelled."
  },
  {
   "property": "C07",
   "status": "proved",
   "theorems": [
    "OpenMDAO.C07_view_is_good",
    "OpenMDAO.C07_view_aliases_parent",
    "OpenMDAO.C07_view_of_contiguous_run_exists"
   ],
   "note": "Views of views are covered because a view is again a good vector."
  },
  {
   "property": "C08",
   "status": "proved",
   "theorems": [
    "OpenMDAO.C08_param_reads_in_own_units",
    "OpenMDAO.C08_no_conversion",
    "OpenMDAO.C08_incompatible_reported",
    "OpenMDAO.C08_derivatives_only_scale",
    "OpenMDAO.C08_scale_is_derivative"
   ],
   "note": "Numbers are a field; unit strings are resolved by a parameter. Stored (non pass-by-object) parameters."
  },
  {
   "property": "C09",
   "status": "proved",
   "theorems": [
    "OpenMDAO.C09_convert_preserves_quantity",
    "OpenMDAO.C09_convert_self",
    "OpenMDAO.C09_convert_round_trip",
    "OpenMDAO.C09_convert_transitive",
    "OpenMDAO.C09_sum_preserves_quantity"
   ],
   "note": "Numbers are a field (no rounding); factors non-zero."
  },
  {
   "property": "C10",
   "status": "partial",
   "theorems": [
    "OpenMDAO.C10_mul",
    "OpenMDAO.C10_div",
    "OpenMDAO.C10_pow",
    "OpenMDAO.C10_compatible_iff",
    "OpenMDAO.C10_mul_conversion",
    "OpenMDAO.C10_rdiv_offset_refuted",
    "OpenMDAO.C10_rdiv_partial"
   ],
   "note": "Partial: number / offset-unit is not refused by the code (C10_rdiv_offset_refuted). Fractional powers are not modelled."
  },
  {
   "property": "C11",
   "status": "partial",
   "theorems": [
    "OpenMDAO.C11_conversion_factor_refuted",
    "OpenMDAO.C11_conversion_factor_partial",
    "OpenMDAO.C11_conversion_factor_refused_partial"
   ],
   "note": "Partial: the property is false of the code (C11_conversion_factor_refuted, units.py:501-527 uses 'and' instead of 'or'); the theorem characterises exactly when the returned factor is right."
  },
  {
   "property": "C12",
   "status": "proved",
   "theorems": [
    "OpenMDAO.C12_value_stays_legal",
    "OpenMDAO.C12_error_leaves_unchanged",
    "OpenMDAO.C12_assignment",
    "OpenMDAO.C12_undeclared_raises",
    "OpenMDAO.C12_nan_accepted"
   ],
   "note": "Plain dictionaries (derivative options: C61). NaN is accepted for bounded floats (C12_nan_accepted): it is neither below nor above a bound."
  },
  {
   "property": "C13",
   "status": "partial",
   "theorems": [
    "OpenMDAO.C13_lock_refuted_by_creation",
    "OpenMDAO.C13_lock_refuted_by_removal",
    "OpenMDAO.C13_lock_partial"
   ],
   "note": "Partial: false of the code in two ways (creation of any dictionary unlocks all; a locked option can be removed and re-declared), both refuted with witnesses."
  },
  {
   "property": "C14",
   "status": "partial",
   "theorems": [
    "OpenMDAO.C14_get_refuted",
    "OpenMDAO.C14_set_refuted",
    "OpenMDAO.C14_alias_partial"
   ],
   "note": "Partial: false of the code for get (KeyError) and for assignments to derivative options, both refuted with witnesses."
  },
  {
   "property": "C15",
   "status": "proved",
   "theorems": [
    "OpenMDAO.C15_accepted_iff",
    "OpenMDAO.C15_unknowns_unique",
    "OpenMDAO.C15_names_map_back"
   ],
   "note": ""
  },
  {
   "property": "C16",
   "status": "partial",
   "theorems": [
    "OpenMDAO.C16_one_source",
    "OpenMDAO.C16_reached_is_connected",
    "OpenMDAO.C16_error_iff_two_sources",
    "OpenMDAO.C16_unconnected_reported_partial",
    "OpenMDAO.C16_unconnected_lists_sound",
    "OpenMDAO.C16_only_index_errors",
    "OpenMDAO.C16_two_roots_refuted",
    "OpenMDAO.C16_cycle_refuted",
    "OpenMDAO.C16_skipped_refuted"
   ],
   "note": "One source, reached parameters, duplicate sources and possible exceptions are proved in full for every order of the source set. The claim about unconnected parameters is false of the code: C16_two_roots_refuted, C16_cycle_refuted, C16_skipped_refuted; C16_unconnected_reported_partial proves it for groups of parameters with one root."
  },
  {
   "property": "C17",
   "status": "proved",
   "theorems": [
    "OpenMDAO.C17_accepted_iff",
    "OpenMDAO.C17_runs_in_order",
    "OpenMDAO.C17_refused_unchanged",
    "OpenMDAO.C17_no_add_after_order"
   ],
   "note": "Fully proved. finding_local_list_keeps_old_order: set_order does not reorder _local_subsystems."
  },
  {
   "property": "C18",
   "status": "proved",
   "theorems": [
    "OpenMDAO.C18_break_cycles",
    "OpenMDAO.C18_auto_order"
   ],
   "note": ""
  },
  {
   "property": "C19",
   "status": "proved",
   "theorems": [
    "OpenMDAO.C19_common_ancestor",
    "OpenMDAO.C19_relative_name",
    "OpenMDAO.C19_nearest_child",
    "OpenMDAO.C19_nearest_child_contains"
   ],
   "note": ""
  },
  {
   "property": "C20",
   "status": "partial",
   "theorems": [
    "OpenMDAO.C20_set_then_get_partial",
    "OpenMDAO.C20_get_then_set_partial",
    "OpenMDAO.C20_two_dim_indices_refuted"
   ],
   "note": "Partial: index subsets of 2-D variables do not round trip (C20_two_dim_indices_refuted: reading selects flat entries, setting assigns rows). Proved for 1-D variables and for all shapes without index subset."
  },
  {
   "property": "C21",
   "status": "partial",
   "theorems": [
    "OpenMDAO.C21_desvar_bounds_partial",
    "OpenMDAO.C21_negative_scaler_refuted",
    "OpenMDAO.C21_constraint_bounds_partial"
   ],
   "note": "Partial: false for negative scalers (C21_negative_scaler_refuted: bounds are scaled but not exchanged); proved for positive scalers, design variables and constraints."
  },
  {
   "property": "C22",
   "status": "partial",
   "theorems": [
    "OpenMDAO.C22_index_zero_refuted",
    "OpenMDAO.C22_set_element_partial"
   ],
   "note": "Partial: false for index 0 (C22_index_zero_refuted, driver.py:481,518 test the truth value of the index); proved for all other indices and the out-of-range error."
  },
  {
   "property": "C23",
   "status": "proved",
   "theorems": [
    "OpenMDAO.C23_constraint_accepted_iff",
    "OpenMDAO.C23_unsupported_rejected",
    "OpenMDAO.C23_filters_partition"
   ],
   "note": "Driver supporting all kinds of constraints; scalar bounds for the acceptance test."
  },
  {
   "property": "C24",
   "status": "proved",
   "theorems": [
    "OpenMDAO.C24_satisfied_iff",
    "OpenMDAO.C24_gradient_is_derivative"
   ],
   "note": "Assumes the objective is a single scalar row, array bounds of full size (a shorter one raises IndexError in the code) and constraint names not starting with '2bl-'. The order in which SciPy calls the functions (stale cache) is not modelled."
  },
  {
   "property": "C25",
   "status": "partial",
   "theorems": [
    "OpenMDAO.C25_terminates",
    "OpenMDAO.C25_sweeps_bounded_partial",
    "OpenMDAO.C25_maxiter_zero_refuted",
    "OpenMDAO.C25_success_partial",
    "OpenMDAO.C25_infinite_residual_refuted",
    "OpenMDAO.C25_error_iff_partial",
    "OpenMDAO.C25_late_convergence_refuted",
    "OpenMDAO.C25_maxiter_one_refuted",
    "OpenMDAO.C25_maxiter_one"
   ],
   "note": "Four counterexamples: an infinite initial residual gives inf/inf = NaN, every comparison is false and the solver reports convergence; convergence in the last permitted sweep is reported as failure; with maxiter=1 there is never an error; maxiter=0 still runs one sweep. Partial theorems carry the hypotheses excluding these."
  },
  {
   "property": "C26",
   "status": "partial",
   "theorems": [
    "OpenMDAO.C26_terminates",
    "OpenMDAO.C26_linear_solves_bounded",
    "OpenMDAO.C26_verdict",
    "OpenMDAO.C26_success_partial",
    "OpenMDAO.C26_infinite_residual_refuted",
    "OpenMDAO.C26_type_restored_partial",
    "OpenMDAO.C26_type_not_restored_refuted"
   ],
   "note": "Counterexamples: infinite initial residual is reported as convergence; an exception inside an iteration leaves the group's derivative type at 'user'. Sub-claims on termination, number of linear solves and the verdict are proved without restriction."
  },
  {
   "property": "C27",
   "status": "partial",
   "theorems": [
    "OpenMDAO.C27_terminates",
    "OpenMDAO.C27_step_lengths",
    "OpenMDAO.C27_sufficient_decrease_partial",
    "OpenMDAO.C27_failure_reported",
    "OpenMDAO.C27_infinite_base_refuted",
    "OpenMDAO.C27_newton_iteration",
    "OpenMDAO.C27_newton_never_worse"
   ],
   "note": "Counterexample: an infinite norm before the step makes every comparison NaN and any state is accepted. Partial theorem: finite norm before the step."
  },
  {
   "property": "C28",
   "status": "partial",
   "theorems": [
    "OpenMDAO.C28_step_within_bounds_partial",
    "OpenMDAO.C28_pass_by_obj_false_refuted"
   ],
   "note": "Counterexample: pass_by_obj=False given explicitly makes the code skip the bounds of the variable."
  },
  {
   "property": "C29",
   "status": "proved",
   "theorems": [
    "OpenMDAO.C29_factor_within_limits",
    "OpenMDAO.C29_relaxed_update"
   ],
   "note": "Holds when aitken_alpha_min <= aitken_alpha_max (the code does not check this)."
  },
  {
   "property": "C30",
   "status": "partial",
   "theorems": [
    "OpenMDAO.C30_apply_nonlinear_partial",
    "OpenMDAO.C30_pbo_refuted",
    "OpenMDAO.C30_rounding_refuted",
    "OpenMDAO.C30_raise_refuted"
   ],
   "note": "Proved for exact arithmetic and vector variables; refuted (with witnesses) for pass_by_obj outputs, for floating point rounding and for components that raise."
  },
  {
   "property": "C31",
   "status": "proved",
   "theorems": [
    "OpenMDAO.C31_adjoint",
    "OpenMDAO.C31_forward_value"
   ],
   "note": ""
  },
  {
   "property": "C32",
   "status": "proved",
   "theorems": [
    "OpenMDAO.C32_fwd",
    "OpenMDAO.C32_rev",
    "OpenMDAO.C32_solve"
   ],
   "note": "Exactness of one sweep in both modes and of the whole solve with maxiter=1; solve zeroes du and dp first, so the contents of the vectors before the call do not matter."
  },
  {
   "property": "C33",
   "status": "partial",
   "theorems": [
    "OpenMDAO.C33_fwd_partial",
    "OpenMDAO.C33_rev",
    "OpenMDAO.C33_converged_residual",
    "OpenMDAO.C33_fwd_refuted",
    "OpenMDAO.C33_fwd_wrong_fixpoint_refuted"
   ],
   "note": "Reverse mode and the reported residual are proved for all children; forward mode fixed-point equivalence is proved for explicit components and refuted (both directions) for implicit components and subgroups. Names are left out here: C168 shows for which names the reported residual is the true one."
  },
  {
   "property": "C34",
   "status": "partial",
   "theorems": [
    "OpenMDAO.C34_array_partial",
    "OpenMDAO.C34_array_modes_agree_partial",
    "OpenMDAO.C34_dict",
    "OpenMDAO.C34_overlap_refuted",
    "OpenMDAO.C34_modes_differ_refuted"
   ],
   "note": "Array and dict formats of Problem._calc_gradient_ln_solver, serial, one variable of interest per set. C34_dict: full statement for the dict format, both modes. C34_array_partial / C34_array_modes_agree_partial: array format when no name is requested on both sides. C34_overlap_refuted / C34_modes_differ_refuted: with a name on both sides Jslices is overwritten, the array is wrong and the modes can differ. Not modelled: parallel_derivs sets, sparsity, inactives, MPI."
  },
  {
   "property": "C35",
   "status": "partial",
   "theorems": [
    "OpenMDAO.C35_options",
    "OpenMDAO.C35_indices",
    "OpenMDAO.C35_restores_partial",
    "OpenMDAO.C35_restores_all",
    "OpenMDAO.C35_quotients",
    "OpenMDAO.C35_affine_exact_partial",
    "OpenMDAO.C35_params_refuted",
    "OpenMDAO.C35_rounding_refuted",
    "OpenMDAO.C35_stale_refuted",
    "OpenMDAO.C35_pass_refuted"
   ],
   "note": "System.fd_jacobian (forward, backward, central; relative and absolute steps; index subsets). Proved in exact arithmetic: inputs and result vector restored, entries are the difference quotients, exact for affine models. False: parameters inside a group keep perturbed values (C35_params_refuted), rounding (C35_rounding_refuted), stale residuals (C35_stale_refuted), design variable that is also an unknown (C35_pass_refuted). Complex step not modelled."
  },
  {
   "property": "C36",
   "status": "partial",
   "theorems": [
    "OpenMDAO.C36_each_column_once",
    "OpenMDAO.C36_merged_partial",
    "OpenMDAO.C36_pass_refuted",
    "OpenMDAO.C36_few_ranks_refuted"
   ],
   "note": "Split of the columns over the processes and merge. Proved: each column recorded by exactly one group of processes; merged = serial on every rank for computed unknowns when there are at least as many ranks as parallel differences. False for unknowns that are perturbed inputs (C36_pass_refuted) and with too few ranks (C36_few_ranks_refuted)."
  },
  {
   "property": "C37",
   "status": "proved",
   "theorems": [
    "OpenMDAO.C37_exactly_the_grid",
    "OpenMDAO.C37_count",
    "OpenMDAO.C37_no_duplicates",
    "OpenMDAO.C37_within_bounds",
    "OpenMDAO.C37_corners"
   ],
   "note": ""
  },
  {
   "property": "C38",
   "status": "partial",
   "theorems": [
    "OpenMDAO.C38_plain_driver",
    "OpenMDAO.C38_optimized_partial",
    "OpenMDAO.C38_optimized_refuted",
    "OpenMDAO.C38_optimized_code_refuted"
   ],
   "note": "Proved for LatinHypercubeDriver (C38_plain_driver) and for OptimizedLatinHypercubeDriver with at most two generations or two dimensions. False in general: C38_optimized_refuted (perturb exchanges entries of the original design). finding_single_sample_never_differs: perturb never ends with one sample."
  },
  {
   "property": "C39",
   "status": "partial",
   "theorems": [
    "OpenMDAO.C39_all_cases_once",
    "OpenMDAO.C39_one_group",
    "OpenMDAO.C39_order",
    "OpenMDAO.C39_scatter",
    "OpenMDAO.C39_rounds",
    "OpenMDAO.C39_collectives_partial",
    "OpenMDAO.C39_hang_refuted"
   ],
   "note": "The division of the run list is proved in full (C39_all_cases_once, C39_one_group, C39_order, C39_scatter, C39_rounds). The run itself can hang: processes of a group other than the first one do not take part in the dummy rounds (C39_hang_refuted); no hang if each group has one process or the groups have equally many cases (C39_collectives_partial)."
  },
  {
   "property": "C40",
   "status": "partial",
   "theorems": [
    "OpenMDAO.C40_exactly_once_partial",
    "OpenMDAO.C40_terminates",
    "OpenMDAO.C40_serial",
    "OpenMDAO.C40_single_worker_refuted"
   ],
   "note": "For at least two workers or at least as many workers as cases. False for one worker and more than one case: only the first case is evaluated (C40_single_worker_refuted)."
  },
  {
   "property": "C41",
   "status": "partial",
   "theorems": [
    "OpenMDAO.C41_records_once_partial",
    "OpenMDAO.C41_no_infinite_run",
    "OpenMDAO.C41_deadlock_refuted"
   ],
   "note": "With load_balance, or if no case fails fatally. False without load_balance: a worker that had a fatal error takes and drops further cases and the main process waits for ever (C41_deadlock_refuted)."
  },
  {
   "property": "C42",
   "status": "proved",
   "theorems": [
    "OpenMDAO.C42_filter_exact",
    "OpenMDAO.C42_name_selected"
   ],
   "note": "Filter at startup and every later record_iteration of the same system; fnmatchcase is an arbitrary predicate. The system is the one whose pathname _get_pathname finds (see C44)."
  },
  {
   "property": "C43",
   "status": "partial",
   "theorems": [
    "OpenMDAO.C43_text_injective",
    "OpenMDAO.C43_keys_distinct_partial",
    "OpenMDAO.C43_fd_refuted",
    "OpenMDAO.C43_fd_repeats"
   ],
   "note": "Text form injective for all coordinates; all iterations of one driver run (driver and nested solvers of any kind and depth) have different keys. Refuted for groups run during finite differencing: metadata is None and every step repeats the same keys (C43_fd_refuted)."
  },
  {
   "property": "C44",
   "status": "partial",
   "theorems": [
    "OpenMDAO.C44_pathname_iff",
    "OpenMDAO.C44_filter_found_partial",
    "OpenMDAO.C44_filter_found_refuted"
   ],
   "note": "Exact characterisation: the coordinate leads back to the system iff all systems at depth two or more use RunOnce. Refuted otherwise: an iterative solver at depth two is looked up as 'b.b.c' and recording raises KeyError."
  },
  {
   "property": "C45",
   "status": "partial",
   "theorems": [
    "OpenMDAO.C45_rows_match_header_partial",
    "OpenMDAO.C45_rows_match_header_refuted",
    "OpenMDAO.C45_derivs_first_refuted"
   ],
   "note": "Proved for one system with an iteration first. Refuted for a recorder shared by systems of different sizes and for derivatives recorded before the first iteration (IndexError)."
  },
  {
   "property": "C46",
   "status": "partial",
   "theorems": [
    "OpenMDAO.C46_last_recorded_partial",
    "OpenMDAO.C46_by_number",
    "OpenMDAO.C46_latest",
    "OpenMDAO.C46_derivs_refuted"
   ],
   "note": "Iterations: last recorded data by key, by (negative) number, latest. Refuted for derivatives: the reader stores them in _derivs, the documented attribute derivs is always None."
  },
  {
   "property": "C47",
   "status": "partial",
   "theorems": [
    "OpenMDAO.C47_training_rows_partial",
    "OpenMDAO.C47_training_rows_refuted",
    "OpenMDAO.C47_prediction_layout",
    "OpenMDAO.C47_jacobian_layout"
   ],
   "note": "Prediction inputs and Jacobian slices: proved for all parameter lists. Training rows: proved when all parameters but the last have float data. Refuted otherwise: the column index does not advance after array (or integer) data, so the next parameter overwrites it."
  },
  {
   "property": "C48",
   "status": "partial",
   "theorems": [
    "OpenMDAO.C48_accumulates_partial",
    "OpenMDAO.C48_inconsistent_rejected",
    "OpenMDAO.C48_empty_refuted",
    "OpenMDAO.C48_failure_refuted"
   ],
   "note": "Every history of trainings with well-formed non-empty data; inconsistent numbers of points rejected without any change. Refuted for empty data without warm restart (old outputs are reused) and after a failed training with warm restart (unfinished rows stay)."
  },
  {
   "property": "C49",
   "status": "proved",
   "theorems": [
    "OpenMDAO.C49_layout_unique",
    "OpenMDAO.C49_transfer_var",
    "OpenMDAO.C49_read_back"
   ],
   "note": "Every line, delimiter set, field and value; layout of a line into fields and delimiters is unique. Rows before the first line wrap around to the end of the file (finding). Regular expression meta characters as delimiters are taken literally in the model."
  },
  {
   "property": "C50",
   "status": "partial",
   "theorems": [
    "OpenMDAO.C50_anchor_cut",
    "OpenMDAO.C50_forward",
    "OpenMDAO.C50_backward_partial",
    "OpenMDAO.C50_backward_anchored",
    "OpenMDAO.C50_zero",
    "OpenMDAO.C50_backward_anchored_refuted",
    "OpenMDAO.C50_same_line_refuted"
   ],
   "note": "Forward search and zero proved; backward search proved without anchor. Refuted: with an anchor the last line is skipped in backward searches, and text behind the anchor on the same line is never found."
  },
  {
   "property": "C51",
   "status": "partial",
   "theorems": [
    "OpenMDAO.C51_one_communicator",
    "OpenMDAO.C51_grouped_min",
    "OpenMDAO.C51_error_iff",
    "OpenMDAO.C51_enough_fair",
    "OpenMDAO.C51_min_partial",
    "OpenMDAO.C51_min_refuted",
    "OpenMDAO.C51_grouped_terminates_iff_partial",
    "OpenMDAO.C51_unit_requests_partial",
    "OpenMDAO.C51_hangs_refuted"
   ],
   "note": "Both branches of the allocation and the local subsystems of every rank. Proved: one sub-communicator per subsystem, at most the available processes, fair round robin, exact error and exact termination conditions. Refuted: minimum requirements are ignored when all requests fit, and left over processes can make the loop run forever."
  },
  {
   "property": "C52",
   "status": "partial",
   "theorems": [
    "OpenMDAO.C52_systems_response",
    "OpenMDAO.C52_systems_desvar_partial",
    "OpenMDAO.C52_systems_exact",
    "OpenMDAO.C52_variables_response_partial",
    "OpenMDAO.C52_variables_desvar_partial",
    "OpenMDAO.C52_no_voi",
    "OpenMDAO.C52_forward_derivative_partial",
    "OpenMDAO.C52_reverse_derivative_partial",
    "OpenMDAO.C52_desvar_as_response_refuted",
    "OpenMDAO.C52_state_refuted"
   ],
   "note": "Systems and variables on paths; forward and reverse derivatives from the reduced linear system equal those of the full system. Refuted: a design variable that is a response too loses entries; unconnected states of implicit components are dropped."
  },
  {
   "property": "C53",
   "status": "partial",
   "theorems": [
    "OpenMDAO.C53_unknowns_disjoint",
    "OpenMDAO.C53_unknowns_fit",
    "OpenMDAO.C53_params_disjoint_partial",
    "OpenMDAO.C53_params_fit_partial",
    "OpenMDAO.C53_storage_tight",
    "OpenMDAO.C53_single_vector",
    "OpenMDAO.C53_params_refuted",
    "OpenMDAO.C53_groups"
   ],
   "note": "Vectors of unknowns and residuals: disjoint within a group, fit, storage tight. Parameters: the same unless a parameter passed by object is connected to a source that is not, which is refuted (overlap, and a following parameter without storage). Grouping of variables of interest proved to be a partition."
  },
  {
   "property": "C54",
   "status": "partial",
   "theorems": [
    "OpenMDAO.C54_fwd_partial",
    "OpenMDAO.C54_rev_partial",
    "OpenMDAO.C54_transpose",
    "OpenMDAO.C54_mvp",
    "OpenMDAO.C54_shared_source_refuted",
    "OpenMDAO.C54_src_indices_refuted",
    "OpenMDAO.C54_units_refuted",
    "OpenMDAO.C54_missing_state_refuted",
    "OpenMDAO.C54_self_loop_refuted",
    "OpenMDAO.C54_no_jacobian"
   ],
   "note": "Assembled matrix = matrix-free operator in both modes under the conditions Assemblable (every component has a Jacobian; no src_indices, no unit conversion, no source outside the group; different params of a component have different sources; no param connected to its own component; the partial of every state with respect to itself is given). Each condition except the first is necessary: refuted by concrete cases. MVP method: proved without those conditions. Reverse matrix = transpose of forward matrix always."
  },
  {
   "property": "C55",
   "status": "partial",
   "theorems": [
    "OpenMDAO.C55_name_syntax",
    "OpenMDAO.C55_accepted_iff",
    "OpenMDAO.C55_plain",
    "OpenMDAO.C55_rejected_unchanged_partial",
    "OpenMDAO.C55_rejected_unchanged_refuted",
    "OpenMDAO.C55_accepted_effect",
    "OpenMDAO.C55_history",
    "OpenMDAO.C55_after_setup",
    "OpenMDAO.C55_set_indices"
   ],
   "note": "Acceptance iff, effect, histories. A rejected declaration leaves all declared variables unchanged; refuted for the list of warnings when a misspelt bound is rejected after the warning was noted."
  },
  {
   "property": "C56",
   "status": "partial",
   "theorems": [
    "OpenMDAO.C56_one_connection",
    "OpenMDAO.C56_whole_source",
    "OpenMDAO.C56_accepted_partial",
    "OpenMDAO.C56_types_iff",
    "OpenMDAO.C56_types_accepted",
    "OpenMDAO.C56_unsized_target",
    "OpenMDAO.C56_count_refuted",
    "OpenMDAO.C56_false_flag_refuted"
   ],
   "note": "Every index checked and the count checked when shapes differ. Refuted: equal shapes, the number of indices is not compared; source declared with pass_by_obj=False, no check at all."
  },
  {
   "property": "C57",
   "status": "proved",
   "theorems": [
    "OpenMDAO.C57_expansion",
    "OpenMDAO.C57_derivative",
    "OpenMDAO.C57_entrywise",
    "OpenMDAO.C57_untrained"
   ],
   "note": "Exact expansion over every commutative ring and HasDerivAt over the reals, any dimension; lstsq fitting itself not modelled."
  },
  {
   "property": "C58",
   "status": "partial",
   "theorems": [
    "OpenMDAO.C58_adjoint",
    "OpenMDAO.C58_derivative",
    "OpenMDAO.C58_solve_nonlinear",
    "OpenMDAO.C58_solve_linear_partial",
    "OpenMDAO.C58_solve_adjoint",
    "OpenMDAO.C58_stale_refuted"
   ],
   "note": "Adjoint, derivative of residual, nonlinear solve and duality proved; linear solve inverts A (transpose in reverse) after a nonlinear solve with the same A; refuted when A changed since (stale LU). scipy LU trusted."
  },
  {
   "property": "C59",
   "status": "partial",
   "theorems": [
    "OpenMDAO.C59_needed",
    "OpenMDAO.C59_untouched",
    "OpenMDAO.C59_identical_partial",
    "OpenMDAO.C59_duplicates_refuted",
    "OpenMDAO.C59_owner",
    "OpenMDAO.C59_owner_exists"
   ],
   "note": "Needed entries and ownership proved for all distributions; entries nobody lists as missing keep different local values: refuted."
  },
  {
   "property": "C60",
   "status": "proved",
   "theorems": [
    "OpenMDAO.C60_mode",
    "OpenMDAO.C60_unknown_name"
   ],
   "note": "Decision table proved with sizes as the code counts them; unknown names give RuntimeError."
  },
  {
   "property": "C61",
   "status": "proved",
   "theorems": [
    "OpenMDAO.C61_step_size_follows_type"
   ],
   "note": "Through current names; the deprecated name is refuted in C14_set_refuted."
  },
  {
   "property": "C62",
   "status": "proved",
   "theorems": [
    "OpenMDAO.C62_vector_round_trip",
    "OpenMDAO.C62_split_covers",
    "OpenMDAO.C62_bounds_line_up"
   ],
   "note": "Proved for every list of design variables; the optimizer itself is external."
  },
  {
   "property": "C63",
   "status": "partial",
   "theorems": [
    "OpenMDAO.C63_violated_returns_to_bound_partial",
    "OpenMDAO.C63_zero_step_refuted"
   ],
   "note": "Counterexample: a zero step gives factor -inf and value NaN. Partial theorem: non-zero step."
  },
  {
   "property": "C64",
   "status": "proved",
   "theorems": [
    "OpenMDAO.C64_indices_follow_chain"
   ],
   "note": ""
  },
  {
   "property": "C65",
   "status": "partial",
   "theorems": [
    "OpenMDAO.C65_array_fields_partial",
    "OpenMDAO.C65_line_feed_refuted",
    "OpenMDAO.C65_array_rows_partial",
    "OpenMDAO.C65_appended"
   ],
   "note": "One line; values in order, rest appended, everything else unchanged except that a line feed is always added, so an array that fits adds a blank line (refuted)."
  },
  {
   "property": "C66",
   "status": "proved",
   "theorems": [
    "OpenMDAO.C66_same_source",
    "OpenMDAO.C66_complete"
   ],
   "note": "Both directions."
  },
  {
   "property": "C67",
   "status": "proved",
   "theorems": [
    "OpenMDAO.C67_distributed_source",
    "OpenMDAO.C67_plain_connection",
    "OpenMDAO.C67_distributed_target",
    "OpenMDAO.C67_nothing_to_move"
   ],
   "note": "Index arrays for any number of processes, as positions in the concatenation of the local vectors; uninitialised entries of np.empty are kept apart as none."
  },
  {
   "property": "C68",
   "status": "partial",
   "theorems": [
    "OpenMDAO.C68_forward_partial",
    "OpenMDAO.C68_reverse_partial",
    "OpenMDAO.C68_objects_partial",
    "OpenMDAO.C68_adjoint_partial",
    "OpenMDAO.C68_object_source_refuted",
    "OpenMDAO.C68_index_count_refuted",
    "OpenMDAO.C68_object_parameter_fails_partial"
   ],
   "note": "Serial group (one process), vectors without scalers and units (C05, C31). False in general: refuted for pass-by-object sources of parameters with src_indices and for a wrong number of src_indices, proved for groups without these (XGroupOk)."
  },
  {
   "property": "C69",
   "status": "proved",
   "theorems": [
    "OpenMDAO.C69_rows",
    "OpenMDAO.C69_too_few_rows",
    "OpenMDAO.C69_clear_line"
   ],
   "note": "Values as already formatted text; the formatting of floats is not modelled. Lines already written before an IndexError stay written; the model reports the error only."
  },
  {
   "property": "C70",
   "status": "partial",
   "theorems": [
    "OpenMDAO.C70_declared_partial",
    "OpenMDAO.C70_unknown_keyword_partial",
    "OpenMDAO.C70_no_assignment",
    "OpenMDAO.C70_exponent_refuted"
   ],
   "note": "Numbers without exponents, no slices and no keyword arguments in calls (statements as token lists). C70_exponent_refuted shows a number with an exponent declares a spurious parameter."
  },
  {
   "property": "C71",
   "status": "partial",
   "theorems": [
    "OpenMDAO.C71_transparent_partial",
    "OpenMDAO.C71_collision_refuted",
    "OpenMDAO.C71_prefix_refuted"
   ],
   "note": "Colon names without digits, none inside another name. Refuted for names that become equal (C71_collision_refuted) and for a name inside another (C71_prefix_refuted)."
  },
  {
   "property": "C72",
   "status": "partial",
   "theorems": [
    "OpenMDAO.C72_derivative_partial",
    "OpenMDAO.C72_broadcast_refuted",
    "OpenMDAO.C72_elementwise",
    "OpenMDAO.C72_mismatch"
   ],
   "note": "Polynomial statements without broadcasting into the output. Refuted for broadcasting (C72_broadcast_refuted)."
  },
  {
   "property": "C73",
   "status": "partial",
   "theorems": [
    "OpenMDAO.C73_current_jacobian_partial",
    "OpenMDAO.C73_mode_switch_refuted"
   ],
   "note": "Solves in one mode and method since the last linearization; regular Jacobian; numpy/scipy assumed to solve regular systems. Refuted for a change of mode without a linearization (C73_mode_switch_refuted)."
  },
  {
   "property": "C74",
   "status": "partial",
   "theorems": [
    "OpenMDAO.C74_two_levels_partial",
    "OpenMDAO.C74_three_levels_refuted",
    "OpenMDAO.C74_counts_agree",
    "OpenMDAO.C74_array_first_refuted"
   ],
   "note": "Refuted for three or more levels (KeyError for a name with two suffixes) and for array data followed by another parameter; proved for two levels when only the last parameter has array data, including warm restart."
  },
  {
   "property": "C75",
   "status": "proved",
   "theorems": [
    "OpenMDAO.C75_satisfied_iff",
    "OpenMDAO.C75_no_comparator",
    "OpenMDAO.C75_double_equals",
    "OpenMDAO.C75_output"
   ],
   "note": "Arithmetic expressions (names, literals, + - * / **, parentheses, calls) as a grammar relation in Spec/Constraint; that float(text)==0 only for texts of value zero is a hypothesis."
  },
  {
   "property": "C76",
   "status": "partial",
   "theorems": [
    "OpenMDAO.C76_basis_partial",
    "OpenMDAO.C76_supported",
    "OpenMDAO.C76_one_dim_refuted",
    "OpenMDAO.C76_multiquadric_refuted",
    "OpenMDAO.C76_gradient_partial",
    "OpenMDAO.C76_interpolates",
    "OpenMDAO.C76_errors"
   ],
   "note": "Refuted for comp=1 with one input (wrong sign) and for comp=-3; proved for all others, at every point without ties of distances (comp=0: not at training points). Contracts: cKDTree returns the nearest points, spsolve solves regular systems. Real numbers."
  },
  {
   "property": "C77",
   "status": "partial",
   "theorems": [
    "OpenMDAO.C77_bounds",
    "OpenMDAO.C77_interpolates",
    "OpenMDAO.C77_gradient_partial",
    "OpenMDAO.C77_training_point_refuted",
    "OpenMDAO.C77_cache_refuted"
   ],
   "note": "Bounds and interpolation proved; the gradient refuted at training points and after a prediction with another number of neighbours, proved elsewhere. Natural exponents, real numbers."
  },
  {
   "property": "C78",
   "status": "partial",
   "theorems": [
    "OpenMDAO.C78_plane",
    "OpenMDAO.C78_reproduces",
    "OpenMDAO.C78_interpolates",
    "OpenMDAO.C78_gradient_partial",
    "OpenMDAO.C78_one_input_refuted"
   ],
   "note": "Contract of the singular value decomposition: a non-zero vector in the null space. Refuted for the gradient of several outputs of one input; the replacement for vertical normals is not modelled."
  },
  {
   "property": "C79",
   "status": "proved",
   "theorems": [
    "OpenMDAO.C79_jacobian"
   ],
   "note": ""
  },
  {
   "property": "C80",
   "status": "partial",
   "theorems": [
    "OpenMDAO.C80_training_error_partial",
    "OpenMDAO.C80_refuted"
   ],
   "note": "Equality is refuted (C80_refuted: two points, every nugget, decomposition and hyper-parameters). C80_training_error_partial bounds the root mean square error at the training points by the standard deviation times (1e-8 hi/lo)^2 + nug/lo, for singular values in [lo, hi] and nuggets up to nug."
  },
  {
   "property": "C81",
   "status": "proved",
   "theorems": [
    "OpenMDAO.C81_rescaling"
   ],
   "note": ""
  },
  {
   "property": "C82",
   "status": "partial",
   "theorems": [
    "OpenMDAO.C82_one_output_partial",
    "OpenMDAO.C82_two_outputs_refuted"
   ],
   "note": "Proved for one output (C82_one_output_partial); refuted for several (C82_two_outputs_refuted): the variance of an output sums the products with all outputs."
  },
  {
   "property": "C83",
   "status": "partial",
   "theorems": [
    "OpenMDAO.C83_determined_partial",
    "OpenMDAO.C83_untrained",
    "OpenMDAO.C83_integer_point",
    "OpenMDAO.C83_integer_refuted",
    "OpenMDAO.C83_failed_training_refuted"
   ],
   "note": "Refuted for integer points (C83_integer_refuted; C83_integer_point says what is predicted) and after failed trainings (C83_failed_training_refuted). Independence of earlier trainings (C83_determined_partial) and the refusal before any training (C83_untrained) hold."
  },
  {
   "property": "C84",
   "status": "partial",
   "theorems": [
    "OpenMDAO.C84_derivative_partial",
    "OpenMDAO.C84_units_refuted",
    "OpenMDAO.C84_handed_on_refuted"
   ],
   "note": "Proved for parameters without unit conversion and code that computes everything it assigns; refuted otherwise (C84_units_refuted, C84_handed_on_refuted)."
  },
  {
   "property": "C85",
   "status": "partial",
   "theorems": [
    "OpenMDAO.C85_vectors_partial",
    "OpenMDAO.C85_residuals_refuted"
   ],
   "note": "Unknowns always and residuals of components with states are unchanged; the residuals of explicit components become zero (C85_residuals_refuted)."
  },
  {
   "property": "C86",
   "status": "partial",
   "theorems": [
    "OpenMDAO.C86_converged_partial",
    "OpenMDAO.C86_converges",
    "OpenMDAO.C86_root_near_partial",
    "OpenMDAO.C86_lower_root_refuted"
   ],
   "note": "Proved unless the root is the lower bound; refuted there (C86_lower_root_refuted)."
  },
  {
   "property": "C87",
   "status": "proved",
   "theorems": [
    "OpenMDAO.C87_within_bounds",
    "OpenMDAO.C87_evaluations"
   ],
   "note": ""
  },
  {
   "property": "C88",
   "status": "partial",
   "theorems": [
    "OpenMDAO.C88_errors_reach_caller_partial",
    "OpenMDAO.C88_outcomes",
    "OpenMDAO.C88_setup",
    "OpenMDAO.C88_component_error_refuted"
   ],
   "note": "Exceptions other than RuntimeError reach the caller; RuntimeErrors are swallowed (C88_component_error_refuted)."
  },
  {
   "property": "C89",
   "status": "proved",
   "theorems": [
    "OpenMDAO.C89_jacobians",
    "OpenMDAO.C89_wrong_size",
    "OpenMDAO.C89_matrix_free",
    "OpenMDAO.C89_shape_accepted"
   ],
   "note": ""
  },
  {
   "property": "C90",
   "status": "proved",
   "theorems": [
    "OpenMDAO.C90_report",
    "OpenMDAO.C90_differences",
    "OpenMDAO.C90_gap",
    "OpenMDAO.C90_flags",
    "OpenMDAO.C90_relative_flags"
   ],
   "note": ""
  },
  {
   "property": "C91",
   "status": "proved",
   "theorems": [
    "OpenMDAO.C91_stateless"
   ],
   "note": ""
  },
  {
   "property": "C92",
   "status": "proved",
   "theorems": [
    "OpenMDAO.C92_run",
    "OpenMDAO.C92_run_plain",
    "OpenMDAO.C92_solution",
    "OpenMDAO.C92_converged"
   ],
   "note": ""
  },
  {
   "property": "C93",
   "status": "proved",
   "theorems": [
    "OpenMDAO.C93_err_on_maxiter",
    "OpenMDAO.C93_raises_iff"
   ],
   "note": ""
  },
  {
   "property": "C94",
   "status": "partial",
   "theorems": [
    "OpenMDAO.C94_user",
    "OpenMDAO.C94_error_iff",
    "OpenMDAO.C94_fd_partial",
    "OpenMDAO.C94_fd_refuted",
    "OpenMDAO.C94_gmres"
   ],
   "note": "False for a finite-differenced group and several variables of interest: only the first is solved for."
  },
  {
   "property": "C95",
   "status": "partial",
   "theorems": [
    "OpenMDAO.C95_unknown",
    "OpenMDAO.C95_unknown_size",
    "OpenMDAO.C95_unconnected",
    "OpenMDAO.C95_refused",
    "OpenMDAO.C95_get_unknown_name",
    "OpenMDAO.C95_get_no_value",
    "OpenMDAO.C95_unknown_is_copy",
    "OpenMDAO.C95_linked_inputs_partial",
    "OpenMDAO.C95_input_is_copy_refuted",
    "OpenMDAO.C95_two_roots_refuted",
    "OpenMDAO.C95_cycle_refuted"
   ],
   "note": "Partial: inputs connected with each other hang on one input that is not a target; refuted otherwise. The copy is refuted for inputs."
  },
  {
   "property": "C96",
   "status": "partial",
   "theorems": [
    "OpenMDAO.C96_no_errors_iff",
    "OpenMDAO.C96_value_errors_partial",
    "OpenMDAO.C96_nan_refuted",
    "OpenMDAO.C96_two_roots_refuted",
    "OpenMDAO.C96_linked_inputs_partial"
   ],
   "note": "Partial: NaN-free values and inputs that hang on one input; refuted otherwise."
  },
  {
   "property": "C97",
   "status": "partial",
   "theorems": [
    "OpenMDAO.C97_used_before_set",
    "OpenMDAO.C97_error_iff",
    "OpenMDAO.C97_not_yet_run_partial",
    "OpenMDAO.C97_self_connection_refuted"
   ],
   "note": "Partial: no component connected to itself; refuted otherwise."
  },
  {
   "property": "C98",
   "status": "partial",
   "theorems": [
    "OpenMDAO.C98_pattern",
    "OpenMDAO.C98_sparse_jacobian_partial",
    "OpenMDAO.C98_promoted_refuted",
    "OpenMDAO.C98_gradient_callback"
   ],
   "note": "Partial: parameters connected to the design variable must not be promoted; refuted otherwise (C98_promoted_refuted). Dependence of the constraint on the design variable only through connected parameters is a hypothesis."
  },
  {
   "property": "C99",
   "status": "partial",
   "theorems": [
    "OpenMDAO.C99_valid_responses",
    "OpenMDAO.C99_flag",
    "OpenMDAO.C99_analysis_error",
    "OpenMDAO.C99_gradient_analysis_error",
    "OpenMDAO.C99_gradient_failure_refuted",
    "OpenMDAO.C99_gradient_flag_partial"
   ],
   "note": "Partial: the gradient callback reports success after exceptions other than AnalysisError (C99_gradient_failure_refuted)."
  },
  {
   "property": "C100",
   "status": "partial",
   "theorems": [
    "OpenMDAO.C100_one_bound_partial",
    "OpenMDAO.C100_tolerance_kinds",
    "OpenMDAO.C100_row_partial",
    "OpenMDAO.C100_untouched",
    "OpenMDAO.C100_two_sided_refuted",
    "OpenMDAO.C100_equality_refuted",
    "OpenMDAO.C100_group_refuted"
   ],
   "note": "Partial: constraints with exactly one bound outside parallel groups; refuted for two-sided and equality constraints and for parallel groups."
  },
  {
   "property": "C101",
   "status": "partial",
   "theorems": [
    "OpenMDAO.C101_nonlinear",
    "OpenMDAO.C101_linear_partial",
    "OpenMDAO.C101_scaled_constant",
    "OpenMDAO.C101_offset_refuted"
   ],
   "note": "Partial: linear constraints without a constant term in scaled variables; refuted with one (C101_offset_refuted)."
  },
  {
   "property": "C102",
   "status": "proved",
   "theorems": [
    "OpenMDAO.C102_final_state",
    "OpenMDAO.C102_returns"
   ],
   "note": ""
  },
  {
   "property": "C103",
   "status": "proved",
   "theorems": [
    "OpenMDAO.C103_run",
    "OpenMDAO.C103_failed_run",
    "OpenMDAO.C103_returns",
    "OpenMDAO.C103_unreadable"
   ],
   "note": ""
  },
  {
   "property": "C104",
   "status": "partial",
   "theorems": [
    "OpenMDAO.C104_blocks",
    "OpenMDAO.C104_plain_driver_partial",
    "OpenMDAO.C104_stationary_partial",
    "OpenMDAO.C104_optimizer_refuted"
   ],
   "note": "False for optimizing drivers (C104_optimizer_refuted); proved for drivers that leave the design unchanged and for outputs stationary in the design."
  },
  {
   "property": "C105",
   "status": "proved",
   "theorems": [
    "OpenMDAO.C105_accepted",
    "OpenMDAO.C105_refused"
   ],
   "note": ""
  },
  {
   "property": "C106",
   "status": "partial",
   "theorems": [
    "OpenMDAO.C106_copied_partial",
    "OpenMDAO.C106_alias_loses",
    "OpenMDAO.C106_alias_refuted",
    "OpenMDAO.C106_newline_refuted",
    "OpenMDAO.C106_refused"
   ],
   "note": "False for one file under two names and for text files with carriage returns; proved otherwise."
  },
  {
   "property": "C107",
   "status": "partial",
   "theorems": [
    "OpenMDAO.C107_returns_iff",
    "OpenMDAO.C107_errors",
    "OpenMDAO.C107_outputs_new_partial",
    "OpenMDAO.C107_stale_refuted"
   ],
   "note": "The iff and the error classes are proved in full; that the output files are those of this run is false for files left by an earlier run."
  },
  {
   "property": "C108",
   "status": "proved",
   "theorems": [
    "OpenMDAO.C108_finished",
    "OpenMDAO.C108_stopped",
    "OpenMDAO.C108_forever",
    "OpenMDAO.C108_default_delay"
   ],
   "note": ""
  },
  {
   "property": "C109",
   "status": "proved",
   "theorems": [
    "OpenMDAO.C109_found",
    "OpenMDAO.C109_once"
   ],
   "note": ""
  },
  {
   "property": "C110",
   "status": "partial",
   "theorems": [
    "OpenMDAO.C110_nearest_partial",
    "OpenMDAO.C110_missing_start",
    "OpenMDAO.C110_relative_refuted"
   ],
   "note": "False for relative start directories; proved for absolute ones."
  },
  {
   "property": "C111",
   "status": "partial",
   "theorems": [
    "OpenMDAO.C111_cycles_partial",
    "OpenMDAO.C111_states_partial",
    "OpenMDAO.C111_complex_step_partial",
    "OpenMDAO.C111_second_setup_refuted",
    "OpenMDAO.C111_self_feedback_refuted"
   ],
   "note": "Proved for problems that are not sub-problems; false for a sub-problem set up again and for a component connected to itself."
  },
  {
   "property": "C112",
   "status": "proved",
   "theorems": [
    "OpenMDAO.C112_reported_iff",
    "OpenMDAO.C112_clean_iff",
    "OpenMDAO.C112_checkGraph_clean"
   ],
   "note": ""
  },
  {
   "property": "C113",
   "status": "partial",
   "theorems": [
    "OpenMDAO.C113_first_setup_partial",
    "OpenMDAO.C113_user_order",
    "OpenMDAO.C113_second_setup_refuted"
   ],
   "note": "Proved for the first setup; false for later setups with changed connections."
  },
  {
   "property": "C114",
   "status": "proved",
   "theorems": [
    "OpenMDAO.C114_ranks",
    "OpenMDAO.C114_no_deadlock",
    "OpenMDAO.C114_terminates",
    "OpenMDAO.C114_outcome",
    "OpenMDAO.C114_all_recorded"
   ],
   "note": ""
  },
  {
   "property": "C115",
   "status": "partial",
   "theorems": [
    "OpenMDAO.C115_fixed_partial",
    "OpenMDAO.C115_fixed_terminates",
    "OpenMDAO.C115_fatal_with_dummies_refuted",
    "OpenMDAO.C115_parallel_recorder_refuted",
    "OpenMDAO.C115_load_balanced_refuted"
   ],
   "note": "Proved with a fixed distribution when no process gets a dummy case, or when no case raises a fatal error and the recorders are serial, provided the other processes of each group have as many cases as any; false otherwise and with load balancing."
  },
  {
   "property": "C116",
   "status": "partial",
   "theorems": [
    "OpenMDAO.C116_array_partial",
    "OpenMDAO.C116_dict_partial",
    "OpenMDAO.C116_affine_partial",
    "OpenMDAO.C116_method",
    "OpenMDAO.C116_overlap_refuted",
    "OpenMDAO.C116_repeated_refuted",
    "OpenMDAO.C116_unconnected_refuted"
   ],
   "note": "Proved for distinct independent variables that are connected and are not themselves requested as unknowns, and, in dict format, for distinct unknowns; false otherwise."
  },
  {
   "property": "C117",
   "status": "partial",
   "theorems": [
    "OpenMDAO.C117_fields_partial",
    "OpenMDAO.C117_var_partial",
    "OpenMDAO.C117_no_row",
    "OpenMDAO.C117_blank",
    "OpenMDAO.C117_round_trip_partial",
    "OpenMDAO.C117_negative_exponent_refuted",
    "OpenMDAO.C117_minus_inf_refuted",
    "OpenMDAO.C117_split_refuted",
    "OpenMDAO.C117_tab_refuted"
   ],
   "note": "Proved for words with a value in the sense of Spec/FileParse.lean and delimiters that are no letters, digits or one of . # %; false for signed numbers with exponent and no point, -Inf, words with a numeric prefix, and tabs as only delimiter."
  },
  {
   "property": "C118",
   "status": "partial",
   "theorems": [
    "OpenMDAO.C118_forward_partial",
    "OpenMDAO.C118_offset_partial",
    "OpenMDAO.C118_missing",
    "OpenMDAO.C118_backward_partial",
    "OpenMDAO.C118_anchored_refuted",
    "OpenMDAO.C118_backward_missing_refuted",
    "OpenMDAO.C118_zero"
   ],
   "note": "Proved forward from any anchor and backward without anchor; false backward from an anchor."
  },
  {
   "property": "C119",
   "status": "partial",
   "theorems": [
    "OpenMDAO.C119_array_partial",
    "OpenMDAO.C119_one_row_partial",
    "OpenMDAO.C119_no_end",
    "OpenMDAO.C119_short_file_refuted",
    "OpenMDAO.C119_matrix_partial",
    "OpenMDAO.C119_short_row_refuted",
    "OpenMDAO.C119_text_row_refuted",
    "OpenMDAO.C119_missing_rows_refuted",
    "OpenMDAO.C119_order",
    "OpenMDAO.C119_zero_end",
    "OpenMDAO.C119_beyond"
   ],
   "note": "Proved for regular blocks inside the file; ragged rows, texts and missing rows are not reported."
  },
  {
   "property": "C120",
   "status": "partial",
   "theorems": [
    "OpenMDAO.C120_eol_partial",
    "OpenMDAO.C120_none",
    "OpenMDAO.C120_full_line_refuted",
    "OpenMDAO.C120_blank_line_refuted"
   ],
   "note": "Proved if an end-of-line comment character is given or none at all; false with only a full-line comment character."
  },
  {
   "property": "C121",
   "status": "partial",
   "theorems": [
    "OpenMDAO.C121_groups_partial",
    "OpenMDAO.C121_same_partial",
    "OpenMDAO.C121_size_error",
    "OpenMDAO.C121_solver_refuted",
    "OpenMDAO.C121_part_refuted",
    "OpenMDAO.C121_mode_refuted"
   ],
   "note": "Proved for requests of whole groups, with LinearGaussSeidel at the root if a group has several members, in the mode that setup prepared; false otherwise. Dict format, one process."
  },
  {
   "property": "C122",
   "status": "partial",
   "theorems": [
    "OpenMDAO.C122_leaves_out_partial",
    "OpenMDAO.C122_inactive_group_refuted",
    "OpenMDAO.C122_inactive_solved_refuted"
   ],
   "note": "Proved when the constraints of a group are inactive together; false otherwise."
  },
  {
   "property": "C123",
   "status": "partial",
   "theorems": [
    "OpenMDAO.C123_history_partial",
    "OpenMDAO.C123_name_partial",
    "OpenMDAO.C123_library",
    "OpenMDAO.C123_sound",
    "OpenMDAO.C123_unparsed",
    "OpenMDAO.C123_history_refuted",
    "OpenMDAO.C123_valid_refuted",
    "OpenMDAO.C123_number_refuted"
   ],
   "note": "Proved for names with one reading; library names, soundness and unparsable strings without that restriction. False otherwise."
  },
  {
   "property": "C124",
   "status": "partial",
   "theorems": [
    "OpenMDAO.C124_any_order_partial",
    "OpenMDAO.C124_holds_partial",
    "OpenMDAO.C124_python3_refuted",
    "OpenMDAO.C124_offset_refuted"
   ],
   "note": "Proved for definitions by expression and unknown names raising NameError."
  },
  {
   "property": "C125",
   "status": "partial",
   "theorems": [
    "OpenMDAO.C125_same_unit",
    "OpenMDAO.C125_name_partial",
    "OpenMDAO.C125_cancelled_refuted",
    "OpenMDAO.C125_offset_refuted"
   ],
   "note": "Proved for expressions of units without offset in which some unit is left and numbers are not zero."
  },
  {
   "property": "C126",
   "status": "partial",
   "theorems": [
    "OpenMDAO.C126_eq_partial",
    "OpenMDAO.C126_lt_partial",
    "OpenMDAO.C126_mul",
    "OpenMDAO.C126_div",
    "OpenMDAO.C126_pow",
    "OpenMDAO.C126_base_partial",
    "OpenMDAO.C126_eq_refuted",
    "OpenMDAO.C126_lt_refuted",
    "OpenMDAO.C126_base_refuted"
   ],
   "note": "Equality, order and base units proved for units without offset (base units: with a dimension); products, quotients and powers proved in full."
  },
  {
   "property": "C127",
   "status": "partial",
   "theorems": [
    "OpenMDAO.C127_desvars",
    "OpenMDAO.C127_outputs_partial",
    "OpenMDAO.C127_declare_partial",
    "OpenMDAO.C127_both_refuted",
    "OpenMDAO.C127_iterator_refuted",
    "OpenMDAO.C127_serial"
   ],
   "note": "Design variables in full; outputs if no variable is objective and constraint; declaration for lists of names."
  },
  {
   "property": "C128",
   "status": "partial",
   "theorems": [
    "OpenMDAO.C128_fwd_partial",
    "OpenMDAO.C128_rev_partial",
    "OpenMDAO.C128_fd_partial",
    "OpenMDAO.C128_indices_partial",
    "OpenMDAO.C128_fwd_refuted",
    "OpenMDAO.C128_rev_refuted",
    "OpenMDAO.C128_fd_refuted",
    "OpenMDAO.C128_both_refuted"
   ],
   "note": "Proved if the design variable (forward) or the response (reverse, finite differences) has one scale factor; false otherwise."
  },
  {
   "property": "C129",
   "status": "proved",
   "theorems": [
    "OpenMDAO.C129_params",
    "OpenMDAO.C129_unknowns"
   ],
   "note": "Both selections in full."
  },
  {
   "property": "C130",
   "status": "partial",
   "theorems": [
    "OpenMDAO.C130_quotients_partial",
    "OpenMDAO.C130_affine_partial",
    "OpenMDAO.C130_inner_refuted",
    "OpenMDAO.C130_clash_refuted"
   ],
   "note": "For inputs from outside whose relative name is not an absolute name elsewhere; exact arithmetic."
  },
  {
   "property": "C131",
   "status": "partial",
   "theorems": [
    "OpenMDAO.C131_fwd_partial",
    "OpenMDAO.C131_rev_partial",
    "OpenMDAO.C131_fwd_refuted",
    "OpenMDAO.C131_rev_refuted"
   ],
   "note": "For a variable of interest that is first in its set, or if no child is finite differenced."
  },
  {
   "property": "C132",
   "status": "partial",
   "theorems": [
    "OpenMDAO.C132_interpolates_partial",
    "OpenMDAO.C132_form_partial",
    "OpenMDAO.C132_optimizer_refuted"
   ],
   "note": "For given correlation parameters and exact arithmetic. Interpolation is stated without the nugget; with the nugget the predictor has the stated form and reproduces the data up to nugget times its weights (C132_form_partial, two levels or more). Refuted for parameters found by the optimizer."
  },
  {
   "property": "C133",
   "status": "partial",
   "theorems": [
    "OpenMDAO.C133_nonneg_partial",
    "OpenMDAO.C133_total_partial"
   ],
   "note": "For given correlation parameters, exact arithmetic."
  },
  {
   "property": "C134",
   "status": "partial",
   "theorems": [
    "OpenMDAO.C134_blup_partial"
   ],
   "note": "For given correlation parameters, exact arithmetic."
  },
  {
   "property": "C135",
   "status": "partial",
   "theorems": [
    "OpenMDAO.C135_rescale_partial"
   ],
   "note": "For given correlation parameters, exact arithmetic."
  },
  {
   "property": "C136",
   "status": "proved",
   "theorems": [
    "OpenMDAO.C136_trains_iff"
   ],
   "note": "The claim itself is about given correlation parameters. Exact arithmetic."
  },
  {
   "property": "C137",
   "status": "partial",
   "theorems": [
    "OpenMDAO.C137_frozen",
    "OpenMDAO.C137_levels",
    "OpenMDAO.C137_retrain_partial",
    "OpenMDAO.C137_history_refuted"
   ],
   "note": "For given correlation parameters and the same number of levels. Otherwise refuted."
  },
  {
   "property": "C138",
   "status": "partial",
   "theorems": [
    "OpenMDAO.C138_shapes_partial",
    "OpenMDAO.C138_lowest_refuted"
   ],
   "note": "For all levels except the lowest; refuted for the lowest."
  },
  {
   "property": "C139",
   "status": "partial",
   "theorems": [
    "OpenMDAO.C139_roundtrip_partial",
    "OpenMDAO.C139_written",
    "OpenMDAO.C139_exponent_refuted",
    "OpenMDAO.C139_exclamation_refuted",
    "OpenMDAO.C139_quote_refuted",
    "OpenMDAO.C139_lists_refuted",
    "OpenMDAO.C139_shape_refuted",
    "OpenMDAO.C139_underscore_refuted",
    "OpenMDAO.C139_title_refuted",
    "OpenMDAO.C139_comment_refuted",
    "OpenMDAO.C139_nan_refuted",
    "OpenMDAO.C139_delimiters_refuted",
    "OpenMDAO.C139_ragged_rows"
   ],
   "note": "False of the code for ten kinds of values and names (refuted theorems); C139_roundtrip_partial proves the claim for all decks whose names are alphanumeric, numbers are written in a notation with a point or without sign and exponent alone, strings have no quotes or exclamation marks, arrays have at least two elements or rows."
  },
  {
   "property": "C140",
   "status": "partial",
   "theorems": [
    "OpenMDAO.C140_empty",
    "OpenMDAO.C140_unlisted",
    "OpenMDAO.C140_values",
    "OpenMDAO.C140_unlinked",
    "OpenMDAO.C140_accounted",
    "OpenMDAO.C140_last",
    "OpenMDAO.C140_errors",
    "OpenMDAO.C140_single",
    "OpenMDAO.C140_before_setup_refuted"
   ],
   "note": "True except that before setup a number for an array is not made an array (C140_before_setup_refuted). The other theorems hold for all files, rules and params."
  },
  {
   "property": "C141",
   "status": "partial",
   "theorems": [
    "OpenMDAO.C141_find_partial",
    "OpenMDAO.C141_errors",
    "OpenMDAO.C141_second_refuted"
   ],
   "note": "Refuted for a file with two groups of the same name; C141_find_partial says exactly what is found."
  },
  {
   "property": "C142",
   "status": "proved",
   "theorems": [
    "OpenMDAO.C142_lines",
    "OpenMDAO.C142_one_line"
   ],
   "note": "Layouts as listed in Spec/NamelistHand: several numeric cards on a line, continuation lines, repeat counts, first indices, one-line groups; strings and truth values in such lines are not covered. Findings: counts of zero, names that begin with Inf/NaN, a scalar continued by several numbers."
  },
  {
   "property": "C143",
   "status": "proved",
   "theorems": [
    "OpenMDAO.C143_sources",
    "OpenMDAO.C143_errors",
    "OpenMDAO.C143_calls",
    "OpenMDAO.C143_call_errors"
   ],
   "note": "Iterators and negative integers as src_indices are not modelled; subgroups share no params because absolute names begin with the path of the group."
  },
  {
   "property": "C144",
   "status": "partial",
   "theorems": [
    "OpenMDAO.C144_params_partial",
    "OpenMDAO.C144_errors",
    "OpenMDAO.C144_two_dimensional_refuted",
    "OpenMDAO.C144_rows_refuted",
    "OpenMDAO.C144_number_refuted"
   ],
   "note": "Holds for one-dimensional sources and for connections without indices. Refuted for sources of two dimensions (rows are taken instead of entries) and for numbers (TypeError). Empty index lists give a float array in numpy, not modelled."
  },
  {
   "property": "C145",
   "status": "partial",
   "theorems": [
    "OpenMDAO.C145_nodes",
    "OpenMDAO.C145_totals",
    "OpenMDAO.C145_root_partial",
    "OpenMDAO.C145_root_refuted",
    "OpenMDAO.C145_exception_refuted"
   ],
   "note": "Executions whose profiled calls end without an exception: nodes and totals proved, the root's time is the sum of its children less their overheads (C145_root_partial), which refutes the claim for the root; exceptions refute it (KeyError)."
  },
  {
   "property": "C146",
   "status": "partial",
   "theorems": [
    "OpenMDAO.C146_grand",
    "OpenMDAO.C146_calls",
    "OpenMDAO.C146_partial",
    "OpenMDAO.C146_ranks_refuted"
   ],
   "note": "Proved for the names as they are shown, hence for one process; refuted for several processes, where the shown names end with the rank."
  },
  {
   "property": "C147",
   "status": "partial",
   "theorems": [
    "OpenMDAO.C147_shown",
    "OpenMDAO.C147_list",
    "OpenMDAO.C147_target_text",
    "OpenMDAO.C147_source_text",
    "OpenMDAO.C147_by_comp",
    "OpenMDAO.C147_var_partial",
    "OpenMDAO.C147_absolute",
    "OpenMDAO.C147_twice_refuted"
   ],
   "note": "Tables proved for systems, for components and for absolute names; for other names only if no connection has both ends among the matching variables (refuted otherwise). fnmatch is a parameter. Names contain no blanks, as add_param and add_output ensure."
  },
  {
   "property": "C148",
   "status": "partial",
   "theorems": [
    "OpenMDAO.C148_lists",
    "OpenMDAO.C148_unconnected_line",
    "OpenMDAO.C148_outside_line_partial",
    "OpenMDAO.C148_outside_line_top",
    "OpenMDAO.C148_line_refuted"
   ],
   "note": "The returned lists are proved; the printed names of params fed from outside are right only if they begin with a character that is not in the path (refuted otherwise)."
  },
  {
   "property": "C149",
   "status": "proved",
   "theorems": [
    "OpenMDAO.C149_units"
   ],
   "note": "The remark about variables passed by object in the printed lines is not modelled."
  },
  {
   "property": "C150",
   "status": "proved",
   "theorems": [
    "OpenMDAO.C150_dangling",
    "OpenMDAO.C150_no_unknowns",
    "OpenMDAO.C150_no_connections"
   ],
   "note": "Recorders, MPI, solver and driver reports are not modelled here; cycles and order are C112, mode C60."
  },
  {
   "property": "C151",
   "status": "proved",
   "theorems": [
    "OpenMDAO.C151_setup"
   ],
   "note": "Cached scalers are C128."
  },
  {
   "property": "C152",
   "status": "partial",
   "theorems": [
    "OpenMDAO.C152_result",
    "OpenMDAO.C152_report_partial",
    "OpenMDAO.C152_report_refuted"
   ],
   "note": "The result is proved; the report is refuted for promoted variables."
  },
  {
   "property": "C153",
   "status": "partial",
   "theorems": [
    "OpenMDAO.C153_kept",
    "OpenMDAO.C153_derivs_stored",
    "OpenMDAO.C153_case_partial",
    "OpenMDAO.C153_status_refuted",
    "OpenMDAO.C153_success_stored",
    "OpenMDAO.C153_repeated",
    "OpenMDAO.C153_derivs_first",
    "OpenMDAO.C153_not_numeric",
    "OpenMDAO.C153_derivs_type",
    "OpenMDAO.C153_by_number",
    "OpenMDAO.C153_order_refuted"
   ],
   "note": "The values of the three vectors are read back for all histories (C153_case_partial); the file also holds the flag and the derivatives (C153_success_stored, C153_derivs_stored), but every case that is read back lacks them (C153_status_refuted), and cases are numbered alphabetically instead of in order of the run (C153_by_number, C153_order_refuted). Nothing stored is changed (C153_kept), a repeated key raises ValueError (C153_repeated), the other errors are C153_not_numeric, C153_derivs_first, C153_derivs_type."
  },
  {
   "property": "C154",
   "status": "partial",
   "theorems": [
    "OpenMDAO.C154_responses_partial",
    "OpenMDAO.C154_arrays_shared",
    "OpenMDAO.C154_array_params_shared",
    "OpenMDAO.C154_arrays_refuted",
    "OpenMDAO.C154_add_response"
   ],
   "note": "Proved for responses that are scalars, have converted units or are passed by object (C154_responses_partial); false for arrays, whose responses are views that all show the current values of the model (C154_arrays_shared, C154_arrays_refuted). C154_add_response is about adding responses."
  },
  {
   "property": "C155",
   "status": "partial",
   "theorems": [
    "OpenMDAO.C155_settings_partial",
    "OpenMDAO.C155_read_refuted",
    "OpenMDAO.C155_order_refuted"
   ],
   "note": "What each assignment does and what is read afterwards, for all sequences (C155_settings_partial); the type of derivatives depends on the order (C155_order_refuted), and the form complex_step and extra_check_partials_form cannot be read back (C155_read_refuted)."
  },
  {
   "property": "C156",
   "status": "partial",
   "theorems": [
    "OpenMDAO.C156_message_partial",
    "OpenMDAO.C156_named",
    "OpenMDAO.C156_once",
    "OpenMDAO.C156_other",
    "OpenMDAO.C156_silent",
    "OpenMDAO.C156_quiet",
    "OpenMDAO.C156_remote_refuted"
   ],
   "note": "The message for all hierarchies whose reporting solver has no remote scalar parameters (C156_message_partial, C156_named), errors reported on already, other exceptions, solvers without the decorator and runs without errors (C156_once, C156_other, C156_silent, C156_quiet); with a remote scalar parameter the error is hidden by a TypeError (C156_remote_refuted)."
  },
  {
   "property": "C157",
   "status": "proved",
   "theorems": [
    "OpenMDAO.C157_blanks",
    "OpenMDAO.C157_system",
    "OpenMDAO.C157_text"
   ],
   "note": "Blanks, the system, and the text (C157_blanks, C157_system, C157_text)."
  },
  {
   "property": "C158",
   "status": "partial",
   "theorems": [
    "OpenMDAO.C158_serial_partial",
    "OpenMDAO.C158_serial_others",
    "OpenMDAO.C158_parallel_partial",
    "OpenMDAO.C158_one_owner",
    "OpenMDAO.C158_mixed_refuted",
    "OpenMDAO.C158_subgroup_refuted"
   ],
   "note": "Serial recorders of systems that run on the first process, and parallel recorders, for all numbers of processes (C158_serial_partial, C158_serial_others, C158_parallel_partial, C158_one_owner); mixed recorders lose data or fail (C158_mixed_refuted), and serial recorders of groups on other processes write nothing (C158_subgroup_refuted). Parallel designs of experiments are not covered here."
  },
  {
   "property": "C159",
   "status": "partial",
   "theorems": [
    "OpenMDAO.C159_iteration_partial",
    "OpenMDAO.C159_derivs_partial",
    "OpenMDAO.C159_failed_refuted",
    "OpenMDAO.C159_failed",
    "OpenMDAO.C159_files",
    "OpenMDAO.C159_directory_partial",
    "OpenMDAO.C159_directory_refuted"
   ],
   "note": "Iterations that succeeded, derivatives, and files (C159_iteration_partial, C159_derivs_partial, C159_files, C159_directory_partial); failed iterations lose the line about success (C159_failed_refuted, C159_failed), and a dot in the directory alone moves the file (C159_directory_refuted)."
  },
  {
   "property": "C160",
   "status": "partial",
   "theorems": [
    "OpenMDAO.C160_pairs_partial",
    "OpenMDAO.C160_reduced_partial",
    "OpenMDAO.C160_silent_refuted",
    "OpenMDAO.C160_run_fails",
    "OpenMDAO.C160_zero"
   ],
   "note": "Pairs, modes and errors for every model in which calc_gradient succeeds (C160_pairs_partial, C160_reduced_partial, C160_zero, C160_run_fails); out_stream=None fails before the first run (C160_silent_refuted). calc_gradient itself is C34, C35 and C116."
  },
  {
   "property": "C161",
   "status": "partial",
   "theorems": [
    "OpenMDAO.C161_criterion",
    "OpenMDAO.C161_finite",
    "OpenMDAO.C161_search",
    "OpenMDAO.C161_driver_partial",
    "OpenMDAO.C161_distinct",
    "OpenMDAO.C161_all_refuted"
   ],
   "note": "Criterion, search and distinct points in full (C161_criterion, C161_finite, C161_search, C161_distinct); the design is not worse than the random one for one of the q (C161_driver_partial), but it can be worse for others (C161_all_refuted). Norms with a finite order only."
  },
  {
   "property": "C162",
   "status": "partial",
   "theorems": [
    "OpenMDAO.C162_solution",
    "OpenMDAO.C162_raises_iff",
    "OpenMDAO.C162_report_partial",
    "OpenMDAO.C162_converged_refuted",
    "OpenMDAO.C162_silent_refuted",
    "OpenMDAO.C162_norms"
   ],
   "note": "Answers, exceptions and printed norms in full (C162_solution, C162_raises_iff, C162_norms). The report is correct for runs that reach the limit and, for runs that are not reported as FAILED, up to a breakdown (C162_report_partial); a converged run can be reported as failed (C162_converged_refuted) and a breakdown as converged (C162_silent_refuted). PETSc is a parameter; its promise is KspContract."
  },
  {
   "property": "C163",
   "status": "partial",
   "theorems": [
    "OpenMDAO.C163_delivers_partial",
    "OpenMDAO.C163_terminates",
    "OpenMDAO.C163_deadlock_refuted"
   ],
   "note": "Proved for values that MPI buffers (C163_delivers_partial, C163_terminates); with a value that is sent synchronously the transfer never ends (C163_deadlock_refuted). Every source has to be local somewhere; targets are distinct."
  },
  {
   "property": "C164",
   "status": "partial",
   "theorems": [
    "OpenMDAO.C164_enough",
    "OpenMDAO.C164_one_communicator",
    "OpenMDAO.C164_unit_partial",
    "OpenMDAO.C164_fd_partial",
    "OpenMDAO.C164_raises_refuted",
    "OpenMDAO.C164_hangs_refuted",
    "OpenMDAO.C164_fd_in_parallel",
    "OpenMDAO.C164_fd_in_parallel_refuted"
   ],
   "note": "Sound and consistent for every tree; success only for unit requirements or without parallel groups. The full claim is refuted (C164_raises_refuted, C164_hangs_refuted, C164_fd_in_parallel_refuted)."
  },
  {
   "property": "C165",
   "status": "partial",
   "theorems": [
    "OpenMDAO.C165_local_partial",
    "OpenMDAO.C165_idle_refuted"
   ],
   "note": "Holds when every parallel group has an unbounded component; refuted in general by C165_idle_refuted."
  },
  {
   "property": "C166",
   "status": "partial",
   "theorems": [
    "OpenMDAO.C166_alloc",
    "OpenMDAO.C166_no_history_partial",
    "OpenMDAO.C166_value_partial",
    "OpenMDAO.C166_alloc_history_partial",
    "OpenMDAO.C166_entries",
    "OpenMDAO.C166_alloc_value",
    "OpenMDAO.C166_stale_refuted",
    "OpenMDAO.C166_fd_overwritten_refuted",
    "OpenMDAO.C166_type_refuted"
   ],
   "note": "Holds for methods with their own dictionary and for methods that set every entry set before; refuted in general by C166_stale_refuted, C166_fd_overwritten_refuted and C166_type_refuted."
  },
  {
   "property": "C167",
   "status": "partial",
   "theorems": [
    "OpenMDAO.C167_residuals_partial",
    "OpenMDAO.C167_history_partial",
    "OpenMDAO.C167_run_once_partial",
    "OpenMDAO.C167_apply_keeps",
    "OpenMDAO.C167_self_refuted",
    "OpenMDAO.C167_newton_refuted",
    "OpenMDAO.C167_aitken_refuted"
   ],
   "note": "Holds without connections of a component to itself, without Aitken relaxation and with solve_subsystems for Newton; refuted otherwise by C167_self_refuted, C167_newton_refuted and C167_aitken_refuted."
  },
  {
   "property": "C168",
   "status": "partial",
   "theorems": [
    "OpenMDAO.C168_sweep_partial",
    "OpenMDAO.C168_components",
    "OpenMDAO.C168_first_sweep",
    "OpenMDAO.C168_reverse_sweep",
    "OpenMDAO.C168_feed_forward",
    "OpenMDAO.C168_norm_vector",
    "OpenMDAO.C168_reverse_block",
    "OpenMDAO.C168_converged_partial",
    "OpenMDAO.C168_wrong_convergence_refuted",
    "OpenMDAO.C168_unpromoted_refuted",
    "OpenMDAO.C168_indep_refuted",
    "OpenMDAO.C168_clash_refuted"
   ],
   "note": "Sweeps: proved in reverse mode, for the first forward sweep, and without a clash of names. Reported convergence: proved when outputs are promoted (and no IndepVarComp in reverse mode). Refuted otherwise by four witnesses."
  },
  {
   "property": "C169",
   "status": "partial",
   "theorems": [
    "OpenMDAO.C169_names",
    "OpenMDAO.C169_scope_partial",
    "OpenMDAO.C169_complete",
    "OpenMDAO.C169_outside_refuted",
    "OpenMDAO.C169_fd_group_refuted"
   ],
   "note": "Names proved; independence proved for components with at least one input from inside the group; refuted for components with inputs from outside only and for finite-differenced child groups."
  },
  {
   "property": "C170",
   "status": "partial",
   "theorems": [
    "OpenMDAO.C170_any_order",
    "OpenMDAO.C170_before_run",
    "OpenMDAO.C170_explicit",
    "OpenMDAO.C170_same_as_group_partial",
    "OpenMDAO.C170_runs",
    "OpenMDAO.C170_residuals_partial",
    "OpenMDAO.C170_same_as_group_refuted",
    "OpenMDAO.C170_residuals_refuted"
   ],
   "note": "Order independence and the values used are proved; equality with a Group is proved for unconnected subsystems and refuted for connected ones; residuals are proved for components directly in the ParallelGroup and refuted for connected sub-groups."
  },
  {
   "property": "C171",
   "status": "proved",
   "theorems": [
    "OpenMDAO.C171_least_squares",
    "OpenMDAO.C171_exact",
    "OpenMDAO.C171_trained",
    "OpenMDAO.C171_again"
   ],
   "note": ""
  },
  {
   "property": "C172",
   "status": "partial",
   "theorems": [
    "OpenMDAO.C172_setup",
    "OpenMDAO.C172_train_run",
    "OpenMDAO.C172_later_run",
    "OpenMDAO.C172_failed_training",
    "OpenMDAO.C172_bad_data",
    "OpenMDAO.C172_missing",
    "OpenMDAO.C172_default_untouched",
    "OpenMDAO.C172_default_partial",
    "OpenMDAO.C172_changed_data_refuted",
    "OpenMDAO.C172_shared_refuted"
   ],
   "note": "Proved for components whose outputs do not share a surrogate object. Changed training data do not cause a retraining (C172_changed_data_refuted); a shared surrogate predicts both outputs from the last training (C172_shared_refuted)."
  },
  {
   "property": "C173",
   "status": "proved",
   "theorems": [
    "OpenMDAO.C173_subsystems",
    "OpenMDAO.C173_split",
    "OpenMDAO.C173_pathnames"
   ],
   "note": ""
  },
  {
   "property": "C174",
   "status": "partial",
   "theorems": [
    "OpenMDAO.C174_run_partial",
    "OpenMDAO.C174_linearize",
    "OpenMDAO.C174_residuals",
    "OpenMDAO.C174_gradient_partial",
    "OpenMDAO.C174_stops",
    "OpenMDAO.C174_residuals_refuted",
    "OpenMDAO.C174_newton_refuted",
    "OpenMDAO.C174_gradient_refuted",
    "OpenMDAO.C174_second_setup_refuted",
    "OpenMDAO.C174_runs"
   ],
   "note": "Partial: residuals are evaluated outside the directory of the component, a context that is entered twice does not come back, and a directory taken away is still entered (four refutations)."
  },
  {
   "property": "C175",
   "status": "partial",
   "theorems": [
    "OpenMDAO.C175_declared",
    "OpenMDAO.C175_accepted",
    "OpenMDAO.C175_single",
    "OpenMDAO.C175_malformed_partial",
    "OpenMDAO.C175_refused",
    "OpenMDAO.C175_empty_tuple_refuted",
    "OpenMDAO.C175_keywords_refuted"
   ],
   "note": "Partial: elements that count as false raise another error, keywords beside an iterable are dropped (two refutations)."
  },
  {
   "property": "C176",
   "status": "partial",
   "theorems": [
    "OpenMDAO.C176_rows",
    "OpenMDAO.C176_once",
    "OpenMDAO.C176_sources",
    "OpenMDAO.C176_source_values",
    "OpenMDAO.C176_values_partial",
    "OpenMDAO.C176_made",
    "OpenMDAO.C176_rows_taken_refuted",
    "OpenMDAO.C176_scalar_refuted",
    "OpenMDAO.C176_subsystem_refuted",
    "OpenMDAO.C176_unconnected_refuted"
   ],
   "note": "Partial: indices into sources that are not arrays of one dimension, systems below the root, and the values of unconnected parameters (four refutations)."
  },
  {
   "property": "C177",
   "status": "proved",
   "theorems": [
    "OpenMDAO.C177_changes",
    "OpenMDAO.C177_kept",
    "OpenMDAO.C177_built",
    "OpenMDAO.C177_contents"
   ],
   "note": ""
  },
  {
   "property": "C178",
   "status": "partial",
   "theorems": [
    "OpenMDAO.C178_reported_partial",
    "OpenMDAO.C178_sound",
    "OpenMDAO.C178_together_partial",
    "OpenMDAO.C178_names",
    "OpenMDAO.C178_option_refuted"
   ],
   "note": "false of the code as stated: the check is skipped without single_voi_relevance_reduction (C178_option_refuted); proved with the option"
  },
  {
   "property": "C179",
   "status": "partial",
   "theorems": [
    "OpenMDAO.C179_number",
    "OpenMDAO.C179_fits",
    "OpenMDAO.C179_seed",
    "OpenMDAO.C179_models_partial",
    "OpenMDAO.C179_prefix",
    "OpenMDAO.C179_shared_refuted"
   ],
   "note": "false of the code for models that draw random numbers themselves (C179_shared_refuted); proved for all others, and number, order and bounds of the samples for all models"
  },
  {
   "property": "C180",
   "status": "partial",
   "theorems": [
    "OpenMDAO.C180_all_partial",
    "OpenMDAO.C180_only",
    "OpenMDAO.C180_refused",
    "OpenMDAO.C180_newton_refuted"
   ],
   "note": "false of the code for solvers inside the linear solver of a Newton (C180_newton_refuted); proved for all others"
  },
  {
   "property": "C181",
   "status": "partial",
   "theorems": [
    "OpenMDAO.C181_command_partial",
    "OpenMDAO.C181_files",
    "OpenMDAO.C181_agree_partial",
    "OpenMDAO.C181_solve",
    "OpenMDAO.C181_string_refuted",
    "OpenMDAO.C181_string_missed_refuted"
   ],
   "note": "false of the code for commands that are strings (C181_string_refuted, C181_string_missed_refuted); proved for lists"
  },
  {
   "property": "C182",
   "status": "partial",
   "theorems": [
    "OpenMDAO.C182_after_partial",
    "OpenMDAO.C182_plain",
    "OpenMDAO.C182_first_refuted",
    "OpenMDAO.C182_first"
   ],
   "note": "false of the code after the first setup for components in sub-problems (C182_first_refuted); proved for components below k sub-problems after more than k setups"
  },
  {
   "property": "C183",
   "status": "partial",
   "theorems": [
    "OpenMDAO.C183_single",
    "OpenMDAO.C183_accepted_partial",
    "OpenMDAO.C183_refused",
    "OpenMDAO.C183_levels",
    "OpenMDAO.C183_length_refuted"
   ],
   "note": "false of the code for several start values of another number than the inputs without both bounds (C183_length_refuted); proved for all other arguments (C183_accepted_partial), and for one start value that stands for all inputs (C183_single)"
  },
  {
   "property": "C184",
   "status": "partial",
   "theorems": [
    "OpenMDAO.C184_made_partial",
    "OpenMDAO.C184_only",
    "OpenMDAO.C184_refused",
    "OpenMDAO.C184_file_refuted"
   ],
   "note": "false of the code if there is a file in place of the directory (C184_file_refuted); proved otherwise"
  },
  {
   "property": "C185",
   "status": "partial",
   "theorems": [
    "OpenMDAO.C185_closed_partial",
    "OpenMDAO.C185_again",
    "OpenMDAO.C185_only",
    "OpenMDAO.C185_started",
    "OpenMDAO.C185_inner_refuted"
   ],
   "note": "false of the code for recorders of solvers inside solvers (C185_inner_refuted); proved for drivers, solvers of groups and sub-problems"
  },
  {
   "property": "C186",
   "status": "proved",
   "theorems": [
    "OpenMDAO.C186_total",
    "OpenMDAO.C186_bounds"
   ],
   "note": ""
  },
  {
   "property": "C187",
   "status": "partial",
   "theorems": [
    "OpenMDAO.C187_wraps_partial",
    "OpenMDAO.C187_only",
    "OpenMDAO.C187_shared_refuted"
   ],
   "note": "false of the code for an object that stands in more than one place (C187_shared_refuted); proved for objects in one place"
  },
  {
   "property": "C188",
   "status": "partial",
   "theorems": [
    "OpenMDAO.C188_enough",
    "OpenMDAO.C188_most_partial",
    "OpenMDAO.C188_balance_partial",
    "OpenMDAO.C188_refused",
    "OpenMDAO.C188_balance_refuted"
   ],
   "note": "false of the code for the upper limit with load balancing (C188_balance_refuted); proved without it, and the lower limit with and without"
  }
 ]
}