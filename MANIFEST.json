{
 "claims": [
  {
   "property": "C01",
   "status": "proved",
   "theorems": [
    "Verif.Opt.option_list_refines_table",
    "Verif.Opt.read_string_spec",
    "Verif.Opt.read_integer_spec",
    "Verif.Opt.read_numeric_spec",
    "Verif.Opt.read_unregistered_raises",
    "Verif.Opt.other_calls_do_not_interfere",
    "Verif.Opt.write_determines_entry",
    "Verif.Opt.string_write_then_read",
    "Verif.Opt.integer_write_then_read",
    "Verif.Opt.unset_then_read"
   ],
   "note": "all histories of the public calls; std::map modelled as association list; registry lookup is case-sensitive as in the code, the store is not"
  },
  {
   "property": "C02",
   "status": "proved",
   "theorems": [
    "Verif.Opt.no_clobber_is_frozen",
    "Verif.Opt.no_clobber_read"
   ],
   "note": "all histories without clear()"
  },
  {
   "property": "C03",
   "status": "proved",
   "theorems": [
    "Verif.Opt.valid_number_iff_in_range",
    "Verif.Opt.valid_integer_iff",
    "Verif.Opt.setter_rejects",
    "Verif.Opt.stored_values_accepted",
    "Verif.Opt.nan_is_accepted"
   ],
   "note": "bounds must not be NaN; NaN is accepted by every numeric option (nan_is_accepted)"
  },
  {
   "property": "C04",
   "status": "partial",
   "theorems": [
    "Verif.Opt.numeric_roundtrip_fails",
    "Verif.Opt.numeric_read_back",
    "Verif.Opt.nearest_error",
    "Verif.Opt.numeric_decimal_roundtrip_partial",
    "Verif.Opt.blank_text_reads_as_zero",
    "Verif.Opt.integer_text_truncated"
   ],
   "note": "the property is false of the code (six-digit text storage): counterexample proved; the value read is the double of a nearest six-digit decimal (relative error at most 5e-6); doubles of decimals with at most six digits are read back exactly"
  },
  {
   "property": "C05",
   "status": "proved",
   "theorems": [
    "Verif.Opt.read_string_spec",
    "Verif.Opt.read_integer_spec",
    "Verif.Opt.read_numeric_spec",
    "Verif.Opt.prefix_isolation",
    "Verif.Opt.prefix_isolation_reads"
   ],
   "note": ""
  },
  {
   "property": "C06",
   "status": "proved",
   "theorems": [
    "Verif.Tok.option_file_roundtrip",
    "Verif.Tok.token_read_consumes",
    "Verif.Opt.option_file_pairs",
    "Verif.Opt.empty_quoted_token_misread",
    "Verif.Opt.unterminated_tag_is_silent"
   ],
   "note": "non-empty tokens, comments of at most 10^7 characters; disagreements for empty quoted tokens and unterminated quotes are proved as theorems"
  },
  {
   "property": "C07",
   "status": "proved",
   "theorems": [
    "Verif.Opt.string_setting_accepted_iff",
    "Verif.Opt.string_setting_spelling",
    "Verif.Opt.string_setting_enum"
   ],
   "note": ""
  },
  {
   "property": "C08",
   "status": "proved",
   "theorems": [
    "Verif.SP.smartptr_no_use_after_free",
    "Verif.SP.smartptr_alive_iff_owned",
    "Verif.SP.smartptr_count_exact",
    "Verif.SP.smartptr_deleted_stays_deleted",
    "Verif.SP.smartptr_acyclic_no_leak",
    "Verif.SP.smartptr_cycle_leaks"
   ],
   "note": "all programs of declarations, assignments (variables, members, self-assignment, cycles) and destructions; raw pointers only through access paths and new; unbounded count"
  },
  {
   "property": "C09",
   "status": "proved",
   "theorems": [
    "Verif.Cache.cache_refines",
    "Verif.Cache.cache_hit_sound",
    "Verif.Cache.cache_tag_wraparound"
   ],
   "note": "every history handing out fewer than 2^32-1 tags; cache_tag_wraparound proves that this restriction is necessary: after the counter wrapped a result is returned for another object"
  },
  {
   "property": "C10",
   "status": "proved",
   "theorems": [
    "Verif.Cache.cache_size_bounded",
    "Verif.Cache.just_stored_is_found",
    "Verif.Cache.oldest_evicted_first",
    "Verif.Cache.cache_refines"
   ],
   "note": "histories handing out fewer than 2^32-1 tags; scalars of the immediate lookup must not be NaN"
  },
  {
   "property": "C11",
   "status": "proved",
   "theorems": [
    "Verif.Cache.observers_consistent",
    "Verif.Cache.results_owned"
   ],
   "note": "the only observers in the code base are cached results; histories handing out fewer than 2^32-1 tags"
  },
  {
   "property": "C12",
   "status": "proved",
   "theorems": [
    "Verif.Jnl.journal_output",
    "Verif.Jnl.produce_output_iff",
    "Verif.Jnl.levels_independent",
    "Verif.Jnl.set_all_levels_skips_user_categories"
   ],
   "note": "all histories of creating, adding, deleting, configuring journals and printing; formatting itself and stream buffering not modelled; finding: SetAllPrintLevels does not cover the user categories"
  },
  {
   "property": "C13",
   "status": "proved",
   "theorems": [
    "Verif.Filter.filter_acceptable_iff",
    "Verif.Filter.filter_no_dominated_entry",
    "Verif.Filter.filter_rejection_persists",
    "Verif.Filter.filter_nan_entry_lost",
    "Verif.Filter.filter_dimension_contract_needed"
   ],
   "note": "entries must be NaN-free (necessity shown by filter_nan_entry_lost); queries may contain NaN/infinities; no kept entry is dominated by a later one"
  },
  {
   "property": "C14",
   "status": "proved",
   "theorems": [
    "Verif.FilterLS.ls_history_defined",
    "Verif.FilterLS.ls_accept_implies_progress",
    "Verif.FilterLS.ls_update_type",
    "Verif.FilterLS.ls_no_cycling"
   ],
   "note": "exact ordered-field arithmetic; pow/log10/eps are parameters; second-order correction and corrector steps not modelled (they call the same check)"
  },
  {
   "property": "C15",
   "status": "partial",
   "theorems": [
    "Verif.FilterLS.ls_filter_resets_unbounded",
    "Verif.FilterLS.ls_filter_resets_partial",
    "Verif.FilterLS.ls_reset_is_reported"
   ],
   "note": "property is false of the code: n_filter_resets_ is never incremented; negation proved with an unbounded family of histories"
  },
  {
   "property": "C16",
   "status": "proved",
   "theorems": [
    "Verif.Perturb.perturbation_consistent",
    "Verif.Perturb.consider_succeeds",
    "Verif.Perturb.failed_call_leaves_bad_perturbation"
   ],
   "note": "all histories of handler calls; failed_call_leaves_bad_perturbation: after a failed call the stored perturbation violates the bound, and SolveOnce then uses it / uses unassigned variables"
  },
  {
   "property": "C17",
   "status": "partial",
   "theorems": [
    "Verif.Perturb.inertia_loop_terminates_partial",
    "Verif.Perturb.inertia_loop_can_hang",
    "Verif.Perturb.inertia_loop_can_hang_without_regularisation"
   ],
   "note": "the property is false of the code: an infinite sequence of solver answers exists for which the handler repeats the same perturbation for ever (default options, first system); termination is proved for all answer sequences that do not reach the state excluded by the code's own debug assertion, for positive regularisation"
  },
  {
   "property": "C18",
   "status": "proved",
   "theorems": [
    "Verif.Alg.check_converged_iff",
    "Verif.Alg.nan_never_converged",
    "Verif.Alg.optimize_success_sound"
   ],
   "note": "all states of the check, all values incl. NaN and infinities, all behaviours of the strategy objects; the error measures themselves are inputs"
  },
  {
   "property": "C19",
   "status": "proved",
   "theorems": [
    "Verif.Alg.check_acceptable_iff",
    "Verif.Alg.never_acceptable",
    "Verif.Alg.isAcceptable_again",
    "Verif.Alg.first_check_not_acceptable",
    "Verif.Alg.acceptable_counts_checks_not_iterations"
   ],
   "note": "all histories of checks; findings: the first check never counts with default tolerances; checks, not iterations, are counted (up to three per iteration for square problems); ACCEPTABLE_POINT_REACHED raised by the line search gives the same return code"
  },
  {
   "property": "C20",
   "status": "proved",
   "theorems": [
    "Verif.Alg.optimize_terminates",
    "Verif.Alg.optimize_more_fuel",
    "Verif.Alg.optimize_iterations_bounded",
    "Verif.Alg.optimize_user_stop",
    "Verif.Alg.optimize_return_reason",
    "Verif.Alg.optimize_propagates",
    "Verif.Alg.check_cont",
    "Verif.Alg.check_limit_reason",
    "Verif.Alg.check_userStop_iff"
   ],
   "note": "strategy objects are arbitrary functions that may raise any exception; each strategy call is assumed to return"
  },
  {
   "property": "C21",
   "status": "proved",
   "theorems": [
    "Verif.Alg.optimizeNLP_returns_status",
    "Verif.Alg.finalize_at_most_once",
    "Verif.Alg.status_translated_and_solution_delivered",
    "Verif.Alg.exception_translated",
    "Verif.Alg.internal_error_without_finalize",
    "Verif.Alg.inconsistent_codes_after_late_exception",
    "Verif.Alg.reoptimize_propagates"
   ],
   "note": "three findings proved: no FinalizeSolution after INTERNAL_ERROR; contradictory codes after an exception while collecting statistics; ReOptimizeNLP has no outer handlers"
  },
  {
   "property": "C22",
   "status": "partial",
   "theorems": [
    "Verif.CSR.csr_triangular_correct_partial",
    "Verif.CSR.csr_full_correct_partial",
    "Verif.CSR.csr_gap_breaks"
   ],
   "note": "proved for all dimensions, offsets, duplicate patterns, sort results and value arrays under the precondition that the non-empty rows of the upper triangle are consecutive (always true for the KKT matrices Ipopt builds, where every diagonal entry is present); without it the property is false of the code (csr_gap_breaks)"
  },
  {
   "property": "C23",
   "status": "proved",
   "theorems": [
    "Verif.Adapter.spaces_inconsistent_iff",
    "Verif.Adapter.spaces_variables",
    "Verif.Adapter.spaces_bounds",
    "Verif.Adapter.spaces_constraints",
    "Verif.Adapter.spaces_treatment",
    "Verif.Adapter.bound_values_are_users",
    "Verif.Adapter.spaces_nan_bound_ignored",
    "Verif.Adapter.relax_bounds_never_relaxes"
   ],
   "note": "All sizes, bounds (including infinities and NaN) and treatments of fixed variables. Also shown: NaN bounds are accepted as absent; the relax_bounds treatment never relaxes anything (loop over a counter that is zero)."
  },
  {
   "property": "C24",
   "status": "proved",
   "theorems": [
    "Verif.Adapter.resortX_round_trip",
    "Verif.Adapter.resortX_user",
    "Verif.Adapter.resortG_delivers",
    "Verif.Adapter.constraint_values_round_trip",
    "Verif.Adapter.internal_constraints_meaning",
    "Verif.Adapter.multipliers_round_trip",
    "Verif.Adapter.bound_multipliers_delivered"
   ],
   "note": "Exact arithmetic. Constraints taken out as linearly dependent are delivered as zero (whatever was in the array), not with their values; stated in constraint_values_round_trip."
  },
  {
   "property": "C25",
   "status": "partial",
   "theorems": [
    "Verif.Scaling.scaling_roundtrips",
    "Verif.Scaling.d_bounds_roundtrip",
    "Verif.Scaling.scaled_values",
    "Verif.Scaling.scaled_bounds",
    "Verif.Scaling.bounds_equivalent",
    "Verif.Scaling.reported_point_unscaled",
    "Verif.Scaling.stationary_iff",
    "Verif.Scaling.complementarity_unscaled",
    "Verif.Scaling.start_roundtrip_partial",
    "Verif.Scaling.start_bound_multipliers_scaled_twice",
    "Verif.Scaling.start_bound_multipliers_wrong",
    "Verif.Scaling.scaled_gradient",
    "Verif.Scaling.scaled_jacobians",
    "Verif.Scaling.scaled_hessian",
    "Verif.Scaling.negative_scaling_flips_bounds"
   ],
   "note": "Everything holds except for the bound multipliers of a user-supplied starting point: they are multiplied by the variable scaling instead of divided (negation proved), so they do not survive scaling and unscaling. Negative variable scaling is not rejected and flips bounds."
  },
  {
   "property": "C26",
   "status": "partial",
   "theorems": [
    "Verif.Vec.dense_laws",
    "Verif.Vec.addTwo_elems_partial",
    "Verif.Vec.select_elems_partial",
    "Verif.Vec.copyToPos_elems_partial",
    "Verif.Vec.copyFromPos_elems",
    "Verif.Vec.addTwoElem_eq",
    "Verif.Vec.expand_elems",
    "Verif.Vec.addTwo_wrong",
    "Verif.Vec.select_wrong",
    "Verif.Vec.copyToPos_wrong",
    "Verif.Vec.copyToPos_garbage"
   ],
   "note": "false of the code for three operations, counterexamples proved: AddTwoVectors with c=1,a=0,b=1 on element storage (adds v2 Dim() times); ElementWiseSelect when elements are not in {-1,0,1}; CopyToPos with scalar storage. All other operations and cases are proved equal to the list operations in exact arithmetic (dense_laws collects them)"
  },
  {
   "property": "C27",
   "status": "proved",
   "theorems": [
    "Verif.Vec.fracToBound_max",
    "Verif.Vec.fracToBound_pos",
    "Verif.Vec.fracToBoundDefault_max",
    "Verif.Vec.comp_laws"
   ],
   "note": "all dimensions and storages, 0 < tau, also default implementation and compound vectors; exact arithmetic"
  },
  {
   "property": "C28",
   "status": "proved",
   "theorems": [
    "Verif.Matrix.mult_is_product",
    "Verif.Matrix.transMult_is_transposed_product",
    "Verif.Matrix.products_adjoint",
    "Verif.Matrix.beta_zero_ignores_y",
    "Verif.Matrix.sym_classes_symmetric",
    "Verif.Matrix.addMSinvZ_correct",
    "Verif.Matrix.identity_addMSinvZ_ignores_factor",
    "Verif.Matrix.sinvBlrm_correct",
    "Verif.Matrix.wide_diagonal_uses_missing_block"
   ],
   "note": "All 20 matrix classes and all nestings, over any field; beta=0 over any scalar type without laws (covers NaN). BLAS gemv/symv are taken by contract, dense matrices have positive dimensions. The two barrier operations hold except where the negations show a defect."
  },
  {
   "property": "C29",
   "status": "proved",
   "theorems": [
    "Verif.InitPoint.initial_point",
    "Verif.InitPoint.project_spec",
    "Verif.InitPoint.initial_point_strictly_inside",
    "Verif.InitPoint.nearly_equal_bounds_left"
   ],
   "note": "Any number of variables, any mix of bounds, all option values; exact arithmetic. If bound_frac*(x_U-x_L) is below 100*DBL_MIN the point leaves the bounds (nearly_equal_bounds_left)."
  },
  {
   "property": "C30",
   "status": "proved",
   "theorems": [
    "Verif.MonotoneMu.update_spec",
    "Verif.MonotoneMu.update_waits",
    "Verif.MonotoneMu.update_slow",
    "Verif.MonotoneMu.tiny_step_iff",
    "Verif.MonotoneMu.update_terminates",
    "Verif.MonotoneMu.mu_nonincreasing",
    "Verif.MonotoneMu.mu_pos_tau",
    "Verif.MonotoneMu.mu_increases_below_floor",
    "Verif.MonotoneMu.linesearch_not_reset"
   ],
   "note": "All histories of calls with arbitrary iterates; the power function is any positive function. If mu_init is below the floor mu increases (mu_increases_below_floor); the line search may not be reset although mu changed (linesearch_not_reset)."
  },
  {
   "property": "C31",
   "status": "partial",
   "theorems": [
    "Verif.QuasiNewton.bfgs_history",
    "Verif.QuasiNewton.bfgs_resto_history",
    "Verif.QuasiNewton.log_is_of_successive_calls",
    "Verif.QuasiNewton.bfgs_stored_curvature",
    "Verif.QuasiNewton.bfgs_reset_iff",
    "Verif.QuasiNewton.reset_clears",
    "Verif.QuasiNewton.skip_keeps_W",
    "Verif.QuasiNewton.sr1_history_partial",
    "Verif.QuasiNewton.sr1_reset_iff_partial",
    "Verif.QuasiNewton.bfgs_cholesky_failure_keeps_pair",
    "Verif.QuasiNewton.sr1_first_undo_garbage",
    "Verif.QuasiNewton.sr1_first_undo_wrong_count",
    "Verif.QuasiNewton.sr1_undo_resurrects",
    "Verif.QuasiNewton.resto_zero_history_null"
   ],
   "note": "All call sequences, dimensions and options over any ordered field; LAPACK is an arbitrary function. BFGS history, order, curvature and reset are fully proved (a pair whose Cholesky factorization failed stays in the memory: negation). SR1: as long as an undo has something to undo; negations show a garbage history for an undo before the first update and a resurrected one after a reset."
  },
  {
   "property": "C32",
   "status": "proved",
   "theorems": [
    "Verif.TimedTask.totals_are_completed_intervals",
    "Verif.TimedTask.started_iff",
    "Verif.TimedTask.totals_bounded",
    "Verif.TimedTask.disabled_no_effect",
    "Verif.TimedTask.unpaired_end_counts_twice",
    "Verif.TimedTask.disabled_span_counted"
   ],
   "note": "All call sequences; an End without Start counts a span twice (unpaired_end_counts_twice)."
  },
  {
   "property": "C33",
   "status": "partial",
   "theorems": [
    "Verif.LineSearch.backtracking_spec",
    "Verif.LineSearch.no_accept_at_eval_error",
    "Verif.LineSearch.backtracking_ends",
    "Verif.LineSearch.backtracking_trials",
    "Verif.LineSearch.watchdog_one_trial",
    "Verif.LineSearch.backtracking_terminates_partial",
    "Verif.LineSearch.backtracking_need_not_end",
    "Verif.LineSearch.backtracking_hangs"
   ],
   "note": "The sequence of step sizes and the outcome are proved for every acceptor behaviour; termination needs a positive minimal step size. CalculateAlphaMin can return 0, and then the loop need not end (backtracking_hangs, also with rounding)."
  },
  {
   "property": "C34",
   "status": "proved",
   "theorems": [
    "Verif.Safeguard.corrected_multipliers",
    "Verif.Safeguard.corrected_products",
    "Verif.Safeguard.accept_trial_multipliers",
    "Verif.Safeguard.correction_disabled"
   ],
   "note": "kappa_sigma >= 1 (below 1 the safeguard is documented as off)."
  },
  {
   "property": "C35",
   "status": "proved",
   "theorems": [
    "Verif.Safeguard.safe_slack_spec",
    "Verif.Safeguard.safe_slack_positive",
    "Verif.Safeguard.safe_slacks_positive",
    "Verif.Safeguard.sMin_pos",
    "Verif.Safeguard.slack_move_zero_not_positive",
    "Verif.Safeguard.second_request_forgets"
   ],
   "note": "slack_move=0 leaves zero slacks; the getter forgets the number of corrections on a second request (second_request_forgets)."
  },
  {
   "property": "C36",
   "status": "proved",
   "theorems": [
    "Verif.PDSystem.elimination_exact",
    "Verif.PDSystem.elimination_equivalent",
    "Verif.PDSystem.residuals_correct",
    "Verif.PDSystem.residual_of_inexact_solve",
    "Verif.PDSystem.kkt_is_augmented_system",
    "Verif.PDSystem.expansion_selects",
    "Verif.PDSystem.identity_selects",
    "Verif.PDSystem.compound_selects",
    "Verif.PDSystem.solve_terminates",
    "Verif.PDSystem.solve_accepts",
    "Verif.PDSystem.solve_exact",
    "Verif.PDSystem.alpha_zero_not_scaled"
   ],
   "note": "All dimensions and matrices over any field; slacks nonzero; the linear solver and inertia correction are an oracle. solve_terminates and solve_accepts hold for any arithmetic. alpha=0 is shown not to scale the result."
  },
  {
   "property": "C37",
   "status": "partial",
   "theorems": [
    "Verif.AugResto.resto_matrix",
    "Verif.AugResto.resto_elimination_equivalent",
    "Verif.AugResto.resto_solve_exact_partial",
    "Verif.AugResto.resto_solve_failure",
    "Verif.AugResto.resto_step_exact",
    "Verif.AugResto.pivots_of_pos",
    "Verif.AugResto.resto_Dd_overwrites",
    "Verif.AugResto.resto_factor_ignored"
   ],
   "note": "All dimensions and matrices over any field, nonzero pivots (positive in an interior-point iterate), D_d=NULL and Hessian factor 1: exact, and combined with C36 the full 8-block restoration step is exact. The general claim is false: negations for D_d given and for W_factor=0 (the least-square multiplier call)."
  },
  {
   "property": "C38",
   "status": "partial",
   "theorems": [
    "Verif.Reducer.reduced_info",
    "Verif.Reducer.info_again",
    "Verif.Reducer.reduced_eval_g",
    "Verif.Reducer.reduced_start_scaling_linearity",
    "Verif.Reducer.reduced_bounds",
    "Verif.Reducer.reduced_jacobian",
    "Verif.Reducer.reduced_hessian",
    "Verif.Reducer.solution_in_original_numbering",
    "Verif.Reducer.fortran_nnz_wrong",
    "Verif.Reducer.duplicate_index_ignores_rest",
    "Verif.Reducer.info_after_failure"
   ],
   "note": "All problems, index styles and lists of distinct indices in range. The announced number of Jacobian entries is proved right in C style only and shown wrong in FORTRAN style (negation); duplicate indices make the reducer ignore later ones (negation); a failed first get_nlp_info is followed by a successful one with arbitrary counts (negation)."
  },
  {
   "property": "C39",
   "status": "partial",
   "theorems": [
    "Verif.CInterface.create_some_iff",
    "Verif.CInterface.problem_data_kept",
    "Verif.CInterface.scaling_latest",
    "Verif.CInterface.scaling_default",
    "Verif.CInterface.starting_point",
    "Verif.CInterface.solve_status",
    "Verif.CInterface.solve_returns",
    "Verif.CInterface.optimizeNLP_returns",
    "Verif.CInterface.no_retrieval_outside",
    "Verif.CInterface.results_delivered",
    "Verif.CInterface.other_arrays_untouched",
    "Verif.CInterface.array_tails_untouched",
    "Verif.CInterface.callbacks_forwarded",
    "Verif.CInterface.answers_from_callbacks",
    "Verif.CInterface.callbacks_get_point",
    "Verif.CInterface.callbacks_get_point_partial",
    "Verif.CInterface.options_forwarded",
    "Verif.CInterface.options_forwarded_setters",
    "Verif.CInterface.int_option_effective",
    "Verif.CInterface.str_option_effective",
    "Verif.CInterface.created_but_unsolvable",
    "Verif.CInterface.callbacks_wrong_point"
   ],
   "note": "For every caller history, every solver (arbitrary interaction tree over the TNLP functions) and every callback behaviour (also overwriting the caller's arrays). Creation succeeds iff the checked conditions hold; bounds, scaling and starting values are snapshots; results, statuses, callbacks and options are forwarded. Partial because two parts of the expectation are false of the code: problems that IpoptSolve can never accept are created (created_but_unsolvable), and callbacks are handed another point than requested when the evaluation layer's new_x flag is wrong (callbacks_wrong_point); callbacks_get_point_partial covers the remaining histories."
  },
  {
   "property": "C40",
   "status": "proved",
   "theorems": [
    "Verif.Mem.mem_increase_safe",
    "Verif.Mem.mem_increase_overflow_iff",
    "Verif.Mem.mem_increase_follows",
    "Verif.Mem.mem_increase_undefined",
    "Verif.Mem.retry_grows",
    "Verif.Mem.retry_can_stall"
   ],
   "note": "all signed integer types, lengths and recommendations not below the type's range; NaN recommendation is undefined behaviour; finding: small lengths with factors < 2 never grow"
  },
  {
   "property": "C41",
   "status": "proved",
   "theorems": [
    "Verif.Jnl.print_over_lines",
    "Verif.Jnl.wrapped_width",
    "Verif.Jnl.print_over_lines_hangs"
   ],
   "note": "line length >= 2; for line length 1 the routine does not end (print_over_lines_hangs)"
  },
  {
   "property": "C42",
   "status": "proved",
   "theorems": [
    "Verif.Vec.query_current",
    "Verif.Vec.query_pure",
    "Verif.Vec.compound_fresh",
    "Verif.Vec.compound_stale",
    "Verif.Vec.empty_max_scaled"
   ],
   "note": "unbounded tags; for compound vectors a component pointer kept from before the query makes the cache stale (compound_stale), asking for it again does not"
  },
  {
   "property": "C43",
   "status": "proved",
   "theorems": [
    "Verif.Vec.comp_laws",
    "Verif.Vec.sum_laws",
    "Verif.Vec.nested_laws",
    "Verif.Vec.dense_laws"
   ],
   "note": "the case excluded in C26 (AddTwoVectors with c=1,a=0,b=1) is excluded here as well; elements at least -big for Max"
  },
  {
   "property": "C44",
   "status": "proved",
   "theorems": [
    "Verif.Adapter.jacobian_restricted",
    "Verif.Adapter.jacobian_fixed_rows",
    "Verif.Adapter.hessian_restricted"
   ],
   "note": "All structures with duplicates in any order."
  },
  {
   "property": "C45",
   "status": "proved",
   "theorems": [
    "Verif.Adapter.fixed_multipliers_dual_feasible",
    "Verif.Adapter.fixed_multipliers_constraint",
    "Verif.Adapter.free_multipliers_unchanged",
    "Verif.Adapter.rowMult_eq"
   ],
   "note": "Over any ordered field; user evaluations at the solution succeed."
  },
  {
   "property": "C46",
   "status": "partial",
   "theorems": [
    "Verif.AdapterEval.eval_f_grad_h_exact",
    "Verif.AdapterEval.eval_g_exact_partial",
    "Verif.AdapterEval.eval_jac_exact",
    "Verif.AdapterEval.eval_g_failure_forgotten"
   ],
   "note": "The property is false for constraints that cannot be evaluated: the failure is reported once, a second request at the same point is answered with success and stale values (wrong tag reset in internal_eval_g); proved as eval_g_failure_forgotten. Everything else is proved for all histories; finite-difference gradients are not modelled."
  },
  {
   "property": "C47",
   "status": "partial",
   "theorems": [
    "Verif.AdapterEval.new_x_flag_earlier",
    "Verif.AdapterEval.new_x_flag_last_partial",
    "Verif.AdapterEval.new_x_flag_last_fails",
    "Verif.AdapterEval.new_x_flag_last_fails_findiff"
   ],
   "note": "The documented meaning (some earlier call at the same point) is proved for all histories; the 'last call' meaning is proved for histories that do not return to a point and refuted otherwise (answers from memory; finite differences)."
  },
  {
   "property": "C48",
   "status": "partial",
   "theorems": [
    "Verif.AdapterEval.findiff_jacobian_partial",
    "Verif.AdapterEval.pert_in_bounds",
    "Verif.AdapterEval.findiff_jacobian_gap",
    "Verif.AdapterEval.pert_leaves_bounds"
   ],
   "note": "False in general: if a variable between others appears in no constraint, entries are computed with the wrong variable (findiff_jacobian_gap); perturbed points can leave bounds that are close together (pert_leaves_bounds). Proved when variables in constraints are consecutive / bounds at least two perturbations apart."
  },
  {
   "property": "C49",
   "status": "proved",
   "theorems": [
    "Verif.LineSearch.watchdog_bounded",
    "Verif.LineSearch.watchdog_continues",
    "Verif.LineSearch.watchdog_starts",
    "Verif.LineSearch.watchdog_ends",
    "Verif.LineSearch.no_watchdog_keeps_iterate"
   ],
   "note": "All event histories; rigorous line search (the only mode the code sets)."
  },
  {
   "property": "C50",
   "status": "proved",
   "theorems": [
    "Verif.LineSearch.soft_bounded"
   ],
   "note": "All event histories; tiny steps taken during the phase are not counted by the code and not by the theorem."
  },
  {
   "property": "C51",
   "status": "proved",
   "theorems": [
    "Verif.LineSearch.acceptable_point",
    "Verif.LineSearch.failure_means_never_acceptable"
   ],
   "note": "All event histories from initialisation."
  },
  {
   "property": "C52",
   "status": "proved",
   "theorems": [
    "Verif.Scaling.relax_amount",
    "Verif.Scaling.relax_outward",
    "Verif.Scaling.final_x_within_original_bounds",
    "Verif.Scaling.final_x_moved_little",
    "Verif.Scaling.honor_ignored_without_relaxation",
    "Verif.Scaling.reported_objective_of_unprojected_point"
   ],
   "note": "Consistent bounds; honor_original_bounds does nothing if bound_relax_factor = 0 (proved), and objective and constraint values are those before the projection (proved)."
  },
  {
   "property": "C53",
   "status": "proved",
   "theorems": [
    "Verif.GradScaling.objective_factor",
    "Verif.GradScaling.objective_target",
    "Verif.GradScaling.constraint_factors",
    "Verif.GradScaling.failed_evaluation_unscaled",
    "Verif.GradScaling.constraint_target_common_factor"
   ],
   "note": "nlp_scaling_min_value at most 1 and maximum gradient at least DBL_MIN (above these the floor dominates)."
  },
  {
   "property": "C54",
   "status": "partial",
   "theorems": [
    "Verif.QuasiNewton.bfgs_secant_equation",
    "Verif.QuasiNewton.bfgs_secant_full_space",
    "Verif.QuasiNewton.sr1_secant_equation_partial",
    "Verif.QuasiNewton.bfgs_real_run",
    "Verif.QuasiNewton.sr1_real_run",
    "Verif.QuasiNewton.resto_secant_fails",
    "Verif.QuasiNewton.sr1_uses_uninitialised_values"
   ],
   "note": "Original problem, exact factorizations (hypotheses on potrf/trsm/syev, shown satisfiable over the reals). The claim is false in the restoration phase with scaled variables (negation) and for SR1 with scalar2/scalar4 if the gradient does not change (negation: W depends on uninitialised storage)."
  },
  {
   "property": "C55",
   "status": "proved",
   "theorems": [
    "Verif.QuasiNewton.bfgs_positive_definite",
    "Verif.QuasiNewton.bfgs_curvature",
    "Verif.QuasiNewton.bfgs_sigma_safeguarded",
    "Verif.QuasiNewton.envR_ok"
   ],
   "note": "Original problem; exact factorizations; Cholesky may fail at any time. Positive limited_memory_init_val and init_val_min <= init_val_max."
  },
  {
   "property": "C56",
   "status": "partial",
   "theorems": [
    "Verif.CQ.all_fresh",
    "Verif.CQ.all_fresh_restoration",
    "Verif.CQ.all_fresh_restoration_fixed_mu",
    "Verif.CQ.boundless_fresh",
    "Verif.CQ.all_fresh_adjusting",
    "Verif.CQ.fresh_meaning",
    "Verif.CQ.slack_ignores_new_bounds",
    "Verif.CQ.violation_ignores_new_bounds",
    "Verif.CQ.adjusted_slack_ignores_mu",
    "Verif.CQ.adjusted_slack_ignores_multiplier",
    "Verif.CQ.dual_infeasibility_ignores_mu",
    "Verif.CQ.stored_but_never_found",
    "Verif.CQ.not_always_fresh"
   ],
   "note": "All 68 functions, all histories, arbitrary numerical operations. Proved without restriction for functions that read no bounds; for the rest while bounds stay and no slack is adjusted; in the restoration phase except eight functions derived from the gradient of the Lagrangian, whose caches ignore the barrier parameter. The unrestricted claim is false (negations)."
  },
  {
   "property": "C57",
   "status": "partial",
   "theorems": [
    "Verif.AdaptiveMu.adaptive_mode",
    "Verif.AdaptiveMu.adaptive_kkt_decrease",
    "Verif.AdaptiveMu.adaptive_kkt_rate",
    "Verif.AdaptiveMu.adaptive_kkt_limit",
    "Verif.AdaptiveMu.adaptive_filter_progress",
    "Verif.AdaptiveMu.adaptive_free_mu",
    "Verif.AdaptiveMu.adaptive_safeguard",
    "Verif.AdaptiveMu.adaptive_references",
    "Verif.AdaptiveMu.adaptive_switch",
    "Verif.AdaptiveMu.adaptive_fixed",
    "Verif.AdaptiveMu.adaptive_positive",
    "Verif.AdaptiveMu.adaptive_bounds",
    "Verif.AdaptiveMu.adaptive_no_bounds",
    "Verif.AdaptiveMu.adaptive_undefined_iff",
    "Verif.AdaptiveMu.adaptive_defined",
    "Verif.AdaptiveMu.adaptive_tiny",
    "Verif.AdaptiveMu.kktError_zero",
    "Verif.AdaptiveMu.Ex.history_meets_hypotheses",
    "Verif.AdaptiveMu.Ex.kkt_history",
    "Verif.AdaptiveMu.Ex.mu_target_not_respected",
    "Verif.AdaptiveMu.Ex.tau_of_old_mu",
    "Verif.AdaptiveMu.Ex.fixed_mode_may_raise_mu",
    "Verif.AdaptiveMu.Ex.mu_min_not_respected",
    "Verif.AdaptiveMu.Ex.restore_without_point",
    "Verif.AdaptiveMu.Ex.safeguard_without_reference"
   ],
   "note": "All histories, all oracles, all options over any ordered field. Modes, progress, bounds, positivity and the conditions under which a call is undefined are proved. Partial because parts of the expectation are false of the code: the fixed mode ignores mu_target, may raise mu, uses tau of the old mu; mu can be below mu_min if mu_max is (negations)."
  },
  {
   "property": "C58",
   "status": "partial",
   "theorems": [
    "Verif.MuOracle.centrality_measure",
    "Verif.MuOracle.loqo_mu",
    "Verif.MuOracle.slackStep_meaning",
    "Verif.MuOracle.probing_mu",
    "Verif.MuOracle.quality_pos",
    "Verif.MuOracle.golden_section",
    "Verif.MuOracle.sigma_range",
    "Verif.MuOracle.sigma_best",
    "Verif.MuOracle.sigma_accuracy",
    "Verif.MuOracle.qf_mu",
    "Verif.MuOracle.stored_direction",
    "Verif.MuOracle.Ex.gfac_golden",
    "Verif.MuOracle.Ex.it_interior",
    "Verif.MuOracle.Ex.accuracy_meets_hypotheses",
    "Verif.MuOracle.Ex.qf_below_mu_min",
    "Verif.MuOracle.Ex.lower_end_never_chosen",
    "Verif.MuOracle.Ex.sigma_worse_than_one"
   ],
   "note": "All interior iterates, dimensions and solvers over any ordered field; golden section for arbitrary functions. Partial: the quality function oracle can return less than the mu_min it is given (negation; mu_target is thus not respected by the default oracle), the lower end is never tried without sections, and without unimodality the result may be worse than sigma=1 (negations)."
  },
  {
   "property": "C59",
   "status": "proved",
   "theorems": [
    "Verif.Triplet.number_entries_iff",
    "Verif.Triplet.general_triplets",
    "Verif.Triplet.symmetric_triplets",
    "Verif.Triplet.structure_reusable",
    "Verif.Triplet.triangle_off_diagonal_lost",
    "Verif.Triplet.fillFromVector_correct",
    "Verif.Triplet.putInVector_correct",
    "Verif.Triplet.put_then_fill",
    "Verif.Triplet.exA_wf",
    "Verif.Triplet.exA_triangles"
   ],
   "note": "All nestings of matrix classes over any field; arrays are memories with positions, so pointer shifts and untouched positions are part of the statement. Restriction stated and shown necessary: matrices stored as a triangle may only stand in diagonal position (triangle_off_diagonal_lost)."
  },
  {
   "property": "C60",
   "status": "proved",
   "theorems": [
    "Verif.AugSolve.multiSolve_success_solves",
    "Verif.AugSolve.multiSolve_failure_keeps",
    "Verif.AugSolve.demo_contract",
    "Verif.AugSolve.demo_values",
    "Verif.AugSolve.demo_reach",
    "Verif.AugSolve.warm_start_same_arguments_wrong"
   ],
   "note": "Exact arithmetic over any field; the sparse solver and the scaling method are arbitrary objects keeping an explicit contract (Contract; met by demo_contract). The contract asks only for what the implementations guarantee (values may be read back only after CALL_AGAIN; after a warm initialization only the same structure), and is proved to be met by the MA27 interface in C77. One restriction on callers, shown necessary: a call may not repeat its arguments right after a warm re-initialization (warm_start_same_arguments_wrong), or after a failure without a successful IncreaseQuality. DetermineDependentRows is not modelled."
  },
  {
   "property": "C61",
   "status": "partial",
   "theorems": [
    "Verif.CurrIter.calls_outcome",
    "Verif.CurrIter.iterate_point",
    "Verif.CurrIter.iterate_constraints",
    "Verif.CurrIter.iterate_lambda",
    "Verif.CurrIter.iterate_bound_multipliers",
    "Verif.CurrIter.iterate_eval_failure",
    "Verif.CurrIter.iterate_scaled",
    "Verif.CurrIter.iterate_scaled_fixed",
    "Verif.CurrIter.violations_bounds",
    "Verif.CurrIter.violations_bounds_unrelaxed",
    "Verif.CurrIter.violations_complementarity",
    "Verif.CurrIter.violations_gradient",
    "Verif.CurrIter.violations_gradient_fixed",
    "Verif.CurrIter.violations_gradient_fixed_wrong",
    "Verif.CurrIter.violations_constraints_partial",
    "Verif.CurrIter.violations_compl_g_partial",
    "Verif.CurrIter.violations_constraints_exact",
    "Verif.CurrIter.violations_constraints_misaligned",
    "Verif.CurrIter.violations_dropped_unwritten",
    "Verif.CurrIter.exSit",
    "Verif.CurrIter.exIter",
    "Verif.CurrIter.exSit2"
   ],
   "note": "All problems, scalings, fixed-variable treatments and phases over any ordered field. Partial because the code deviates: constraint violations and complementarities are exact only if scaling factors of inequalities are aligned with the lists of bounds (exact formula and counterexample proved), the gradient for variables fixed by constraints has an extra term (formula and counterexample), bound violations are reported as zero if bounds are not relaxed, dropped rows are not written. Slack corrections are left out."
  },
  {
   "property": "C62",
   "status": "partial",
   "theorems": [
    "Verif.OrigNLP.eval_right",
    "Verif.OrigNLP.constant_right",
    "Verif.OrigNLP.counters_exact",
    "Verif.OrigNLP.cache_limits",
    "Verif.OrigNLP.repeated_not_called",
    "Verif.OrigNLP.constant_once",
    "Verif.OrigNLP.constant_hessian_once",
    "Verif.OrigNLP.Ex.warm_start_constant_hessian_stale",
    "Verif.OrigNLP.Ex.old_vector_old_objective"
   ],
   "note": "All histories; problem, results and scaling are arbitrary. Caches are the abstract ones of C09. Partial because the code deviates: with hessian_constant and warm_start_same_structure the Hessian of the previous problem is used (negation proved; excluded by Legal), and arguments must have been created or changed since the last initialization (shown necessary)."
  },
  {
   "property": "C63",
   "status": "partial",
   "theorems": [
    "Verif.LowRank.solution_solves",
    "Verif.LowRank.not_revisit",
    "Verif.LowRank.solve_defined",
    "Verif.LowRank.curvature_positive",
    "Verif.LowRank.inertia_correct",
    "Verif.LowRank.ex_run",
    "Verif.LowRank.ex_success",
    "Verif.LowRank.revisit_wrong",
    "Verif.LowRank.factor_two_wrong",
    "Verif.LowRank.full_diagonal_undefined"
   ],
   "note": "All histories, sizes and ranks over any field (ordered for the inertia); linear solver and LAPACK are arbitrary objects keeping an explicit contract (met by exEnv). Partial because the code deviates: after a failed call, a call with the arguments of an earlier one can report success with a wrong solution (revisit_wrong; excluded by Revisit, not_revisit gives simple sufficient conditions), a factor other than 0 and 1 is treated as 0, and a NULL full diagonal with P_LowRank is undefined."
  },
  {
   "property": "C64",
   "status": "partial",
   "theorems": [
    "Verif.LowRank.SS.solution_solves",
    "Verif.LowRank.SS.solution_delta",
    "Verif.LowRank.SS.solve_defined",
    "Verif.LowRank.SS.inertia_correct",
    "Verif.LowRank.SS.asks_right_inertia",
    "Verif.LowRank.SS.ex_run",
    "Verif.LowRank.SS.ex_success",
    "Verif.LowRank.SS.ex_success2",
    "Verif.LowRank.SS.delta_c_wrong",
    "Verif.LowRank.SS.other_space_undefined",
    "Verif.LowRank.SS.too_many_columns_undefined"
   ],
   "note": "All histories, sizes and ranks over any field (ordered for the inertia). Partial because the code deviates: delta_c is also applied to the additional rows, so with delta_c != 0 another Hessian is used (exact formula solution_delta, counterexample delta_c_wrong), the expansion matrix of the first Hessian is kept (other_space_undefined), and the test for too many columns is void (too_many_columns_undefined)."
  },
  {
   "property": "C65",
   "status": "proved",
   "theorems": [
    "Verif.RestoNLP.resto_objective",
    "Verif.RestoNLP.resto_constraints",
    "Verif.RestoNLP.resto_is_l1",
    "Verif.RestoNLP.resto_gradient",
    "Verif.RestoNLP.resto_jac_c",
    "Verif.RestoNLP.resto_jac_d",
    "Verif.RestoNLP.resto_hessian",
    "Verif.RestoNLP.resto_bounds"
   ],
   "note": "All original problems and points; exact arithmetic over any ordered field with a square root (derivatives over the reals). resto_bounds also shows that after AdjustVariableBounds the restoration problem keeps the old bounds of the original variables (component 0), unlike the original problem."
  },
  {
   "property": "C66",
   "status": "proved",
   "theorems": [
    "Verif.RestoInit.resto_start",
    "Verif.RestoInit.least_square_mults",
    "Verif.RestoInit.resto_back",
    "Verif.RestoInit.resto_start_minimizes"
   ],
   "note": "All iterates and dimensions over any ordered field with a square root (minimality over the reals). The multiplier calculator is arbitrary."
  },
  {
   "property": "C67",
   "status": "proved",
   "theorems": [
    "Verif.RestoConv.resto_success",
    "Verif.RestoConv.resto_endings",
    "Verif.RestoConv.resto_phase",
    "Verif.RestoConv.resto_outcome",
    "Verif.RestoConv.resto_infeasible_end",
    "Verif.RestoConv.resto_reported"
   ],
   "note": "All options, observations and histories. Filter and iterate acceptability are observed values (C05, C43 cover them). For square problems the code checks the violation at the point where the phase started instead of the point found (stated exactly in resto_outcome, example in the module)."
  },
  {
   "property": "C68",
   "status": "proved",
   "theorems": [
    "Verif.PenaltyLS.penalty_parameter",
    "Verif.PenaltyLS.penalty_prediction",
    "Verif.PenaltyLS.penalty_acceptance",
    "Verif.PenaltyLS.penalty_descent",
    "Verif.PenaltyLS.penalty_finds_step",
    "Verif.PenaltyLS.penalty_bounded",
    "Verif.PenaltyLS.penalty_resto"
   ],
   "note": "Exact arithmetic over any ordered field with a square root; function values finite. The watchdog is not available in this mode (its methods throw, stated in the model)."
  },
  {
   "property": "C69",
   "status": "proved",
   "theorems": [
    "Verif.SOC.second_order_corrections",
    "Verif.SOC.soc_linearization",
    "Verif.SOC.soc_penalty_descent",
    "Verif.SOC.corrector_direction",
    "Verif.SOC.corrector_outcome"
   ],
   "note": "Solver, step rule and acceptance test are arbitrary; soc_penalty_descent combines with C68. corrector_direction assumes exact solves (TryCorrector ignores the solver's return value, so it uses whatever is in the vector)."
  },
  {
   "property": "C70",
   "status": "partial",
   "theorems": [
    "Verif.BoundsRemover.removed_feasible",
    "Verif.BoundsRemover.removed_kkt_delivered",
    "Verif.BoundsRemover.removed_kkt_kept",
    "Verif.BoundsRemover.removed_invalid",
    "Verif.BoundsRemover.removed_derivatives",
    "Verif.BoundsRemover.removed_scaling",
    "Verif.BoundsRemover.removed_start",
    "Verif.BoundsRemover.Ex.kkt"
   ],
   "note": "All dimensions and matrices over any ordered field (derivatives over the reals). Partial because the code deviates for warm starts: z_L of the user becomes the multiplier of the row x >= x_L without the change of sign that FinalizeSolution makes (removed_start proves that the round trip gives -z_L)."
  },
  {
   "property": "C71",
   "status": "partial",
   "theorems": [
    "Verif.InitMult.default_inside",
    "Verif.InitMult.default_primal",
    "Verif.InitMult.default_bound_multipliers",
    "Verif.InitMult.default_constraint_multipliers",
    "Verif.InitMult.ls_duals",
    "Verif.InitMult.ls_primal",
    "Verif.InitMult.Example.e1_exact",
    "Verif.InitMult.Example.ls_primal_not_linearization"
   ],
   "note": "All dimensions, over any ordered field, any linear solver (exact one for ls_*). Partial because the code deviates: the vector of least_square_init_primal is the least-norm step (J x = -c(x0)) used as a point; it satisfies the linearized equalities iff J x0 = 0 (ls_primal, counterexample ls_primal_not_linearization). ls_duals: the multipliers are those of the gradient at the pushed point with the Jacobians of the user's point."
  },
  {
   "property": "C72",
   "status": "partial",
   "theorems": [
    "Verif.InitMult.warm_start",
    "Verif.InitMult.warm_start_whole",
    "Verif.InitMult.warm_start_interior",
    "Verif.InitMult.warm_start_margins",
    "Verif.InitMult.warm_start_target_mu_undefined"
   ],
   "note": "All dimensions and options. Partial because the code deviates: a positive warm_start_target_mu dereferences a null pointer (warm_start_target_mu_undefined), and the documented defaults of warm_start_bound_push/frac and the slack versions are never used (warm_start_margins)."
  },
  {
   "property": "C73",
   "status": "proved",
   "theorems": [
    "Verif.SearchDir.search_direction",
    "Verif.SearchDir.newton_direction",
    "Verif.SearchDir.barrier_slope",
    "Verif.SearchDir.descent",
    "Verif.SearchDir.barrier_derivative",
    "Verif.SearchDir.least_square_multipliers"
   ],
   "note": "All dimensions; any ordered field (newton_direction and barrier_derivative: reals). The linear solver is assumed exact (C36, C60). With fast_step_computation and a direction left by the barrier parameter oracle that direction is used unchanged (stated in search_direction)."
  },
  {
   "property": "C74",
   "status": "proved",
   "theorems": [
    "Verif.DerivCheck.check_outcome",
    "Verif.DerivCheck.no_test",
    "Verif.DerivCheck.never_false",
    "Verif.DerivCheck.invalid_problem",
    "Verif.DerivCheck.calls_contract",
    "Verif.DerivCheck.entries_complete",
    "Verif.DerivCheck.reference_point",
    "Verif.DerivCheck.marked_iff",
    "Verif.DerivCheck.marked_of_accuracy",
    "Verif.DerivCheck.message",
    "Verif.DerivCheck.finite_differences",
    "Verif.DerivCheck.right_derivatives_pass",
    "Verif.DerivCheck.wrong_derivative_found",
    "Verif.DerivCheck.wrong_second_derivative_found",
    "Verif.DerivCheck.Ex.isData",
    "Verif.DerivCheck.Ex.marked",
    "Verif.DerivCheck.Ex.perturbed_point_outside"
   ],
   "note": "Whole of CheckDerivatives, exact arithmetic over any ordered field (truncation error theorems over the reals); user functions are functions of the point. The reference point is within the bounds if the starting point is within the radius of them; the perturbed points need not be (perturbed_point_outside)."
  },
  {
   "property": "C75",
   "status": "proved",
   "theorems": [
    "Verif.Adapter.user_scaling",
    "Verif.Adapter.user_scaling_rows",
    "Verif.Adapter.approx_variables",
    "Verif.Adapter.approx_no_list",
    "Verif.Adapter.UserEx.spaces_some",
    "Verif.Adapter.UserEx.duplicate_counts_twice",
    "Verif.Adapter.UserEx.too_many_linear"
   ],
   "note": "All numberings produced by GetSpaces (C23). Lists without duplicates, in range (a duplicate can make the code use all variables: duplicate_counts_twice); num_linear_variables at most the number of variables (otherwise an array of negative size is allocated: too_many_linear)."
  },
  {
   "property": "C76",
   "status": "partial",
   "theorems": [
    "Verif.Ampl.evaluations",
    "Verif.Ampl.hessian_evaluation",
    "Verif.Ampl.hessian_ignores_errors",
    "Verif.Ampl.objective_choice",
    "Verif.Ampl.solution_kkt",
    "Verif.Ampl.warm_start_round_trip",
    "Verif.Ampl.starting_point",
    "Verif.Ampl.jacobian_structure",
    "Verif.Ampl.hessian_structure",
    "Verif.Ampl.result_numbers",
    "Verif.Ampl.other_information",
    "Verif.Ampl.Ex.hist",
    "Verif.Ampl.Ex.values",
    "Verif.Ampl.Ex.hessian_of_failed_evaluation",
    "Verif.Ampl.Ex.kkt",
    "Verif.Ampl.Ex.structure_example"
   ],
   "note": "All models and legal histories; the AMPL library is an arbitrary object following its documentation (xknown, sphes use of earlier evaluations). Partial because the code deviates: eval_h ignores errors of the evaluations it makes and reports success with meaningless numbers (hessian_ignores_errors, Ex.hessian_of_failed_evaluation). Option parsing and reading of .nl files are not modelled."
  },
  {
   "property": "C77",
   "status": "proved",
   "theorems": [
    "Verif.Ma27.ma27_contract",
    "Verif.Ma27.ma27_solution",
    "Verif.Ma27.ma27_ends",
    "Verif.Ma27.ma27_solve_success",
    "Verif.Ma27.ma27_inertia_ok",
    "Verif.Ma27.ma27_inertia_wrong",
    "Verif.Ma27.ma27_call_again_bounded",
    "Verif.Ma27.ma27_no_overrun",
    "Verif.Ma27.ma27_pivtol_init",
    "Verif.Ma27.ma27_init_forgets",
    "Verif.Ma27.ma27_grow_when_needed",
    "Verif.Ma27.ma27_quality",
    "Verif.Ma27.ma27_quality_finite",
    "Verif.Ma27.demo_run",
    "Verif.Ma27.demo_ran",
    "Verif.Ma27.ma27_inertia_unchecked",
    "Verif.Ma27.ma27_overrun_after_warm_start",
    "Verif.Ma27.demo_stack",
    "Verif.Ma27.demo_stack_reach"
   ],
   "note": "All histories, all answers of MA27 meeting an explicit contract (LibOK: when it reports success, the factors solve the system exactly and the number of negative eigenvalues is right; AsksForMore for the bounds on CALL_AGAIN) and all allocation failures. ma27_ignore_singularity=no. In the stack theorems an exception counts as a fatal error and bad_alloc in GetValuesArrayPtr is not represented. The rules for the caller in ma27_no_overrun are necessary (ma27_overrun_after_warm_start), and the inertia is not checked without a new matrix (ma27_inertia_unchecked)."
  },
  {
   "property": "C78",
   "status": "proved",
   "theorems": [
    "Verif.Sens.sens_step",
    "Verif.Sens.sens_steps",
    "Verif.Sens.sens_parameter",
    "Verif.Sens.sens_flags",
    "Verif.Sens.sens_failure_ignored",
    "Verif.Sens.sens_matrix",
    "Verif.Sens.sens_matrix_flags",
    "Verif.Sens.sens_second_step"
   ],
   "note": "Exact arithmetic over any ordered field; the backsolver solves systems with the primal-dual matrix exactly, LAPACK solves nonsingular systems exactly. sens_steps needs that the systems for the components fixed so far are nonsingular (the code ignores the result of the LU factorization). Where the code deviates: sens_second_step (stale column count, null pointer in a later step with bound check), sens_matrix_flags (equal flags: equal columns with uninitialized memory), sens_failure_ignored. Unscaling of the results is not modelled."
  },
  {
   "property": "C79",
   "status": "proved",
   "theorems": [
    "Verif.Sens.reduced_hessian_entries",
    "Verif.Sens.reduced_hessian_refused",
    "Verif.Sens.reduced_hessian_inverse"
   ],
   "note": "Exact arithmetic, exact backsolver. The inverse statement is for problems with equality constraints only (bounds and inequalities add barrier terms to the Hessian). reduced_hessian_refused: a number used twice is an error in the code, a missing number leaves -1 as index (undefined behaviour in the code, no result in the model)."
  },
  {
   "property": "C80",
   "status": "partial",
   "theorems": [
    "Verif.Mumps.mumps_contract",
    "Verif.Mumps.mumps_solution",
    "Verif.Mumps.mumps_ends",
    "Verif.Mumps.mumps_call_again_once",
    "Verif.Mumps.mumps_solve_success",
    "Verif.Mumps.mumps_inertia_ok",
    "Verif.Mumps.mumps_inertia_wrong",
    "Verif.Mumps.mumps_attempts",
    "Verif.Mumps.mumps_attempts_memory",
    "Verif.Mumps.mumps_tolerance",
    "Verif.Mumps.mumps_quality_no_effect",
    "Verif.Mumps.mumps_quality",
    "Verif.Mumps.mumps_pivtol_init",
    "Verif.Mumps.mumps_quality_finite",
    "Verif.Mumps.mumps_dependent",
    "Verif.Mumps.demo_run",
    "Verif.Mumps.demo_ran",
    "Verif.Mumps.demo_quality",
    "Verif.Mumps.mumps_inertia_unchecked",
    "Verif.Mumps.mumps_continues_after_error",
    "Verif.Mumps.mumps_null_pivots_left_on",
    "Verif.Mumps.mumps_zero_memory",
    "Verif.Mumps.demo_stack",
    "Verif.Mumps.demo_stack_reach"
   ],
   "note": "All histories, all answers of MUMPS meeting an explicit contract (LibOK). Partial because the code deviates: the raised pivot tolerance reaches MUMPS only with the next analysis, so IncreaseQuality has no effect (mumps_tolerance, mumps_quality_no_effect), and an overflow exception in the detection of dependent rows leaves null pivot detection on (mumps_null_pivots_left_on)."
  },
  {
   "property": "C81",
   "status": "partial",
   "theorems": [
    "Verif.DepRows.dependent_basis",
    "Verif.DepRows.dependent_rest",
    "Verif.DepRows.dependent_warning",
    "Verif.DepRows.warning_means_user",
    "Verif.DepRows.dependent_calls",
    "Verif.DepRows.test_point_within",
    "Verif.DepRows.test_point_fixed",
    "Verif.DepRows.affine_redundant",
    "Verif.DepRows.mumps_detector",
    "Verif.DepRows.detector_structure_failure",
    "Verif.DepRows.detector_warm_start",
    "Verif.DepRows.demo_mumps",
    "Verif.DepRows.demo_taken",
    "Verif.DepRows.demo_rhs",
    "Verif.DepRows.demo_affine",
    "Verif.DepRows.demo_warning",
    "Verif.DepRows.inconsistent_taken_out",
    "Verif.DepRows.fixed_variable_taken_out"
   ],
   "note": "Exact arithmetic; any detector that returns a row basis or fails with an empty list (DetOK), and MUMPS through the interface class if it lists null pivots as documented (NullOK). Partial because the code deviates: without dependency_detection_with_rhs (the default) contradicting constraints are taken out (inconsistent_taken_out), with it also if the starting point is far from the value of a fixed variable (fixed_variable_taken_out, affine_redundant has the condition). WSMP and MA28 are not modelled."
  },
  {
   "property": "C82",
   "status": "proved",
   "theorems": [
    "Verif.RestoResto.resto_resto_fails",
    "Verif.RestoResto.resto_resto_point",
    "Verif.RestoResto.resto_resto_twice",
    "Verif.RestoResto.resto_resto_minimizes",
    "Verif.RestoResto.ex_perform",
    "Verif.RestoResto.ex_other"
   ],
   "note": "Exact arithmetic over any ordered field with a square root (minimality over the reals)."
  },
  {
   "property": "C83",
   "status": "partial",
   "theorems": [
    "Verif.KktErr.delivered",
    "Verif.KktErr.dual_infeasibility_user",
    "Verif.KktErr.violation_user",
    "Verif.KktErr.complementarity_user",
    "Verif.KktErr.bound_violation_user",
    "Verif.KktErr.scaled_measures",
    "Verif.KktErr.scaled_bound_violation",
    "Verif.KktErr.kkt_error_le",
    "Verif.KktErr.error_factor",
    "Verif.KktErr.scaled_error_le",
    "Verif.KktErr.statistics",
    "Verif.KktErr.converged_kkt",
    "Verif.KktErr.acceptable_kkt",
    "Verif.KktErr.multiplier_signs",
    "Verif.KktErr.Ex.ok",
    "Verif.KktErr.Ex.corr",
    "Verif.KktErr.Ex.bcorr",
    "Verif.KktErr.Ex.converged",
    "Verif.KktErr.Ex.slack_not_compared"
   ],
   "note": "Exact arithmetic over any ordered field (the composition with the convergence check over the rationals). Partial because the code deviates: complementarity of inequality constraints is measured with the slack variable, and the test does not compare slack and constraint value (Ex.slack_not_compared: a non-optimal iterate that passes; whether the algorithm can reach it is not shown). Constraint bounds are the relaxed ones; the statistics report complementarity for mu = 0, the KKT error for mu_target."
  },
  {
   "property": "C84",
   "status": "partial",
   "theorems": [
    "Verif.FinalTnlp.final_is_current",
    "Verif.FinalTnlp.approx_kkt",
    "Verif.FinalTnlp.success_is_kkt",
    "Verif.FinalTnlp.acceptable_is_kkt",
    "Verif.FinalTnlp.approx_signs",
    "Verif.FinalTnlp.success_signs",
    "Verif.FinalTnlp.dropped_constraints",
    "Verif.FinalTnlp.time_limit_fixed",
    "Verif.FinalTnlp.time_limit_rest",
    "Verif.FinalTnlp.failure_arrays",
    "Verif.FinalTnlp.Ex.sit",
    "Verif.FinalTnlp.Ex.dims",
    "Verif.FinalTnlp.Ex.near",
    "Verif.FinalTnlp.Ex.interior",
    "Verif.FinalTnlp.Ex.converged",
    "Verif.FinalTnlp.Ex.kkt",
    "Verif.FinalTnlp.Ex.arrays",
    "Verif.FinalTnlp.Ex.time_limit_wrong",
    "Verif.FinalTnlp.Ex.dropped_wrong"
   ],
   "note": "All problems and dimensions, exact arithmetic (the composition with the convergence check over the rationals), honor_original_bounds=no. Partial because the code deviates: with the CPU or wall time limit the multipliers of fixed variables are zero although an iterate is delivered (time_limit_fixed, Ex.time_limit_wrong); g of constraints taken out as dependent is 0 or uninitialized memory (dropped_constraints, Ex.dropped_wrong); without a solution g is not the value at x (failure_arrays). Complementarity of inequality constraints: see C83."
  },
  {
   "property": "C85",
   "status": "partial",
   "theorems": [
    "Verif.Piecewise.update_defined",
    "Verif.Piecewise.envelope",
    "Verif.Piecewise.acceptable_iff",
    "Verif.Piecewise.acceptable_full",
    "Verif.Piecewise.biggest_barrier",
    "Verif.Piecewise.check_iff",
    "Verif.Piecewise.first_line_search",
    "Verif.Piecewise.next_line_search",
    "Verif.Piecewise.reset_once",
    "Verif.Piecewise.reset_keeps",
    "Verif.Piecewise.stale_entry_accepts",
    "Verif.Piecewise.Ex.three",
    "Verif.Piecewise.Ex.full_list_undefined",
    "Verif.Piecewise.Ex.stale_accepted",
    "Verif.Piecewise.Ex.first"
   ],
   "note": "Exact arithmetic over any ordered field, all histories. Partial because the code deviates: a reset keeps the old points (reset_keeps, stale_entry_accepts, Ex.stale_accepted: a point worse than the current one for every penalty parameter is accepted), and with 100 entries the program dereferences end() (acceptable_full, Ex.full_list_undefined)."
  },
  {
   "property": "C86",
   "status": "partial",
   "theorems": [
    "Verif.Ma57.ma57_contract_partial",
    "Verif.Ma57.ma57_solution_partial",
    "Verif.Ma57.ma57_two_passes",
    "Verif.Ma57.ma57_factorization_ends",
    "Verif.Ma57.ma57_solve_success_partial",
    "Verif.Ma57.ma57_inertia_ok",
    "Verif.Ma57.ma57_inertia_wrong",
    "Verif.Ma57.ma57_failure_harmless",
    "Verif.Ma57.ma57_answer",
    "Verif.Ma57.ma57_retry",
    "Verif.Ma57.ma57_failure_reason",
    "Verif.Ma57.ma57_call_again",
    "Verif.Ma57.ma57_no_overrun",
    "Verif.Ma57.ma57_init",
    "Verif.Ma57.ma57_cold_forgets",
    "Verif.Ma57.ma57_init_keeps_request",
    "Verif.Ma57.ma57_quality",
    "Verif.Ma57.ma57_quality_used",
    "Verif.Ma57.ma57_quality_finite",
    "Verif.Ma57.ready_ran",
    "Verif.Ma57.demo_run",
    "Verif.Ma57.demo_ran",
    "Verif.Ma57.ma57_analysis_error_ignored",
    "Verif.Ma57.ma57_solution_error_ignored",
    "Verif.Ma57.ma57_overrun_after_exception",
    "Verif.Ma57.ma57_inertia_unchecked",
    "Verif.Ma57.ma57_loop_forever",
    "Verif.Ma57.demo_stack",
    "Verif.Ma57.demo_stack_reach"
   ],
   "note": "All histories, all answers of the HSL routines, all allocation failures; the statements about solutions assume in addition that errors of the analysis show up in the factorization and that the solution phase does not fail (Noticed). Partial because the code deviates: error codes of MA57AD and MA57CD are only printed (ma57_analysis_error_ignored, ma57_solution_error_ignored: SUCCESS with a wrong solution); after a failed allocation followed by a warm start MA57 is told a wrong array length (ma57_overrun_after_exception); the inertia is not checked for an old matrix; the memory loop ends only if MA57 asks for more than it had (ma57_loop_forever)."
  },
  {
   "property": "C87",
   "status": "partial",
   "theorems": [
    "Verif.SysScaling.slack_factors",
    "Verif.SysScaling.slack_range",
    "Verif.SysScaling.slack_solution_partial",
    "Verif.SysScaling.slack_free_row_partial",
    "Verif.SysScaling.mc19_matrix",
    "Verif.SysScaling.mc19_range",
    "Verif.SysScaling.mc19_solution",
    "Verif.SysScaling.demo_slack",
    "Verif.SysScaling.demo_ok",
    "Verif.SysScaling.demo_mc19",
    "Verif.SysScaling.demo_values",
    "Verif.SysScaling.demo_reach",
    "Verif.SysScaling.slack_free_row_wrong"
   ],
   "note": "Exact arithmetic (MC19: with infinities and NaN, over the rationals). Partial because the code deviates: an inequality constraint without bounds gets the factor 0 (slack_free_row_partial: the scaled matrix is singular for all perturbations; slack_free_row_wrong: a wrong solution is reported as success), and a factor that underflows to 0 in MC19 is kept (demo_mc19)."
  },
  {
   "property": "C88",
   "status": "partial",
   "theorems": [
    "Verif.Equil.points_within",
    "Verif.Equil.evaluations",
    "Verif.Equil.mean_values",
    "Verif.Equil.mc19_matrix",
    "Verif.Equil.factors",
    "Verif.Equil.not_equilibrated_partial",
    "Verif.Equil.demo_points",
    "Verif.Equil.demo_bounds",
    "Verif.Equil.demo_evaluations",
    "Verif.Equil.demo_matrix",
    "Verif.Equil.demo_exp_pos",
    "Verif.Equil.equilibration_wrong"
   ],
   "note": "Exact arithmetic over any ordered field; MC19 and exp answer anything. Partial because the code deviates in the last sentence: the column factors of MC19 are handed to StandardScalingBase as dx, which divides the Jacobian by dx, so the scaled Jacobian is not the equilibrated one (not_equilibrated_partial, equilibration_wrong). Positive factors are proved for a positive exponential function; unlike in the scaling of linear systems nothing is checked, so overflow, underflow and NaN of exp reach the scaling (not modelled)."
  },
  {
   "property": "C89",
   "status": "partial",
   "theorems": [
    "Verif.GenAug.custom_success_solves",
    "Verif.GenAug.custom_failure_keeps",
    "Verif.GenAug.custom_always_new",
    "Verif.GenAug.custom_defined",
    "Verif.GenAug.custom_reuse_undefined_partial",
    "Verif.GenAug.demo_contract",
    "Verif.GenAug.demo_allows",
    "Verif.GenAug.demo_reach",
    "Verif.GenAug.demo_solve",
    "Verif.GenAug.custom_documented_order_wrong",
    "Verif.GenAug.demo_double_delete"
   ],
   "note": "All histories without undefined behaviour; exact arithmetic over any field. Partial because the code deviates in the last sentence: after a solve with a homogeneous diagonal, two cold initializations delete an array twice (custom_reuse_undefined_partial, demo_double_delete; without cold initialization after a solve there is none: custom_defined). The contract is for the order x, c, d, s of the code; the documented order x, d, c, s gives wrong solutions (custom_documented_order_wrong)."
  },
  {
   "property": "C90",
   "status": "partial",
   "theorems": [
    "Verif.CgPerturb.cg_perturbation_consistent",
    "Verif.CgPerturb.cg_first_perturbation",
    "Verif.CgPerturb.cg_calls_end_partial",
    "Verif.CgPerturb.demoE_ok",
    "Verif.CgPerturb.demo_calls",
    "Verif.CgPerturb.demo_end",
    "Verif.CgPerturb.cg_wrong_conclusion"
   ],
   "note": "All histories of calls; exact arithmetic over any (archimedean, for termination) ordered field. Partial: termination needs a positive delta_cd and that the handler's DBG_ASSERT(false) state is not met (as in C17); the last sentence fails in the code: the status for unregularised constraints is set although they are regularised, so the Jacobian is declared not degenerate (cg_wrong_conclusion)."
  },
  {
   "property": "C91",
   "status": "partial",
   "theorems": [
    "Verif.CgBest.restored_is_best_partial",
    "Verif.CgBest.at_most_three",
    "Verif.CgBest.restored_only_if",
    "Verif.CgBest.penalty_bounded_partial",
    "Verif.CgBest.update_only_if",
    "Verif.CgBest.eta_and_count",
    "Verif.CgBest.reset_is_dead",
    "Verif.CgBest.stale_fallback",
    "Verif.CgBest.default_never_updates",
    "Verif.CgBest.heuristic_exceeds",
    "Verif.CgBest.demoC_sane",
    "Verif.CgBest.demo_penalty",
    "Verif.CgBest.demo_best"
   ],
   "note": "All histories; exact arithmetic over any (archimedean, for the number of increases) ordered field; norms, products and KKT errors are arguments. Partial because the code deviates: the best error is never forgotten when the barrier parameter decreases (reset_is_dead); before the first accepted step of a reoptimization a fallback restores an iterate of the former problem (stale_fallback); with the default penalty_update_compl_tol=10 the regular update never happens (default_never_updates); the heuristic update, on by default, ignores penalty_max and may decrease the parameter (heuristic_exceeds), so the bound is proved without it."
  },
  {
   "property": "C92",
   "status": "partial",
   "theorems": [
    "Verif.CgDir.direction",
    "Verif.CgDir.penalties_positive",
    "Verif.CgDir.penalty_update_partial",
    "Verif.CgDir.option_ignored",
    "Verif.CgDir.demo_dir",
    "Verif.CgDir.lowered_too_far"
   ],
   "note": "All histories of computations; exact arithmetic over any ordered field; results of the linear solver, norms and products are arguments, the right-hand sides are not modelled. Partial because the code deviates: the parameter may be lowered below the value required for descent (lowered_too_far) and the option never_use_fact_cgpen_direction is ignored (option_ignored); the bound of 51 on the lowerings is for histories without changes by other classes."
  }
 ]
}