C("C13","proved",["Verif.Filter.filter_acceptable_iff","Verif.Filter.filter_no_dominated_entry","Verif.Filter.filter_rejection_persists","Verif.Filter.filter_nan_entry_lost","Verif.Filter.filter_dimension_contract_needed"],
  "entries must be NaN-free (necessity shown by filter_nan_entry_lost); queries may contain NaN/infinities; no kept entry is dominated by a later one")
C("C14","proved",["Verif.FilterLS.ls_history_defined","Verif.FilterLS.ls_accept_implies_progress","Verif.FilterLS.ls_update_type","Verif.FilterLS.ls_no_cycling"],
  "exact ordered-field arithmetic; pow/log10/eps are parameters; second-order correction and corrector steps not modelled (they call the same check)")
C("C15","partial",["Verif.FilterLS.ls_filter_resets_unbounded","Verif.FilterLS.ls_filter_resets_partial","Verif.FilterLS.ls_reset_is_reported"],
  "property is false of the code: n_filter_resets_ is never incremented; negation proved with an unbounded family of histories")
C("C01","proved",["Verif.Opt.option_list_refines_table","Verif.Opt.read_string_spec","Verif.Opt.read_integer_spec","Verif.Opt.read_numeric_spec","Verif.Opt.read_unregistered_raises","Verif.Opt.other_calls_do_not_interfere","Verif.Opt.write_determines_entry","Verif.Opt.string_write_then_read","Verif.Opt.integer_write_then_read","Verif.Opt.unset_then_read"],
  "all histories of the public calls; std::map modelled as association list; registry lookup is case-sensitive as in the code, the store is not")
C("C02","proved",["Verif.Opt.no_clobber_is_frozen","Verif.Opt.no_clobber_read"],"all histories without clear()")
C("C03","proved",["Verif.Opt.valid_number_iff_in_range","Verif.Opt.valid_integer_iff","Verif.Opt.setter_rejects","Verif.Opt.stored_values_accepted","Verif.Opt.nan_is_accepted"],
  "bounds must not be NaN; NaN is accepted by every numeric option (nan_is_accepted)")
C("C04","partial",["Verif.Opt.numeric_roundtrip_fails","Verif.Opt.numeric_read_back","Verif.Opt.nearest_error","Verif.Opt.numeric_decimal_roundtrip_partial","Verif.Opt.blank_text_reads_as_zero","Verif.Opt.integer_text_truncated"],
  "the property is false of the code (six-digit text storage): counterexample proved; the value read is the double of a nearest six-digit decimal (relative error at most 5e-6); doubles of decimals with at most six digits are read back exactly")
C("C05","proved",["Verif.Opt.read_string_spec","Verif.Opt.read_integer_spec","Verif.Opt.read_numeric_spec","Verif.Opt.prefix_isolation","Verif.Opt.prefix_isolation_reads"],"")
C("C06","proved",["Verif.Tok.option_file_roundtrip","Verif.Tok.token_read_consumes","Verif.Opt.option_file_pairs","Verif.Opt.empty_quoted_token_misread","Verif.Opt.unterminated_tag_is_silent"],
  "non-empty tokens, comments of at most 10^7 characters; disagreements for empty quoted tokens and unterminated quotes are proved as theorems")
C("C07","proved",["Verif.Opt.string_setting_accepted_iff","Verif.Opt.string_setting_spelling","Verif.Opt.string_setting_enum"],"")
C("C08","proved",["Verif.SP.smartptr_no_use_after_free","Verif.SP.smartptr_alive_iff_owned","Verif.SP.smartptr_count_exact","Verif.SP.smartptr_deleted_stays_deleted","Verif.SP.smartptr_acyclic_no_leak","Verif.SP.smartptr_cycle_leaks"],
  "all programs of declarations, assignments (variables, members, self-assignment, cycles) and destructions; raw pointers only through access paths and new; unbounded count")
C("C09","proved",["Verif.Cache.cache_refines","Verif.Cache.cache_hit_sound","Verif.Cache.cache_tag_wraparound"],
  "every history handing out fewer than 2^32-1 tags; cache_tag_wraparound proves that this restriction is necessary: after the counter wrapped a result is returned for another object")
C("C10","proved",["Verif.Cache.cache_size_bounded","Verif.Cache.just_stored_is_found","Verif.Cache.oldest_evicted_first","Verif.Cache.cache_refines"],
  "histories handing out fewer than 2^32-1 tags; scalars of the immediate lookup must not be NaN")
C("C11","proved",["Verif.Cache.observers_consistent","Verif.Cache.results_owned"],"the only observers in the code base are cached results; histories handing out fewer than 2^32-1 tags")
C("C16","proved",["Verif.Perturb.perturbation_consistent","Verif.Perturb.consider_succeeds","Verif.Perturb.failed_call_leaves_bad_perturbation"],
  "all histories of handler calls; failed_call_leaves_bad_perturbation: after a failed call the stored perturbation violates the bound, and SolveOnce then uses it / uses unassigned variables")
C("C17","partial",["Verif.Perturb.inertia_loop_terminates_partial","Verif.Perturb.inertia_loop_can_hang","Verif.Perturb.inertia_loop_can_hang_without_regularisation"],
  "the property is false of the code: an infinite sequence of solver answers exists for which the handler repeats the same perturbation for ever (default options, first system); termination is proved for all answer sequences that do not reach the state excluded by the code's own debug assertion, for positive regularisation")
C("C12","proved",["Verif.Jnl.journal_output","Verif.Jnl.produce_output_iff","Verif.Jnl.levels_independent","Verif.Jnl.set_all_levels_skips_user_categories"],
  "all histories of creating, adding, deleting, configuring journals and printing; formatting itself and stream buffering not modelled; finding: SetAllPrintLevels does not cover the user categories")
C("C41","proved",["Verif.Jnl.print_over_lines","Verif.Jnl.wrapped_width","Verif.Jnl.print_over_lines_hangs"],
  "line length >= 2; for line length 1 the routine does not end (print_over_lines_hangs)")
C("C18","proved",["Verif.Alg.check_converged_iff","Verif.Alg.nan_never_converged","Verif.Alg.optimize_success_sound"],
  "all states of the check, all values incl. NaN and infinities, all behaviours of the strategy objects; the error measures themselves are inputs")
C("C19","proved",["Verif.Alg.check_acceptable_iff","Verif.Alg.never_acceptable","Verif.Alg.isAcceptable_again","Verif.Alg.first_check_not_acceptable","Verif.Alg.acceptable_counts_checks_not_iterations"],
  "all histories of checks; findings: the first check never counts with default tolerances; checks, not iterations, are counted (up to three per iteration for square problems); ACCEPTABLE_POINT_REACHED raised by the line search gives the same return code")
C("C20","proved",["Verif.Alg.optimize_terminates","Verif.Alg.optimize_more_fuel","Verif.Alg.optimize_iterations_bounded","Verif.Alg.optimize_user_stop","Verif.Alg.optimize_return_reason","Verif.Alg.optimize_propagates","Verif.Alg.check_cont","Verif.Alg.check_limit_reason","Verif.Alg.check_userStop_iff"],
  "strategy objects are arbitrary functions that may raise any exception; each strategy call is assumed to return")
C("C21","proved",["Verif.Alg.optimizeNLP_returns_status","Verif.Alg.finalize_at_most_once","Verif.Alg.status_translated_and_solution_delivered","Verif.Alg.exception_translated","Verif.Alg.internal_error_without_finalize","Verif.Alg.inconsistent_codes_after_late_exception","Verif.Alg.reoptimize_propagates"],
  "three findings proved: no FinalizeSolution after INTERNAL_ERROR; contradictory codes after an exception while collecting statistics; ReOptimizeNLP has no outer handlers")
C("C26","partial",["Verif.Vec.dense_laws","Verif.Vec.addTwo_elems_partial","Verif.Vec.select_elems_partial","Verif.Vec.copyToPos_elems_partial","Verif.Vec.copyFromPos_elems","Verif.Vec.addTwoElem_eq","Verif.Vec.expand_elems","Verif.Vec.addTwo_wrong","Verif.Vec.select_wrong","Verif.Vec.copyToPos_wrong","Verif.Vec.copyToPos_garbage"],
  "false of the code for three operations, counterexamples proved: AddTwoVectors with c=1,a=0,b=1 on element storage (adds v2 Dim() times); ElementWiseSelect when elements are not in {-1,0,1}; CopyToPos with scalar storage. All other operations and cases are proved equal to the list operations in exact arithmetic (dense_laws collects them)")
C("C27","proved",["Verif.Vec.fracToBound_max","Verif.Vec.fracToBound_pos","Verif.Vec.fracToBoundDefault_max","Verif.Vec.comp_laws"],
  "all dimensions and storages, 0 < tau, also default implementation and compound vectors; exact arithmetic")
C("C42","proved",["Verif.Vec.query_current","Verif.Vec.query_pure","Verif.Vec.compound_fresh","Verif.Vec.compound_stale","Verif.Vec.empty_max_scaled"],
  "unbounded tags; for compound vectors a component pointer kept from before the query makes the cache stale (compound_stale), asking for it again does not")
C("C43","proved",["Verif.Vec.comp_laws","Verif.Vec.sum_laws","Verif.Vec.nested_laws","Verif.Vec.dense_laws"],
  "the case excluded in C26 (AddTwoVectors with c=1,a=0,b=1) is excluded here as well; elements at least -big for Max")
C("C40","proved",["Verif.Mem.mem_increase_safe","Verif.Mem.mem_increase_overflow_iff","Verif.Mem.mem_increase_follows","Verif.Mem.mem_increase_undefined","Verif.Mem.retry_grows","Verif.Mem.retry_can_stall"],
  "all signed integer types, lengths and recommendations not below the type's range; NaN recommendation is undefined behaviour; finding: small lengths with factors < 2 never grow")
C("C22","partial",["Verif.CSR.csr_triangular_correct_partial","Verif.CSR.csr_full_correct_partial","Verif.CSR.csr_gap_breaks"],
  "proved for all dimensions, offsets, duplicate patterns, sort results and value arrays under the precondition that the non-empty rows of the upper triangle are consecutive (always true for the KKT matrices Ipopt builds, where every diagonal entry is present); without it the property is false of the code (csr_gap_breaks)")
C("C23","proved",["Verif.Adapter.spaces_inconsistent_iff","Verif.Adapter.spaces_variables","Verif.Adapter.spaces_bounds","Verif.Adapter.spaces_constraints","Verif.Adapter.spaces_treatment","Verif.Adapter.bound_values_are_users","Verif.Adapter.spaces_nan_bound_ignored","Verif.Adapter.relax_bounds_never_relaxes"],"All sizes, bounds (including infinities and NaN) and treatments of fixed variables. Also shown: NaN bounds are accepted as absent; the relax_bounds treatment never relaxes anything (loop over a counter that is zero).")
C("C24","proved",["Verif.Adapter.resortX_round_trip","Verif.Adapter.resortX_user","Verif.Adapter.resortG_delivers","Verif.Adapter.constraint_values_round_trip","Verif.Adapter.internal_constraints_meaning","Verif.Adapter.multipliers_round_trip","Verif.Adapter.bound_multipliers_delivered"],"Exact arithmetic. Constraints taken out as linearly dependent are delivered as zero (whatever was in the array), not with their values; stated in constraint_values_round_trip.")
C("C44","proved",["Verif.Adapter.jacobian_restricted","Verif.Adapter.jacobian_fixed_rows","Verif.Adapter.hessian_restricted"],"All structures with duplicates in any order.")
C("C45","proved",["Verif.Adapter.fixed_multipliers_dual_feasible","Verif.Adapter.fixed_multipliers_constraint","Verif.Adapter.free_multipliers_unchanged","Verif.Adapter.rowMult_eq"],"Over any ordered field; user evaluations at the solution succeed.")
C("C46","partial",["Verif.AdapterEval.eval_f_grad_h_exact","Verif.AdapterEval.eval_g_exact_partial","Verif.AdapterEval.eval_jac_exact","Verif.AdapterEval.eval_g_failure_forgotten"],"The property is false for constraints that cannot be evaluated: the failure is reported once, a second request at the same point is answered with success and stale values (wrong tag reset in internal_eval_g); proved as eval_g_failure_forgotten. Everything else is proved for all histories; finite-difference gradients are not modelled.")
C("C47","partial",["Verif.AdapterEval.new_x_flag_earlier","Verif.AdapterEval.new_x_flag_last_partial","Verif.AdapterEval.new_x_flag_last_fails","Verif.AdapterEval.new_x_flag_last_fails_findiff"],"The documented meaning (some earlier call at the same point) is proved for all histories; the 'last call' meaning is proved for histories that do not return to a point and refuted otherwise (answers from memory; finite differences).")
C("C48","partial",["Verif.AdapterEval.findiff_jacobian_partial","Verif.AdapterEval.pert_in_bounds","Verif.AdapterEval.findiff_jacobian_gap","Verif.AdapterEval.pert_leaves_bounds"],"False in general: if a variable between others appears in no constraint, entries are computed with the wrong variable (findiff_jacobian_gap); perturbed points can leave bounds that are close together (pert_leaves_bounds). Proved when variables in constraints are consecutive / bounds at least two perturbations apart.")

C("C29","proved",["Verif.InitPoint.initial_point","Verif.InitPoint.project_spec","Verif.InitPoint.initial_point_strictly_inside","Verif.InitPoint.nearly_equal_bounds_left"],"Any number of variables, any mix of bounds, all option values; exact arithmetic. If bound_frac*(x_U-x_L) is below 100*DBL_MIN the point leaves the bounds (nearly_equal_bounds_left).")
C("C30","proved",["Verif.MonotoneMu.update_spec","Verif.MonotoneMu.update_waits","Verif.MonotoneMu.update_slow","Verif.MonotoneMu.tiny_step_iff","Verif.MonotoneMu.update_terminates","Verif.MonotoneMu.mu_nonincreasing","Verif.MonotoneMu.mu_pos_tau","Verif.MonotoneMu.mu_increases_below_floor","Verif.MonotoneMu.linesearch_not_reset"],"All histories of calls with arbitrary iterates; the power function is any positive function. If mu_init is below the floor mu increases (mu_increases_below_floor); the line search may not be reset although mu changed (linesearch_not_reset).")
C("C32","proved",["Verif.TimedTask.totals_are_completed_intervals","Verif.TimedTask.started_iff","Verif.TimedTask.totals_bounded","Verif.TimedTask.disabled_no_effect","Verif.TimedTask.unpaired_end_counts_twice","Verif.TimedTask.disabled_span_counted"],"All call sequences; an End without Start counts a span twice (unpaired_end_counts_twice).")
C("C34","proved",["Verif.Safeguard.corrected_multipliers","Verif.Safeguard.corrected_products","Verif.Safeguard.accept_trial_multipliers","Verif.Safeguard.correction_disabled"],"kappa_sigma >= 1 (below 1 the safeguard is documented as off).")
C("C35","proved",["Verif.Safeguard.safe_slack_spec","Verif.Safeguard.safe_slack_positive","Verif.Safeguard.safe_slacks_positive","Verif.Safeguard.sMin_pos","Verif.Safeguard.slack_move_zero_not_positive","Verif.Safeguard.second_request_forgets"],"slack_move=0 leaves zero slacks; the getter forgets the number of corrections on a second request (second_request_forgets).")
C("C33","partial",["Verif.LineSearch.backtracking_spec","Verif.LineSearch.no_accept_at_eval_error","Verif.LineSearch.backtracking_ends","Verif.LineSearch.backtracking_trials","Verif.LineSearch.watchdog_one_trial","Verif.LineSearch.backtracking_terminates_partial","Verif.LineSearch.backtracking_need_not_end","Verif.LineSearch.backtracking_hangs"],"The sequence of step sizes and the outcome are proved for every acceptor behaviour; termination needs a positive minimal step size. CalculateAlphaMin can return 0, and then the loop need not end (backtracking_hangs, also with rounding).")
C("C49","proved",["Verif.LineSearch.watchdog_bounded","Verif.LineSearch.watchdog_continues","Verif.LineSearch.watchdog_starts","Verif.LineSearch.watchdog_ends","Verif.LineSearch.no_watchdog_keeps_iterate"],"All event histories; rigorous line search (the only mode the code sets).")
C("C50","proved",["Verif.LineSearch.soft_bounded"],"All event histories; tiny steps taken during the phase are not counted by the code and not by the theorem.")
C("C51","proved",["Verif.LineSearch.acceptable_point","Verif.LineSearch.failure_means_never_acceptable"],"All event histories from initialisation.")
C("C28","proved",["Verif.Matrix.mult_is_product","Verif.Matrix.transMult_is_transposed_product","Verif.Matrix.products_adjoint","Verif.Matrix.beta_zero_ignores_y","Verif.Matrix.sym_classes_symmetric","Verif.Matrix.addMSinvZ_correct","Verif.Matrix.identity_addMSinvZ_ignores_factor","Verif.Matrix.sinvBlrm_correct","Verif.Matrix.wide_diagonal_uses_missing_block"],"All 20 matrix classes and all nestings, over any field; beta=0 over any scalar type without laws (covers NaN). BLAS gemv/symv are taken by contract, dense matrices have positive dimensions. The two barrier operations hold except where the negations show a defect.")
C("C25","partial",["Verif.Scaling.scaling_roundtrips","Verif.Scaling.d_bounds_roundtrip","Verif.Scaling.scaled_values","Verif.Scaling.scaled_bounds","Verif.Scaling.bounds_equivalent","Verif.Scaling.reported_point_unscaled","Verif.Scaling.stationary_iff","Verif.Scaling.complementarity_unscaled","Verif.Scaling.start_roundtrip_partial","Verif.Scaling.start_bound_multipliers_scaled_twice","Verif.Scaling.start_bound_multipliers_wrong","Verif.Scaling.scaled_gradient","Verif.Scaling.scaled_jacobians","Verif.Scaling.scaled_hessian","Verif.Scaling.negative_scaling_flips_bounds"],"Everything holds except for the bound multipliers of a user-supplied starting point: they are multiplied by the variable scaling instead of divided (negation proved), so they do not survive scaling and unscaling. Negative variable scaling is not rejected and flips bounds.")
C("C52","proved",["Verif.Scaling.relax_amount","Verif.Scaling.relax_outward","Verif.Scaling.final_x_within_original_bounds","Verif.Scaling.final_x_moved_little","Verif.Scaling.honor_ignored_without_relaxation","Verif.Scaling.reported_objective_of_unprojected_point"],"Consistent bounds; honor_original_bounds does nothing if bound_relax_factor = 0 (proved), and objective and constraint values are those before the projection (proved).")
C("C53","proved",["Verif.GradScaling.objective_factor","Verif.GradScaling.objective_target","Verif.GradScaling.constraint_factors","Verif.GradScaling.failed_evaluation_unscaled","Verif.GradScaling.constraint_target_common_factor"],"nlp_scaling_min_value at most 1 and maximum gradient at least DBL_MIN (above these the floor dominates).")
C("C36","proved",["Verif.PDSystem."+t for t in "elimination_exact elimination_equivalent residuals_correct residual_of_inexact_solve kkt_is_augmented_system expansion_selects identity_selects compound_selects solve_terminates solve_accepts solve_exact alpha_zero_not_scaled".split()],"All dimensions and matrices over any field; slacks nonzero; the linear solver and inertia correction are an oracle. solve_terminates and solve_accepts hold for any arithmetic. alpha=0 is shown not to scale the result.")
C("C37","partial",["Verif.AugResto."+t for t in "resto_matrix resto_elimination_equivalent resto_solve_exact_partial resto_solve_failure resto_step_exact pivots_of_pos resto_Dd_overwrites resto_factor_ignored".split()],"All dimensions and matrices over any field, nonzero pivots (positive in an interior-point iterate), D_d=NULL and Hessian factor 1: exact, and combined with C36 the full 8-block restoration step is exact. The general claim is false: negations for D_d given and for W_factor=0 (the least-square multiplier call).")
C("C31","partial",["Verif.QuasiNewton."+t for t in "bfgs_history bfgs_resto_history log_is_of_successive_calls bfgs_stored_curvature bfgs_reset_iff reset_clears skip_keeps_W sr1_history_partial sr1_reset_iff_partial bfgs_cholesky_failure_keeps_pair sr1_first_undo_garbage sr1_first_undo_wrong_count sr1_undo_resurrects resto_zero_history_null".split()],"All call sequences, dimensions and options over any ordered field; LAPACK is an arbitrary function. BFGS history, order, curvature and reset are fully proved (a pair whose Cholesky factorization failed stays in the memory: negation). SR1: as long as an undo has something to undo; negations show a garbage history for an undo before the first update and a resurrected one after a reset.")
C("C54","partial",["Verif.QuasiNewton."+t for t in "bfgs_secant_equation bfgs_secant_full_space sr1_secant_equation_partial bfgs_real_run sr1_real_run resto_secant_fails sr1_uses_uninitialised_values".split()],"Original problem, exact factorizations (hypotheses on potrf/trsm/syev, shown satisfiable over the reals). The claim is false in the restoration phase with scaled variables (negation) and for SR1 with scalar2/scalar4 if the gradient does not change (negation: W depends on uninitialised storage).")
C("C55","proved",["Verif.QuasiNewton."+t for t in "bfgs_positive_definite bfgs_curvature bfgs_sigma_safeguarded envR_ok".split()],"Original problem; exact factorizations; Cholesky may fail at any time. Positive limited_memory_init_val and init_val_min <= init_val_max.")
C("C38","partial",["Verif.Reducer."+t for t in "reduced_info info_again reduced_eval_g reduced_start_scaling_linearity reduced_bounds reduced_jacobian reduced_hessian solution_in_original_numbering fortran_nnz_wrong duplicate_index_ignores_rest info_after_failure".split()],"All problems, index styles and lists of distinct indices in range. The announced number of Jacobian entries is proved right in C style only and shown wrong in FORTRAN style (negation); duplicate indices make the reducer ignore later ones (negation); a failed first get_nlp_info is followed by a successful one with arbitrary counts (negation).")
C("C39","partial",["Verif.CInterface."+t for t in "create_some_iff problem_data_kept scaling_latest scaling_default starting_point solve_status solve_returns optimizeNLP_returns no_retrieval_outside results_delivered other_arrays_untouched array_tails_untouched callbacks_forwarded answers_from_callbacks callbacks_get_point callbacks_get_point_partial options_forwarded options_forwarded_setters int_option_effective str_option_effective created_but_unsolvable callbacks_wrong_point".split()],"For every caller history, every solver (arbitrary interaction tree over the TNLP functions) and every callback behaviour (also overwriting the caller's arrays). Creation succeeds iff the checked conditions hold; bounds, scaling and starting values are snapshots; results, statuses, callbacks and options are forwarded. Partial because two parts of the expectation are false of the code: problems that IpoptSolve can never accept are created (created_but_unsolvable), and callbacks are handed another point than requested when the evaluation layer's new_x flag is wrong (callbacks_wrong_point); callbacks_get_point_partial covers the remaining histories.")
C("C56","partial",["Verif.CQ."+t for t in "all_fresh all_fresh_restoration all_fresh_restoration_fixed_mu boundless_fresh all_fresh_adjusting fresh_meaning slack_ignores_new_bounds violation_ignores_new_bounds adjusted_slack_ignores_mu adjusted_slack_ignores_multiplier dual_infeasibility_ignores_mu stored_but_never_found not_always_fresh".split()],"All 68 functions, all histories, arbitrary numerical operations. Proved without restriction for functions that read no bounds; for the rest while bounds stay and no slack is adjusted; in the restoration phase except eight functions derived from the gradient of the Lagrangian, whose caches ignore the barrier parameter. The unrestricted claim is false (negations).")
C("C57","partial",["Verif.AdaptiveMu."+t for t in "adaptive_mode adaptive_kkt_decrease adaptive_kkt_rate adaptive_kkt_limit adaptive_filter_progress adaptive_free_mu adaptive_safeguard adaptive_references adaptive_switch adaptive_fixed adaptive_positive adaptive_bounds adaptive_no_bounds adaptive_undefined_iff adaptive_defined adaptive_tiny kktError_zero Ex.history_meets_hypotheses Ex.kkt_history Ex.mu_target_not_respected Ex.tau_of_old_mu Ex.fixed_mode_may_raise_mu Ex.mu_min_not_respected Ex.restore_without_point Ex.safeguard_without_reference".split()],"All histories, all oracles, all options over any ordered field. Modes, progress, bounds, positivity and the conditions under which a call is undefined are proved. Partial because parts of the expectation are false of the code: the fixed mode ignores mu_target, may raise mu, uses tau of the old mu; mu can be below mu_min if mu_max is (negations).")
C("C58","partial",["Verif.MuOracle."+t for t in "centrality_measure loqo_mu slackStep_meaning probing_mu quality_pos golden_section sigma_range sigma_best sigma_accuracy qf_mu stored_direction Ex.gfac_golden Ex.it_interior Ex.accuracy_meets_hypotheses Ex.qf_below_mu_min Ex.lower_end_never_chosen Ex.sigma_worse_than_one".split()],"All interior iterates, dimensions and solvers over any ordered field; golden section for arbitrary functions. Partial: the quality function oracle can return less than the mu_min it is given (negation; mu_target is thus not respected by the default oracle), the lower end is never tried without sections, and without unimodality the result may be worse than sigma=1 (negations).")
C("C59","proved",["Verif.Triplet."+t for t in "number_entries_iff general_triplets symmetric_triplets structure_reusable triangle_off_diagonal_lost fillFromVector_correct putInVector_correct put_then_fill exA_wf exA_triangles".split()],"All nestings of matrix classes over any field; arrays are memories with positions, so pointer shifts and untouched positions are part of the statement. Restriction stated and shown necessary: matrices stored as a triangle may only stand in diagonal position (triangle_off_diagonal_lost).")
C("C60","proved",["Verif.AugSolve."+t for t in "multiSolve_success_solves multiSolve_failure_keeps demo_contract demo_values demo_reach warm_start_same_arguments_wrong".split()],"Exact arithmetic over any field; the sparse solver and the scaling method are arbitrary objects keeping an explicit contract (Contract; met by demo_contract). The contract asks only for what the implementations guarantee (values may be read back only after CALL_AGAIN; after a warm initialization only the same structure), and is proved to be met by the MA27 interface in C77. One restriction on callers, shown necessary: a call may not repeat its arguments right after a warm re-initialization (warm_start_same_arguments_wrong), or after a failure without a successful IncreaseQuality. DetermineDependentRows is not modelled.")
C("C61","partial",["Verif.CurrIter."+t for t in "calls_outcome iterate_point iterate_constraints iterate_lambda iterate_bound_multipliers iterate_eval_failure iterate_scaled iterate_scaled_fixed violations_bounds violations_bounds_unrelaxed violations_complementarity violations_gradient violations_gradient_fixed violations_gradient_fixed_wrong violations_constraints_partial violations_compl_g_partial violations_constraints_exact violations_constraints_misaligned violations_dropped_unwritten exSit exIter exSit2".split()],"All problems, scalings, fixed-variable treatments and phases over any ordered field. Partial because the code deviates: constraint violations and complementarities are exact only if scaling factors of inequalities are aligned with the lists of bounds (exact formula and counterexample proved), the gradient for variables fixed by constraints has an extra term (formula and counterexample), bound violations are reported as zero if bounds are not relaxed, dropped rows are not written. Slack corrections are left out.")
C("C62","partial",["Verif.OrigNLP."+t for t in "eval_right constant_right counters_exact cache_limits repeated_not_called constant_once constant_hessian_once Ex.warm_start_constant_hessian_stale Ex.old_vector_old_objective".split()],"All histories; problem, results and scaling are arbitrary. Caches are the abstract ones of C09. Partial because the code deviates: with hessian_constant and warm_start_same_structure the Hessian of the previous problem is used (negation proved; excluded by Legal), and arguments must have been created or changed since the last initialization (shown necessary).")
C("C63","partial",["Verif.LowRank."+t for t in "solution_solves not_revisit solve_defined curvature_positive inertia_correct ex_run ex_success revisit_wrong factor_two_wrong full_diagonal_undefined".split()],"All histories, sizes and ranks over any field (ordered for the inertia); linear solver and LAPACK are arbitrary objects keeping an explicit contract (met by exEnv). Partial because the code deviates: after a failed call, a call with the arguments of an earlier one can report success with a wrong solution (revisit_wrong; excluded by Revisit, not_revisit gives simple sufficient conditions), a factor other than 0 and 1 is treated as 0, and a NULL full diagonal with P_LowRank is undefined.")
C("C64","partial",["Verif.LowRank.SS."+t for t in "solution_solves solution_delta solve_defined inertia_correct asks_right_inertia ex_run ex_success ex_success2 delta_c_wrong other_space_undefined too_many_columns_undefined".split()],"All histories, sizes and ranks over any field (ordered for the inertia). Partial because the code deviates: delta_c is also applied to the additional rows, so with delta_c != 0 another Hessian is used (exact formula solution_delta, counterexample delta_c_wrong), the expansion matrix of the first Hessian is kept (other_space_undefined), and the test for too many columns is void (too_many_columns_undefined).")
C("C65","proved",["Verif.RestoNLP."+t for t in "resto_objective resto_constraints resto_is_l1 resto_gradient resto_jac_c resto_jac_d resto_hessian resto_bounds".split()],"All original problems and points; exact arithmetic over any ordered field with a square root (derivatives over the reals). resto_bounds also shows that after AdjustVariableBounds the restoration problem keeps the old bounds of the original variables (component 0), unlike the original problem.")
C("C66","proved",["Verif.RestoInit."+t for t in "resto_start least_square_mults resto_back resto_start_minimizes".split()],"All iterates and dimensions over any ordered field with a square root (minimality over the reals). The multiplier calculator is arbitrary.")
C("C67","proved",["Verif.RestoConv."+t for t in "resto_success resto_endings resto_phase resto_outcome resto_infeasible_end resto_reported".split()],"All options, observations and histories. Filter and iterate acceptability are observed values (C05, C43 cover them). For square problems the code checks the violation at the point where the phase started instead of the point found (stated exactly in resto_outcome, example in the module).")
C("C68","proved",["Verif.PenaltyLS."+t for t in "penalty_parameter penalty_prediction penalty_acceptance penalty_descent penalty_finds_step penalty_bounded penalty_resto".split()],"Exact arithmetic over any ordered field with a square root; function values finite. The watchdog is not available in this mode (its methods throw, stated in the model).")
C("C69","proved",["Verif.SOC."+t for t in "second_order_corrections soc_linearization soc_penalty_descent corrector_direction corrector_outcome".split()],"Solver, step rule and acceptance test are arbitrary; soc_penalty_descent combines with C68. corrector_direction assumes exact solves (TryCorrector ignores the solver's return value, so it uses whatever is in the vector).")
C("C70","partial",["Verif.BoundsRemover."+t for t in "removed_feasible removed_kkt_delivered removed_kkt_kept removed_invalid removed_derivatives removed_scaling removed_start Ex.kkt".split()],"All dimensions and matrices over any ordered field (derivatives over the reals). Partial because the code deviates for warm starts: z_L of the user becomes the multiplier of the row x >= x_L without the change of sign that FinalizeSolution makes (removed_start proves that the round trip gives -z_L).")
C("C71","partial",["Verif.InitMult."+t for t in "default_inside default_primal default_bound_multipliers default_constraint_multipliers ls_duals ls_primal Example.e1_exact Example.ls_primal_not_linearization".split()],"All dimensions, over any ordered field, any linear solver (exact one for ls_*). Partial because the code deviates: the vector of least_square_init_primal is the least-norm step (J x = -c(x0)) used as a point; it satisfies the linearized equalities iff J x0 = 0 (ls_primal, counterexample ls_primal_not_linearization). ls_duals: the multipliers are those of the gradient at the pushed point with the Jacobians of the user's point.")
C("C72","partial",["Verif.InitMult."+t for t in "warm_start warm_start_whole warm_start_interior warm_start_margins warm_start_target_mu_undefined".split()],"All dimensions and options. Partial because the code deviates: a positive warm_start_target_mu dereferences a null pointer (warm_start_target_mu_undefined), and the documented defaults of warm_start_bound_push/frac and the slack versions are never used (warm_start_margins).")
C("C73","proved",["Verif.SearchDir."+t for t in "search_direction newton_direction barrier_slope descent barrier_derivative least_square_multipliers".split()],"All dimensions; any ordered field (newton_direction and barrier_derivative: reals). The linear solver is assumed exact (C36, C60). With fast_step_computation and a direction left by the barrier parameter oracle that direction is used unchanged (stated in search_direction).")
C("C74","proved",["Verif.DerivCheck."+t for t in "check_outcome no_test never_false invalid_problem calls_contract entries_complete reference_point marked_iff marked_of_accuracy message finite_differences right_derivatives_pass wrong_derivative_found wrong_second_derivative_found Ex.isData Ex.marked Ex.perturbed_point_outside".split()],"Whole of CheckDerivatives, exact arithmetic over any ordered field (truncation error theorems over the reals); user functions are functions of the point. The reference point is within the bounds if the starting point is within the radius of them; the perturbed points need not be (perturbed_point_outside).")
C("C75","proved",["Verif.Adapter."+t for t in "user_scaling user_scaling_rows approx_variables approx_no_list UserEx.spaces_some UserEx.duplicate_counts_twice UserEx.too_many_linear".split()],"All numberings produced by GetSpaces (C23). Lists without duplicates, in range (a duplicate can make the code use all variables: duplicate_counts_twice); num_linear_variables at most the number of variables (otherwise an array of negative size is allocated: too_many_linear).")
C("C76","partial",["Verif.Ampl."+t for t in "evaluations hessian_evaluation hessian_ignores_errors objective_choice solution_kkt warm_start_round_trip starting_point jacobian_structure hessian_structure result_numbers other_information Ex.hist Ex.values Ex.hessian_of_failed_evaluation Ex.kkt Ex.structure_example".split()],"All models and legal histories; the AMPL library is an arbitrary object following its documentation (xknown, sphes use of earlier evaluations). Partial because the code deviates: eval_h ignores errors of the evaluations it makes and reports success with meaningless numbers (hessian_ignores_errors, Ex.hessian_of_failed_evaluation). Option parsing and reading of .nl files are not modelled.")
C("C77","proved",["Verif.Ma27."+t for t in "ma27_contract ma27_solution ma27_ends ma27_solve_success ma27_inertia_ok ma27_inertia_wrong ma27_call_again_bounded ma27_no_overrun ma27_pivtol_init ma27_init_forgets ma27_grow_when_needed ma27_quality ma27_quality_finite demo_run demo_ran ma27_inertia_unchecked ma27_overrun_after_warm_start demo_stack demo_stack_reach".split()],"All histories, all answers of MA27 meeting an explicit contract (LibOK: when it reports success, the factors solve the system exactly and the number of negative eigenvalues is right; AsksForMore for the bounds on CALL_AGAIN) and all allocation failures. ma27_ignore_singularity=no. In the stack theorems an exception counts as a fatal error and bad_alloc in GetValuesArrayPtr is not represented. The rules for the caller in ma27_no_overrun are necessary (ma27_overrun_after_warm_start), and the inertia is not checked without a new matrix (ma27_inertia_unchecked).")
C("C78","proved",["Verif.Sens."+t for t in "sens_step sens_steps sens_parameter sens_flags sens_failure_ignored sens_matrix sens_matrix_flags sens_second_step".split()],"Exact arithmetic over any ordered field; the backsolver solves systems with the primal-dual matrix exactly, LAPACK solves nonsingular systems exactly. sens_steps needs that the systems for the components fixed so far are nonsingular (the code ignores the result of the LU factorization). Where the code deviates: sens_second_step (stale column count, null pointer in a later step with bound check), sens_matrix_flags (equal flags: equal columns with uninitialized memory), sens_failure_ignored. Unscaling of the results is not modelled.")
C("C79","proved",["Verif.Sens."+t for t in "reduced_hessian_entries reduced_hessian_refused reduced_hessian_inverse".split()],"Exact arithmetic, exact backsolver. The inverse statement is for problems with equality constraints only (bounds and inequalities add barrier terms to the Hessian). reduced_hessian_refused: a number used twice is an error in the code, a missing number leaves -1 as index (undefined behaviour in the code, no result in the model).")
C("C80","partial",["Verif.Mumps."+t for t in "mumps_contract mumps_solution mumps_ends mumps_call_again_once mumps_solve_success mumps_inertia_ok mumps_inertia_wrong mumps_attempts mumps_attempts_memory mumps_tolerance mumps_quality_no_effect mumps_quality mumps_pivtol_init mumps_quality_finite mumps_dependent demo_run demo_ran demo_quality mumps_inertia_unchecked mumps_continues_after_error mumps_null_pivots_left_on mumps_zero_memory demo_stack demo_stack_reach".split()],"All histories, all answers of MUMPS meeting an explicit contract (LibOK). Partial because the code deviates: the raised pivot tolerance reaches MUMPS only with the next analysis, so IncreaseQuality has no effect (mumps_tolerance, mumps_quality_no_effect), and an overflow exception in the detection of dependent rows leaves null pivot detection on (mumps_null_pivots_left_on).")
C("C81","partial",["Verif.DepRows."+t for t in "dependent_basis dependent_rest dependent_warning warning_means_user dependent_calls test_point_within test_point_fixed affine_redundant mumps_detector detector_structure_failure detector_warm_start demo_mumps demo_taken demo_rhs demo_affine demo_warning inconsistent_taken_out fixed_variable_taken_out".split()],"Exact arithmetic; any detector that returns a row basis or fails with an empty list (DetOK), and MUMPS through the interface class if it lists null pivots as documented (NullOK). Partial because the code deviates: without dependency_detection_with_rhs (the default) contradicting constraints are taken out (inconsistent_taken_out), with it also if the starting point is far from the value of a fixed variable (fixed_variable_taken_out, affine_redundant has the condition). WSMP and MA28 are not modelled.")
C("C82","proved",["Verif.RestoResto."+t for t in "resto_resto_fails resto_resto_point resto_resto_twice resto_resto_minimizes ex_perform ex_other".split()],"Exact arithmetic over any ordered field with a square root (minimality over the reals).")
C("C83","partial",["Verif.KktErr."+t for t in "delivered dual_infeasibility_user violation_user complementarity_user bound_violation_user scaled_measures scaled_bound_violation kkt_error_le error_factor scaled_error_le statistics converged_kkt acceptable_kkt multiplier_signs Ex.ok Ex.corr Ex.bcorr Ex.converged Ex.slack_not_compared".split()],"Exact arithmetic over any ordered field (the composition with the convergence check over the rationals). Partial because the code deviates: complementarity of inequality constraints is measured with the slack variable, and the test does not compare slack and constraint value (Ex.slack_not_compared: a non-optimal iterate that passes; whether the algorithm can reach it is not shown). Constraint bounds are the relaxed ones; the statistics report complementarity for mu = 0, the KKT error for mu_target.")
C("C84","partial",["Verif.FinalTnlp."+t for t in "final_is_current approx_kkt success_is_kkt acceptable_is_kkt approx_signs success_signs dropped_constraints time_limit_fixed time_limit_rest failure_arrays Ex.sit Ex.dims Ex.near Ex.interior Ex.converged Ex.kkt Ex.arrays Ex.time_limit_wrong Ex.dropped_wrong".split()],"All problems and dimensions, exact arithmetic (the composition with the convergence check over the rationals), honor_original_bounds=no. Partial because the code deviates: with the CPU or wall time limit the multipliers of fixed variables are zero although an iterate is delivered (time_limit_fixed, Ex.time_limit_wrong); g of constraints taken out as dependent is 0 or uninitialized memory (dropped_constraints, Ex.dropped_wrong); without a solution g is not the value at x (failure_arrays). Complementarity of inequality constraints: see C83.")
C("C85","partial",["Verif.Piecewise."+t for t in "update_defined envelope acceptable_iff acceptable_full biggest_barrier check_iff first_line_search next_line_search reset_once reset_keeps stale_entry_accepts Ex.three Ex.full_list_undefined Ex.stale_accepted Ex.first".split()],"Exact arithmetic over any ordered field, all histories. Partial because the code deviates: a reset keeps the old points (reset_keeps, stale_entry_accepts, Ex.stale_accepted: a point worse than the current one for every penalty parameter is accepted), and with 100 entries the program dereferences end() (acceptable_full, Ex.full_list_undefined).")
C("C86","partial",["Verif.Ma57."+t for t in "ma57_contract_partial ma57_solution_partial ma57_two_passes ma57_factorization_ends ma57_solve_success_partial ma57_inertia_ok ma57_inertia_wrong ma57_failure_harmless ma57_answer ma57_retry ma57_failure_reason ma57_call_again ma57_no_overrun ma57_init ma57_cold_forgets ma57_init_keeps_request ma57_quality ma57_quality_used ma57_quality_finite ready_ran demo_run demo_ran ma57_analysis_error_ignored ma57_solution_error_ignored ma57_overrun_after_exception ma57_inertia_unchecked ma57_loop_forever demo_stack demo_stack_reach".split()],"All histories, all answers of the HSL routines, all allocation failures; the statements about solutions assume in addition that errors of the analysis show up in the factorization and that the solution phase does not fail (Noticed). Partial because the code deviates: error codes of MA57AD and MA57CD are only printed (ma57_analysis_error_ignored, ma57_solution_error_ignored: SUCCESS with a wrong solution); after a failed allocation followed by a warm start MA57 is told a wrong array length (ma57_overrun_after_exception); the inertia is not checked for an old matrix; the memory loop ends only if MA57 asks for more than it had (ma57_loop_forever).")
C("C87","partial",["Verif.SysScaling."+t for t in "slack_factors slack_range slack_solution_partial slack_free_row_partial mc19_matrix mc19_range mc19_solution demo_slack demo_ok demo_mc19 demo_values demo_reach slack_free_row_wrong".split()],"Exact arithmetic (MC19: with infinities and NaN, over the rationals). Partial because the code deviates: an inequality constraint without bounds gets the factor 0 (slack_free_row_partial: the scaled matrix is singular for all perturbations; slack_free_row_wrong: a wrong solution is reported as success), and a factor that underflows to 0 in MC19 is kept (demo_mc19).")
C("C88","partial",["Verif.Equil."+t for t in "points_within evaluations mean_values mc19_matrix factors not_equilibrated_partial demo_points demo_bounds demo_evaluations demo_matrix demo_exp_pos equilibration_wrong".split()],"Exact arithmetic over any ordered field; MC19 and exp answer anything. Partial because the code deviates in the last sentence: the column factors of MC19 are handed to StandardScalingBase as dx, which divides the Jacobian by dx, so the scaled Jacobian is not the equilibrated one (not_equilibrated_partial, equilibration_wrong). Positive factors are proved for a positive exponential function; unlike in the scaling of linear systems nothing is checked, so overflow, underflow and NaN of exp reach the scaling (not modelled).")
C("C89","partial",["Verif.GenAug."+t for t in "custom_success_solves custom_failure_keeps custom_always_new custom_defined custom_reuse_undefined_partial demo_contract demo_allows demo_reach demo_solve custom_documented_order_wrong demo_double_delete".split()],"All histories without undefined behaviour; exact arithmetic over any field. Partial because the code deviates in the last sentence: after a solve with a homogeneous diagonal, two cold initializations delete an array twice (custom_reuse_undefined_partial, demo_double_delete; without cold initialization after a solve there is none: custom_defined). The contract is for the order x, c, d, s of the code; the documented order x, d, c, s gives wrong solutions (custom_documented_order_wrong).")
C("C90","partial",["Verif.CgPerturb."+t for t in "cg_perturbation_consistent cg_first_perturbation cg_calls_end_partial demoE_ok demo_calls demo_end cg_wrong_conclusion".split()],"All histories of calls; exact arithmetic over any (archimedean, for termination) ordered field. Partial: termination needs a positive delta_cd and that the handler's DBG_ASSERT(false) state is not met (as in C17); the last sentence fails in the code: the status for unregularised constraints is set although they are regularised, so the Jacobian is declared not degenerate (cg_wrong_conclusion).")
C("C91","partial",["Verif.CgBest."+t for t in "restored_is_best_partial at_most_three restored_only_if penalty_bounded_partial update_only_if eta_and_count reset_is_dead stale_fallback default_never_updates heuristic_exceeds demoC_sane demo_penalty demo_best".split()],"All histories; exact arithmetic over any (archimedean, for the number of increases) ordered field; norms, products and KKT errors are arguments. Partial because the code deviates: the best error is never forgotten when the barrier parameter decreases (reset_is_dead); before the first accepted step of a reoptimization a fallback restores an iterate of the former problem (stale_fallback); with the default penalty_update_compl_tol=10 the regular update never happens (default_never_updates); the heuristic update, on by default, ignores penalty_max and may decrease the parameter (heuristic_exceeds), so the bound is proved without it.")
C("C92","partial",["Verif.CgDir."+t for t in "direction penalties_positive penalty_update_partial option_ignored demo_dir lowered_too_far".split()],"All histories of computations; exact arithmetic over any ordered field; results of the linear solver, norms and products are arguments, the right-hand sides are not modelled. Partial because the code deviates: the parameter may be lowered below the value required for descent (lowered_too_far) and the option never_use_fact_cgpen_direction is ignored (option_ignored); the bound of 51 on the lowerings is for histories without changes by other classes.")
