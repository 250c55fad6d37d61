# Formal model of coin-or/Ipopt in Lean 4 — design

## Layout

* `lean/Verif/Model/*.lean` — executable (or at least explicit, total) models of the C++ code,
  function by function; each definition cites `/repo` file and lines.
* `lean/Verif/Proof/*.lean` — helper lemmas (no property statements).
* `lean/Verif/Props/*.lean` — the property theorems, with a small independent specification at the
  top of each file and, beside each theorem, a non-vacuity `example`.
* `properties.jsonl`, `MANIFEST.json`, `seeded/LOG.jsonl` — property list, claim status, mutation log.

## Number model

* Decision logic whose behaviour on NaN/infinities matters uses `Verif.Model.Num` (`nan | ninf | pinf | fin q`),
  with IEEE *comparison* semantics.  Arithmetic on finite values is exact (no rounding): this is a stated simplification.
* Linear algebra and step-size logic is stated over an arbitrary linearly ordered field `K` (exact arithmetic).
* Where rounding is the point (`%g`), it is modelled explicitly or as a parameter.
* Integers are unbounded unless the property is about overflow.

## Plan per property

| id | model | proof method |
|----|-------|--------------|
| C01–C07 | `OptionsList`, `RegisteredOption(s)`, tokenizer as pure functions over a finite map and a char list | refinement to a map, induction over op lists, round-trip for the tokenizer |
| C08 | heap of reference counts + environment of smart pointer variables | invariant by induction over ops |
| C09–C11 | tagged objects, observers, caches as one state machine | invariants over histories (ghost log of changes) |
| C12 | journals with level tables | decision logic, induction over op lists |
| C13–C15 | `Filter`, `FilterLSAcceptor` | refinement to the unpruned history; decision logic; C15 is expected to fail (counter never incremented) — negation with witness |
| C16–C17 | `PDPerturbationHandler` state machine + solver loop | invariant; termination measure |
| C18–C20 | `OptimalityErrorConvergenceCheck`, `IpoptAlgorithm::Optimize` with strategy oracle | decision logic, induction on iterations |
| C21 | `call_optimize` | total case analysis over outcome types |
| C22 | `TripletToCSRConverter` | invariants of the compression loop, matrix equality |
| C23–C24 | `TNLPAdapter::GetSpaces`, `ResortX`, `ResortG` … | induction over index lists |
| C25 | `NLPScaling` | algebra |
| C26–C28 | `DenseVector`, matrix classes | refinement to functions/lists; adjointness |
| C29–C30, C34–C35 | initial point, mu update, safeguards | ordered-field reasoning |
| C31 | `LimMemQuasiNewtonUpdater` | invariant over histories |
| C32 | `TimedTask` | induction |
| C33 | `DoBacktrackingLineSearch` | termination + shape of trial sequence |
| C36–C37 | block elimination | linear algebra over a field |
| C38 | `TNLPReducer` | list reasoning |
| C39 | C interface | decision logic |
| C40 | `ComputeMemIncrease` | integer arithmetic with explicit type range |
| C41 | `PrintStringOverLines` on character lists (Jnl) | induction over the text |
| C42–C43 | tagged vectors with value caches, compound vectors (VecCache, CompoundVector) | invariant over histories of operations; refinement to the concatenation |
| C44–C45 | index maps of `TNLPAdapter` and its evaluation of derivatives (Adapter) | bijection of index lists, sums over triplets |
| C46–C48 | `TNLPAdapter` evaluation with new_x, user functions that may fail, finite differences (AdapterEval) | invariant over histories of calls; counterexamples where the code deviates |
| C49–C51 | `BacktrackingLineSearch` with arbitrary acceptor (LineSearch) | invariants over iterations, counters as measures |
| C52–C53 | bound relaxation, projection, gradient-based factors (Scaling, GradScaling) | ordered-field algebra |
| C54–C55 | `LimMemQuasiNewtonUpdater` (QuasiNewton) | invariant over histories, quadratic forms |
| C56 | all functions of `IpoptCalculatedQuantities` as a table of cached functions (CalcQuant, CalcQuantTable) | one generic cache invariant, finite check of the table of declared dependencies |
| C57–C58 | `AdaptiveMuUpdate`, the three oracles (AdaptiveMu, MuOracle) | invariants over iterations; case analysis of the search |
| C59–C60 | `TripletHelper`, `StdAugSystemSolver`, `TSymLinearSolver` over an arbitrary sparse solver with a contract (Triplet, AugSolve) | structural induction over matrices; refinement of histories to what the caller knows |
| C61, C83–C84 | `get_curr_iterate`, `get_curr_violations`, error measures, statistics, `FinalizeSolution` (CurrIter, KktErr, FinalTnlp) | algebra of scaling and renumbering, composition with the convergence test |
| C62 | `OrigIpoptNLP` on top of caches (OrigNLP) | invariant over histories, count of evaluations |
| C63–C64 | low rank augmented solvers (LowRank, LowRankSS) | Sherman-Morrison algebra; history invariant of kept factors |
| C65–C67, C82 | restoration problem, its start, its end, restoration inside restoration (RestoNLP, RestoInit, RestoConv, RestoResto) | algebra of the 1-norm problem; decision logic |
| C68–C69, C85 | penalty and piecewise penalty acceptors, second order corrections (PenaltyLS, SOC, Piecewise) | decision logic; envelope invariant by induction over the list |
| C70 | `NLPBoundsRemover` (BoundsRemover) | equivalence of problems and KKT points |
| C71–C73 | initializers, search direction, least square multipliers (InitMult, SearchDir) | linear algebra, Newton equations |
| C74–C75 | derivative checker, user scaling and nonlinear variables (DerivCheck, AdapterUser) | list reasoning, exactness of reports |
| C76 | `AmplTNLP` over an arbitrary ASL (Ampl) | refinement to the problem held by ASL |
| C77, C80, C86 | MA27, MUMPS and MA57 interfaces over arbitrary libraries and failing allocation (Ma27, Mumps, Ma57) | contract of C60 by a representation invariant over histories; measures for retry loops |
| C78–C79 | sIPOPT (Sens) | Schur complement algebra |
| C81 | dependency detection (DepRows) | row bases, histories of MUMPS calls |
| C87 | slack based and MC19 scaling (SysScaling) | positivity of factors, instance of the contract of C60 |
| C88 | equilibration-based problem scaling (Equil): perturbed points, evaluation loops, matrix for MC19, factors | componentwise order reasoning; induction over evaluations and over the in-place compaction of the gradient |
| C89 | user's linear solver (GenAug): arrays handed over, CALL_AGAIN loop, pointers to copies | invariant over histories (stored tags stay 0), array segment reasoning on the model Triplet |
| C90 | perturbation handler of the Chen-Goldfarb method (CgPerturb), a subclass of the model Perturb | invariant over histories of calls; phase and growth measure for termination |
| C91 | best iterate and penalty parameter of the Chen-Goldfarb method (CgBest) | invariant over histories (stored error is the minimum), geometric growth for the number of increases |
| C92 | search direction and penalty parameters of the Chen-Goldfarb method (CgDir) | decision logic; invariant over histories (51 lowerings) |

## Trusted base

* Lean 4.33.0's kernel. All theorems are accepted by the kernel (no `native_decide`/`bv_decide`, no own axioms, no unfinished proofs).
  The axioms any theorem depends on are among `propext`, `Classical.choice`, `Quot.sound` (checked with `#print axioms` during development and by `vcheck`).
* `decide +kernel` is used only for closed examples; it is evaluated by the kernel.
* The models: that the definitions under `lean/Verif/Model` describe the C++ code cited in their comments was established by reading the code. It is not mechanically checked.
* Mathlib is used for ordered-field algebra, lists and tactics only.

## What is modelled, what is not

Modelled (file → model module):

| code | module |
|------|--------|
| IpOptionsList.cpp, IpRegOptions.cpp | Options, Text, Tokenizer |
| IpSmartPtr.hpp, IpReferenced.hpp | SmartPtr |
| IpTaggedObject.*, IpObserver.*, IpCachedResults.hpp | Cache |
| IpJournalist.cpp | Journal |
| IpFilter.cpp, IpFilterLSAcceptor.cpp (decision logic) | Filter, FilterLS |
| IpPDPerturbationHandler.cpp, perturbation loop of IpPDFullSpaceSolver.cpp | Perturb |
| IpOptErrorConvCheck.cpp | ConvCheck |
| IpIpoptAlg.cpp (Optimize), IpIpoptApplication.cpp (call_optimize and entry points) | Optimize, App |
| IpDenseVector.cpp, IpVector.hpp (value caches), IpCompoundVector.cpp | DenseVector, VecCache, CompoundVector |
| IpTripletToCSRConverter.cpp | CSR |
| ComputeMemIncrease (IpUtils.hpp) | Mem |
| IpTNLPAdapter.cpp | Adapter, AdapterEval |
| IpTimedTask.hpp | TimedTask |
| AcceptTrialPoint safeguards, CalculateSafeSlack | Safeguard |
| IpDefaultIterateInitializer.cpp (push_variables) | InitPoint |
| IpMonotoneMuUpdate.cpp | MonotoneMu |
| IpBacktrackingLineSearch.cpp | LineSearch |
| IpPDFullSpaceSolver.cpp (Solve, SolveOnce, ComputeResiduals), matrix assembly of IpStdAugSystemSolver.cpp; the symmetric linear solver and the inertia loop are an oracle (the latter is modelled in Perturb) | PDSystem |
| IpAugRestoSystemSolver.cpp, matrices of IpRestoIpoptNLP.cpp | AugResto |
| IpNLPScaling.cpp, IpOrigIpoptNLP.cpp (evaluations, bounds, start, finalize), IpGradientScaling.cpp | Scaling, GradScaling |
| MultVector, TransMultVector, AddMSinvZ, SinvBlrmZMTdBr of all matrix classes in src/LinAlg (BLAS gemv/symv by contract) | Matrix |
| IpLimMemQuasiNewtonUpdater.cpp | QuasiNewton |
| IpTNLPReducer.cpp | Reducer |
| IpIpoptCalculatedQuantities.cpp (caches and data flow of all functions; numerical operations are uninterpreted) | CalcQuant, CalcQuantTable |
| IpAdaptiveMuUpdate.cpp | AdaptiveMu |
| IpLoqoMuOracle.cpp, IpProbingMuOracle.cpp, IpQualityFunctionMuOracle.cpp, CalcCentralityMeasure (linear solver is an oracle) | MuOracle |
| IpStdAugSystemSolver.cpp, IpTSymLinearSolver.cpp (except DetermineDependentRows, timing); sparse solver and scaling method are arbitrary objects with a contract (`Spec/AugSolve.lean`) | AugSolve |
| IpTNLP.cpp get_curr_iterate, get_curr_violations with what they use of IpTNLPAdapter, OrigIpoptNLP, IpoptCalculatedQuantities (without slack correction, without caching) | CurrIter |
| IpOrigIpoptNLP.cpp Initialize, f, grad_f, c, d, jac_c, jac_d, h, get_unscaled_x on top of the abstract caches of C09 | OrigNLP |
| IpLowRankAugSystemSolver.cpp, whole class; the linear solver, `dpotrf` and `dpotrs` are parameters | LowRank |
| IpLowRankSSAugSystemSolver.cpp, whole class, with IpExpandedMultiVectorMatrix.cpp as rows; the linear solver is a parameter | LowRankSS |
| IpRestoIpoptNLP.cpp: f, grad_f, c, d, jac_c, jac_d, h, reference point, bounds and AdjustVariableBounds; the original problem is a parameter | RestoNLP |
| IpRestoIterateInitializer.cpp: SetInitialIterates; IpRestoMinC_1Nrm.cpp: multipliers after success; IpDefaultIterateInitializer.cpp: least_square_mults | RestoInit |
| IpRestoConvCheck.cpp: CheckConvergence; IpRestoFilterConvCheck.cpp: TestOrigProgress; IpRestoMinC_1Nrm.cpp: PerformRestoration, control flow | RestoConv |
| IpPenaltyLSAcceptor.cpp (all but printing and TrySecondOrderCorrection); CalcNormOfType; Compare_le | PenaltyLS |
| TrySecondOrderCorrection of IpFilterLSAcceptor.cpp and IpPenaltyLSAcceptor.cpp; TryCorrector of IpFilterLSAcceptor.cpp | SOC |
| IpNLPBoundsRemover.cpp | BoundsRemover |
| IpPDSearchDirCalc.cpp, IpLeastSquareMults.cpp; gradients of Lagrangian and barrier function with damping of IpIpoptCalculatedQuantities.cpp | SearchDir |
| IpDefaultIterateInitializer.cpp (whole), IpWarmStartIterateInitializer.cpp (process_target_mu not: see below) | InitMult |
| IpTNLPAdapter.cpp CheckDerivatives | DerivCheck |
| IpTNLPAdapter.cpp GetScalingParameters, GetQuasiNewtonApproximationSpaces; IpUserScaling.cpp | AdapterUser |
| AmplTNLP.cpp: evaluations, structures, starting point, finalize_solution (not: options, .nl reading, metadata); ASL as an arbitrary object | Ampl |
| IpMa27TSolverInterface.cpp (all but loading of the library), ComputeMemIncrease; the HSL routines and the memory are arbitrary objects; stacked under the models of TSymLinearSolver and StdAugSystemSolver (AugSolve) | Ma27 |
| contrib/sIPOPT/src: SensIndexSchurData, SensIndexPCalculator, SensDenseGenSchurDriver, SensStdStepCalc, SensAlgorithm (Run, ComputeSensitivityMatrix), SensMetadataMeasurement, SensReducedHessianCalculator, SensBuilder; the backsolver and LAPACK are arbitrary functions; not: unscaling of results, eigenvalues of the reduced Hessian, AMPL driver | Sens |
| IpMumpsSolverInterface.cpp (all but MPI, mutex and printing); `mumps_c` is three arbitrary functions (JOB 1, 2, 3) with a record of the calls; stacked under the models of TSymLinearSolver and StdAugSystemSolver (AugSolve) | Mumps |
| IpTNLPAdapter.cpp `DetermineDependentConstraints` and its use in `GetSpaces`, IpTSymDependencyDetector.cpp, `TSymLinearSolver::DetermineDependentRows` (triplet format, no scaling) on top of the model Mumps | DepRows |
| IpRestoRestoPhase.cpp (all of it) on top of the models RestoNLP, RestoInit | RestoResto |
| IpIpoptCalculatedQuantities.cpp (error measures of the current iterate, regular mode; no caches, bounds after `AdjustVariableBounds`), IpSolveStatistics.cpp (objective and error measures), composed with the model ConvCheck | KktErr |
| IpTNLPAdapter.cpp `FinalizeSolution` (no meta data, no message), IpIpoptApplication.cpp:894-943, on top of the models Adapter, CurrIter, Scaling, KktErr, Optimize | FinalTnlp |
| contrib/CGPenalty: IpPiecewisePenalty.{hpp,cpp} (all but printing), IpCGPenaltyLSAcceptor.cpp (acceptance tests, `InitThisLineSearch`, `Reset`, the list in `UpdateForNextIteration`; not: second order corrections, penalty parameter update, best point) | Piecewise |
| Algorithm/LinearSolvers: IpMa57TSolverInterface.cpp (all but option registration, loading of the library, options only handed on, printing), `ComputeMemIncrease`; the HSL routines answer anything, allocations fail at any time | Ma57 |
| Algorithm/LinearSolvers: IpSlackBasedTSymScalingMethod.cpp, IpMc19TSymScalingMethod.cpp (all but printing and loading of the library), below the model AugSolve; `mc19a` and `exp` answer anything | SysScaling |
| Algorithm: IpEquilibrationScaling.cpp (all but printing and loading of the library), above the model Scaling; user functions, random numbers, `mc19a` and `exp` answer anything | Equil |
| IpGenAugSystemSolver.cpp (whole class); the user's `GenKKTSolverInterface` is an arbitrary object with a contract | GenAug |
| contrib/CGPenalty/IpCGPerturbationHandler.cpp (ConsiderNewSystem, PerturbForSingularity; quantities of the penalty method are arguments) | CgPerturb |
| contrib/CGPenalty/IpCGPenaltyLSAcceptor.cpp (best iterate, `RestoredIterate`, `DoFallback`, `UpdatePenaltyParameter`; computed quantities are arguments) | CgBest |
| contrib/CGPenalty/IpCGSearchDirCalc.cpp (decisions and penalty parameters; right-hand sides and computed quantities are arguments) | CgDir |
| LinAlg/TMatrices/IpTripletHelper.cpp (all of it; `Index` without overflow) | Triplet |
| IpStdCInterface.cpp, IpStdInterfaceTNLP.cpp (without `OpenIpoptOutputFile`, re-entrant calls and allocation failures; the solver is an arbitrary interaction tree) | CInterface |

Deliberate simplifications, stated in the comments of the definitions: arithmetic on finite numbers is exact unless rounding is a parameter; user
functions, linear solvers, acceptors and other strategies are arbitrary functions (oracles), so theorems hold for all their behaviours; printing is left
out except where the property is about output; memory is not modelled except for reference counts and array bounds; `Index` overflow only where the property
is about it; single-threaded execution.

Not modelled: the external linear solvers themselves (they are arbitrary functions, with a contract where a theorem says so), the interfaces to solvers other than MA27, MA57
and MUMPS, loading of libraries, `Algorithm/Inexact`, the Java and Fortran interfaces, AMPL .nl reading, floating-point rounding in general.

## Disagreements between code and documentation or expectation found while modelling

Each is proved as a theorem (or example) about the model where a name is given.

* `n_filter_resets_` is never incremented, so `max_filter_resets` does not bound filter resets (C15, negation proved).
* NaN filter entries can prune others; NaN passes every numeric option check.
* `%g` printing of numeric options loses digits and may violate strict bounds when read back (C04, negation).
* Integer option texts are silently truncated; a leading-blank non-number is read as 0; `""` in option files is misread; an unterminated quoted tag at the end of file is ignored.
* `MapStringSetting` uses the last match, `MapStringSettingToEnum` the first; lookup in the registry is case-sensitive, in the list it is not.
* SmartPtr cycles leak; `InvalidateResult` invalidates only one matching entry; tags wrap after 2^32 changes and can give false cache hits.
* PDPerturbationHandler: several states from which the perturbation loop does not end (C17, negation), unassigned perturbation after a `false` from `ConsiderNewSystem`.
* Journalist: user categories are not reached by `SetAllPrintLevels`; `PrintStringOverLines` does not end for width ≤ 1.
* TripletToCSRConverter: an empty row between nonempty rows corrupts the row pointers (`csr_gap_breaks`, C22).
* TNLPAdapter: `relax_bounds` never relaxes fixed variables; NaN bounds are ignored; `internal_eval_g` failure is forgotten (`eval_g_failure_forgotten`); wrong finite-difference entries with
  variables that appear in no constraint (`findiff_jacobian_gap`); perturbed points leave close bounds (`pert_leaves_bounds`); new_x=false although the last call was elsewhere.
* Optimize/Application: `FAILED_INITIALIZATION` and others are not caught in `Optimize`; a late exception gives `Unrecoverable_Exception` after `finalize_solution` was told success; `INTERNAL_ERROR` returns without `finalize_solution`.
* DenseVector: `AddTwoVectors` with c=1, a=0, b=1 adds v2 Dim() times; homogeneous `CopyToPos`, `ElementWiseSelect`; stale caches in compound vectors via kept component pointers; aliasing.
* ComputeMemIncrease: small lengths with factor < 2 never grow; NaN is undefined behaviour.
* TimedTask: `End` without `Start` counts a span twice (release builds).
* `slack_move = 0` leaves zero slacks; a second slack request forgets that slacks were corrected (`second_request_forgets`).
* push_variables leaves the bounds if `bound_frac*(x_U-x_L)` is below 100*DBL_MIN (`nearly_equal_bounds_left`).
* Monotone mu increases if started below its floor; the line search is not always reset when mu changed (`linesearch_not_reset`).
* Line search: `alpha_min` can be 0 and the loop endless (`backtracking_hangs`); the soft restoration step retries the same step size after an evaluation error; after a soft step
  that meets the original criterion in the phase, `PerformDualStep` is called with primal step size 0 (visible in `Kind.softDual`).
* Matrices: `IdentityMatrix::AddMSinvZImpl` ignores `factor_` (`identity_addMSinvZ_ignores_factor`); a block-diagonal `CompoundMatrix` with more block columns than
  block rows addresses a missing block in `SinvBlrmZMTdBr` (`wide_diagonal_uses_missing_block`).  Found by reading only: the `ComputeRowAMax` routines of `IdentityMatrix`
  (ignores `factor_`), `DenseGenMatrix` (walks column-major data as rows), `DenseSymMatrix` (walks a packed triangle), `CompoundSymMatrix` (row instead of column maxima of mirrored
  blocks) and `SymTMatrix` (resets the vector even with `init=false`); `ExpandedMultiVectorMatrix::HasValidNumbersImpl` is inverted; `DenseSymMatrix::AddMatrix` with alpha=0 ignores beta.
* Scaling: initial bound multipliers are multiplied by the variable scaling instead of divided (`start_bound_multipliers_wrong`); negative variable scaling is accepted and flips
  bounds (`negative_scaling_flips_bounds`); honor_original_bounds is ignored if bound_relax_factor = 0; reported objective and constraint values belong to the unprojected point.
* PDFullSpaceSolver::Solve: `alpha = 0` leaves the result unscaled (`alpha_zero_not_scaled`); a fatal error returns without ending the PDSystemSolverSolveOnce timer (read only).
* AugRestoSystemSolver: `D_d` overwrites the contribution of the eliminated slacks instead of being added (`resto_Dd_overwrites`); the regularisation term of the restoration Hessian
  is used although `W_factor = 0`, so `LeastSquareMultipliers` in the restoration phase solves a different system (`resto_factor_ignored`).
* LimMemQuasiNewtonUpdater: an update skipped because the Cholesky factorization failed stays in the memory (`bfgs_cholesky_failure_keeps_pair`); the SR1 backup is never
  initialised and not cleared at a reset, so undoing the first update gives a garbage history (`sr1_first_undo_garbage`, `sr1_first_undo_wrong_count`) and undoing after a reset brings
  the discarded one back (`sr1_undo_resurrects`); BFGS in the restoration phase with `limited_memory_max_history = 0` dereferences a null pointer (`resto_zero_history_null`);
  `RecalcY` is called with S instead of DR_x S, so the secant equation fails in the restoration phase (`resto_secant_fails`); with SR1 and σ = 0 `DenseSymMatrix::AddMatrix` leaves
  an uninitialised matrix (`sr1_uses_uninitialised_values`).
* C interface: `CreateIpoptProblem` accepts `m = 0` without constraint callbacks, a missing Hessian callback and any index style, but every `IpoptSolve` then returns `Invalid_Problem_Definition` (`created_but_unsolvable`, `solve_status`). `apply_new_x` copies the point only if `new_x` is set, so with finite-difference Jacobians the C callbacks are evaluated at the perturbed point (`callbacks_wrong_point`). The Hessian structure call hands an uninitialised multiplier array to the callback.
* TNLPReducer: in FORTRAN style the number of Jacobian entries is computed with row indices that are off by one (`fortran_nnz_wrong`, heap overflow in `eval_jac_g`); duplicate
  indices disable all later ones (`duplicate_index_ignores_rest`); after a failed Jacobian structure evaluation a second `get_nlp_info` succeeds (`info_after_failure`).
* IpoptCalculatedQuantities: the slacks are cached by x (or s) only, so after a change of bounds, and after a change of mu or multipliers when a slack was adjusted, old slacks are
  returned (`slack_ignores_new_bounds`, `adjusted_slack_ignores_mu`, `adjusted_slack_ignores_multiplier`); the constraint violation ignores new bounds (`violation_ignores_new_bounds`); in the
  restoration phase the gradient of the Lagrangian, the dual infeasibility and all errors ignore a new mu although the objective gradient depends on it (`dual_infeasibility_ignores_mu`);
  `curr_barrier_error` is stored without its scalar dependency and `curr_compl_s_L/U` are never stored, so both are always recomputed (`stored_but_never_found`).
* AdaptiveMuUpdate: the fixed mode ignores `mu_target` (`mu_target_not_respected`), its lower limit can raise the parameter (`fixed_mode_may_raise_mu`), and tau is computed from the old
  parameter (`tau_of_old_mu`); `mu_max` computed from the first iterate can be below `mu_min` (`mu_min_not_respected`); `adaptive_mu_kkterror_red_iters = 0` together with
  `adaptive_mu_restore_previous_iterate` or `adaptive_mu_safeguard_factor` is undefined behaviour (`restore_without_point`, `safeguard_without_reference`).
* TripletHelper: a `SymTMatrix` (one triangle stored) as off-diagonal block of a symmetric compound, or inside a general matrix, silently loses its mirrored elements (`triangle_off_diagonal_lost`); Ipopt itself never builds such a matrix.
* QualityFunctionMuOracle: for `sigma > 1` the lower limit `mu_min` (which contains `mu_target`) is ignored (`qf_below_mu_min`); the value handed over for the upper end of the search below one
  is that of `1 - eps` even if the end was cut by `mu_max` (hypothesis of `sigma_best`); with `quality_function_max_section_steps = 0` the lower end is never chosen
  (`lower_end_never_chosen`); the result is not compared with the known value at `sigma = 1` (`sigma_worse_than_one`).
* TSymLinearSolver: a warm re-initialization does not reset `atag_` although it switches an on-demand scaling off, so a repeated call reports a wrong solution as success
  (`warm_start_same_arguments_wrong`); the warm branch of `InitializeStructure` sets `initialized_` even if the backend failed; the CALL_AGAIN loop is unbounded;
  `DetermineDependentRows` overwrites `dim_`, `airn_`, `ajcn_` without resetting `have_structure_` (read only). StdAugSystemSolver: `w_factor_` is not initialised in the constructor (read only).
* `get_curr_violations`: original constraint bounds are scaled by the factor at the position of the bound, not of its constraint (`violations_constraints_misaligned`); with fixed
  variables as constraints `grad_lag_x` has an extra term (z_U - z_L)(1 - x_fixed) (`violations_gradient_fixed_wrong`; test/getcurr.cpp fixes at 1); with `bound_relax_factor = 0` the
  bound violations are always 0 (`violations_bounds_unrelaxed`); rows dropped as dependent are not written although true is returned (`violations_dropped_unwritten`).
  `get_curr_iterate` ignores a failure of `ResortBoundMultipliers` and reports zero multipliers (`iterate_eval_failure`). Read only: the documentation of `compl_g` has other signs than the code; n may
  not be arbitrary if only x_L_violation is requested, contrary to the documentation; the zero-fill test of `FinalizeSolution` (`c.Dim()+d.Dim() < n_full_g_`) misses dropped
  rows if constraints were added for fixed variables.
* OrigIpoptNLP: `Initialize` invalidates the constant Hessian without its scalar dependency, so it is never found: with `hessian_constant` and `warm_start_same_structure` a re-optimization uses the Hessian of
  the previous problem (`warm_start_constant_hessian_stale`); the caches of f and of the unscaled point are never cleared (`old_vector_old_objective`, harmless for new vectors).
* LowRankAugSystemSolver: `UpdateFactorization` overwrites the stored factors before it can fail, but the tags are stored only after success: a later call with the arguments of the last successful call reuses the wrong
  factors and reports success with a wrong solution (`revisit_wrong`); factors other than 0 and 1 are only rejected in debug builds (`factor_two_wrong`); for P_LowRank with a full diagonal the zero diagonal has
  the wrong dimension (`full_diagonal_undefined`; Ipopt creates no such space).
* LowRankSSAugSystemSolver: delta_c is also subtracted from the diagonal of the additional rows, so a perturbed system has the Hessian B0 + V V^T/(1+delta_c) - U U^T/(1-delta_c) (`delta_c_wrong`); the expansion
  matrix of the first Hessian since initialization is kept although the restoration phase uses the same object with another space (`other_space_undefined`); `ASSERT_EXCEPTION(irank + nV, ...)` tests nothing
  (`too_many_columns_undefined`).
* RestoIpoptNLP: `AdjustVariableBounds` replaces the bounds of the original problem by new vectors, but the restoration problem's own bounds of the original variables still refer to the old ones (`resto_bounds`).
* PerformRestoration: for a square problem, after success the violation compared with constr_viol_tol is that of the point where the restoration phase started, not of the point found (`resto_outcome`, last example of
  Props/RestoConv.lean); `RESTORATION_CONVERGED_TO_FEASIBLE_POINT` thrown by the restoration convergence check is caught by the restoration algorithm itself and ends as "restoration failed" (`restoReturn`, read from IpIpoptAlg.cpp).
* PenaltyLSAcceptor: `line_search_method=penalty` with the default `watchdog_shortened_iter_trigger=10` ends with OPTION_INVALID in mid-run when the watchdog would start (StartWatchDog always throws and AlgBuilder does not
  switch it off; `St.watchdog`); a restoration phase entered without a trial step leaves `IsAcceptableToCurrentIterate` with INTERNAL_ABORT (`penalty_resto`, first part).
* TryCorrector ignores the return value of both calls of `pd_solver_->Solve` (modelled by `CEnv.solve` returning the contents of the vector).
* NLPBoundsRemover::GetStartingPoint stores the user's z_L as multiplier of the row x >= x_L, although its multiplier is -z_L (as used by FinalizeSolution): with replace_bounds=yes a warm start begins with lower bound
  multipliers of the wrong sign (`removed_start`).
* DefaultIterateInitializer::CalculateLeastSquarePrimals solves for a vector with J x = -c(x0), i.e. a step, and uses it as the new point: unless J x0 = 0 it does not satisfy the linearized constraints
  (`ls_primal`, `ls_primal_not_linearization`).  CalculateLeastSquareDuals combines the Jacobians of the user's point with the gradient of the pushed point (`ls_duals`).
* WarmStartIterateInitializer: with a positive `warm_start_target_mu` the pointer `init_vec` is NULL (set by IpoptData::set_trial) when `init_vec->Set_x` is called (`warm_start_target_mu_undefined`); therefore
  `process_target_mu` is not modelled.  The registered defaults of warm_start_bound_push/frac and the slack versions are never used, and slack_bound_push is not consulted (`warm_start_margins`); the slacks of a
  warm start are made from the constraint values at the user's, not at the pushed, point (`warm_start`).
* TNLPAdapter::CheckDerivatives obtains the bounds "to make sure they are not violated", but only for the reference point: the finite difference step may leave them (`perturbed_point_outside`).  A starting point farther
  than point_perturbation_radius outside the bounds gives a reference point outside them.
* TNLPAdapter::GetQuasiNewtonApproximationSpaces decides by counting whether all variables are nonlinear, so duplicates in the user's list are counted (`duplicate_counts_twice`); `num_linear_variables` larger than the
  number of variables leads to `new Index[negative]` (`too_many_linear`).
- AmplTNLP::eval_h ignores the return values of the evaluations it needs: where the objective cannot be evaluated it reports success with meaningless numbers (C76, `hessian_of_failed_evaluation`).
- Ma27TSolverInterface: `GetValuesArrayPtr` replaces `a_` by an array of length `nonzeros_` when `la_increase_` is set; a re-initialization with warm_start_same_structure between that and the next factorization resets `la_increase_`, so `ma27b` is told `la_` for an array of length `nonzeros_` (`ma27_overrun_after_warm_start`).  The same holds after a caught exception that left `iw_` NULL.
- Ma27TSolverInterface::MultiSolve checks the inertia only with a new matrix (`ma27_inertia_unchecked`).
- ComputeMemIncrease in SymbolicFactorization is given the lengths of the previous problem: with an old `la_` equal to the largest Index a new (smaller) problem may be refused with an overflow error.
- sIPOPT, IndexPCalculator: `ncols_` keeps the number of columns of the last step, so a later step (sens_boundcheck=yes) that violates as many, but other, bounds than were fixed before uses columns that were never computed: a null pointer is dereferenced (`sens_second_step`).
- sIPOPT: `Run` ignores the return value of `Step`, and `Step` that of the backsolver; `SchurFactorize` failures are only debug assertions: a failed or singular linear solve is reported as success (`sens_failure_ignored`).
- sIPOPT, ComputeSensitivityMatrix uses the values of the flags sens_init_constr as numbers, `Run` only whether they are nonzero; with all flags 1, as in the shipped AMPL example, the columns are equal and contain uninitialized memory (`sens_matrix_flags`, `sens_flags`). With sens_kkt_residuals=yes every column contains the step for the residuals (`sens_matrix`).
- sIPOPT, SetData_Index: a number missing in red_hessian leaves -1 as column index, which is used without a check.
- MumpsSolverInterface: `cntl[0]` (pivot tolerance) is set only in `SymbolicFactorization`, which is done once per structure; `IncreaseQuality` therefore only repeats the same factorization (`mumps_quality_no_effect`).
- MumpsSolverInterface: with mumps_mem_percent = 0 doubling leaves 0, so 21 identical factorizations are tried (`mumps_zero_memory`).
- MumpsSolverInterface::DetermineDependentRows: the overflow exception of ComputeMemIncrease leaves `icntl[23] = 1` (`mumps_null_pivots_left_on`); likewise options are restored only after SymbolicFactorization returned.
- MumpsSolverInterface::Solve continues with the next right-hand side after an error (`mumps_continues_after_error`), and as with MA27 the inertia is checked only with a new matrix (`mumps_inertia_unchecked`).
- TNLPAdapter, dependency detection: without dependency_detection_with_rhs (the default) constraints that contradict the kept ones are taken out too, so an infeasible problem is solved as a feasible one (`inconsistent_taken_out`); with it, a fixed variable whose starting value is farther than point_perturbation_radius from its fixed value gets a test value outside its bounds (lower > upper in the formula), with the same effect (`fixed_variable_taken_out`; the code has a TODO).
- TNLPAdapter::ProcessOptions creates a new MUMPS detector for every optimization; with warm_start_same_structure=yes its initialization always throws INVALID_WARMSTART (`detector_warm_start`).
- C83: `curr_nlp_error` and the convergence check use the violation of `d_L <= d(x) <= d_U` and the complementarity of the slack `s`, but nothing compares `s` with `d(x)` (the corresponding lines are commented out, IpIpoptCalculatedQuantities.cpp:3085-3090), so an iterate with `s` at its bound and `d(x)` far from it passes the test although the user's complementarity condition is violated (`Verif.KktErr.Ex.slack_not_compared`; reachability of such an iterate is not shown). `SolveStatistics` reports complementarity for mu = 0 next to a KKT error computed with mu_target.
- C84: `TNLPAdapter::FinalizeSolution` computes multipliers of fixed variables for the status codes with an iterate except CPUTIME_EXCEEDED and WALLTIME_EXCEEDED (IpTNLPAdapter.cpp:2179-2199), although `IpoptApplication::call_optimize` passes the real vectors for these too; so after a time limit the multipliers of fixed variables are zero (`Verif.FinalTnlp.time_limit_fixed`, `Ex.time_limit_wrong`).
- C84: g of constraints taken out as dependent is delivered as 0, and with fixed_variable_treatment=make_constraint and at least as many fixed variables as constraints taken out it is uninitialized memory, because the test `c.Dim() + d.Dim() < n_full_g_` counts the fixed variables (`dropped_constraints`, `Ex.dropped_wrong`).
- C84: for status codes without a solution g is the right hand side (equalities) or 0 (inequalities), not g(x) (`failure_arrays`).
- C85: `CGPenaltyLSAcceptor::Reset` only sets a flag, and `InitThisLineSearch` then calls `InitPiecewisePenaltyList`, which appends to the list (`ResetList`, which clears it, is called nowhere). So after a reduction of the barrier parameter the values of the old barrier problem stay in the list, and points that are worse than the current one for every penalty parameter are accepted (`Verif.Piecewise.reset_keeps`, `stale_entry_accepts`, `Ex.stale_accepted`).
- C85: `PiecewisePenalty::Acceptable` with at least 100 entries dereferences `end()` (`iter = PiecewisePenalty_list_.end()--`; the loop over the middle entries also reads one beyond the end) (`acceptable_full`, `Ex.full_list_undefined` for a reachable list).
- C86 (MA57): error codes of MA57AD (analysis) and MA57CD (solution) are printed and otherwise ignored, `SYMSOLVER_SUCCESS` is returned. `wd_lfact_` is enlarged before `new` succeeds, so after `bad_alloc` and a warm start the believed length is too large. `InitializeImpl` does not clear `pivtol_changed_` and `refactorize_` (MA27 does); harmless.
- C87: slack based scaling gives an inequality constraint without bounds (which TNLPAdapter accepts) the factor 0: row and column of its slack vanish from the scaled matrix whatever the perturbation (`slack_free_row_partial`), and a solver that accepts the singular but consistent system leads to a wrong solution reported as success (`slack_free_row_wrong`). For two bounds the slacks are added, not the smaller one taken. `Mc19TSymScalingMethod` keeps factors that underflow to 0 (`demo_mc19`).
- C88: `EquilibrationScaling` returns the column factors of MC19 as `dx`, but `StandardScalingBase::DetermineScaling` builds the scaled Jacobian with the reciprocal of `dx` (`ScaledMatrixSpace(dc, false, jac, dx, true)`): the scaled Jacobian is `dc*J/dx` where MC19 equilibrates `dc*J*dx` (`not_equilibrated_partial`; `equilibration_wrong`: a 1x1 Jacobian for which all equilibrated elements are 1 stays 4). The exponentials are used unchecked.
- C89: `GenAugSystemSolver::InitializeImpl` deletes the four arrays without setting the pointers to NULL; a second cold initialization (there are at least two per optimization) after a solve with a homogeneous diagonal deletes them twice (`custom_reuse_undefined_partial`, `demo_double_delete`). `UpdateTags` is called nowhere: `new_matrix` is always true (`custom_always_new`). The parts of the right-hand sides are in the order x, c, d, s, the interface documents x, d, c, s: a solver following the documentation gives wrong solutions reported as success (`custom_documented_order_wrong`). `w_factor_` is compared before it is initialized.
- C90: `CGPerturbationHandler::PerturbForSingularity` sets TEST_DELTA_C_EQ_0_DELTA_X_GT_0 although the constraints are regularised, from which `finalize_test` concludes that the Jacobian is not degenerate (`cg_wrong_conclusion`); its test `delta_d_curr_ < delta_cd()` can never hold, as `delta_d_curr_` is a maximum with `delta_cd()`.
- C91: `CGPenaltyLSAcceptor::UpdateForNextIteration` means to forget the best KKT error when the barrier parameter decreases, but `Reset`, called before by `InitThisLineSearch`, has already stored the new parameter (`reset_is_dead`).
- C91: `CGPenaltyLSAcceptor::InitializeImpl` does not reset `best_iterate_`: a fallback in the first iteration of a reoptimization restores an iterate of the former problem (`stale_fallback`).
- C91: `min_compl >= mu * penalty_update_compl_tol_` with `min_compl <= mu` and the default tolerance 10 never holds, so the regular penalty update is dead with default options (`default_never_updates`).
- C91: the heuristic penalty update ignores `penalty_max` and the former value (`heuristic_exceeds`).
- C92: `CGSearchDirCalculator::ComputeSearchDirection` lowers the penalty parameter to the one of the linear system without comparing that with the value required for descent (`lowered_too_far`).
- C92: the option `never_use_fact_cgpen_direction` is read and never used (`option_ignored`).
