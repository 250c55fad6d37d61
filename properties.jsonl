{"id": "C01", "title": "Option store behaves like a case-insensitive map", "statement": "After any sequence of SetStringValue / SetIntegerValue / UnsetValue / clear / Set...IfUnset calls on an option list, a read of option T returns the value of the last successful, non-blocked write of an option whose name equals T up to letter case, and 'not found' if there is none since the last clear/unset; writes to other options never change what T reads.", "quantifier": "all operation histories, option names and values", "why_tests_cant": "a test fixes one short history and a few names; interference or a lost update may need a particular longer history or a particular mixture of cases in the name", "anchors": ["src/Common/IpOptionsList.cpp: OptionsList::SetStringValue, SetIntegerValue, UnsetValue, GetStringValue, find_tag, lowercase"]}
{"id": "C02", "title": "A no-clobber option is frozen", "statement": "Once an option has been stored with allow_clobber=false, no later sequence of option-setting calls, unset calls or option-file reads (anything but clear()) changes the stored value, whatever values and clobber flags those calls use.", "quantifier": "all later operation sequences, including whole option files", "why_tests_cant": "needs every interleaving of every setter; tests try a single overwrite", "anchors": ["src/Common/IpOptionsList.cpp: will_allow_clobber, SetStringValue, SetNumericValue, SetIntegerValue, UnsetValue, ReadFromStream"]}
{"id": "C03", "title": "Only registered, type-correct and in-range option values enter the store", "statement": "With a registry attached, a setter returns false and leaves the option list unchanged if the option is unknown, has a different type, or the value is outside the registered range / list of settings; consequently every value ever stored was accepted by the registered option it belongs to.", "quantifier": "all registries, histories and values (including NaN and infinite numbers)", "why_tests_cant": "the registry has hundreds of options and the value domain is infinite", "anchors": ["src/Common/IpOptionsList.cpp: Set*Value", "src/Common/IpRegOptions.hpp: IsValidNumberSetting, IsValidIntegerSetting", "src/Common/IpRegOptions.cpp: IsValidStringSetting, GetOption"]}
{"id": "C04", "title": "Numeric option values that are read back are the values that were set and lie in the registered range", "statement": "After a successful SetNumericValue(T,v), GetNumericValue(T) returns v, and in particular a value within T's registered bounds.", "quantifier": "all numbers v and all registered (strict or non-strict) bounds", "why_tests_cant": "rounding in the textual representation only bites for values with more than six significant digits, next to a strict bound", "anchors": ["src/Common/IpOptionsList.cpp: SetNumericValue (%g buffer), GetNumericValue"]}
{"id": "C05", "title": "Prefix lookup order", "statement": "A lookup of option T with prefix P returns the value stored under P+T if there is one, otherwise the value stored under T, otherwise the registered default and 'not found'; reads with one prefix never see values set under another prefix.", "quantifier": "all option lists, prefixes and tags", "why_tests_cant": "sub-solvers (restoration, ...) read hundreds of options through prefixes; tests check few", "anchors": ["src/Common/IpOptionsList.cpp: find_tag, GetStringValue, GetIntegerValue, GetNumericValue"]}
{"id": "C06", "title": "Option file tokenizer", "statement": "Reading an option file never reads past its end and always terminates; comments and blank space between tokens are skipped; any sequence of tag/value pairs written as plain or quoted tokens separated by blanks and comment lines is read back exactly; a tag without a value is reported as failure.", "quantifier": "all byte sequences; all lists of tokens and all separators", "why_tests_cant": "the input space is all files; quoting/eof corner cases", "anchors": ["src/Common/IpOptionsList.cpp: ReadFromStream, readnexttoken"]}
{"id": "C07", "title": "String settings are matched case-insensitively to the registered spelling", "statement": "If a string setting is accepted for an option then reading the option returns one of the registered spellings (or, with a wildcard, the user's string), equal to the user's string up to letter case, and the enum read returns the position of the first registered setting that matches; a setting that is not accepted matches no registered spelling.", "quantifier": "all registered setting lists and all user strings", "why_tests_cant": "infinite string domain, duplicate and wildcard settings", "anchors": ["src/Common/IpRegOptions.cpp: IsValidStringSetting, MapStringSetting, MapStringSettingToEnum, string_equal_insensitive"]}
{"id": "C08", "title": "Reference counting frees an object exactly when its last owner disappears", "statement": "For every program that creates objects and copies, assigns, overwrites and destroys smart pointers to them (including self-assignment and cycles of assignment), an object is alive as long as at least one smart pointer refers to it, it is deleted exactly once, when the last one goes away, and no pointer ever refers to a deleted object.", "quantifier": "all sequences of smart pointer operations", "why_tests_cant": "leaks, double frees and use-after-free depend on the history", "anchors": ["src/Common/IpSmartPtr.hpp: SmartPtr, SetFromRawPtr_, ReleasePointer_", "src/Common/IpReferenced.hpp: AddRef, ReleaseRef"]}
{"id": "C09", "title": "Cached results are never stale", "statement": "If a cached-result lookup for given dependencies succeeds, then the returned result was stored by a call with exactly the same dependency objects-states (tags) and scalars, and none of these objects has changed or been destroyed since it was stored. (For histories with fewer than 2^32-1 object creations and changes: the change counter is a 32-bit number, and beyond that a wrong hit is possible.)", "quantifier": "all histories of object creation, change, destruction, cache insertions, invalidations, lookups", "why_tests_cant": "wrong hits need a particular history of tag updates", "anchors": ["src/Common/IpCachedResults.hpp: CachedResults::GetCachedResult, AddCachedResult, DependentResult::DependentsIdentical, ReceiveNotification", "src/Common/IpTaggedObject.cpp: ObjectChanged"]}
{"id": "C10", "title": "Cache size bound and recency", "statement": "A cache created with maximal size n>=0 never holds more than n results after any operation; results are evicted oldest first, and a result that was just stored (n>=1) is found by an immediate lookup.", "quantifier": "all cache sizes and histories", "why_tests_cant": "bounded tests cover few sizes/histories", "anchors": ["src/Common/IpCachedResults.hpp: AddCachedResult, CleanupInvalidatedResults, Clear"]}
{"id": "C11", "title": "Observer bookkeeping has no dangling references", "statement": "After any history of attaching, detaching, notifying and destroying observers and subjects, an observer lists a live subject exactly as often as that subject lists the observer, and neither ever lists a destroyed partner.", "quantifier": "all histories of observers and subjects", "why_tests_cant": "dangling pointers depend on destruction order", "anchors": ["src/Common/IpObserver.hpp: Observer::RequestAttach, RequestDetach, ~Observer, Subject::~Subject, ProcessNotification"]}
{"id": "C12", "title": "Journal output routing", "statement": "A message with level L and category C is written to exactly those journals whose level for C is at least L, each exactly once and in the order of the calls; ProduceOutput returns true iff at least one journal would receive it; changing the level of one category or journal does not influence others.", "quantifier": "all journal sets, level settings and message sequences", "why_tests_cant": "the product of categories, levels and journals and setting orders is unbounded", "anchors": ["src/Common/IpJournalist.cpp: Journalist::Printf, ProduceOutput, AddJournal, Journal::IsAccepted, SetPrintLevel, SetAllPrintLevels"]}
{"id": "C13", "title": "The filter rejects exactly the dominated points", "statement": "A point is acceptable to the filter iff for every entry added since the last clear it is at least as good in some coordinate: removing dominated entries never makes a previously rejected point acceptable nor vice versa, and no kept entry is dominated by a later one.", "quantifier": "all dimensions, all histories of added entries and clears, all points with non-NaN coordinates", "why_tests_cant": "pruning mistakes only show for particular histories", "anchors": ["src/Algorithm/IpFilter.cpp: Filter::Acceptable, AddEntry, Clear", "src/Algorithm/IpFilter.hpp: FilterEntry::Acceptable, Dominated"]}
{"id": "C14", "title": "Line search acceptance implies progress", "statement": "A trial point accepted by the filter line search has constraint violation not above the maximal violation, is acceptable to the filter, and either satisfies the Armijo condition (f-type step) or reduces violation or barrier function sufficiently; after an iteration that was not f-type/Armijo the reference point itself is no longer acceptable to the filter (no cycling).", "quantifier": "all reference points, trial points, step sizes, filter contents and option values", "why_tests_cant": "continuous input space, combination of branches", "anchors": ["src/Algorithm/IpFilterLSAcceptor.cpp: CheckAcceptabilityOfTrialPoint, IsFtype, ArmijoHolds, IsAcceptableToCurrentIterate, UpdateForNextIteration, AugmentFilter"]}
{"id": "C15", "title": "Number of filter resets is limited", "statement": "The filter reset heuristic clears the filter at most max_filter_resets times during one optimisation.", "quantifier": "all sequences of trial points", "why_tests_cant": "needs long runs with many filter rejections", "anchors": ["src/Algorithm/IpFilterLSAcceptor.cpp: CheckAcceptabilityOfTrialPoint, Reset", "option max_filter_resets"]}
{"id": "C16", "title": "Hessian/Jacobian perturbations are consistent and bounded", "statement": "Every perturbation handed out by the perturbation handler's calls, as long as the calls for the current system report success, satisfies delta_x = delta_s, delta_c = delta_d, 0 <= delta_x <= max_hessian_perturbation and delta_c is 0 or the configured regularisation.", "quantifier": "all histories of new systems, singularity reports and wrong-inertia reports, all option values in their registered ranges", "why_tests_cant": "state machine with degeneracy tests; many histories", "anchors": ["src/Algorithm/IpPDPerturbationHandler.cpp: ConsiderNewSystem, PerturbForSingularity, PerturbForWrongInertia, get_deltas_for_wrong_inertia"]}
{"id": "C17", "title": "Inertia correction terminates", "statement": "For one linear system, the inertia-correction loop (repeatedly reporting wrong inertia or singularity) always makes progress and is told to give up after finitely many attempts.", "quantifier": "all histories and all responses of the linear solver", "why_tests_cant": "termination over unbounded retry sequences cannot be tested", "anchors": ["src/Algorithm/IpPDPerturbationHandler.cpp", "src/Algorithm/IpPDFullSpaceSolver.cpp: SolveOnce"]}
{"id": "C18", "title": "Successful termination implies all tolerances are met", "statement": "The convergence check reports 'converged' only if the scaled overall error is at most tol and dual infeasibility, constraint violation and complementarity are at most their tolerances (or the problem has no free variables and the constraints hold); NaN in any of these quantities never counts as converged.", "quantifier": "all values of the error measures, including NaN and infinities, and all tolerances", "why_tests_cant": "infinite value domain", "anchors": ["src/Algorithm/IpOptErrorConvCheck.cpp: CheckConvergence"]}
{"id": "C19", "title": "'Acceptable' termination needs consecutive acceptable iterations", "statement": "Termination at an acceptable point is reported exactly if acceptable_iter consecutive checks (ending now) were acceptable, and never if acceptable_iter is 0.", "quantifier": "all sequences of iterates", "why_tests_cant": "counter behaviour over arbitrary histories", "anchors": ["src/Algorithm/IpOptErrorConvCheck.cpp: CheckConvergence, CurrentIsAcceptable"]}
{"id": "C20", "title": "The main loop respects limits and user requests", "statement": "The optimisation loop performs at most max_iter iterations, stops as soon as the intermediate callback returns false, and returns the status corresponding to the reason it stopped; every strategy failure is mapped to one definite solver return code.", "quantifier": "all behaviours of the strategy components (including exceptions at any point) and all limits", "why_tests_cant": "exceptions may arise at any point of any iteration", "anchors": ["src/Algorithm/IpIpoptAlg.cpp: IpoptAlgorithm::Optimize", "src/Interfaces/IpIpoptApplication.cpp: call_optimize"]}
{"id": "C21", "title": "Application status and solution delivery", "statement": "Every solver return code is translated to its documented application return status, and the user's finalize_solution is called with the final iterate and the code whenever an iterate is available; after every exception the application returns a status instead of propagating (unless rethrow is requested).", "quantifier": "all solver outcomes and exceptions", "why_tests_cant": "outcome/exception matrix; many outcomes are hard to provoke", "anchors": ["src/Interfaces/IpIpoptApplication.cpp: call_optimize", "src/Interfaces/IpReturnCodes_inc.h"]}
{"id": "C22", "title": "Triplet to compressed-row conversion preserves the matrix", "statement": "For every list of (row, column) triplets in range, duplicates included, converting structure and values to (triangular or full) compressed row format yields sorted, duplicate-free rows and represents exactly the same symmetric matrix as the triplets, for every value array.", "quantifier": "all dimensions, triplet lists (with duplicates, any order), values and both formats/offsets", "why_tests_cant": "arbitrary sparsity patterns; empty rows and duplicates at boundaries", "anchors": ["src/Algorithm/LinearSolvers/IpTripletToCSRConverter.cpp: InitializeConverter, ConvertValues"]}
{"id": "C23", "title": "Variable and bound classification of the user problem", "statement": "Every user variable is classified exactly once as fixed or free; lower/upper bound lists contain exactly the free variables with finite bound, infeasible bounds (lower > upper) are reported as inconsistent, and the maps between the user's and the internal variable numbering are mutually inverse.", "quantifier": "all problem sizes and bound vectors", "why_tests_cant": "classification depends on every combination of finite, infinite, equal and crossing bounds", "anchors": ["src/Interfaces/IpTNLPAdapter.cpp: TNLPAdapter::GetSpaces"]}
{"id": "C24", "title": "Expanding internal vectors to user vectors and back loses nothing", "statement": "For every internal point, expanding it to the user's full x and contracting again returns the same point; fixed variables always have their fixed value in the user's x; constraint values and multipliers are delivered to the user's constraint numbering without mixing equality and inequality parts.", "quantifier": "all problems and vectors", "why_tests_cant": "index arithmetic over arbitrary classification patterns", "anchors": ["src/Interfaces/IpTNLPAdapter.cpp: ResortX, ResortG, GetFullDimensionVariables"]}
{"id": "C25", "title": "Scaling is transparent", "statement": "Scaling followed by unscaling of variables, constraints, bounds and multipliers is the identity; the scaled Jacobian/gradient/Hessian correspond to the scaled functions, and results reported to the user are in unscaled units.", "quantifier": "all nonzero scaling factors and vectors", "why_tests_cant": "continuous domain; factor vs reciprocal mistakes cancel in symmetric tests", "anchors": ["src/Algorithm/IpNLPScaling.cpp", "src/Algorithm/IpNLPScaling.hpp"]}
{"id": "C26", "title": "Vectors with uniform storage behave like ordinary vectors", "statement": "Every vector operation gives the same result no matter whether the operands are stored as a single repeated scalar or element by element.", "quantifier": "all dimensions (0 included), operands, scalars and all histories of operations", "why_tests_cant": "combinatorial number of storage/special-scalar branches", "anchors": ["src/LinAlg/IpDenseVector.cpp"]}
{"id": "C27", "title": "Fraction-to-the-boundary step", "statement": "For a strictly positive slack vector and any direction the returned step length is in (0,1], the new slacks are at least (1-tau) times the old ones (hence strictly positive for tau<1), and no larger step length in (0,1] has this property.", "quantifier": "all dimensions, positive vectors, directions and tau in (0,1)", "why_tests_cant": "continuous domain; maximality is a universally quantified claim", "anchors": ["src/LinAlg/IpDenseVector.cpp: FracToBoundImpl", "src/Algorithm/IpIpoptCalculatedQuantities.cpp: CalcFracToBound"]}
{"id": "C28", "title": "Matrix-vector products and their transposes are adjoint", "statement": "For every matrix type and composition (triplet, expansion, scaled, sum, compound, transpose, identity, zero, ...), alpha*A*x+beta*y and alpha*A'*x+beta*y are computed for one and the same matrix A; beta=0 ignores old contents of y.", "quantifier": "all matrices, nestings, vectors and scalars", "why_tests_cant": "recursive composition of arbitrary depth", "anchors": ["src/LinAlg/*Matrix.cpp: MultVectorImpl, TransMultVectorImpl"]}
{"id": "C29", "title": "Initial point is strictly inside the bounds", "statement": "For every user starting point and consistent bounds (whose distance is not negligible compared with the smallest machine number) the initial iterate is strictly between its bounds, with distance at least the configured push fractions, and a starting point that already satisfies this is not moved.", "quantifier": "all bounds, starting points, bound_push/bound_frac values in range", "why_tests_cant": "continuous domain with one- and two-sided bounds", "anchors": ["src/Algorithm/IpDefaultIterateInitializer.cpp: push_variables"]}
{"id": "C30", "title": "Barrier parameter is monotone in monotone mode", "statement": "In monotone mode the barrier parameter, started at or above its floor (from mu_target and the tolerances), never increases, stays positive and above the floor, and is reduced only when the barrier problem error is below the tolerance factor times mu.", "quantifier": "all sequences of iterates and option values in range", "why_tests_cant": "unbounded histories", "anchors": ["src/Algorithm/IpMonotoneMuUpdate.cpp: UpdateBarrierParameter, CalcNewMuAndTau"]}
{"id": "C31", "title": "Limited-memory quasi-Newton history", "statement": "The number of stored curvature pairs never exceeds limited_memory_max_history, they are the most recent accepted pairs in order, and for BFGS only pairs with sufficiently positive curvature are kept; too many skipped updates reset the history.", "quantifier": "all histories of steps", "why_tests_cant": "history dependent", "anchors": ["src/Algorithm/IpLimMemQuasiNewtonUpdater.cpp"]}
{"id": "C32", "title": "Timing accounting", "statement": "A task's accumulated time equals the sum of the durations of its completed start/end intervals since the last reset, provided every End follows a Start; repeated starts and calls made while the task is disabled do not contribute.", "quantifier": "all sequences of start/end/reset/enable/disable calls", "why_tests_cant": "all call sequences", "anchors": ["src/Common/IpTimedTask.hpp"]}
{"id": "C33", "title": "Backtracking line search terminates", "statement": "The backtracking line search tries step sizes alpha_max, alpha_max*r, alpha_max*r^2, ... and stops after finitely many trials either with an accepted point or when the step falls below the minimum.", "quantifier": "all step sizes, acceptance behaviours and reduction factors in (0,1)", "why_tests_cant": "termination", "anchors": ["src/Algorithm/IpBacktrackingLineSearch.cpp: DoBacktrackingLineSearch"]}
{"id": "C34", "title": "Bound multiplier safeguard", "statement": "After accepting a trial point each bound multiplier z and slack s satisfy mu/kappa_sigma <= z*s <= kappa_sigma*mu; multipliers within these limits are unchanged.", "quantifier": "all slacks, multipliers, mu and kappa_sigma >= 1", "why_tests_cant": "continuous domain, all dimensions", "anchors": ["src/Algorithm/IpIpoptAlg.cpp: correct_bound_multiplier"]}
{"id": "C35", "title": "Slack safeguard keeps slacks positive", "statement": "With slack_move > 0, slacks that are too small are increased to a positive value at most the documented limit, other slacks are unchanged, and the number reported equals the number of corrected slacks.", "quantifier": "all slack/bound/multiplier vectors", "why_tests_cant": "continuous domain, all dimensions", "anchors": ["src/Algorithm/IpIpoptCalculatedQuantities.cpp: CalculateSafeSlack"]}
{"id": "C36", "title": "Elimination in the primal-dual system is exact", "statement": "The step computed from the reduced (augmented) system, with bound-multiplier steps recovered by back-substitution, solves the full 8-block primal-dual system whenever the reduced system is solved exactly.", "quantifier": "all dimensions, matrices, slacks and right-hand sides", "why_tests_cant": "continuous domain; sign errors may cancel on special data", "anchors": ["src/Algorithm/IpPDFullSpaceSolver.cpp: SolveOnce, ComputeResiduals"]}
{"id": "C37", "title": "Restoration-phase elimination is exact", "statement": "The restoration-phase augmented system solver, which eliminates the p/n slack variables, returns the solution of the full restoration augmented system.", "quantifier": "all dimensions, matrices and right-hand sides", "why_tests_cant": "continuous domain", "anchors": ["src/Algorithm/IpAugRestoSystemSolver.cpp"]}
{"id": "C38", "title": "Removing fixed constraints by the reducing wrapper", "statement": "The TNLP reducer presents exactly the constraints not in the exclusion list, in order, with their bounds, Jacobian rows and multipliers mapped consistently, and returns the solution in the original numbering.", "quantifier": "all problems and exclusion lists", "why_tests_cant": "index arithmetic over arbitrary lists", "anchors": ["src/Interfaces/IpTNLPReducer.cpp"]}
{"id": "C39", "title": "C interface forwards data and reports failures", "statement": "Creating a problem through the C interface succeeds iff all documented preconditions hold; copies of the bounds are kept, options set through it have the same effect as through the option list, and the final x, g, multipliers and objective are copied to the caller's arrays.", "quantifier": "all argument combinations", "why_tests_cant": "argument space", "anchors": ["src/Interfaces/IpStdCInterface.cpp", "src/Interfaces/IpStdInterfaceTNLP.cpp"]}
{"id": "C40", "title": "Memory growth computation never overflows", "statement": "When a linear solver asks for a larger workspace the new length is never smaller than the requested minimum, fits the integer type, and otherwise an overflow error is raised.", "quantifier": "all current lengths, recommendations and integer ranges", "why_tests_cant": "extreme values are not reachable in tests", "anchors": ["src/Common/IpUtils.hpp: ComputeMemIncrease"]}
{"id": "C41", "title": "Long texts are broken into lines without loss", "statement": "Printing a text over several lines (PrintStringOverLines) ends and prints every character of the text, in order, except that a line break replaces a blank or - inside a word that does not fit - is preceded by a hyphen; no line is longer than the indentation plus the requested length.", "quantifier": "all texts, indentations and line lengths of at least 2", "why_tests_cant": "breaking depends on the positions of all blanks relative to the line length", "anchors": ["src/Common/IpJournalist.cpp: Journalist::PrintStringOverLines"]}
{"id": "C42", "title": "Cached norms, extrema and sums of vectors are up to date", "statement": "After any history of creating, modifying, scaling and copying vectors and asking for their norms, extrema, sums and sums of logarithms, each answer is that of the current contents (although the vector class updates cached values in Scal and takes them over in Copy).", "quantifier": "all histories; vectors with at least one element for Max/Min, positive factors and elements when a sum of logarithms is cached", "why_tests_cant": "whether a cached value is used depends on the whole history of tags", "anchors": ["src/LinAlg/IpVector.hpp: Vector::Copy, Nrm2, Asum, Amax, Max, Min, Sum, SumLogs", "src/LinAlg/IpVector.cpp: Vector::Scal", "src/LinAlg/IpCompoundVector.hpp: GetCompNonConst"]}
{"id": "C43", "title": "Compound vectors behave like the concatenation of their components", "statement": "Every vector operation on a compound vector (also nested, and with components of different types) gives the same result as the operation on one vector with all elements of the components in order; in particular the fraction-to-the-boundary step is the largest one for all components together.", "quantifier": "all numbers, types and storages of components and all operations", "why_tests_cant": "holds for every nesting and every mix of storages", "anchors": ["src/LinAlg/IpCompoundVector.cpp"]}
{"id": "C44", "title": "Jacobian and Hessian of the internal problem are those of the user", "statement": "The Jacobians and the Hessian the algorithm works with are exactly the user's matrices restricted to the rows and columns of its constraints and variables; fixed variables turned into constraints contribute unit rows; duplicate entries are added.", "quantifier": "all structures (any order, duplicates), values, bounds and treatments of fixed variables", "why_tests_cant": "the index maps depend on every bound and every entry", "anchors": ["src/Interfaces/IpTNLPAdapter.cpp: GetSpaces, Eval_jac_c, Eval_jac_d, Eval_h"]}
{"id": "C45", "title": "Multipliers of fixed variables satisfy the optimality conditions", "statement": "The bound multipliers returned for removed fixed variables are nonnegative, at most one of them is positive, and together with the returned constraint multipliers the corresponding component of the Lagrangian gradient vanishes.", "quantifier": "all problems, points and multipliers", "why_tests_cant": "holds for every structure and every set of fixed variables", "anchors": ["src/Interfaces/IpTNLPAdapter.cpp: ResortBoundMultipliers"]}
{"id": "C46", "title": "Evaluations are answered with the user's values at the requested point", "statement": "After any history of evaluation requests, each answer is what the user's function returns at exactly the requested point and multipliers, and a failure of the user's function is reported.", "quantifier": "all histories of requests, points and failures", "why_tests_cant": "answers may come from data kept from earlier requests", "anchors": ["src/Interfaces/IpTNLPAdapter.cpp: update_local_x, update_local_lambda, internal_eval_g, internal_eval_jac_g, Eval_*"]}
{"id": "C47", "title": "The flag new_x tells the user when the point has changed", "statement": "Whenever a user function is called with new_x=false, an evaluation method has been called before at the same point; for codes that keep data of the last point, the last call was at this point.", "quantifier": "all histories of requests, also with failures and finite differences", "why_tests_cant": "depends on which earlier requests were answered from memory", "anchors": ["src/Interfaces/IpTNLP.hpp: eval_f", "src/Interfaces/IpTNLPAdapter.cpp: update_local_x"]}
{"id": "C48", "title": "Finite difference Jacobian", "statement": "With jacobian_approximation=finite-difference-values each Jacobian entry is the difference quotient of its own constraint with respect to its own variable, evaluated at a point that differs in this variable only and stays within the bounds.", "quantifier": "all structures, functions, points and bounds", "why_tests_cant": "the position of each value is computed by a sorting conversion of the whole structure", "anchors": ["src/Interfaces/IpTNLPAdapter.cpp: initialize_findiff_jac, internal_eval_jac_g"]}
{"id": "C49", "title": "Watchdog procedure", "statement": "The watchdog is started only after watchdog_shortened_iter_trigger shortened iterations; while it is active its reference iterate and direction are kept unchanged, full steps are taken, and it lasts at most watchdog_trial_iter_max iterations; when it ends, either the step passed the regular acceptance test or the reference iterate is restored and the regular line search is made from there along the reference direction.", "quantifier": "all histories of iterations, barrier parameter changes, resets, evaluation errors and acceptance outcomes", "why_tests_cant": "history dependent state machine", "anchors": ["src/Algorithm/IpBacktrackingLineSearch.cpp: FindAcceptableTrialPoint, StartWatchDog, StopWatchDog"]}
{"id": "C50", "title": "Soft restoration phase is bounded", "statement": "After at most max_soft_resto_iters successive soft restoration steps the line search leaves the soft restoration phase.", "quantifier": "all histories of iterations", "why_tests_cant": "history dependent counter with several resets", "anchors": ["src/Algorithm/IpBacktrackingLineSearch.cpp: FindAcceptableTrialPoint"]}
{"id": "C51", "title": "Acceptable point is kept as backup", "statement": "If the line search gives up with 'acceptable point reached', the iterate left is one that satisfied the acceptable tolerances: the current one or the last one found; failure of the step computation or of the restoration phase is reported only if no such iterate was found before.", "quantifier": "all histories of iterations", "why_tests_cant": "depends on the whole history of the run", "anchors": ["src/Algorithm/IpBacktrackingLineSearch.cpp: StoreAcceptablePoint, RestoreAcceptablePoint, FindAcceptableTrialPoint"]}
{"id": "C52", "title": "Relaxed bounds and projection of the final point", "statement": "Bounds are relaxed outwards by bound_relax_factor*max(1,|bound|), at most constr_viol_tol; with honor_original_bounds the point reported to the user satisfies the original variable bounds, no component is moved by more than constr_viol_tol, and components that satisfied their bounds are not changed.", "quantifier": "all bounds, index sets, points and option values", "why_tests_cant": "continuous domain, arbitrary sets of bounds", "anchors": ["src/Algorithm/IpOrigIpoptNLP.cpp: relax_bounds, InitializeStructures, FinalizeSolution"]}
{"id": "C53", "title": "Gradient-based scaling", "statement": "With the default scaling method, factors lie between nlp_scaling_min_value and 1; functions whose gradient at the starting point has no component above nlp_scaling_max_gradient are not scaled, and scaled gradients do not exceed it unless the factor is at its minimum; failed evaluations leave the functions unscaled.", "quantifier": "all gradients, Jacobians and option values", "why_tests_cant": "continuous domain", "anchors": ["src/Algorithm/IpGradientScaling.cpp: DetermineScalingParametersImpl"]}
{"id": "C54", "title": "Quasi-Newton updates satisfy the secant equation", "statement": "With limited-memory Hessian approximation, after every accepted BFGS or SR1 update the Hessian approximation used in the next step maps the change of x to the change of the gradient of the Lagrangian (for the new multipliers); with a reduced space (variables that occur nonlinearly only) the same holds for the restrictions.", "quantifier": "all histories of iterates, derivatives and multipliers, skipped updates, resets and option values", "why_tests_cant": "history dependent, continuous domain", "anchors": ["src/Algorithm/IpLimMemQuasiNewtonUpdater.cpp: UpdateHessian, UpdateInternalData, RecalcY, SplitEigenvalues, SetW"]}
{"id": "C55", "title": "The BFGS approximation is positive definite", "statement": "With limited-memory BFGS the Hessian approximation is symmetric and positive definite (on the space it approximates) after every iteration, whatever updates were skipped, reset or failed, and its initial scaling stays within limited_memory_init_val_min and limited_memory_init_val_max.", "quantifier": "all histories of iterates, derivatives and multipliers and option values", "why_tests_cant": "history dependent, continuous domain", "anchors": ["src/Algorithm/IpLimMemQuasiNewtonUpdater.cpp: UpdateHessian, CheckSkippingBFGS, SetW"]}
{"id": "C56", "title": "Calculated quantities are up to date", "statement": "Every quantity the algorithm asks for at the current or trial point (function and constraint values, derivatives, slacks, complementarities, infeasibilities, errors, step length bounds) equals what would be computed from scratch from the point, barrier parameter and bounds of that moment.", "quantifier": "all histories of new, accepted and restored points, barrier parameters, bounds and queries", "why_tests_cant": "depends on the history of about seventy mutually dependent caches", "anchors": ["src/Algorithm/IpIpoptCalculatedQuantities.cpp"]}
{"id": "C57", "title": "Adaptive barrier update", "statement": "With the adaptive strategy the barrier parameter stays positive and at most mu_max; the free mode is left and re-entered exactly according to the documented sufficient-progress rule with respect to the iterates accepted in the free mode, so that accepted iterates show a guaranteed decrease of the KKT error or pairwise progress in the filter; in the free mode the parameter is the oracle's value cut to its bounds (at least mu_target), in the fixed mode it is reduced as in the monotone strategy and never goes below mu_min and mu_target.", "quantifier": "all histories of iterates, tiny steps, skipped line searches, oracles (also failing ones) and option values", "why_tests_cant": "depends on the whole history of accepted iterates and on continuous data", "anchors": ["src/Algorithm/IpAdaptiveMuUpdate.cpp: UpdateBarrierParameter, CheckSufficientProgress, RememberCurrentPointAsAccepted, NewFixedMu, lower_mu_safeguard, quality_function_pd_system"]}
{"id": "C58", "title": "Barrier parameter oracles", "statement": "The LOQO, probing and quality-function oracles return a barrier parameter computed by their documented formulas from the complementarity products at the current point and after the trial steps, between the bounds given to them (mu_min and mu_max); they fail only if their linear systems cannot be solved; the section search of the quality function oracle returns a point of its interval that is at least as good as all points tried, close to the minimizer for unimodal functions, after at most the allowed number of evaluations; the search direction stored by it belongs to the parameter returned.", "quantifier": "all interior iterates, steps delivered by the linear solver, quality functions and option values", "why_tests_cant": "continuous domain; search over arbitrary functions", "anchors": ["src/Algorithm/IpLoqoMuOracle.cpp: CalculateMu", "src/Algorithm/IpProbingMuOracle.cpp: CalculateMu, CalculateAffineMu", "src/Algorithm/IpQualityFunctionMuOracle.cpp: CalculateMu, CalculateQualityFunction, PerformGoldenSection", "src/Algorithm/IpIpoptCalculatedQuantities.cpp: CalcCentralityMeasure"]}
{"id": "C59", "title": "Triplets handed to the linear solvers are the matrix", "statement": "For every matrix that can be built from the supported matrix classes (nested sums, compounds, scalings, transposes, expansions, ...), the row, column and value arrays filled for a linear solver represent exactly that matrix: exactly the announced number of positions is written and nothing else, all indices lie inside the matrix, the triplets at a position sum to the matrix element, and index arrays fetched once remain valid for later values of a matrix of the same structure. Vectors are copied to and from flat arrays without loss.", "quantifier": "all nestings of matrix and vector classes, dimensions, offsets, array positions and previous array contents", "why_tests_cant": "unbounded nesting and dimensions", "anchors": ["src/LinAlg/TMatrices/IpTripletHelper.cpp: GetNumberEntries, FillRowCol, FillValues, FillValuesFromVector, PutValuesInVector"]}
{"id": "C60", "title": "A successful solve of the augmented system is a solution", "statement": "Whenever the augmented system solver reports success, each returned solution satisfies the augmented system with exactly the matrices, diagonals, perturbations and right-hand side of that call, whatever was solved before (factorizations reused, scaling switched on, quality increased, solver asked for the matrix again, earlier failures, re-initializations); if it does not report success the solution vectors are unchanged.", "quantifier": "all histories of initializations, quality requests and solves; all sparse solvers and scaling methods that keep their interface contract; all matrix formats, dimensions and numbers of right-hand sides", "why_tests_cant": "depends on the history of tags, factorizations and scaling and on an external solver", "anchors": ["src/Algorithm/IpStdAugSystemSolver.cpp: MultiSolve, CreateAugmentedSystem, AugmentedSystemRequiresChange", "src/Algorithm/LinearSolvers/IpTSymLinearSolver.cpp: MultiSolve, InitializeStructure, GiveMatrixToSolver, IncreaseQuality"]}
{"id": "C61", "title": "The current iterate and violations reported to callbacks", "statement": "During the intermediate callback, get_curr_iterate and get_curr_violations report, in the user's numbering, units and sign convention, the current point, the constraint values and multipliers belonging to it, the violation of the user's bounds and constraints, the complementarity products and the gradient of the Lagrangian; in the regular and in the restoration phase, for every scaling and treatment of fixed variables; they return false if there is nothing to report, throw on wrong dimensions, and write only the requested arrays; with scaled=true the values are those of the scaled problem.", "quantifier": "all problems, bounds, scalings, treatments of fixed variables, sets of dependent constraints, iterates and requests", "why_tests_cant": "combinations of numbering, scaling, relaxation and phase with continuous data", "anchors": ["src/Interfaces/IpTNLP.cpp: TNLP::get_curr_iterate, TNLP::get_curr_violations, curr_x, curr_c, curr_grad_lag_x", "src/Interfaces/IpTNLPAdapter.cpp: ResortX, ResortG, ResortBounds, ResortBoundMultipliers", "src/Algorithm/IpIpoptCalculatedQuantities.cpp: unscaled_curr_orig_x_L_violation"]}
{"id": "C62", "title": "Evaluations by the algorithm are up to date, counted, and not repeated", "statement": "Whatever was evaluated, failed or re-initialized before, a function or derivative the algorithm asks for is the scaled value of the current problem's function at the current contents of the arguments, or an Eval_Error is raised, exactly if the user's function fails (or gives invalid numbers, where checked) there; derivatives declared constant are evaluated once per optimization (Hessians once per objective factor) and otherwise a repeated request does not call the user; the reported evaluation counts are the numbers of calls made.", "quantifier": "all histories of evaluations, failures, changes of vectors and re-optimizations with other problems, options and structures", "why_tests_cant": "history dependent; eight caches with constant-derivative options", "anchors": ["src/Algorithm/IpOrigIpoptNLP.cpp: Initialize, f, grad_f, c, d, jac_c, jac_d, h, get_unscaled_x", "options grad_f_constant, jac_c_constant, jac_d_constant, hessian_constant, warm_start_same_structure"]}
{"id": "C63", "title": "Search directions with a limited-memory Hessian (sherman-morrison)", "statement": "With limited_memory_aug_solver=sherman-morrison, whenever the augmented system solver reports success, the returned vectors solve the augmented system with the full Hessian B0 + V V^T - U U^T (in its three forms), for every history of calls, failures, quality increases and re-initializations; the number of negative eigenvalues it reports is that of the full system, and if the linear solver certified positive curvature for the diagonal Hessian, the full system has positive curvature.", "quantifier": "all systems, Hessians with any numbers of columns, right-hand sides, linear solvers keeping their contract and call histories", "why_tests_cant": "history dependent and continuous data", "anchors": ["src/Algorithm/IpLowRankAugSystemSolver.cpp: Solve, UpdateFactorization, SolveMultiVector, AugmentedSystemRequiresChange", "option limited_memory_aug_solver"]}
{"id": "C64", "title": "Search directions with a limited-memory Hessian (extended)", "statement": "With limited_memory_aug_solver=extended, whenever the augmented system solver reports success, the returned vectors solve the augmented system with the full Hessian B0 + V V^T - U U^T, the linear solver was asked for the inertia of an extended system that corresponds to the requested one, and the reported number of negative eigenvalues is that of the original system; for every history of calls.", "quantifier": "all systems, Hessians, right-hand sides, linear solvers keeping their contract and call histories", "why_tests_cant": "history dependent and continuous data", "anchors": ["src/Algorithm/IpLowRankSSAugSystemSolver.cpp: Solve, UpdateExtendedData", "src/LinAlg/IpExpandedMultiVectorMatrix.cpp", "option limited_memory_aug_solver"]}
{"id": "C65", "title": "The restoration problem is the 1-norm feasibility problem", "statement": "In the restoration phase the problem solved is: minimize rho*(sum of the relaxation variables) + zeta/2 * ||D_R (x - x_ref)||^2 subject to the original constraints relaxed by +n -p with n,p >= 0 and the original bounds; for every x its smallest value over the relaxation variables is rho times the 1-norm of the original constraint violation plus the proximity term. Its gradient, Jacobians and Hessian are the derivatives of its functions if those of the original problem are, and its bounds are the original ones.", "quantifier": "all original problems (dimensions, functions, failing evaluations), reference points, penalty parameters and points", "why_tests_cant": "continuous data; exact penalty property quantifies over all relaxation variables", "anchors": ["src/Algorithm/IpRestoIpoptNLP.cpp: f, grad_f, c, d, jac_c, jac_d, h, InitializeStructures, AdjustVariableBounds", "options resto_penalty_parameter, resto_proximity_weight, evaluate_orig_obj_at_resto_trial"]}
{"id": "C66", "title": "Start of the restoration phase and multipliers afterwards", "statement": "The first point of the restoration phase keeps x and s, satisfies the relaxed constraints exactly with positive relaxation variables that minimize the barrier function for the given x and s, and has positive multipliers satisfying the perturbed complementarity conditions; after a successful restoration phase the bound multipliers are positive: a fraction-to-the-boundary step of the linearized complementarity conditions, or all one if one of them exceeds bound_mult_reset_threshold; least-square multipliers larger than constr_mult_init_max are replaced by zero.", "quantifier": "all iterates, dimensions, constraint values, barrier parameters and options", "why_tests_cant": "continuous data", "anchors": ["src/Algorithm/IpRestoIterateInitializer.cpp: SetInitialIterates, solve_quadratic", "src/Algorithm/IpRestoMinC_1Nrm.cpp: PerformRestoration, ComputeBoundMultiplierStep", "src/Algorithm/IpDefaultIterateInitializer.cpp: least_square_mults"]}
{"id": "C67", "title": "How the restoration phase ends", "statement": "The restoration phase hands a point back to the original problem only if the point reduces the original infeasibility by required_infeasibility_reduction and is acceptable to the original filter and iterate (or is feasible, for a square problem), never without having taken a step; the original problem is reported locally infeasible only if the restoration problem satisfied its own termination test with an infeasibility above the tolerance; a phase makes at most max_resto_iter+2 checks; on failure the last restoration point is the reported one.", "quantifier": "all options, sequences of observed quantities (including NaN and infinities), callbacks and results of the restoration solver", "why_tests_cant": "history dependent; all combinations of tolerances and observations", "anchors": ["src/Algorithm/IpRestoConvCheck.cpp: CheckConvergence", "src/Algorithm/IpRestoFilterConvCheck.cpp: TestOrigProgress", "src/Algorithm/IpRestoMinC_1Nrm.cpp: PerformRestoration", "options required_infeasibility_reduction, max_resto_iter, resto_failure_feasibility_threshold"]}
{"id": "C68", "title": "Penalty function line search", "statement": "With line_search_method=penalty: the penalty parameter never decreases between resets, is increased only if too small for the current direction, and then exceeds the least sufficient value by nu_inc; the predicted reduction of a step alpha in [0,1] satisfying the linearized constraints is at least alpha*rho*nu*theta; a trial point is accepted exactly if the penalty function barrier + nu*theta decreases by eta_phi times the prediction (up to rounding), so accepted steps decrease it, and sufficiently short steps are accepted at infeasible points; if the least sufficient values stay bounded, the parameter stays bounded and is increased finitely often; the restoration phase is left with the prediction of the last step tried.", "quantifier": "all iterates, directions, dimensions, norms, option values and histories of calls", "why_tests_cant": "continuous data and unbounded histories", "anchors": ["src/Algorithm/IpPenaltyLSAcceptor.cpp: InitThisLineSearch, CalcPred, CheckAcceptabilityOfTrialPoint, IsAcceptableToCurrentIterate, Reset, UpdateForNextIteration", "options nu_init, nu_inc, rho, eta_phi"]}
{"id": "C69", "title": "Second order corrections and corrector steps", "statement": "After a rejected full step at most max_soc second order corrections are tried, each solving the primal-dual system for the accumulated constraint values of the previous trial points, a further one only if the constraint violation dropped by the factor kappa_soc; step and direction change only if a correction passes the acceptance test made with the original step size, and then are those of the accepted correction. A corrector step (corrector_type) satisfies the linear system of the search direction with the second order term of the complementarity conditions added, and is taken exactly if it is not to be skipped, reduces the average complementarity by corrector_compl_avrg_red_fact (affine) and passes the acceptance test.", "quantifier": "all problems, acceptance tests, linear solvers, step rules, option values and sequences of trial values", "why_tests_cant": "arbitrary behaviour of solver and acceptance test; any number of corrections", "anchors": ["src/Algorithm/IpFilterLSAcceptor.cpp: TrySecondOrderCorrection, TryCorrector", "src/Algorithm/IpPenaltyLSAcceptor.cpp: TrySecondOrderCorrection", "options max_soc, kappa_soc, soc_method, corrector_type, skip_corr_if_neg_curv, skip_corr_in_monotone_mode, corrector_compl_avrg_red_fact"]}
{"id": "C70", "title": "Replacing variable bounds by constraints changes nothing", "statement": "With replace_bounds=yes the problem solved has the same feasible points, objective and Hessian of the Lagrangian, correct derivatives and scaling of the added rows; the solution delivered for an optimal point is optimal for the original problem with bound multipliers of the right sign, and no optimal point is lost; starting values of the user, including bound multipliers of a warm start, mean the same; the problem is rejected exactly if an inequality constraint has two finite bounds or none.", "quantifier": "all problems, dimensions, bounds, points and multipliers", "why_tests_cant": "continuous data; all structures", "anchors": ["src/Algorithm/IpNLPBoundsRemover.cpp", "src/Algorithm/IpNLPBoundsRemover.hpp", "option replace_bounds"]}
{"id": "C71", "title": "Initial multipliers and least-square starting points", "statement": "A cold start begins strictly inside the bounds of the variables and of the inequality slacks (whose values are the constraint values at the start point, pushed inside) with positive bound multipliers: bound_mult_init_val, or mu_init over the slack (mu-based); with least_square_init_duals the equality and bound multipliers are the smallest ones making the gradient of the Lagrangian zero, raised to those values; with least_square_init_primal the start is the point of least norm satisfying the linearized constraints; least-square equality multipliers above constr_mult_init_max are replaced by zero.", "quantifier": "all problems, dimensions, bounds, starting points, linear solvers and option values", "why_tests_cant": "continuous data", "anchors": ["src/Algorithm/IpDefaultIterateInitializer.cpp: SetInitialIterates, CalculateLeastSquarePrimals, CalculateLeastSquareDuals, push_variables", "options bound_mult_init_val, bound_mult_init_method, least_square_init_primal, least_square_init_duals, constr_mult_init_max"]}
{"id": "C72", "title": "Warm start", "statement": "With warm_start_init_point=yes the first iterate is the user's point pushed strictly into the bounds by warm_start_bound_push/frac (slacks: warm_start_slack_bound_push/frac) with the user's multipliers, limited in absolute value by warm_start_mult_init_max and, for bounds, at least warm_start_mult_bound_push; multipliers of inequality bounds are the positive and negative part of the user's; each option has the documented default; a positive warm_start_target_mu adjusts the point.", "quantifier": "all problems, dimensions, bounds, user values and option values", "why_tests_cant": "continuous data; combinations of options set and not set", "anchors": ["src/Algorithm/IpWarmStartIterateInitializer.cpp: RegisterOptions, InitializeImpl, SetInitialIterates", "src/Algorithm/IpIpoptData.hpp: set_trial", "options warm_start_*"]}
{"id": "C73", "title": "Search direction", "statement": "The search direction is the Newton direction of the optimality conditions of the barrier problem for the current barrier parameter (with the second order term of the affine step for mehrotra_algorithm): along it every residual decreases at unit rate. The slope of the barrier function along it equals minus the curvature of the regularized Hessian plus multipliers times constraint values, so it is a descent direction at feasible points if the Hessian is positive definite on the null space of the constraints; the slope used by the line search is the derivative of the barrier function. Least-square multiplier estimates minimize the norm of the gradient of the Lagrangian.", "quantifier": "all problems, dimensions, iterates, barrier parameters, damping, regularizations and option values", "why_tests_cant": "continuous data", "anchors": ["src/Algorithm/IpPDSearchDirCalc.cpp: ComputeSearchDirection", "src/Algorithm/IpLeastSquareMults.cpp: CalculateMultipliers", "src/Algorithm/IpIpoptCalculatedQuantities.cpp: curr_grad_lag_with_damping_x, curr_grad_barrier_obj_x, ComputeDampingIndicators, curr_gradBarrTDelta", "options fast_step_computation, mehrotra_algorithm, kappa_d"]}
{"id": "C74", "title": "Derivative checker", "statement": "With derivative_test set, before the optimization starts, each selected first (or second) partial derivative is compared exactly once with a one-sided finite difference at a point within the bounds near the starting point; it is marked and counted iff it deviates by at least derivative_test_tol relative to the larger of the difference quotient and the tolerance; duplicate sparse entries are added, index styles respected, one function is isolated per Hessian. A problem whose derivatives are right and change slowly passes; a derivative wrong by more than truncation error and tolerance is found. The user's functions are called at no other points, new_x is only false where the point is that of the preceding call, a failing evaluation stops the checker with an exception, and errors found never stop the optimization.", "quantifier": "all problems, sizes, sparsity structures with duplicates, index styles, points, option values, random numbers and failing evaluations", "why_tests_cant": "continuous data, all sparsity structures and failure positions", "anchors": ["src/Interfaces/IpTNLPAdapter.cpp: CheckDerivatives, GetSpaces", "options derivative_test, derivative_test_first_index, derivative_test_perturbation, derivative_test_tol, derivative_test_print_all, point_perturbation_radius"]}
{"id": "C75", "title": "Scaling factors and nonlinear variables given by the user", "statement": "With nlp_scaling_method=user-scaling every variable and constraint is scaled by the factor the user gave for it, whatever variables were removed, constraints reordered or rows added (those get factor one); use_x_scaling/use_g_scaling=false mean no scaling; a refusal is an error. With a Hessian approximation, the approximation is restricted to exactly those free variables that the user lists as nonlinear (or that come after the first num_linear_variables), in either index style.", "quantifier": "all problems, bounds, fixed-variable treatments, dependent constraints, factors, valid lists of variables and index styles", "why_tests_cant": "all numberings produced by removing and reordering", "anchors": ["src/Interfaces/IpTNLPAdapter.cpp: GetScalingParameters, GetQuasiNewtonApproximationSpaces", "src/Algorithm/IpUserScaling.cpp: DetermineScalingParametersImpl", "src/Interfaces/IpTNLP.hpp: get_scaling_parameters, get_number_of_nonlinear_variables, get_list_of_nonlinear_variables", "options nlp_scaling_method, num_linear_variables"]}
{"id": "C76", "title": "AMPL interface", "statement": "For a model read from AMPL, Ipopt solves the chosen objective (minimize it, or minimize its negative if it is to be maximized) under the model's constraints and bounds: objective, gradient, constraints, Jacobian and Hessian of the Lagrangian belong to the point of the call whatever was evaluated before, as long as new_x is false only for the point of the preceding call; errors of the AMPL library are reported as failed evaluations; several objectives without a choice are refused. Dual values and reduced costs written for AMPL satisfy the optimality conditions of the model in AMPL's sign convention iff Ipopt's multipliers satisfy those of the internal problem, and given back they restart Ipopt with the same multipliers; outcomes have distinct result numbers of the right class.", "quantifier": "all models (dimensions, sparsity, senses, numbers of objectives, failing evaluations), histories of calls, points and multipliers", "why_tests_cant": "history dependent (library caches), continuous data", "anchors": ["src/Apps/AmplSolver/AmplTNLP.cpp: set_active_objective, call_hesset, get_nlp_info, get_bounds_info, get_starting_point, eval_f, eval_grad_f, eval_g, eval_jac_g, eval_h, finalize_solution, apply_new_x, get_scaling_parameters", "suffixes ipopt_zL_in, ipopt_zU_in, ipopt_zL_out, ipopt_zU_out, scaling_factor"]}
{"id": "C77", "title": "MA27 interface", "statement": "The MA27 solver class delivers, after every history of calls, only solutions of the system with the values written since the last solve (or, without new values, with the matrix of the last successful solve), reports exactly the right outcome of the inertia check when new values were written, asks to be called again only finitely often, raises the pivot tolerance monotonically up to its maximum and only finitely often, and never hands MA27 an array shorter than announced as long as the caller stays within the stated rules. Hence the whole stack augmented system solver / linear solver / MA27 solves the system of each successful call and each call ends.", "quantifier": "all histories of calls, all answers of the HSL routines, all failures of memory allocation, dimensions, options", "why_tests_cant": "history dependent; the interesting paths need memory shortages and many compressions", "anchors": ["src/Algorithm/LinearSolvers/IpMa27TSolverInterface.cpp: InitializeImpl, MultiSolve, GetValuesArrayPtr, InitializeStructure, SymbolicFactorization, Factorization, Backsolve, IncreaseQuality", "src/Common/IpUtils.hpp: ComputeMemIncrease", "options ma27_pivtol, ma27_pivtolmax, ma27_liw_init_factor, ma27_la_init_factor, ma27_meminc_factor, ma27_skip_inertia_check"]}
{"id": "C78", "title": "sIPOPT: sensitivity steps", "statement": "Every sensitivity step of sIPOPT returns current solution plus a direction that solves the linearized primal-dual optimality conditions, where the flagged equality constraint number k is moved by the difference between the new and the current value of the variable labelled k (minus the KKT residuals with sens_kkt_residuals=yes); if that constraint is x=p, the parameter gets exactly the value asked for. With sens_boundcheck=yes the first step always ends, its result satisfies all variable bounds and multiplier signs up to sens_bound_eps, the components that violated them are exactly at their bound (or zero), and all other linearized equations hold; the same for later steps unless the program dereferences a null pointer. The columns of the sensitivity matrix are the derivatives with respect to the flagged constraints' right-hand sides if the flags are 1,2,... in order.", "quantifier": "all problems, dimensions, bounds, labels, numbers of steps, new parameter values; any nonsingular primal-dual matrix", "why_tests_cant": "continuous data; an active-set loop with a cache of columns shared between steps", "anchors": ["contrib/sIPOPT/src/SensStdStepCalc.cpp: Step, BoundCheck", "contrib/sIPOPT/src/SensIndexPCalculator.cpp: ComputeP, GetSchurMatrix", "contrib/sIPOPT/src/SensIndexSchurData.cpp", "contrib/sIPOPT/src/SensDenseGenSchurDriver.cpp", "contrib/sIPOPT/src/SensAlgorithm.cpp: Run, ComputeSensitivityMatrix", "contrib/sIPOPT/src/SensMetadataMeasurement.cpp: GetInitialEqConstraints, GetMeasurement", "options sens_boundcheck, sens_bound_eps, sens_kkt_residuals, n_sens_steps"]}
{"id": "C79", "title": "sIPOPT: reduced Hessian", "statement": "With compute_red_hessian=yes and the variables numbered 1,...,n by the suffix red_hessian, each number once, the matrix printed is the block of the inverse of the primal-dual matrix that belongs to these variables, in the order of the numbers, times the objective scaling factor; for a problem with equality constraints only it is the inverse of the reduced Hessian of the unscaled objective with respect to these variables as independent variables. Other numberings give no matrix.", "quantifier": "all problems, dimensions, suffixes, scaling factors", "why_tests_cant": "continuous data, all dimensions", "anchors": ["contrib/sIPOPT/src/SensReducedHessianCalculator.cpp: ComputeReducedHessian", "contrib/sIPOPT/src/SensBuilder.cpp: BuildRedHessCalc", "contrib/sIPOPT/src/SensIndexSchurData.cpp: SetData_Index", "option compute_red_hessian, suffix red_hessian"]}
{"id": "C80", "title": "MUMPS interface", "statement": "The MUMPS solver class delivers, after every history of calls, only solutions of the system with the values written since the last solve (or, without new values, with the matrix of the last successful solve), and reports exactly the right outcome of the inertia check when new values were written. A solve analyses the structure at most once, then tries at most 21 factorizations with doubled memory settings and stops at the first answer that is no memory complaint; each answer leads to the documented status. The caller is asked at most once to call again. IncreaseQuality raises the pivot tolerance monotonically up to its maximum, finitely often, and MUMPS uses the new tolerance. The rows reported as dependent are those of MUMPS' list of null pivots, counted from 0, and the detection leaves options and later solves unaffected. Hence the whole stack augmented system solver / linear solver / MUMPS solves the system of each successful call and each call ends.", "quantifier": "all histories of calls, all answers of MUMPS, dimensions, options", "why_tests_cant": "history dependent; the interesting paths need memory shortages", "anchors": ["src/Algorithm/LinearSolvers/IpMumpsSolverInterface.cpp: InitializeImpl, MultiSolve, GetValuesArrayPtr, InitializeStructure, SymbolicFactorization, Factorization, Solve, IncreaseQuality, DetermineDependentRows", "src/Common/IpUtils.hpp: ComputeMemIncrease", "options mumps_pivtol, mumps_pivtolmax, mumps_mem_percent, mumps_permuting_scaling, mumps_pivot_order, mumps_scaling, mumps_dep_tol"]}
{"id": "C81", "title": "Detection of dependent equality constraints", "statement": "With dependency_detector=mumps only redundant equality constraints are taken out of the problem: at a test point within the bounds and within the perturbation radius of the starting point, the gradients of the equality constraints that are kept are linearly independent and every equality constraint taken out is a linear combination of them (with dependency_detection_with_rhs=yes including the residuals), so that for affine constraints each point satisfying the kept ones satisfies all. Inequality constraints, variables and bounds are not touched. If a function of the user or the detector fails, nothing is taken out. The user's functions are told new_x=false only at the point of the preceding call.", "quantifier": "all problems, dimensions, sparsity structures (also with repeated elements), index styles, treatments of fixed variables, starting points, random numbers, detectors", "why_tests_cant": "continuous data, all sparsity structures; a wrong index takes out a wrong constraint and changes the problem silently", "anchors": ["src/Interfaces/IpTNLPAdapter.cpp: DetermineDependentConstraints, GetSpaces, ProcessOptions", "src/Algorithm/LinearSolvers/IpTSymDependencyDetector.cpp: DetermineDependentRows", "src/Algorithm/LinearSolvers/IpTSymLinearSolver.cpp: DetermineDependentRows", "src/Algorithm/LinearSolvers/IpMumpsSolverInterface.cpp: DetermineDependentRows", "options dependency_detector, dependency_detection_with_rhs, point_perturbation_radius"]}
{"id": "C82", "title": "Restoration phase inside the restoration phase", "statement": "If the line search of the restoration problem itself needs a restoration phase, the point it continues from has the same original variables, slacks and multipliers, satisfies the constraints of the restoration problem exactly, has positive relaxation variables, and has the smallest value of the barrier function of the restoration problem among all such points; so one such step is enough (a second one changes nothing). It fails only if the user's constraints cannot be evaluated.", "quantifier": "all problems, dimensions, current points, penalty weights and barrier parameters", "why_tests_cant": "continuous data, all dimensions; rarely reached code", "anchors": ["src/Algorithm/IpRestoRestoPhase.cpp: PerformRestoration, solve_quadratic"]}
{"id": "C83", "title": "Tested and reported optimality errors are those of the user's problem", "statement": "If Ipopt ends with \"Optimal Solution Found\" (or \"Solved To Acceptable Level\"), then for the point and the multipliers it delivers every component of the gradient of the Lagrangian of the user's unscaled problem is at most dual_inf_tol, every constraint is violated by at most constr_viol_tol, and every product of a multiplier and the distance to its bound is within compl_inf_tol of the target (the acceptable_ tolerances respectively), for all scalings; the statistics object reports exactly these quantities at the delivered point, and the reported KKT error is their maximum. The factors by which the overall error is divided are 1 unless the multipliers are larger than s_max on average.", "quantifier": "all problems, dimensions, points, multipliers, scaling factors (also negative objective factors), tolerances, the three norms", "why_tests_cant": "continuous data, all scalings; an error of a factor is invisible in a converged run", "anchors": ["src/Algorithm/IpIpoptCalculatedQuantities.cpp: curr_dual_infeasibility, unscaled_curr_dual_infeasibility, curr_nlp_constraint_violation, unscaled_curr_nlp_constraint_violation, curr_complementarity, unscaled_curr_complementarity, curr_nlp_error, unscaled_curr_nlp_error, unscaled_curr_orig_bounds_violation, CalcNormOfType, ComputeOptimalityErrorScaling", "src/Interfaces/IpSolveStatistics.cpp", "src/Algorithm/IpOptErrorConvCheck.cpp: CheckConvergence, CurrentIsAcceptable", "options tol, dual_inf_tol, constr_viol_tol, compl_inf_tol, s_max, mu_target"]}
{"id": "C84", "title": "What finalize_solution receives", "statement": "If Ipopt ends with \"Optimal Solution Found\" or \"Solved To Acceptable Level\" (and honor_original_bounds is no), the arrays given to finalize_solution form, in the user's numbering and units, a KKT point of the user's problem within the tolerances: the gradient of the Lagrangian with the delivered multipliers is at most dual_inf_tol in every variable, also the fixed ones; g is the value of the constraints at x and satisfies its bounds up to constr_viol_tol and the bound relaxation; products of bound multipliers and distances are within compl_inf_tol of the target; multipliers of absent bounds are zero, and for minimization the signs are right and x is within the (relaxed) bounds. For every status with an iterate the arrays are exactly those that get_curr_iterate would have given in the last iteration; for the other statuses the last x is delivered with zero multipliers.", "quantifier": "all problems, dimensions, treatments of fixed variables, scalings, sets of constraints taken out as dependent, status codes, iterates", "why_tests_cant": "continuous data; composition of convergence test, unscaling and renumbering for all combinations of bounds", "anchors": ["src/Interfaces/IpTNLPAdapter.cpp: FinalizeSolution, ResortBoundMultipliers, ResortG, ResortX", "src/Interfaces/IpIpoptApplication.cpp: call_optimize", "src/Algorithm/IpOrigIpoptNLP.cpp: FinalizeSolution", "src/Interfaces/IpTNLP.hpp: finalize_solution", "src/Algorithm/IpOptErrorConvCheck.cpp: CheckConvergence", "options fixed_variable_treatment, dual_inf_tol, constr_viol_tol, compl_inf_tol, dependency_detector"]}
{"id": "C85", "title": "Chen-Goldfarb line search: piecewise penalty function", "statement": "With line_search_method=cg-penalty a trial point is accepted exactly if its infeasibility is not above the limit and it either satisfies the Armijo condition for the penalty function with the current penalty parameter, or for at least one penalty parameter its penalty function value is smaller (by a margin) than those of all points accepted this way for the current barrier problem, or the step size is tiny. The stored list always is the exact lower envelope of the penalty functions of these points, however many points were added. When the barrier parameter is reduced, an iterate is restored or a new optimization starts, only the current point is in the list.", "quantifier": "all sequences of points, barrier values, infeasibilities, numbers of updates, options", "why_tests_cant": "continuous data, history dependent; the envelope update has many cases of equality", "anchors": ["src/contrib/CGPenalty/IpPiecewisePenalty.cpp: Acceptable, UpdateEntry, BiggestBarr", "src/contrib/CGPenalty/IpPiecewisePenalty.hpp: AddEntry, InitPiecewisePenaltyList, ResetList", "src/contrib/CGPenalty/IpCGPenaltyLSAcceptor.cpp: InitThisLineSearch, CheckAcceptabilityOfTrialPoint, IsAcceptableToPiecewisePenalty, ArmijoHolds, UpdateForNextIteration, Reset", "options line_search_method, never_use_piecewise_penalty_ls, piecewisepenalty_gamma_obj, piecewisepenalty_gamma_infeasi, pen_theta_max_fact, min_alpha_primal"]}
{"id": "C86", "title": "MA57 interface", "statement": "The MA57 solver class delivers, after every history of calls, only solutions of the system with the values written since the last solve (or, without new values, with the matrix of the last successful solve), and reports exactly the right outcome of the inertia check when new values were written. Every error of MA57 is reported to the caller: memory shortage is cured by larger arrays of the size asked for, and this ends; code 4 becomes SINGULAR; all other codes become fatal errors; a failed solve changes neither the right-hand sides nor the values. The caller is asked to call again exactly if the quality was increased and the matrix is not new, never twice in a row. IncreaseQuality raises the pivot tolerance monotonically up to its maximum, finitely often. No array is shorter than MA57 is told.", "quantifier": "all histories of calls, all answers of MA57, all failures of memory allocation, dimensions, options", "why_tests_cant": "history dependent; the interesting paths need memory shortages and errors of a library that is not part of the project", "anchors": ["src/Algorithm/LinearSolvers/IpMa57TSolverInterface.cpp: InitializeImpl, MultiSolve, GetValuesArrayPtr, InitializeStructure, SymbolicFactorization, Factorization, Backsolve, IncreaseQuality", "src/Common/IpUtils.hpp: ComputeMemIncrease", "options ma57_pivtol, ma57_pivtolmax, ma57_pre_alloc, warm_start_same_structure"]}
{"id": "C87", "title": "Linear system scaling does not change the system", "statement": "With linear_system_scaling=slack-based or mc19 every scaling factor handed to the linear solver is a finite positive number (at most 1, or at most 1e40), whatever the iterate and whatever MC19 returns (also infinities and NaN, in which case all factors are 1); MC19 gets exactly the matrix of the system. Hence a successful solve of the augmented system solves the unscaled system that was asked for, in every history of calls. Slack based factors are 1 for variables and multipliers and the sum of the slacks, cut at 1, for inequality constraints.", "quantifier": "all iterates, dimensions, sets of bounds, matrices, answers of MC19, histories of calls, sparse solvers keeping their contract", "why_tests_cant": "continuous data; needs the HSL library; zero factors appear only for constraints without bounds or underflow", "anchors": ["src/Algorithm/LinearSolvers/IpSlackBasedTSymScalingMethod.cpp: ComputeSymTScalingFactors", "src/Algorithm/LinearSolvers/IpMc19TSymScalingMethod.cpp: ComputeSymTScalingFactors", "src/Algorithm/LinearSolvers/IpTSymLinearSolver.cpp: GiveMatrixToSolver, MultiSolve", "option linear_system_scaling"]}
{"id": "C88", "title": "Equilibration-based scaling of the problem", "statement": "With nlp_scaling_method=equilibration-based the user's derivatives are evaluated only at points within the variable bounds, and within point_perturbation_radius of the starting point moved away from the bounds by at most that radius. Evaluation is repeated until four points have succeeded, whose mean absolute values are used, or until eleven have failed, in which case the initialization fails; at most fourteen points are tried. MC19 gets exactly the matrix of the constraint Jacobians and the objective gradient. All factors are positive, so the scaled problem is equivalent to the user's. The scaled Jacobian is equilibrated if the factors MC19 found do so.", "quantifier": "all starting points, bounds, radii, random numbers, evaluation failures, sparsity structures, answers of MC19", "why_tests_cant": "random points, continuous data; needs the HSL library", "anchors": ["src/Algorithm/IpEquilibrationScaling.cpp: DetermineScalingParametersImpl, PointPerturber, MakeNewPerturbedPoint", "src/Algorithm/IpNLPScaling.cpp: DetermineScaling", "options nlp_scaling_method, point_perturbation_radius"]}
{"id": "C89", "title": "Linear solver supplied by the user", "statement": "With linear_solver=custom, a solver interface of the user wrapped in GenAugSystemSolver, and a solver that keeps its contract, a successful solve of the augmented system delivers vectors of the right dimensions that solve the system of this call (matrices, diagonals, perturbations, all right-hand sides), after every history of initializations, requests for higher quality and solves. On any failure the solution vectors are untouched; a fatal error becomes an exception; requests to be called again are obeyed. The solver is never told that the matrix is unchanged when it has changed. The object can be reused for further optimizations.", "quantifier": "all solvers keeping their contract, all histories of calls, dimensions, numbers of right-hand sides, homogeneous and other vectors", "why_tests_cant": "depends on a solver that does not exist in the project, and on the history of calls", "anchors": ["src/Algorithm/IpGenAugSystemSolver.cpp: InitializeImpl, MultiSolve, AugmentedSystemChanged, UpdateTags, IncreaseQuality", "src/Algorithm/LinearSolvers/IpGenKKTSolverInterface.hpp: MultiSolve", "option linear_solver=custom"]}
{"id": "C90", "title": "Perturbation of the linear system with the Chen-Goldfarb penalty method", "statement": "With line_search_method=cg-penalty, after every history of new systems and reports of singularity or wrong inertia, if all requests for the current system have succeeded then the perturbations handed out are consistent: the same for variables and slacks, between 0 and max_hessian_perturbation; the same for both kinds of constraints, not negative and not larger than the regularisations in use; and the values kept are the ones handed out. The first perturbation of a system regularises the constraints exactly if the Jacobian is considered degenerate (then by at least 100 times the machine precision), if pure Newton steps are not tried, or with perturb_always_cd, and perturbs the Hessian exactly if it is considered degenerate. For one system the perturbation is given up after finitely many reports, and conclusions about degeneracy are drawn from the perturbations actually used.", "quantifier": "all histories of calls, all values of the penalty method's quantities, all consistent options", "why_tests_cant": "history dependent; termination must hold for every sequence of answers of the linear solver", "anchors": ["src/contrib/CGPenalty/IpCGPerturbationHandler.cpp: ConsiderNewSystem, PerturbForSingularity", "src/Algorithm/IpPDPerturbationHandler.cpp: PerturbForWrongInertia, get_deltas_for_wrong_inertia, finalize_test", "options line_search_method=cg-penalty, perturb_always_cd, max_hessian_perturbation"]}
{"id": "C91", "title": "Restored iterates and penalty parameter of the Chen-Goldfarb method", "statement": "With line_search_method=cg-penalty, an iterate restored because the multipliers diverge, or as a fallback when the algorithm is stuck, is a former iterate of the same optimization with the least unscaled KKT error (among those since the barrier parameter was last decreased); a fallback succeeds after the first accepted step; restorations because of diverging multipliers happen at most three times per optimization. The penalty parameter is increased only at infeasible trial points after short steps with complementarities close to the barrier parameter, it never decreases or exceeds penalty_max (an exception ends the optimization instead), and is increased only finitely often.", "quantifier": "all histories of iterations, failed line searches, checks and fallbacks; all values of the quantities compared; all options", "why_tests_cant": "history dependent; needs runs that get stuck or diverge, and reoptimization", "anchors": ["src/contrib/CGPenalty/IpCGPenaltyLSAcceptor.cpp: RestoredIterate, DoFallback, CurrentIsBest, RestoreBestPoint, UpdateForNextIteration, Reset, UpdatePenaltyParameter", "src/contrib/CGPenalty/IpCGPenaltyData.cpp: Initialize", "options penalty_max, penalty_update_compl_tol, chi_hat, chi_tilde, never_use_piecewise_penalty_ls"]}
{"id": "C92", "title": "Search direction of the Chen-Goldfarb method", "statement": "With line_search_method=cg-penalty a computed search direction is the solution of the unregularised right-hand side (fast direction) exactly if the constraints were not regularised or this direction is compatible with the penalty function (three tests), and the solution of the regularised right-hand side otherwise; the computation fails exactly if a linear system needed cannot be solved, and then the search direction is untouched. In every history both penalty parameters are positive, the one for the line search is lowered only finitely often, and after a computation with pure Newton steps it is at least the value required for descent. The option never_use_fact_cgpen_direction switches the fast direction off.", "quantifier": "all histories of computations, all answers of the linear solver, all values of the quantities compared, all options", "why_tests_cant": "history dependent, continuous data", "anchors": ["src/contrib/CGPenalty/IpCGSearchDirCalc.cpp: ComputeSearchDirection, InitializeImpl", "options penalty_init_min, penalty_init_max, kappa_x_dis, kappa_y_dis, delta_y_max, fast_des_fact, pen_init_fac, never_use_fact_cgpen_direction"]}
