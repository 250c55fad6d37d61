#!/usr/bin/env python3
"""Regenerates /verif/properties.jsonl from the table below."""
import json
P=[]
def p(title, statement, quantifier, why, anchors):
    P.append(dict(id="C%02d"%(len(P)+1), title=title, statement=statement, quantifier=quantifier, why_tests_cant=why, anchors=anchors))

p("Option store behaves like a case-insensitive map",
  "After any sequence of SetStringValue / SetIntegerValue / UnsetValue / clear / Set...IfUnset calls on an option list, a read of option T returns the value of the last successful, non-blocked write of an option whose name equals T up to letter case, and 'not found' if there is none since the last clear/unset; writes to other options never change what T reads.",
  "all operation histories, option names and values",
  "a test fixes one short history and a few names; interference or a lost update may need a particular longer history or a particular mixture of cases in the name",
  ["src/Common/IpOptionsList.cpp: OptionsList::SetStringValue, SetIntegerValue, UnsetValue, GetStringValue, find_tag, lowercase"])
p("A no-clobber option is frozen",
  "Once an option has been stored with allow_clobber=false, no later sequence of option-setting calls, unset calls or option-file reads (anything but clear()) changes the stored value, whatever values and clobber flags those calls use.",
  "all later operation sequences, including whole option files",
  "needs every interleaving of every setter; tests try a single overwrite",
  ["src/Common/IpOptionsList.cpp: will_allow_clobber, SetStringValue, SetNumericValue, SetIntegerValue, UnsetValue, ReadFromStream"])
p("Only registered, type-correct and in-range option values enter the store",
  "With a registry attached, a setter returns false and leaves the option list unchanged if the option is unknown, has a different type, or the value is outside the registered range / list of settings; consequently every value ever stored was accepted by the registered option it belongs to.",
  "all registries, histories and values (including NaN and infinite numbers)",
  "the registry has hundreds of options and the value domain is infinite",
  ["src/Common/IpOptionsList.cpp: Set*Value", "src/Common/IpRegOptions.hpp: IsValidNumberSetting, IsValidIntegerSetting", "src/Common/IpRegOptions.cpp: IsValidStringSetting, GetOption"])
p("Numeric option values that are read back are the values that were set and lie in the registered range",
  "After a successful SetNumericValue(T,v), GetNumericValue(T) returns v, and in particular a value within T's registered bounds.",
  "all numbers v and all registered (strict or non-strict) bounds",
  "rounding in the textual representation only bites for values with more than six significant digits, next to a strict bound",
  ["src/Common/IpOptionsList.cpp: SetNumericValue (%g buffer), GetNumericValue"])
p("Prefix lookup order",
  "A lookup of option T with prefix P returns the value stored under P+T if there is one, otherwise the value stored under T, otherwise the registered default and 'not found'; reads with one prefix never see values set under another prefix.",
  "all option lists, prefixes and tags",
  "sub-solvers (restoration, ...) read hundreds of options through prefixes; tests check few",
  ["src/Common/IpOptionsList.cpp: find_tag, GetStringValue, GetIntegerValue, GetNumericValue"])
p("Option file tokenizer",
  "Reading an option file never reads past its end and always terminates; comments and blank space between tokens are skipped; any sequence of tag/value pairs written as plain or quoted tokens separated by blanks and comment lines is read back exactly; a tag without a value is reported as failure.",
  "all byte sequences; all lists of tokens and all separators",
  "the input space is all files; quoting/eof corner cases",
  ["src/Common/IpOptionsList.cpp: ReadFromStream, readnexttoken"])
p("String settings are matched case-insensitively to the registered spelling",
  "If a string setting is accepted for an option then reading the option returns one of the registered spellings (or, with a wildcard, the user's string), equal to the user's string up to letter case, and the enum read returns the position of the first registered setting that matches; a setting that is not accepted matches no registered spelling.",
  "all registered setting lists and all user strings",
  "infinite string domain, duplicate and wildcard settings",
  ["src/Common/IpRegOptions.cpp: IsValidStringSetting, MapStringSetting, MapStringSettingToEnum, string_equal_insensitive"])
p("Reference counting frees an object exactly when its last owner disappears",
  "For every program that creates objects and copies, assigns, overwrites and destroys smart pointers to them (including self-assignment and cycles of assignment), an object is alive as long as at least one smart pointer refers to it, it is deleted exactly once, when the last one goes away, and no pointer ever refers to a deleted object.",
  "all sequences of smart pointer operations",
  "leaks, double frees and use-after-free depend on the history",
  ["src/Common/IpSmartPtr.hpp: SmartPtr, SetFromRawPtr_, ReleasePointer_", "src/Common/IpReferenced.hpp: AddRef, ReleaseRef"])
p("Cached results are never stale",
  "If a cached-result lookup for given dependencies succeeds, then the returned result was stored by a call with exactly the same dependency objects-states (tags) and scalars, and none of these objects has changed or been destroyed since it was stored. (For histories with fewer than 2^32-1 object creations and changes: the change counter is a 32-bit number, and beyond that a wrong hit is possible.)",
  "all histories of object creation, change, destruction, cache insertions, invalidations, lookups",
  "wrong hits need a particular history of tag updates",
  ["src/Common/IpCachedResults.hpp: CachedResults::GetCachedResult, AddCachedResult, DependentResult::DependentsIdentical, ReceiveNotification", "src/Common/IpTaggedObject.cpp: ObjectChanged"])
p("Cache size bound and recency",
  "A cache created with maximal size n>=0 never holds more than n results after any operation; results are evicted oldest first, and a result that was just stored (n>=1) is found by an immediate lookup.",
  "all cache sizes and histories",
  "bounded tests cover few sizes/histories",
  ["src/Common/IpCachedResults.hpp: AddCachedResult, CleanupInvalidatedResults, Clear"])
p("Observer bookkeeping has no dangling references",
  "After any history of attaching, detaching, notifying and destroying observers and subjects, an observer lists a live subject exactly as often as that subject lists the observer, and neither ever lists a destroyed partner.",
  "all histories of observers and subjects",
  "dangling pointers depend on destruction order",
  ["src/Common/IpObserver.hpp: Observer::RequestAttach, RequestDetach, ~Observer, Subject::~Subject, ProcessNotification"])
p("Journal output routing",
  "A message with level L and category C is written to exactly those journals whose level for C is at least L, each exactly once and in the order of the calls; ProduceOutput returns true iff at least one journal would receive it; changing the level of one category or journal does not influence others.",
  "all journal sets, level settings and message sequences",
  "the product of categories, levels and journals and setting orders is unbounded",
  ["src/Common/IpJournalist.cpp: Journalist::Printf, ProduceOutput, AddJournal, Journal::IsAccepted, SetPrintLevel, SetAllPrintLevels"])
p("The filter rejects exactly the dominated points",
  "A point is acceptable to the filter iff for every entry added since the last clear it is at least as good in some coordinate: removing dominated entries never makes a previously rejected point acceptable nor vice versa, and no kept entry is dominated by a later one.",
  "all dimensions, all histories of added entries and clears, all points with non-NaN coordinates",
  "pruning mistakes only show for particular histories",
  ["src/Algorithm/IpFilter.cpp: Filter::Acceptable, AddEntry, Clear", "src/Algorithm/IpFilter.hpp: FilterEntry::Acceptable, Dominated"])
p("Line search acceptance implies progress",
  "A trial point accepted by the filter line search has constraint violation not above the maximal violation, is acceptable to the filter, and either satisfies the Armijo condition (f-type step) or reduces violation or barrier function sufficiently; after an iteration that was not f-type/Armijo the reference point itself is no longer acceptable to the filter (no cycling).",
  "all reference points, trial points, step sizes, filter contents and option values",
  "continuous input space, combination of branches",
  ["src/Algorithm/IpFilterLSAcceptor.cpp: CheckAcceptabilityOfTrialPoint, IsFtype, ArmijoHolds, IsAcceptableToCurrentIterate, UpdateForNextIteration, AugmentFilter"])
p("Number of filter resets is limited",
  "The filter reset heuristic clears the filter at most max_filter_resets times during one optimisation.",
  "all sequences of trial points",
  "needs long runs with many filter rejections",
  ["src/Algorithm/IpFilterLSAcceptor.cpp: CheckAcceptabilityOfTrialPoint, Reset", "option max_filter_resets"])
p("Hessian/Jacobian perturbations are consistent and bounded",
  "Every perturbation handed out by the perturbation handler's calls, as long as the calls for the current system report success, satisfies delta_x = delta_s, delta_c = delta_d, 0 <= delta_x <= max_hessian_perturbation and delta_c is 0 or the configured regularisation.",
  "all histories of new systems, singularity reports and wrong-inertia reports, all option values in their registered ranges",
  "state machine with degeneracy tests; many histories",
  ["src/Algorithm/IpPDPerturbationHandler.cpp: ConsiderNewSystem, PerturbForSingularity, PerturbForWrongInertia, get_deltas_for_wrong_inertia"])
p("Inertia correction terminates",
  "For one linear system, the inertia-correction loop (repeatedly reporting wrong inertia or singularity) always makes progress and is told to give up after finitely many attempts.",
  "all histories and all responses of the linear solver",
  "termination over unbounded retry sequences cannot be tested",
  ["src/Algorithm/IpPDPerturbationHandler.cpp", "src/Algorithm/IpPDFullSpaceSolver.cpp: SolveOnce"])
p("Successful termination implies all tolerances are met",
  "The convergence check reports 'converged' only if the scaled overall error is at most tol and dual infeasibility, constraint violation and complementarity are at most their tolerances (or the problem has no free variables and the constraints hold); NaN in any of these quantities never counts as converged.",
  "all values of the error measures, including NaN and infinities, and all tolerances",
  "infinite value domain",
  ["src/Algorithm/IpOptErrorConvCheck.cpp: CheckConvergence"])
p("'Acceptable' termination needs consecutive acceptable iterations",
  "Termination at an acceptable point is reported exactly if acceptable_iter consecutive checks (ending now) were acceptable, and never if acceptable_iter is 0.",
  "all sequences of iterates",
  "counter behaviour over arbitrary histories",
  ["src/Algorithm/IpOptErrorConvCheck.cpp: CheckConvergence, CurrentIsAcceptable"])
p("The main loop respects limits and user requests",
  "The optimisation loop performs at most max_iter iterations, stops as soon as the intermediate callback returns false, and returns the status corresponding to the reason it stopped; every strategy failure is mapped to one definite solver return code.",
  "all behaviours of the strategy components (including exceptions at any point) and all limits",
  "exceptions may arise at any point of any iteration",
  ["src/Algorithm/IpIpoptAlg.cpp: IpoptAlgorithm::Optimize", "src/Interfaces/IpIpoptApplication.cpp: call_optimize"])
p("Application status and solution delivery",
  "Every solver return code is translated to its documented application return status, and the user's finalize_solution is called with the final iterate and the code whenever an iterate is available; after every exception the application returns a status instead of propagating (unless rethrow is requested).",
  "all solver outcomes and exceptions",
  "outcome/exception matrix; many outcomes are hard to provoke",
  ["src/Interfaces/IpIpoptApplication.cpp: call_optimize", "src/Interfaces/IpReturnCodes_inc.h"])
p("Triplet to compressed-row conversion preserves the matrix",
  "For every list of (row, column) triplets in range, duplicates included, converting structure and values to (triangular or full) compressed row format yields sorted, duplicate-free rows and represents exactly the same symmetric matrix as the triplets, for every value array.",
  "all dimensions, triplet lists (with duplicates, any order), values and both formats/offsets",
  "arbitrary sparsity patterns; empty rows and duplicates at boundaries",
  ["src/Algorithm/LinearSolvers/IpTripletToCSRConverter.cpp: InitializeConverter, ConvertValues"])
p("Variable and bound classification of the user problem",
  "Every user variable is classified exactly once as fixed or free; lower/upper bound lists contain exactly the free variables with finite bound, infeasible bounds (lower > upper) are reported as inconsistent, and the maps between the user's and the internal variable numbering are mutually inverse.",
  "all problem sizes and bound vectors",
  "classification depends on every combination of finite, infinite, equal and crossing bounds",
  ["src/Interfaces/IpTNLPAdapter.cpp: TNLPAdapter::GetSpaces"])
p("Expanding internal vectors to user vectors and back loses nothing",
  "For every internal point, expanding it to the user's full x and contracting again returns the same point; fixed variables always have their fixed value in the user's x; constraint values and multipliers are delivered to the user's constraint numbering without mixing equality and inequality parts.",
  "all problems and vectors",
  "index arithmetic over arbitrary classification patterns",
  ["src/Interfaces/IpTNLPAdapter.cpp: ResortX, ResortG, GetFullDimensionVariables"])
p("Scaling is transparent",
  "Scaling followed by unscaling of variables, constraints, bounds and multipliers is the identity; the scaled Jacobian/gradient/Hessian correspond to the scaled functions, and results reported to the user are in unscaled units.",
  "all nonzero scaling factors and vectors",
  "continuous domain; factor vs reciprocal mistakes cancel in symmetric tests",
  ["src/Algorithm/IpNLPScaling.cpp", "src/Algorithm/IpNLPScaling.hpp"])
p("Vectors with uniform storage behave like ordinary vectors",
  "Every vector operation gives the same result no matter whether the operands are stored as a single repeated scalar or element by element.",
  "all dimensions (0 included), operands, scalars and all histories of operations",
  "combinatorial number of storage/special-scalar branches",
  ["src/LinAlg/IpDenseVector.cpp"])
p("Fraction-to-the-boundary step",
  "For a strictly positive slack vector and any direction the returned step length is in (0,1], the new slacks are at least (1-tau) times the old ones (hence strictly positive for tau<1), and no larger step length in (0,1] has this property.",
  "all dimensions, positive vectors, directions and tau in (0,1)",
  "continuous domain; maximality is a universally quantified claim",
  ["src/LinAlg/IpDenseVector.cpp: FracToBoundImpl", "src/Algorithm/IpIpoptCalculatedQuantities.cpp: CalcFracToBound"])
p("Matrix-vector products and their transposes are adjoint",
  "For every matrix type and composition (triplet, expansion, scaled, sum, compound, transpose, identity, zero, ...), alpha*A*x+beta*y and alpha*A'*x+beta*y are computed for one and the same matrix A; beta=0 ignores old contents of y.",
  "all matrices, nestings, vectors and scalars",
  "recursive composition of arbitrary depth",
  ["src/LinAlg/*Matrix.cpp: MultVectorImpl, TransMultVectorImpl"])
p("Initial point is strictly inside the bounds",
  "For every user starting point and consistent bounds (whose distance is not negligible compared with the smallest machine number) the initial iterate is strictly between its bounds, with distance at least the configured push fractions, and a starting point that already satisfies this is not moved.",
  "all bounds, starting points, bound_push/bound_frac values in range",
  "continuous domain with one- and two-sided bounds",
  ["src/Algorithm/IpDefaultIterateInitializer.cpp: push_variables"])
p("Barrier parameter is monotone in monotone mode",
  "In monotone mode the barrier parameter, started at or above its floor (from mu_target and the tolerances), never increases, stays positive and above the floor, and is reduced only when the barrier problem error is below the tolerance factor times mu.",
  "all sequences of iterates and option values in range",
  "unbounded histories",
  ["src/Algorithm/IpMonotoneMuUpdate.cpp: UpdateBarrierParameter, CalcNewMuAndTau"])
p("Limited-memory quasi-Newton history",
  "The number of stored curvature pairs never exceeds limited_memory_max_history, they are the most recent accepted pairs in order, and for BFGS only pairs with sufficiently positive curvature are kept; too many skipped updates reset the history.",
  "all histories of steps",
  "history dependent",
  ["src/Algorithm/IpLimMemQuasiNewtonUpdater.cpp"])
p("Timing accounting",
  "A task's accumulated time equals the sum of the durations of its completed start/end intervals since the last reset, provided every End follows a Start; repeated starts and calls made while the task is disabled do not contribute.",
  "all sequences of start/end/reset/enable/disable calls",
  "all call sequences",
  ["src/Common/IpTimedTask.hpp"])
p("Backtracking line search terminates",
  "The backtracking line search tries step sizes alpha_max, alpha_max*r, alpha_max*r^2, ... and stops after finitely many trials either with an accepted point or when the step falls below the minimum.",
  "all step sizes, acceptance behaviours and reduction factors in (0,1)",
  "termination",
  ["src/Algorithm/IpBacktrackingLineSearch.cpp: DoBacktrackingLineSearch"])
p("Bound multiplier safeguard",
  "After accepting a trial point each bound multiplier z and slack s satisfy mu/kappa_sigma <= z*s <= kappa_sigma*mu; multipliers within these limits are unchanged.",
  "all slacks, multipliers, mu and kappa_sigma >= 1",
  "continuous domain, all dimensions",
  ["src/Algorithm/IpIpoptAlg.cpp: correct_bound_multiplier"])
p("Slack safeguard keeps slacks positive",
  "With slack_move > 0, slacks that are too small are increased to a positive value at most the documented limit, other slacks are unchanged, and the number reported equals the number of corrected slacks.",
  "all slack/bound/multiplier vectors",
  "continuous domain, all dimensions",
  ["src/Algorithm/IpIpoptCalculatedQuantities.cpp: CalculateSafeSlack"])
p("Elimination in the primal-dual system is exact",
  "The step computed from the reduced (augmented) system, with bound-multiplier steps recovered by back-substitution, solves the full 8-block primal-dual system whenever the reduced system is solved exactly.",
  "all dimensions, matrices, slacks and right-hand sides",
  "continuous domain; sign errors may cancel on special data",
  ["src/Algorithm/IpPDFullSpaceSolver.cpp: SolveOnce, ComputeResiduals"])
p("Restoration-phase elimination is exact",
  "The restoration-phase augmented system solver, which eliminates the p/n slack variables, returns the solution of the full restoration augmented system.",
  "all dimensions, matrices and right-hand sides",
  "continuous domain",
  ["src/Algorithm/IpAugRestoSystemSolver.cpp"])
p("Removing fixed constraints by the reducing wrapper",
  "The TNLP reducer presents exactly the constraints not in the exclusion list, in order, with their bounds, Jacobian rows and multipliers mapped consistently, and returns the solution in the original numbering.",
  "all problems and exclusion lists",
  "index arithmetic over arbitrary lists",
  ["src/Interfaces/IpTNLPReducer.cpp"])
p("C interface forwards data and reports failures",
  "Creating a problem through the C interface succeeds iff all documented preconditions hold; copies of the bounds are kept, options set through it have the same effect as through the option list, and the final x, g, multipliers and objective are copied to the caller's arrays.",
  "all argument combinations",
  "argument space",
  ["src/Interfaces/IpStdCInterface.cpp", "src/Interfaces/IpStdInterfaceTNLP.cpp"])
p("Memory growth computation never overflows",
  "When a linear solver asks for a larger workspace the new length is never smaller than the requested minimum, fits the integer type, and otherwise an overflow error is raised.",
  "all current lengths, recommendations and integer ranges",
  "extreme values are not reachable in tests",
  ["src/Common/IpUtils.hpp: ComputeMemIncrease"])

exec(open(__file__.replace('mkprops.py','more_props.py')).read()) if __import__('os').path.exists(__file__.replace('mkprops.py','more_props.py')) else None
with open('/verif/properties.jsonl','w') as f:
    for x in P: f.write(json.dumps(x, ensure_ascii=False)+"\n")
print(len(P))
