import Verif.Model.ConvCheck

/-!
# Model of `IpoptAlgorithm::Optimize` and `IpoptApplication::OptimizeNLP`

`/repo/src/Algorithm/IpIpoptAlg.cpp:292-563`, `:858-944`; `/repo/src/Interfaces/IpIpoptApplication.cpp:488-949`.

The strategy objects (initialisation, Hessian update, barrier update, search direction, line search, …) are arbitrary: each is a
function on an arbitrary environment state `σ` that may raise an exception.  The line search may advance the iteration counter
(restoration phase, `IpRestoMinC_1Nrm.cpp:181, 427`), never turn it back.  Calls of `CurrentIsAcceptable` from the line search happen
at the iteration number of the last check and leave the convergence check's state unchanged (`isAcceptable_again`).
Timing, output texts and floating point exceptions are not modelled.
-/

namespace Verif.Alg

/-- `SolverReturn` (`IpAlgTypes.hpp:19-39`). -/
inductive SolverReturn where
  | SUCCESS
  | MAXITER_EXCEEDED
  | CPUTIME_EXCEEDED
  | WALLTIME_EXCEEDED
  | STOP_AT_TINY_STEP
  | STOP_AT_ACCEPTABLE_POINT
  | LOCAL_INFEASIBILITY
  | USER_REQUESTED_STOP
  | FEASIBLE_POINT_FOUND
  | DIVERGING_ITERATES
  | RESTORATION_FAILURE
  | ERROR_IN_STEP_COMPUTATION
  | INVALID_NUMBER_DETECTED
  | TOO_FEW_DEGREES_OF_FREEDOM
  | INVALID_OPTION
  | OUT_OF_MEMORY
  | INTERNAL_ERROR
  | UNASSIGNED
deriving DecidableEq, Repr

/-- `ApplicationReturnStatus` (`IpReturnCodes_inc.h`). -/
inductive AppStatus where
  | Solve_Succeeded
  | Solved_To_Acceptable_Level
  | Infeasible_Problem_Detected
  | Search_Direction_Becomes_Too_Small
  | Diverging_Iterates
  | User_Requested_Stop
  | Feasible_Point_Found
  | Maximum_Iterations_Exceeded
  | Restoration_Failed
  | Error_In_Step_Computation
  | Maximum_CpuTime_Exceeded
  | Maximum_WallTime_Exceeded
  | Not_Enough_Degrees_Of_Freedom
  | Invalid_Problem_Definition
  | Invalid_Option
  | Invalid_Number_Detected
  | Unrecoverable_Exception
  | NonIpopt_Exception_Thrown
  | Insufficient_Memory
  | Internal_Error
deriving DecidableEq, Repr

/-- Exceptions: those named in a `catch` clause, other `IpoptException`s, `std::bad_alloc`, `std::overflow_error`, anything else. -/
inductive Exn where
  | TINY_STEP_DETECTED
  | ACCEPTABLE_POINT_REACHED
  | LOCALLY_INFEASIBLE
  | RESTORATION_CONVERGED_TO_FEASIBLE_POINT
  | RESTORATION_FAILED
  | RESTORATION_MAXITER_EXCEEDED
  | RESTORATION_CPUTIME_EXCEEDED
  | RESTORATION_WALLTIME_EXCEEDED
  | RESTORATION_USER_STOP
  | STEP_COMPUTATION_FAILED
  | Eval_Error
  | FEASIBILITY_PROBLEM_SOLVED
  | TOO_FEW_DOF
  | INTERNAL_ABORT
  | OPTION_INVALID
  | DYNAMIC_LIBRARY_FAILURE
  | INCONSISTENT_BOUNDS
  | otherIpopt
  | bad_alloc
  | overflow_error
  | foreign
deriving DecidableEq, Repr

/-- A computation on states `S` that may raise an exception. -/
abbrev M (S α : Type) := S → Except Exn α × S

/-- Sequencing. -/
def M.bind {S α β : Type} (m : M S α) (k : α → M S β) : M S β := fun s =>
  match m s with
  | (.ok a, s') => k a s'
  | (.error e, s') => (.error e, s')

infixl:55 " ≫= " => M.bind

/-- No effect. -/
def M.pure {S α : Type} (a : α) : M S α := fun s => (.ok a, s)

/-- Raising an exception. -/
def M.throw {S α : Type} (e : Exn) : M S α := fun s => (.error e, s)

/-- What happened, as far as it is visible from outside. -/
inductive Event where
  /-- A convergence check with this observation (with callback or without) and this result. -/
  | check (callback : Bool) (o : Obs) (r : Option Status)
  /-- A strategy object was called. -/
  | strategy
  /-- A trial point was accepted as new iterate. -/
  | accepted
  /-- An exception reached the end of the `try` block of `Optimize`. -/
  | raised (e : Exn)
deriving DecidableEq

/-- State of the algorithm: environment, `iter_count`, convergence check, events (newest first). -/
structure S (σ : Type) where
  env : σ
  iter : Nat
  cc : CSt
  log : List Event

/-- The strategy objects. -/
structure Strategies (σ : Type) where
  /-- `InitializeIterates`, including problem statistics. -/
  init : M σ Unit
  hessian : M σ Unit
  output : M σ Unit
  /-- `UpdateBarrierParameter`. -/
  mu : M σ Bool
  /-- `ComputeSearchDirection`. -/
  dir : M σ Bool
  /-- `ActivateFallbackMechanism`. -/
  fallback : M σ Bool
  /-- `ComputeAcceptableTrialPoint`; the result is the number of iterations the restoration phase has used up. -/
  trial : M σ Nat
  /-- `AcceptTrialPoint`. -/
  accept : M σ Unit
  /-- `IsSquareProblem`. -/
  square : σ → Bool
  /-- Whether multipliers may be recomputed: constraint violation not above `constr_viol_tol`, calculator available. -/
  mayCalc : M σ Bool
  /-- `CalculateMultipliers` after setting the bound multipliers to zero. -/
  calcMult : M σ Bool
  /-- Restoring the iterate. -/
  restore : M σ Unit
  /-- What the convergence check will see (everything but the iteration number); evaluating it may raise an exception. -/
  observe : M σ Obs
  stopWatchdog : M σ Unit
  /-- `ComputeFeasibilityMultipliersPostprocess`. -/
  postprocess : M σ Unit

variable {σ : Type}

/-- Calling a strategy. -/
def call {α : Type} (m : M σ α) : M (S σ) α := fun s =>
  let r := m s.env
  (r.1, { s with env := r.2, log := .strategy :: s.log })

/-- `conv_check_->CheckConvergence(callback)`. -/
def doCheck (cfg : CCfg) (st : Strategies σ) (callback : Bool) : M (S σ) Status := fun s =>
  match st.observe s.env with
  | (.error e, env) => (.error e, { s with env := env })
  | (.ok o, env) =>
    let o := { o with iter := s.iter }
    let r := check cfg callback s.cc o
    let s := { s with env := env, cc := r.2, log := .check callback o r.1 :: s.log }
    match r.1 with
    | some status => (.ok status, s)
    | none => (.error .LOCALLY_INFEASIBLE, s)

/-- `Set_iter_count`. -/
def addIter (n : Nat) : M (S σ) Unit := fun s => (.ok (), { s with iter := s.iter + n })

/-- Marks the acceptance of the trial point and increments `iter_count` (`IpIpoptAlg.cpp:402-407`). -/
def accepted : M (S σ) Unit := fun s => (.ok (), { s with iter := s.iter + 1, log := .accepted :: s.log })

/-- `ComputeFeasibilityMultipliers` (`:858-944`). -/
def feasMult (cfg : CCfg) (st : Strategies σ) : M (S σ) Unit :=
  call st.mayCalc ≫= fun ok =>
  if !ok then M.pure () else
  doCheck cfg st false ≫= fun status =>
  if status ≠ .cont then M.pure () else
  call st.calcMult ≫= fun ok =>
  if ok then
    doCheck cfg st false ≫= fun status =>
    if status = .converged ∨ status = .acceptable then M.pure () else call st.restore
  else call st.restore

/-- One pass of the main loop (`:347-417`). -/
def pass (cfg : CCfg) (st : Strategies σ) : M (S σ) Status :=
  call st.hessian ≫= fun _ =>
  call st.output ≫= fun _ =>
  call st.mu ≫= fun muOk =>
  (if muOk then call st.dir else M.pure false) ≫= fun ok =>
  (if ok then M.pure () else
    call st.fallback ≫= fun fb => if fb then M.pure () else M.throw .STEP_COMPUTATION_FAILED) ≫= fun _ =>
  call st.trial ≫= fun n =>
  addIter n ≫= fun _ =>
  call st.accept ≫= fun _ =>
  accepted ≫= fun _ =>
  (fun s => if st.square s.env then feasMult cfg st s else (.ok (), s)) ≫= fun _ =>
  doCheck cfg st true

/-- The main loop (`:346-417`), at most `fuel` passes; `none`: out of fuel. -/
def mainLoop (cfg : CCfg) (st : Strategies σ) : (fuel : Nat) → Status → S σ → Option (Except Exn Status × S σ)
  | 0, status, s => if status = .cont then none else some (.ok status, s)
  | fuel + 1, status, s =>
    if status = .cont then
      match pass cfg st s with
      | (.error e, s') => some (.error e, s')
      | (.ok status', s') => mainLoop cfg st fuel status' s'
    else some (.ok status, s)

/-- The `switch` after the loop (`:424-456`): return value and whether the watchdog is stopped. -/
def statusReturn : Status → SolverReturn × Bool
  | .converged => (.SUCCESS, false)
  | .acceptable => (.STOP_AT_ACCEPTABLE_POINT, false)
  | .maxiter => (.MAXITER_EXCEEDED, true)
  | .cputime => (.CPUTIME_EXCEEDED, true)
  | .walltime => (.WALLTIME_EXCEEDED, true)
  | .diverging => (.DIVERGING_ITERATES, false)
  | .userStop => (.USER_REQUESTED_STOP, false)
  | _ => (.INTERNAL_ERROR, false)

/-- After the loop (`:419-462`). -/
def afterLoop (st : Strategies σ) (status : Status) : M (S σ) SolverReturn :=
  call st.output ≫= fun _ =>
  (if (statusReturn status).2 then call st.stopWatchdog else M.pure ()) ≫= fun _ =>
  M.pure (statusReturn status).1

/-- The `catch` clauses (`:464-558`); `none`: the exception is not caught here. -/
def handler (st : Strategies σ) (e : Exn) : Option (M (S σ) SolverReturn) :=
  match e with
  | .TINY_STEP_DETECTED => some (M.pure .STOP_AT_TINY_STEP)
  | .ACCEPTABLE_POINT_REACHED => some (M.pure .STOP_AT_ACCEPTABLE_POINT)
  | .LOCALLY_INFEASIBLE => some (M.pure .LOCAL_INFEASIBILITY)
  | .RESTORATION_CONVERGED_TO_FEASIBLE_POINT => some (fun s =>
      if st.square s.env then (call st.postprocess ≫= fun _ => M.pure .FEASIBLE_POINT_FOUND) s else (.ok .RESTORATION_FAILURE, s))
  | .RESTORATION_FAILED => some (M.pure .RESTORATION_FAILURE)
  | .RESTORATION_MAXITER_EXCEEDED => some (M.pure .MAXITER_EXCEEDED)
  | .RESTORATION_CPUTIME_EXCEEDED => some (M.pure .CPUTIME_EXCEEDED)
  | .RESTORATION_WALLTIME_EXCEEDED => some (M.pure .WALLTIME_EXCEEDED)
  | .RESTORATION_USER_STOP => some (M.pure .USER_REQUESTED_STOP)
  | .STEP_COMPUTATION_FAILED => some (M.pure .ERROR_IN_STEP_COMPUTATION)
  | .Eval_Error => some (M.pure .INVALID_NUMBER_DETECTED)
  | .FEASIBILITY_PROBLEM_SOLVED => some (fun s =>
      if st.square s.env then (call st.postprocess ≫= fun _ => M.pure .FEASIBLE_POINT_FOUND) s else (.ok .FEASIBLE_POINT_FOUND, s))
  | .TOO_FEW_DOF => some (M.pure .TOO_FEW_DEGREES_OF_FREEDOM)
  | .INTERNAL_ABORT => some (M.pure .INTERNAL_ERROR)
  | _ => none

/-- Applying the handlers. -/
def handle (st : Strategies σ) (r : Except Exn SolverReturn × S σ) : Except Exn SolverReturn × S σ :=
  match r with
  | (.ok a, s) => (.ok a, s)
  | (.error e, s) =>
    match handler st e with
    | some h => h { s with log := .raised e :: s.log }
    | none => (.error e, { s with log := .raised e :: s.log })

/-- `Optimize` (`:292-563`) with at most `fuel` passes of the main loop; `none`: out of fuel. -/
def optimize (cfg : CCfg) (st : Strategies σ) (fuel : Nat) (s : S σ) : Option (Except Exn SolverReturn × S σ) :=
  match (call st.init ≫= fun _ => doCheck cfg st true) s with
  | (.error e, s) => some (handle st (.error e, s))
  | (.ok status, s) =>
    match mainLoop cfg st fuel status s with
    | none => none
    | some (.error e, s) => some (handle st (.error e, s))
    | some (.ok status, s) => some (handle st (afterLoop st status s))

/-! ### The application -/

/-- Everything around the algorithm. -/
structure App (σ : Type) where
  /-- Building the algorithm objects (`IpIpoptApplication.cpp:497-534`). -/
  build : M σ Unit
  /-- `p2alg->Initialize` and printing options (`:627-655`). -/
  initAlg : M σ Unit
  /-- Evaluating and printing the final quantities (`:668-686`). -/
  summary : M σ Unit
  /-- Printing vectors, counters and timings (`:696-744`). -/
  printRest : M σ Unit
  /-- Creating the `SolveStatistics` (`:824`). -/
  statistics : M σ Unit
  /-- Option `skip_finalize_solution_call`. -/
  skipFinalize : Bool
  /-- An iterate is available (`:892`). -/
  haveIterate : σ → Bool
  /-- Evaluating constraints and objective for the user (`:916-918`). -/
  evaluate : M σ Unit
  /-- `FinalizeSolution` of the user's problem (`:943`). -/
  finalize : SolverReturn → M σ Unit
  /-- `rethrow_nonipoptexception_`. -/
  rethrow : Bool

/-- State of the application: algorithm state and the calls of `FinalizeSolution` (status; whether constraint values and
multipliers of the iterate are passed, or zeros). -/
structure A (σ : Type) where
  alg : S σ
  finals : List (SolverReturn × Bool)

/-- A step on the environment. -/
def onEnv {α : Type} (m : M σ α) : M (A σ) α := fun a =>
  let r := m a.alg.env
  (r.1, { a with alg := { a.alg with env := r.2 } })

/-- Translation of the solver's return value (`:747-819`); `none`: unknown value, return at once. -/
def translate : SolverReturn → Option AppStatus
  | .SUCCESS => some .Solve_Succeeded
  | .MAXITER_EXCEEDED => some .Maximum_Iterations_Exceeded
  | .CPUTIME_EXCEEDED => some .Maximum_CpuTime_Exceeded
  | .WALLTIME_EXCEEDED => some .Maximum_WallTime_Exceeded
  | .STOP_AT_TINY_STEP => some .Search_Direction_Becomes_Too_Small
  | .STOP_AT_ACCEPTABLE_POINT => some .Solved_To_Acceptable_Level
  | .FEASIBLE_POINT_FOUND => some .Feasible_Point_Found
  | .DIVERGING_ITERATES => some .Diverging_Iterates
  | .RESTORATION_FAILURE => some .Restoration_Failed
  | .ERROR_IN_STEP_COMPUTATION => some .Error_In_Step_Computation
  | .LOCAL_INFEASIBILITY => some .Infeasible_Problem_Detected
  | .USER_REQUESTED_STOP => some .User_Requested_Stop
  | .INVALID_NUMBER_DETECTED => some .Invalid_Number_Detected
  | _ => none

/-- Result of the `try` block of `call_optimize`: normal end with both codes, or early `return`. -/
inductive Tried where
  | done (ret : AppStatus) (status : SolverReturn)
  | early (ret : AppStatus)

/-- Printing the final quantities; an `Eval_Error` turns `status` into `INVALID_NUMBER_DETECTED` (`:665-694`). -/
def summaryStep (app : App σ) (status : SolverReturn) (a : A σ) : Except Exn SolverReturn × A σ :=
  if status = .INVALID_NUMBER_DETECTED then (.ok status, a)
  else
    match onEnv app.summary a with
    | (.ok _, a) => (.ok status, a)
    | (.error e, a) => if e = .Eval_Error then (.ok .INVALID_NUMBER_DETECTED, a) else (.error e, a)

/-- The `try` block after `Optimize` has returned `status` (`:660-826`).  The second component of an exceptional result is the value
of the variable `status` at that time. -/
def afterOptimize (app : App σ) (status : SolverReturn) (a : A σ) : Except (Exn × SolverReturn) Tried × A σ :=
  if status = .TOO_FEW_DEGREES_OF_FREEDOM then (.error (.TOO_FEW_DOF, status), a)
  else
    match summaryStep app status a with
    | (.error e, a) => (.error (e, status), a)
    | (.ok status, a) =>
      match onEnv app.printRest a with
      | (.error e, a) => (.error (e, status), a)
      | (.ok _, a) =>
        match translate status with
        | none => (.ok (.early .Internal_Error), a)
        | some ret =>
          if status ≠ .INVALID_NUMBER_DETECTED then
            match onEnv app.statistics a with
            | (.error e, a) => (.error (e, status), a)
            | (.ok _, a) => (.ok (.done ret status), a)
          else (.ok (.done ret status), a)

/-- The `catch` clauses of `call_optimize` (`:827-885`); `none`: rethrown. -/
def appHandler (rethrow : Bool) (e : Exn) (status : SolverReturn) : Option (AppStatus × SolverReturn) :=
  match e with
  | .TOO_FEW_DOF => some (.Not_Enough_Degrees_Of_Freedom, .TOO_FEW_DEGREES_OF_FREEDOM)
  | .OPTION_INVALID => some (.Invalid_Option, .INVALID_OPTION)
  | .DYNAMIC_LIBRARY_FAILURE => some (.Invalid_Option, status)
  | .INCONSISTENT_BOUNDS => some (.Invalid_Problem_Definition, .LOCAL_INFEASIBILITY)
  | .bad_alloc => some (.Insufficient_Memory, .OUT_OF_MEMORY)
  | .overflow_error => some (.Insufficient_Memory, .OUT_OF_MEMORY)
  | .foreign => if rethrow then none else some (.NonIpopt_Exception_Thrown, status)
  | _ => some (.Unrecoverable_Exception, status)

/-- Values of `status` for which the user gets the values at the iterate (`:902-923`). -/
def passesValues : SolverReturn → Bool
  | .SUCCESS | .MAXITER_EXCEEDED | .CPUTIME_EXCEEDED | .WALLTIME_EXCEEDED | .STOP_AT_TINY_STEP | .STOP_AT_ACCEPTABLE_POINT
  | .LOCAL_INFEASIBILITY | .USER_REQUESTED_STOP | .FEASIBLE_POINT_FOUND | .DIVERGING_ITERATES | .RESTORATION_FAILURE
  | .ERROR_IN_STEP_COMPUTATION => true
  | _ => false

/-- The end of `call_optimize` (`:887-948`). -/
def finish (app : App σ) (ret : AppStatus) (status : SolverReturn) : M (A σ) AppStatus := fun a =>
  if !app.skipFinalize && app.haveIterate a.alg.env then
    ((if passesValues status then onEnv app.evaluate else M.pure ()) ≫= fun _ =>
     (fun a => onEnv (app.finalize status) { a with finals := (status, passesValues status) :: a.finals }) ≫= fun _ =>
     M.pure ret) a
  else (.ok ret, a)

/-- `call_optimize` (`:592-949`); `none`: main loop out of fuel. -/
def callOptimize (cfg : CCfg) (st : Strategies σ) (app : App σ) (fuel : Nat) (a : A σ) : Option (Except Exn AppStatus × A σ) :=
  let tried : Option (Except (Exn × SolverReturn) Tried × A σ) :=
    match onEnv app.initAlg a with
    | (.error e, a) => some (.error (e, .INTERNAL_ERROR), a)
    | (.ok _, a) =>
      match optimize cfg st fuel a.alg with
      | none => none
      | some (.error e, s) => some (.error (e, .INTERNAL_ERROR), { a with alg := s })
      | some (.ok status, s) => some (afterOptimize app status { a with alg := s })
  match tried with
  | none => none
  | some (.ok (.early ret), a) => some (.ok ret, a)
  | some (.ok (.done ret status), a) => some (finish app ret status a)
  | some (.error (e, status), a) =>
    match appHandler app.rethrow e status with
    | none => some (.error e, a)
    | some (ret, status) => some (finish app ret status a)

/-- The `catch` clauses of `OptimizeNLP` (`:539-577`); `none`: rethrown. -/
def outerHandler (rethrow : Bool) (e : Exn) : Option AppStatus :=
  match e with
  | .OPTION_INVALID => some .Invalid_Option
  | .bad_alloc => some .Insufficient_Memory
  | .overflow_error => some .Insufficient_Memory
  | .foreign => if rethrow then none else some .NonIpopt_Exception_Thrown
  | _ => some .Unrecoverable_Exception

/-- `OptimizeNLP` (`:488-581`). -/
def optimizeNLP (cfg : CCfg) (st : Strategies σ) (app : App σ) (fuel : Nat) (a : A σ) : Option (Except Exn AppStatus × A σ) :=
  let inner : Option (Except Exn AppStatus × A σ) :=
    match onEnv app.build a with
    | (.error e, a) => some (.error e, a)
    | (.ok _, a) => callOptimize cfg st app fuel a
  match inner with
  | none => none
  | some (.ok ret, a) => some (.ok ret, a)
  | some (.error e, a) =>
    match outerHandler app.rethrow e with
    | none => some (.error e, a)
    | some ret => some (.ok ret, a)

end Verif.Alg
