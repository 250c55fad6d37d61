import Verif.Model.ConvCheck
import Verif.Model.Optimize

/-! # When and how the restoration phase ends

`RestoConvergenceCheck::CheckConvergence` (src/Algorithm/IpRestoConvCheck.cpp), `RestoFilterConvergenceCheck::TestOrigProgress`
(src/Algorithm/IpRestoFilterConvCheck.cpp) and what `MinC_1NrmRestorationPhase::PerformRestoration` (src/Algorithm/IpRestoMinC_1Nrm.cpp) makes of the
result.  Measured quantities may be NaN or infinite, tolerances are finite.  Printing and the values handed to the callback are left out. -/

namespace Verif.RestoConv
open Verif.Alg

/-- `std::max`, `std::min` (via IpUtils.hpp:23-59). -/
def nmax (a b : Num) : Num := if a < b then b else a
/-- see `nmax`. -/
def nmin (a b : ℚ) : ℚ := if b < a then b else a

/-- options: `required_infeasibility_reduction`, `max_iter`, `max_resto_iter`, `constr_viol_tol` without prefix, those of the convergence check of the
restoration problem (`base.tol` is not used), and `tol` of the original problem. -/
structure RCfg where
  kappa : ℚ
  maxIter : Nat
  maxRestoIter : Nat
  violTol : ℚ
  origTol : ℚ
  base : CCfg

/-- what a check sees: the data of the restoration problem (`base`; its `goOn`, `iter` are the callback's answer and the iteration number), maximum norms of the
violation of the original constraints at the point where the restoration phase started and at the point of the restoration phase, whether the original
problem is square, and whether the point is acceptable to the original filter and to the current iterate. -/
structure RObs where
  base : Obs
  currInf : Num
  trialInf : Num
  square : Bool
  filterOk : Bool
  iterateOk : Bool

/-- members `first_resto_iter_`, `successive_resto_iter_`, the tolerance `IpData().tol()` of the restoration problem, and those of the base class. -/
structure RSt where
  first : Bool
  succ : Nat
  tol : ℚ
  base : CSt

/-- `InitializeImpl` (IpRestoConvCheck.cpp:53-69). -/
def RSt.init (tol : ℚ) : RSt := ⟨true, 0, tol, .init⟩

/-- result: a status, or the exceptions `RESTORATION_CONVERGED_TO_FEASIBLE_POINT`, `LOCALLY_INFEASIBLE`. -/
inductive RRes where
  | status (s : Status)
  | feasiblePoint
  | infeasible
deriving DecidableEq

/-- `TestOrigProgress` (IpRestoFilterConvCheck.cpp:53-83). -/
def progress (o : RObs) : Status := if !o.filterOk then .cont else if !o.iterateOk then .cont else .converged

/-- `orig_inf_pr_max` (IpRestoConvCheck.cpp:161-165). -/
def infMax (cfg : RCfg) (o : RObs) : Num :=
  if cfg.kappa = 0 then .fin 0 else nmax (.fin cfg.kappa * o.currInf) (.fin (nmin cfg.origTol cfg.violTol))

/-- the first test (IpRestoConvCheck.cpp:167-198). -/
def test (cfg : RCfg) (st : RSt) (o : RObs) : Status :=
  if st.first then .cont
  else if o.square ∧ o.trialInf ≤ .fin (nmin cfg.origTol cfg.violTol) then .converged
  else if infMax cfg o < o.trialInf then .cont
  else progress o

/-- the second test, for convergence of the restoration problem (IpRestoConvCheck.cpp:203-246). -/
def second (cfg : RCfg) (st : RSt) (o : RObs) : RRes × RSt :=
  let r := check { cfg.base with tol := .fin st.tol } false st.base o.base
  let st := { st with base := r.2 }
  match r.1 with
  | none => (.infeasible, st)
  | some s =>
    if s = .converged ∨ s = .acceptable then
      if o.trialInf ≤ .fin (100 * st.tol) ∧ 1 / 10 * cfg.origTol < st.tol then (.status .cont, { st with tol := 1 / 100 * st.tol })
      else if o.square ∧ o.trialInf ≤ .fin cfg.violTol then (.status .acceptable, st)
      else if o.trialInf ≤ .fin (100 * st.tol) then (.feasiblePoint, st)
      else (.infeasible, st)
    else (.status s, st)

/-- `CheckConvergence` (IpRestoConvCheck.cpp:71-252). -/
def rcheck (cfg : RCfg) (callback : Bool) (st : RSt) (o : RObs) : RRes × RSt :=
  if callback && !o.base.goOn then (.status .userStop, st)
  else if cfg.maxIter ≤ o.base.iter then (.status .maxiter, st)
  else if cfg.maxRestoIter < st.succ then (.status .maxiter, st)
  else
    let st := { st with succ := st.succ + 1 }
    let r : RRes × RSt := if test cfg st o = .cont then second cfg st o else (.status (test cfg st o), st)
    match r.1 with
    | .status s => (.status s, { r.2 with first := false })
    | e => (e, r.2)

/-- the checks during one restoration phase: it goes on as long as the status is `CONTINUE`.  Result of the last check made, with the states before
all checks (newest first). -/
def phase (cfg : RCfg) (st : RSt) : List (Bool × RObs) → List (RRes × RSt × RObs)
  | [] => []
  | (cb, o) :: l =>
    let r := rcheck cfg cb st o
    (r.1, r.2, o) :: if r.1 = .status .cont then phase cfg r.2 l else []

/-! ### `PerformRestoration` -/

/-- data of `PerformRestoration`: options `constr_viol_tol`, `resto_failure_feasibility_threshold`. -/
structure PCfg where
  violTol : ℚ
  threshold : ℚ

/-- the result: returns true or false, or throws; with the current and the trial point of the original problem afterwards. -/
structure PRes (P : Type) where
  out : Except Exn Bool
  curr : P
  trial : Option P

/-- `PerformRestoration` after the restoration problem has been solved (IpRestoMinC_1Nrm.cpp:194-375, 434): `point` is the current point of the
restoration phase if there is one (`resto_ip_data->curr()`), `viol` the unscaled constraint violation and `inf` the scaled infeasibility of a
point; the multipliers (C66), counters and output fields are left out. -/
def perform {P : Type} (cfg : PCfg) (viol inf : P → Num) (square : Bool) (curr : P) (status : SolverReturn) (point : Option P) : PRes P :=
  let curr' := if status ≠ .SUCCESS then point.getD curr else curr
  let throw : Exn → PRes P := fun e => ⟨.error e, curr', none⟩
  let back : PRes P :=
    let x := point.getD curr
    if square ∧ viol curr' ≤ .fin cfg.violTol then ⟨.error .FEASIBILITY_PROBLEM_SOLVED, x, none⟩ else ⟨.ok true, curr', some x⟩
  match status with
  | .SUCCESS => back
  | .STOP_AT_TINY_STEP =>
    if inf curr' ≤ .fin cfg.threshold then throw .RESTORATION_CONVERGED_TO_FEASIBLE_POINT else throw .LOCALLY_INFEASIBLE
  | .STOP_AT_ACCEPTABLE_POINT =>
    if square ∧ viol curr' < .fin cfg.violTol then throw .FEASIBILITY_PROBLEM_SOLVED
    else if inf curr' ≤ .fin cfg.threshold then throw .RESTORATION_CONVERGED_TO_FEASIBLE_POINT else throw .LOCALLY_INFEASIBLE
  | .MAXITER_EXCEEDED => throw .RESTORATION_MAXITER_EXCEEDED
  | .CPUTIME_EXCEEDED => throw .RESTORATION_CPUTIME_EXCEEDED
  | .WALLTIME_EXCEEDED => throw .RESTORATION_WALLTIME_EXCEEDED
  | .LOCAL_INFEASIBILITY => throw .LOCALLY_INFEASIBLE
  | .RESTORATION_FAILURE => throw .RESTORATION_FAILED
  | .ERROR_IN_STEP_COMPUTATION => throw .RESTORATION_FAILED
  | .USER_REQUESTED_STOP => throw .RESTORATION_USER_STOP
  | _ => ⟨.ok false, curr', none⟩

/-- what the solver of the restoration problem returns for the result of the last check (C14's `statusReturn`, and the handlers of `Optimize`,
IpIpoptAlg.cpp:424-456, 464-558; the restoration problem itself is not square). -/
def restoReturn : RRes → SolverReturn
  | .status s => (statusReturn s).1
  | .feasiblePoint => .RESTORATION_FAILURE
  | .infeasible => .LOCAL_INFEASIBILITY

end Verif.RestoConv
