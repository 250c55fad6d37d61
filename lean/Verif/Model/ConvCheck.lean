import Verif.Model.Num

/-!
# Model of `Ipopt::OptimalityErrorConvergenceCheck`

`/repo/src/Algorithm/IpOptErrorConvCheck.cpp`, `IpConvCheck.hpp:31-42`.

The quantities the check asks from `IpoptCalculatedQuantities` (error measures, objective value, …), the answer of the user's
intermediate callback and the elapsed times are collected in an observation `Obs`; they may be NaN or infinite.
-/

namespace Verif.Alg

open Num

/-- `ConvergenceStatus` (`IpConvCheck.hpp:31-42`). -/
inductive Status where
  | cont
  | converged
  | acceptable
  | maxiter
  | cputime
  | walltime
  | diverging
  | userStop
  | failed
deriving DecidableEq, Repr

/-- Options (`IpOptErrorConvCheck.cpp:143-159`); `tol` is `IpData().tol()`. -/
structure CCfg where
  tol : Num
  dualTol : Num
  violTol : Num
  complTol : Num
  accIter : Nat
  accTol : Num
  accDualTol : Num
  accViolTol : Num
  accComplTol : Num
  accObjTol : Num
  divergingTol : Num
  maxIter : Nat
  maxCpu : Num
  maxWall : Num

/-- What a check sees: whether the intermediate callback returns `true`, iteration number, number of variables, scaled overall error,
unscaled dual infeasibility, constraint violation and complementarity, scaled objective, largest absolute value in `x`, elapsed
times. -/
structure Obs where
  goOn : Bool
  iter : Nat
  dim : Nat
  err : Num
  dual : Num
  viol : Num
  compl : Num
  f : Num
  amax : Num
  cpu : Num
  wall : Num
deriving DecidableEq

/-- Members `acceptable_counter_`, `curr_obj_val_`, `last_obj_val_`, `last_obj_val_iter_` (`none` for the initial `-1`). -/
structure CSt where
  counter : Nat
  currObj : Num
  lastObj : Num
  lastIter : Option Nat
deriving DecidableEq

/-- `-1e50`. -/
def noObj : Num := .fin (-100000000000000000000000000000000000000000000000000)

/-- `1e20`. -/
def veryLarge : Num := .fin 100000000000000000000

/-- `InitializeImpl` (`:160-162`); `last_obj_val_` is not initialised there but is written before it is read. -/
def CSt.init : CSt := ⟨0, noObj, noObj, none⟩

/-- `std::abs(curr - last) / Max(1., std::abs(curr))` (`:330`); exact for finite numbers. -/
def change (curr last : Num) : Num :=
  match curr, last with
  | .nan, _ => .nan
  | _, .nan => .nan
  | .fin c, .fin l => .fin (|c - l| / max 1 |c|)
  | .fin _, _ => .pinf
  | _, _ => .nan

/-- Recording the objective value (`:289-296`). -/
def CSt.record (st : CSt) (o : Obs) : CSt :=
  if st.lastIter ≠ some o.iter then { st with lastObj := st.currObj, currObj := o.f, lastIter := some o.iter } else st

/-- `CurrentIsAcceptable` (`:278-331`). -/
def isAcceptable (cfg : CCfg) (st : CSt) (o : Obs) : Bool × CSt :=
  let st := st.record o
  (decide (o.err ≤ cfg.accTol) && decide (o.dual ≤ cfg.accDualTol) && decide (o.viol ≤ cfg.accViolTol) &&
    decide (o.compl ≤ cfg.accComplTol) && decide (change st.currObj st.lastObj ≤ cfg.accObjTol), st)

/-- The checks after the acceptable-point logic (`:255-273`). -/
def limits (cfg : CCfg) (o : Obs) : Status :=
  if cfg.divergingTol < o.amax then .diverging
  else if cfg.maxIter ≤ o.iter then .maxiter
  else if cfg.maxCpu < veryLarge ∧ cfg.maxCpu ≤ o.cpu then .cputime
  else if cfg.maxWall < veryLarge ∧ cfg.maxWall ≤ o.wall then .walltime
  else .cont

/-- `CheckConvergence` (`:167-276`); `none`: the exception `LOCALLY_INFEASIBLE` is thrown. -/
def check (cfg : CCfg) (callback : Bool) (st : CSt) (o : Obs) : Option Status × CSt :=
  if callback && !o.goOn then (some .userStop, st)
  else if o.err ≤ cfg.tol ∧ o.dual ≤ cfg.dualTol ∧ o.viol ≤ cfg.violTol ∧ o.compl ≤ cfg.complTol then (some .converged, st)
  else if o.dim = 0 then
    if o.viol ≤ cfg.violTol then (some .converged, st) else (none, st)
  else if 0 < cfg.accIter then
    let r := isAcceptable cfg st o
    if r.1 then
      let st := { r.2 with counter := r.2.counter + 1 }
      if cfg.accIter ≤ st.counter then (some .acceptable, st) else (some (limits cfg o), st)
    else (some (limits cfg o), { r.2 with counter := 0 })
  else (some (limits cfg o), { st with counter := 0 })

end Verif.Alg
