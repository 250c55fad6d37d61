import Verif.Model.ConvCheck

/-!
# What the convergence check is meant to report

Histories are lists of observations, newest first.  `Obs`, `CCfg`, `Status` and `change` are shared with the model; the state of the
convergence check is not used.
-/

namespace Verif.Alg

/-- All termination tolerances are met. -/
def Obs.TolMet (cfg : CCfg) (o : Obs) : Prop :=
  o.err ≤ cfg.tol ∧ o.dual ≤ cfg.dualTol ∧ o.viol ≤ cfg.violTol ∧ o.compl ≤ cfg.complTol

/-- The user asked to stop (only asked if there is a callback). -/
def Obs.Stop (callback : Bool) (o : Obs) : Prop := callback = true ∧ o.goOn = false

/-- The check is not decided by a user stop, convergence, or the absence of variables. -/
def Obs.Undecided (cfg : CCfg) (callback : Bool) (o : Obs) : Prop := ¬ o.Stop callback ∧ ¬ o.TolMet cfg ∧ o.dim ≠ 0

/-- Objective value of the newest iteration in a history (as seen by the first check with this iteration number), and of the iteration
before (`-1e50` if there is none). -/
def objs : List Obs → Num × Num
  | [] => (noObj, noObj)
  | o :: h => if h.head?.map Obs.iter = some o.iter then objs h else (o.f, (objs h).1)

/-- The newest observation of a history meets the `acceptable_…` tolerances, including the change of the objective value. -/
def AcceptableNow (cfg : CCfg) (h : List Obs) : Prop :=
  ∃ o r, h = o :: r ∧ o.err ≤ cfg.accTol ∧ o.dual ≤ cfg.accDualTol ∧ o.viol ≤ cfg.accViolTol ∧ o.compl ≤ cfg.accComplTol ∧
    change (objs h).1 (objs h).2 ≤ cfg.accObjTol

/-- The newest `n` observations were acceptable, each at its time. -/
def LastAcceptable (cfg : CCfg) (n : Nat) (h : List Obs) : Prop := ∀ k < n, AcceptableNow cfg (h.drop k)

end Verif.Alg
