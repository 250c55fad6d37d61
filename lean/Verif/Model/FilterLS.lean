import Verif.Model.Filter
import Mathlib.Algebra.Order.Field.Basic

/-!
# Model of `Ipopt::FilterLSAcceptor` (`/repo/src/Algorithm/IpFilterLSAcceptor.cpp`)

Numbers live in a linearly ordered field `K` (exact arithmetic; NaN/infinities are excluded because function evaluations
that produce them raise `IpoptNLP::Eval_Error` before this code runs).  `std::pow`, `std::log10` and the machine epsilon are
parameters.  The quantities `IpCq().curr_...` / `trial_...` are arguments of the operations.
Not modelled: `TrySecondOrderCorrection`, `TryCorrector` (they call `CheckAcceptabilityOfTrialPoint`), journal output.
-/

namespace Verif.FilterLS

variable {K : Type} [Field K] [LinearOrder K]

/-- Options of `FilterLSAcceptor` (`IpFilterLSAcceptor.cpp:208-248`) and the library functions used. -/
structure Cfg (K : Type) where
  theta_max_fact : K
  theta_min_fact : K
  eta_phi : K
  delta : K
  s_phi : K
  s_theta : K
  gamma_phi : K
  gamma_theta : K
  alpha_min_frac : K
  obj_max_inc : K
  max_filter_resets : Int
  filter_reset_trigger : Int
  /-- `std::numeric_limits<Number>::epsilon()` -/
  eps : K
  /-- `std::pow` -/
  pow : K → K → K
  /-- `std::log10` -/
  log10 : K → K

/-- Mutable members (`IpFilterLSAcceptor.hpp:196-322`). -/
structure St (K : Type) where
  theta_max : K
  theta_min : K
  filter : Filter.State K
  ref_theta : K
  ref_barr : K
  ref_grad : K
  wd_theta : K
  wd_barr : K
  wd_grad : K
  last_rejection_due_to_filter : Bool
  count_successive : Int
  n_filter_resets : Int
  /-- info strings appended to the iteration output (`IpData().Append_info_string`), oldest first -/
  info : List String
  /-- `IpData().iter_count()` as passed to the filter -/
  iter : Int
  deriving DecidableEq

/-- `Compare_le` (`/repo/src/Common/IpUtils.cpp:192-200`). -/
def compareLe (c : Cfg K) (lhs rhs bas : K) : Bool := decide (lhs - rhs ≤ 10 * c.eps * |bas|)

/-- `FilterLSAcceptor::Reset` (lines 520-528). -/
def reset (s : St K) : St K :=
  { s with last_rejection_due_to_filter := false, count_successive := 0, filter := Filter.clear s.filter }

/-- State after `FilterLSAcceptor::InitializeImpl` (lines 208-248); the reference values are uninitialised in the code
and given by arguments here. -/
def init (rt rb rg wt wb wg : K) (it : Int) : St K :=
  reset { theta_max := -1, theta_min := -1, filter := [], ref_theta := rt, ref_barr := rb, ref_grad := rg,
          wd_theta := wt, wd_barr := wb, wd_grad := wg, last_rejection_due_to_filter := false, count_successive := 0,
          n_filter_resets := 0, info := [], iter := it }

/-- `FilterLSAcceptor::InitThisLineSearch` (lines 250-269); arguments: current constraint violation, barrier objective, its
directional derivative. -/
def initThisLineSearch (s : St K) (in_watchdog : Bool) (theta barr grad : K) : St K :=
  if !in_watchdog then { s with ref_theta := theta, ref_barr := barr, ref_grad := grad }
  else { s with ref_theta := s.wd_theta, ref_barr := s.wd_barr, ref_grad := s.wd_grad }

/-- `FilterLSAcceptor::IsFtype` (lines 271-293); it may overwrite the reference slope. -/
def isFtype (c : Cfg K) (s : St K) (alpha : K) : Bool × St K :=
  let s := if s.ref_theta = 0 ∧ 0 < s.ref_grad ∧ s.ref_grad < 100 * c.eps then { s with ref_grad := -c.eps } else s
  (decide (s.ref_grad < 0 ∧ c.delta * c.pow s.ref_theta c.s_theta < alpha * c.pow (-s.ref_grad) c.s_phi), s)

/-- `FilterLSAcceptor::AugmentFilter` (lines 295-304). -/
def augmentFilter (c : Cfg K) (s : St K) : Option (St K) :=
  let phi_add := s.ref_barr - c.gamma_phi * s.ref_theta
  let theta_add := (1 - c.gamma_theta) * s.ref_theta
  (Filter.addEntry s.filter [phi_add, theta_add] s.iter).map (fun f => { s with filter := f })

/-- `FilterLSAcceptor::ArmijoHolds` (lines 435-444). -/
def armijoHolds (c : Cfg K) (s : St K) (alpha trial_barr : K) : Bool :=
  compareLe c (trial_barr - s.ref_barr) (c.eta_phi * alpha * s.ref_grad) s.ref_barr

/-- `FilterLSAcceptor::IsAcceptableToCurrentIterate` (lines 467-495). -/
def isAcceptableToCurrentIterate (c : Cfg K) (s : St K) (trial_barr trial_theta : K) (from_resto : Bool) : Bool :=
  if !from_resto && decide (s.ref_barr < trial_barr) &&
      decide (c.obj_max_inc + (if 10 < |s.ref_barr| then c.log10 |s.ref_barr| else 1) < c.log10 (trial_barr - s.ref_barr))
  then false
  else compareLe c trial_theta ((1 - c.gamma_theta) * s.ref_theta) s.ref_theta ||
       compareLe c (trial_barr - s.ref_barr) (-c.gamma_phi * s.ref_theta) s.ref_barr

/-- `FilterLSAcceptor::IsAcceptableToCurrentFilter` (lines 497-500) with the two-dimensional wrapper
(`IpFilter.hpp:166-176`). -/
def isAcceptableToCurrentFilter (s : St K) (trial_barr trial_theta : K) : Option Bool :=
  Filter.acceptable s.filter [trial_barr, trial_theta]

/-- Lazy initialisation of `theta_max_`, `theta_min_` (lines 321-335). -/
def initThetaLimits (c : Cfg K) (s : St K) : St K :=
  let s := if s.theta_max < 0 then { s with theta_max := c.theta_max_fact * max 1 s.ref_theta } else s
  if s.theta_min < 0 then { s with theta_min := c.theta_min_fact * max 1 s.ref_theta } else s

/-- The filter reset heuristic (lines 402-429). -/
def resetHeuristic (c : Cfg K) (s : St K) : St K :=
  if 0 < c.max_filter_resets then
    if s.n_filter_resets < c.max_filter_resets then
      if s.last_rejection_due_to_filter then
        let s := { s with count_successive := s.count_successive + 1 }
        if c.filter_reset_trigger ≤ s.count_successive then
          reset { s with info := s.info ++ ["F+"] }
        else s
      else { s with count_successive := 0 }
    else { s with info := s.info ++ ["F-"] }
  else s

/-- Comparison with the current iterate (lines 356-370): Armijo for an f-type step close to feasibility, otherwise sufficient
reduction. `&&` short-circuits: `IsFtype` is only called for `alpha > 0`. -/
def iterateTest (c : Cfg K) (s : St K) (alpha trial_theta trial_barr : K) : Bool × St K :=
  if 0 < alpha then
    let (ft, s) := isFtype c s alpha
    if ft && decide (s.ref_theta ≤ s.theta_min) then (armijoHolds c s alpha trial_barr, s)
    else (isAcceptableToCurrentIterate c s trial_barr trial_theta false, s)
  else (isAcceptableToCurrentIterate c s trial_barr trial_theta false, s)

/-- `FilterLSAcceptor::CheckAcceptabilityOfTrialPoint` (lines 306-433).  `none` only if the filter has an entry of the
wrong dimension (out-of-bounds read). -/
def checkAcceptability (c : Cfg K) (s0 : St K) (alpha trial_theta trial_barr : K) : Option (Bool × St K) :=
  let s := initThetaLimits c s0
  if 0 < s.theta_max ∧ s.theta_max < trial_theta then some (false, { s with info := s.info ++ ["Tmax"] })
  else
    let (accept, s) := iterateTest c s alpha trial_theta trial_barr
    if !accept then some (false, { s with last_rejection_due_to_filter := false })
    else
      match isAcceptableToCurrentFilter s trial_barr trial_theta with
      | none => none
      | some false => some (false, { s with last_rejection_due_to_filter := true })
      | some true =>
        let s := resetHeuristic c s
        some (true, { s with last_rejection_due_to_filter := false })

/-- `FilterLSAcceptor::UpdateForNextIteration` (lines 876-891); result `'f'` or `'h'`. -/
def updateForNextIteration (c : Cfg K) (s : St K) (alpha trial_barr : K) : Option (Char × St K) :=
  let (ft, s) := isFtype c s alpha
  if !ft || !(armijoHolds c s alpha trial_barr) then (augmentFilter c s).map (fun s => ('h', s))
  else some ('f', s)

/-- `FilterLSAcceptor::StartWatchDog` (lines 502-509). -/
def startWatchDog (s : St K) (theta barr grad : K) : St K :=
  { s with wd_theta := theta, wd_barr := barr, wd_grad := grad }

/-- `FilterLSAcceptor::StopWatchDog` (lines 511-518). -/
def stopWatchDog (s : St K) : St K :=
  { s with ref_theta := s.wd_theta, ref_barr := s.wd_barr, ref_grad := s.wd_grad }

/-- `FilterLSAcceptor::PrepareRestoPhaseStart` (lines 893-896). -/
def prepareRestoPhaseStart (c : Cfg K) (s : St K) : Option (St K) := augmentFilter c s

/-- `FilterLSAcceptor::CalculateAlphaMin` (lines 446-465); arguments: current slope and current violation. -/
def calculateAlphaMin (c : Cfg K) (s : St K) (gBD curr_theta : K) : K :=
  let a := c.gamma_theta
  let a := if gBD < 0 then
      let a := min c.gamma_theta (c.gamma_phi * curr_theta / (-gBD))
      if curr_theta ≤ s.theta_min then min a (c.delta * c.pow curr_theta c.s_theta / c.pow (-gBD) c.s_phi) else a
    else a
  c.alpha_min_frac * a

/-- The public calls of the acceptor, with the values of the calculated quantities at the time of the call. -/
inductive Op (K : Type) where
  | initLS (in_watchdog : Bool) (theta barr grad : K)
  | check (alpha trial_theta trial_barr : K)
  | update (alpha trial_barr : K)
  | prepareResto
  | startWD (theta barr grad : K)
  | stopWD
  | reset
  | nextIter

/-- One call; the result is the Boolean answer of `check` (true for the others) and the new state. -/
def step (c : Cfg K) (s : St K) : Op K → Option (Bool × St K)
  | .initLS w t b g => some (true, initThisLineSearch s w t b g)
  | .check a t b => checkAcceptability c s a t b
  | .update a b => (updateForNextIteration c s a b).map (fun r => (true, r.2))
  | .prepareResto => (prepareRestoPhaseStart c s).map (fun r => (true, r))
  | .startWD t b g => some (true, startWatchDog s t b g)
  | .stopWD => some (true, stopWatchDog s)
  | .reset => some (true, FilterLS.reset s)
  | .nextIter => some (true, { s with iter := s.iter + 1 })

/-- Running a history of calls. -/
def run (c : Cfg K) (s : St K) : List (Op K) → Option (St K)
  | [] => some s
  | o :: os => (step c s o).bind (fun r => run c r.2 os)

end Verif.FilterLS
