import Mathlib.Algebra.Order.Field.Basic

/-! # Model of `CGSearchDirCalculator`

`/repo/src/contrib/CGPenalty/IpCGSearchDirCalc.cpp` (`line_search_method=cg-penalty`).  Directions are abstract; the results of the linear solver,
norms, products and the quantities of `CGPenaltyCq` are arguments (`SIn`).  The right-hand sides are not modelled. -/

namespace Verif.CgDir

variable {α K : Type} [Field K] [LinearOrder K]

/-- options (IpCGSearchDirCalc.cpp:113-130). -/
structure SCfg (K : Type) where
  initMin : K
  initMax : K
  initFac : K
  kx : K
  ky : K
  dyMax : K
  fd : K
  neverFast : Bool

/-- what is found in one call: `NeverTryPureNewton`, `restor_iter() == iter_count()`, `restor_counter`, largest multiplier, infeasibility, fast
direction, regularisation used for it, direction with the regularised right-hand side (`none`: the solver failed), `tilde_dx_nrm`, its power,
`diff_dx_nrm`, `tilde_dy_nrm`, `bar_y_nrm`, `dT_times_barH_times_d`, directional derivative, `compute_curr_cg_penalty`. -/
structure SIn (α K : Type) where
  never : Bool
  restored : Bool
  counter : Nat
  yMax : K
  inf : K
  fast : Option α
  pert : K
  reg : Option α
  dx : K
  dxPow : K
  diff : K
  dy : K
  barY : K
  dHd : K
  deriv : K
  required : K

/-- `curr_penalty_`, `curr_kkt_penalty_`, are they initialized, `nonmonotone_pen_update_counter_`, the search direction,
`have_cgfast_deltas_`. -/
structure SSt (α K : Type) where
  pen : K
  kkt : K
  ready : Bool
  lowered : Nat
  delta : Option α
  haveFast : Bool

/-- initialization of the penalty parameters (IpCGSearchDirCalc.cpp:155-218). -/
def SSt.initPen (c : SCfg K) (i : SIn α K) (s : SSt α K) : SSt α K :=
  if !s.ready then
    if !i.never then { s with pen := max c.initMin (min i.yMax c.initMax), kkt := c.initMin, ready := true }
    else
      let p := min (10 ^ 5) (max 10 (100 * i.inf))
      { s with pen := p, kkt := p, ready := true }
  else if i.restored then
    let p := min (10 ^ 6) (max 10 (c.initFac * (1 / 10) ^ i.counter))
    { s with pen := p, kkt := p }
  else s

/-- is the fast direction used? (IpCGSearchDirCalc.cpp:239-324) -/
def keepFast (c : SCfg K) (i : SIn α K) : Bool :=
  decide (i.pert = 0) ||
    (!decide (c.kx * max i.dx i.dxPow < i.diff) && !decide (max c.dyMax (c.ky * i.barY) < i.dy) && !decide (c.fd * i.dHd < i.deriv))

/-- update of the penalty parameter for the line search (IpCGSearchDirCalc.cpp:340-365). -/
def SSt.updatePen (i : SIn α K) (s : SSt α K) : SSt α K :=
  if i.never then s
  else
    let low := !decide (s.pen < i.required) && !(decide (s.pen ≤ s.kkt) || decide (i.pert = 0))
    let p := if s.pen < i.required then max i.required (s.pen + 1) else if low then s.kkt else s.pen
    let n := if low then s.lowered + 1 else s.lowered
    { s with pen := p, lowered := n, kkt := if s.kkt < p ∧ 50 < n then p else s.kkt }

/-- `ComputeSearchDirection` (IpCGSearchDirCalc.cpp:132-368). -/
def SSt.compute (c : SCfg K) (i : SIn α K) (s : SSt α K) : Bool × SSt α K :=
  let s := s.initPen c i
  match i.fast with
  | none => (false, s)
  | some f =>
    let s := { s with haveFast := true }
    match (if i.pert = 0 then some f else i.reg) with
    | none => (false, s)
    | some g =>
      let k := keepFast c i
      (true, SSt.updatePen i { s with haveFast := k, delta := some (if k then f else g) })

end Verif.CgDir
