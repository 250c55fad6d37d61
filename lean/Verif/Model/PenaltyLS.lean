import Verif.Model.RestoInit

/-! # Model of `PenaltyLSAcceptor` (src/Algorithm/IpPenaltyLSAcceptor.cpp)

Exact arithmetic in a linearly ordered field; `sqrt` is `std::sqrt`, `eps` the machine precision.  Vectors are functions on finite index sets: `X` variables,
`C` equality, `D` inequality constraints (and slacks).  Function values that are not finite raise `Eval_Error` before this code runs.  Not modelled:
printing, `TrySecondOrderCorrection` (see `Verif.SOC`). -/

namespace Verif.PenaltyLS
open Verif.RestoInit
open scoped BigOperators
set_option linter.unusedSectionVars false

variable {K : Type} [Field K] [LinearOrder K] {X C D : Type} [Fintype X] [Fintype C] [Fintype D]

/-- `ENormType`. -/
inductive NormType where
  | one
  | two
  | max
deriving DecidableEq

/-- `Vector::Asum`. -/
def asum {ι : Type} [Fintype ι] (v : ι → K) : K := ∑ i, |v i|

/-- `Vector::Nrm2`. -/
def nrm2 {ι : Type} [Fintype ι] (sqrt : K → K) (v : ι → K) : K := sqrt (∑ i, v i * v i)

/-- `Vector::Dot`. -/
def dot {ι : Type} [Fintype ι] (v w : ι → K) : K := ∑ i, v i * w i

/-- `CalcNormOfType` (IpIpoptCalculatedQuantities.cpp:2514-2532). -/
def calcNorm (sqrt : K → K) (t : NormType) (c : C → K) (d : D → K) : K :=
  match t with
  | .one => asum c + asum d
  | .two => sqrt (nrm2 sqrt c ^ 2 + nrm2 sqrt d ^ 2)
  | .max => Max.max (amax c) (amax d)

/-- options `nu_init`, `nu_inc`, `eta_phi`, `rho`, `constraint_violation_norm_type` (IpPenaltyLSAcceptor.cpp:67-70), machine precision, square root. -/
structure Cfg (K : Type) where
  nuInit : K
  nuInc : K
  eta : K
  rho : K
  norm : NormType
  eps : K
  sqrt : K → K

/-- what is used of the current iterate and the search direction: barrier function, its slope `curr_gradBarrTDelta`, constraint values `curr_c`, `curr_d_minus_s`,
Hessian, `Sigma`, perturbations, step, and the products of the Jacobians with the step. -/
structure Cur (K X C D : Type) where
  barr : K
  grad : K
  c : C → K
  dms : D → K
  W : _root_.Matrix X X K
  sigmaX : X → K
  sigmaS : D → K
  pertX : K
  pertS : K
  dx : X → K
  ds : D → K
  jacCdx : C → K
  jacDdx : D → K

/-- `curr_constraint_violation` (IpIpoptCalculatedQuantities.cpp:1468-1473, 2570-2610). -/
def Cur.theta (g : Cfg K) (cur : Cur K X C D) : K := calcNorm g.sqrt g.norm cur.c cur.dms

/-- data members (IpPenaltyLSAcceptor.hpp:200-240); the watchdog values are never set. -/
structure St (K C D : Type) where
  nu : K
  lastNu : K
  refTheta : K
  refBarr : K
  refGrad : K
  refDWd : K
  refPred : K
  restoPred : K
  jacC : Option (C → K)
  jacD : Option (D → K)
  wdTheta : K
  wdBarr : K
  wdPred : K

/-- `Reset` (IpPenaltyLSAcceptor.cpp:268-273). -/
def St.reset (g : Cfg K) (st : St K C D) : St K C D := { st with nu := g.nuInit }

/-- the curvature `reference_dWd_` before it is made nonnegative (IpPenaltyLSAcceptor.cpp:108-131). -/
def curvature (sqrt : K → K) (cur : Cur K X C D) : K :=
  let r := dot (fun i => ∑ j, cur.W i j * cur.dx j) cur.dx
  let r := r + dot (fun i => cur.dx i * cur.sigmaX i) cur.dx
  let r := if cur.pertX ≠ 0 then r + cur.pertX * nrm2 sqrt cur.dx * nrm2 sqrt cur.dx else r
  let r := r + dot (fun i => cur.ds i * cur.sigmaS i) cur.ds
  if cur.pertS ≠ 0 then r + cur.pertS * nrm2 sqrt cur.ds * nrm2 sqrt cur.ds else r

/-- `nu_plus` (IpPenaltyLSAcceptor.cpp:154). -/
def nuPlus (g : Cfg K) (grad dWd theta : K) : K := (grad + dWd / 2) / ((1 - g.rho) * theta)

/-- the update of the penalty parameter (IpPenaltyLSAcceptor.cpp:150-159). -/
def newNu (g : Cfg K) (nu grad dWd theta : K) : K :=
  if 0 < theta then
    if nu < nuPlus g grad dWd theta then nuPlus g grad dWd theta + g.nuInc else nu
  else nu

/-- `InitThisLineSearch` (IpPenaltyLSAcceptor.cpp:87-169). -/
def St.init (g : Cfg K) (st : St K C D) (watchdog : Bool) (cur : Cur K X C D) : St K C D :=
  if !watchdog then
    let dWd := if curvature g.sqrt cur ≤ 0 then 0 else curvature g.sqrt cur
    { st with
      refTheta := cur.theta g, refBarr := cur.barr, refGrad := cur.grad, refDWd := dWd
      jacC := some cur.jacCdx, jacD := some fun i => 1 * cur.jacDdx i + -1 * cur.ds i
      refPred := -1, restoPred := -1
      lastNu := st.nu, nu := newNu g st.nu cur.grad dWd (cur.theta g) }
  else { st with refTheta := st.wdTheta, refBarr := st.wdBarr, refPred := st.wdPred }

/-- `CalcPred` before negative values are set to zero; `none`: null pointer (IpPenaltyLSAcceptor.cpp:171-193). -/
def St.rawPred (g : Cfg K) (st : St K C D) (cur : Cur K X C D) (alpha : K) : Option K :=
  match st.jacC, st.jacD with
  | some jc, some jd =>
    let theta2 := calcNorm g.sqrt g.norm (fun i => 1 * cur.c i + alpha * jc i) (fun i => 1 * cur.dms i + alpha * jd i)
    some (-alpha * st.refGrad - alpha * alpha / 2 * st.refDWd + st.nu * (st.refTheta - theta2))
  | _, _ => none

/-- `CalcPred` (IpPenaltyLSAcceptor.cpp:171-203). -/
def St.calcPred (g : Cfg K) (st : St K C D) (cur : Cur K X C D) (alpha : K) : Option K :=
  (st.rawPred g cur alpha).map fun p => if p < 0 then 0 else p

/-- `Compare_le` (IpUtils.cpp:192-200). -/
def compareLe (eps l r b : K) : Bool := decide (l - r ≤ 10 * eps * |b|)

/-- the actual reduction of the penalty function (IpPenaltyLSAcceptor.cpp:233, 442). -/
def St.ared (st : St K C D) (trialTheta trialBarr : K) : K := st.refBarr + st.nu * st.refTheta - (trialBarr + st.nu * trialTheta)

/-- `CheckAcceptabilityOfTrialPoint` (IpPenaltyLSAcceptor.cpp:205-250). -/
def St.check (g : Cfg K) (st : St K C D) (cur : Cur K X C D) (alpha trialTheta trialBarr : K) : Option (Bool × St K C D) :=
  (if st.refPred < 0 then st.calcPred g cur alpha else some st.refPred).map fun pred =>
    (compareLe g.eps (g.eta * pred) (st.ared trialTheta trialBarr) (st.refBarr + st.nu * st.refTheta), { st with restoPred := pred })

/-- `UpdateForNextIteration` (IpPenaltyLSAcceptor.cpp:409-431); result: whether the penalty parameter was increased ('n' or 'k'). -/
def St.update (st : St K C D) : Bool × St K C D := (decide (st.lastNu ≠ st.nu), { st with jacC := none, jacD := none })

/-- `IsAcceptableToCurrentIterate` (IpPenaltyLSAcceptor.cpp:436-462), the test of the restoration phase (IpRestoPenaltyConvCheck.cpp:52-73); `none`: `INTERNAL_ABORT`. -/
def St.restoCheck (g : Cfg K) (st : St K C D) (trialBarr trialTheta : K) : Option Bool :=
  if 0 ≤ st.restoPred then
    some (compareLe g.eps (g.eta * st.restoPred) (st.ared trialTheta trialBarr) (st.refBarr + st.nu * st.refTheta))
  else none

/-- `StartWatchDog`, `StopWatchDog` (IpPenaltyLSAcceptor.cpp:254-266): `none` is the exception `OPTION_INVALID`. -/
def St.watchdog (_ : St K C D) : Option (St K C D) := none

/-- what can happen to the object during an optimization; `false` for the watchdog argument of `init` (it would need `StartWatchDog`). -/
inductive Op (K X C D : Type) where
  | reset
  | init (cur : Cur K X C D)
  | check (cur : Cur K X C D) (alpha trialTheta trialBarr : K)
  | update

/-- one operation; `none`: null pointer. -/
def St.op (g : Cfg K) (st : St K C D) : Op K X C D → Option (St K C D)
  | .reset => some (st.reset g)
  | .init cur => some (st.init g false cur)
  | .check cur alpha t b => (st.check g cur alpha t b).map (·.2)
  | .update => some st.update.2

/-- a history. -/
def St.run (g : Cfg K) (st : St K C D) : List (Op K X C D) → Option (St K C D)
  | [] => some st
  | o :: l => (st.op g o).bind fun st => st.run g l

end Verif.PenaltyLS
