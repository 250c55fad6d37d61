import Verif.Model.AugSolve
import Verif.Model.Num

/-! # Model of the scaling methods for linear systems

`SlackBasedTSymScalingMethod` and `Mc19TSymScalingMethod` (`/repo/src/Algorithm/LinearSolvers/`), the two choices of option
`linear_system_scaling` besides `none`.
Simplified: the HSL routine `mc19a` and `std::exp` are functions that may answer anything; temporary arrays are always allocated; printing
and the loading of the library are left out. -/

namespace Verif.SysScaling
open Verif.Matrix (expMult)

/-! ## Slack based -/

/-- what the method reads of the current iterate: the dimensions of x, s, y_c, y_d; the positions of `Pd_L`, `Pd_U` (0-based) and the
slacks `curr_slack_s_L`, `curr_slack_s_U` (IpSlackBasedTSymScalingMethod.cpp:38-64). -/
structure Iter (K : Type) where
  nx : Nat
  ns : Nat
  nc : Nat
  nd : Nat
  posL : List Nat
  posU : List Nat
  slackL : List K
  slackU : List K

section
variable {K : Type} [Zero K] [One K] [Add K] [Sub K] [Mul K] [Neg K] [Div K] [BEq K] [Min K]

/-- the vector `tmp` (IpSlackBasedTSymScalingMethod.cpp:48-69); `junk`: the elements of the new vector, `ns` of them; `hom`: how vectors
store homogeneous values (see `Verif.Model.Matrix`). -/
def slackTmp (hom : List K → Option K) (junk : Nat → K) (it : Iter K) : List K :=
  let tmp := (List.range it.ns).map junk
  let tmp := expMult hom it.posL 1 it.slackL 0 tmp
  let tmp := expMult hom it.posU 1 it.slackU 1 tmp
  tmp.map fun v => min v 1

/-- `ComputeSymTScalingFactors` (IpSlackBasedTSymScalingMethod.cpp:25-79): the array `scaling_factors` afterwards; `old` before. -/
def slackFactors (hom : List K → Option K) (junk : Nat → K) (it : Iter K) (old : Nat → K) : Nat → K := fun i =>
  if i < it.nx then 1
  else if i < it.nx + it.ns then (slackTmp hom junk it).getD (i - it.nx) 0
  else if i < it.nx + it.ns + it.nc + it.nd then 1
  else old i

end

/-! ## MC19 -/

/-- the matrix in the unsymmetric format (IpMc19TSymScalingMethod.cpp:104-133): row, column, value. -/
def general {K : Type} (airn ajcn : Nat → Nat) (a : Nat → K) : Nat → List (Nat × Nat × K)
  | 0 => []
  | n + 1 =>
    general airn ajcn a n ++
      if airn n = ajcn n then [(airn n, ajcn n, a n)] else [(airn n, ajcn n, a n), (ajcn n, airn n, a n)]

/-- `std::max`. -/
def stdMax (a b : Num) : Num := if a < b then b else a

/-- the loop over the factors (IpMc19TSymScalingMethod.cpp:161-166): `sum`, `smax` after `n` factors. -/
def sumMax (f : Nat → Num) : Nat → Num × Num
  | 0 => (.fin 0, .fin 0)
  | n + 1 => ((sumMax f n).1 + f n, stdMax (sumMax f n).2 (f n))

/-- `ComputeSymTScalingFactors` (IpMc19TSymScalingMethod.cpp:89-202).  `mc19 n M i`: the values `R[i]`, `C[i]` for matrix `M`;
`expMean r c`: `exp((r + c) / 2)`. -/
def mc19Factors {K : Type} (mc19 : Nat → List (Nat × Nat × K) → Nat → Num × Num) (expMean : Num → Num → Num)
    (n nnz : Nat) (airn ajcn : Nat → Nat) (a : Nat → K) : Nat → Num :=
  let rc := mc19 n (general airn ajcn a nnz)
  let f := fun i => expMean (rc i).1 (rc i).2
  let s := sumMax f n
  if !s.1.isFinite || decide (Num.fin (10 ^ 40) < s.2) then fun _ => .fin 1 else f

/-- the value of a finite number. -/
def toQ : Num → ℚ
  | .fin q => q
  | _ => 0

/-! ## The methods below `TSymLinearSolver` -/

/-- the environment `E` with slack based scaling; `cur b`: the current iterate when the rest of the program is in state `b`
(IpAlgBuilder.cpp:526-560).  The array has the sum of the four dimensions as length; beyond it the model has the value 1. -/
def withSlack {K B : Type} [Zero K] [One K] [Add K] [Sub K] [Mul K] [Neg K] [Div K] [BEq K] [Min K]
    (hom : List K → Option K) (junk : Nat → K) (cur : B → Iter K) (E : AugSolve.Env K B) : AugSolve.Env K B :=
  { E with
    hasScaling := true
    initScaling := fun b => (true, b)
    scale := fun _ _ _ _ _ b => (some (slackFactors hom junk (cur b) (fun _ => 1)), b) }

/-- the environment `E` with MC19 (IpAlgBuilder.cpp:544-558). -/
def withMc19 {B : Type} (mc19 : Nat → List (Nat × Nat × ℚ) → Nat → Num × Num) (expMean : Num → Num → Num) (E : AugSolve.Env ℚ B) :
    AugSolve.Env ℚ B :=
  { E with
    hasScaling := true
    initScaling := fun b => (true, b)
    scale := fun n nnz ir jc a b => (some fun i => toQ (mc19Factors mc19 expMean n nnz ir jc a i), b) }

end Verif.SysScaling
