import Verif.Model.Matrix
import Verif.Model.Scaling

/-! # Gradient-based scaling (IpGradientScaling.cpp)

`none` stands for a failed evaluation at the starting point.  The Jacobians are triplet matrices (`GenTMatrix`), as created by the
adapter.  Finite numbers. -/

namespace Verif.GradScaling
open Verif.Matrix

section
variable {N : Type} [Zero N] [One N] [Mul N] [Neg N] [Div N] [BEq N] [LT N] [LE N] [Max N] [Min N] [DecidableLT N] [DecidableLE N]

/-- the options (IpGradientScaling.cpp:15-66); `dblMin` = `std::numeric_limits<Number>::min()`. -/
structure Opt (N : Type) where
  maxGrad : N
  objTarget : N
  constrTarget : N
  minValue : N
  dblMin : N

/-- `Vector::Amax` (0 for the empty vector). -/
def amax (v : List N) : N := v.foldl (fun m x => max m (Scaling.nabs x)) 0

/-- the objective factor (IpGradientScaling.cpp:99-132). -/
def objFactor (o : Opt N) (grad : Option (List N)) : N :=
  match grad with
  | none => 1
  | some g =>
    let m := amax g
    let df := if o.objTarget == 0 then (if o.maxGrad < m then o.maxGrad / m else 1)
      else (if m == 0 then 1 else o.objTarget / m)
    max df o.minValue

/-- `GenTMatrix::ComputeRowAMaxImpl` with `init = false` (IpGenTMatrix.cpp:187-212). -/
def rowAMax (ts : List (Trip N)) (v : List N) : List N :=
  ts.foldl (fun v t => v.modify (t.row - 1) (fun a => max a (Scaling.nabs t.val))) v

/-- the constraint factors (IpGradientScaling.cpp:140-183 and 185-228), `m` = number of constraints. -/
def rowFactors (o : Opt N) (m : Nat) (jac : Option (List (Trip N))) : Option (List N) :=
  if 0 < m then
    match jac with
    | none => none
    | some ts =>
      let dc := rowAMax ts (List.replicate m o.dblMin)
      let arowMax := amax dc
      let r : Option (List N) :=
        if o.constrTarget ≤ 0 then
          if o.maxGrad < arowMax then some (dc.map (fun a => min (o.maxGrad * (1 / a)) 1)) else none
        else some (dc.map (fun _ => o.constrTarget / arowMax))
      if 0 < o.minValue then r.map (fun l => l.map (fun a => max a o.minValue)) else r
  else none
end

end Verif.GradScaling
