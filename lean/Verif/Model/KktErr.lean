import Verif.Model.CurrIter
import Verif.Model.ConvCheck

/-! # The optimality errors: `IpoptCalculatedQuantities` and `SolveStatistics`

`/repo/src/Algorithm/IpIpoptCalculatedQuantities.cpp` (the error measures of the current iterate) and
`/repo/src/Interfaces/IpSolveStatistics.cpp`, regular mode (`OrigIpoptNLP`).  Exact arithmetic in a linearly ordered field; `sqrt` is a parameter.

Simplified: the quantities are computed where they are used (that caching does not change them is C46); the bounds are those after
`AdjustVariableBounds` (C43), so a slack is the distance to its bound; evaluations succeed. -/

namespace Verif.KktErr
open Verif.Matrix Verif.Scaling
set_option linter.unusedSectionVars false

variable {K : Type} [Field K] [LinearOrder K]

/-- `IpData().curr()`: `pt` holds x, y_c, y_d, z_L, z_U. -/
structure It (K : Type) where
  pt : Point K
  s : List K
  vL : List K
  vU : List K

/-- the bounds of the (scaled) problem as used by the algorithm; `orig`: `orig_x_L`, `orig_x_U`, stored (unscaled) if the bounds were relaxed. -/
structure Bnd (K : Type) where
  xL : List K
  xU : List K
  dL : List K
  dU : List K
  orig : Option (List K × List K)

/-- `ENormType` (IpIpoptCalculatedQuantities.hpp:19-24). -/
inductive NormType where
  | one
  | two
  | max
  deriving DecidableEq

section norms
variable (sqrt : K → K)

/-- `Vector::Asum`, `Nrm2`, `Amax`. -/
def asum (v : List K) : K := v.foldl (fun r a => r + nabs a) 0
@[inherit_doc asum] def nrm2 (v : List K) : K := sqrt (v.foldl (fun r a => r + a * a) 0)
@[inherit_doc asum] def amax (v : List K) : K := v.foldl (fun r a => max r (nabs a)) 0

/-- `CalcNormOfType` for two vectors (IpIpoptCalculatedQuantities.cpp:2514-2532). -/
def norm2 (t : NormType) (a b : List K) : K :=
  match t with
  | .one => asum a + asum b
  | .two => sqrt (nrm2 sqrt a * nrm2 sqrt a + nrm2 sqrt b * nrm2 sqrt b)
  | .max => max (amax a) (amax b)

/-- `CalcNormOfType` for several vectors (IpIpoptCalculatedQuantities.cpp:2534-2568). -/
def normL (t : NormType) (vs : List (List K)) : K :=
  match t with
  | .one => vs.foldl (fun r v => r + asum v) 0
  | .two => sqrt (vs.foldl (fun r v => r + nrm2 sqrt v * nrm2 sqrt v) 0)
  | .max => vs.foldl (fun r v => max r (amax v)) 0
end norms

section
variable (p : Prob K) (sc : Scal K) (hom : List K → Option K) (sqrt : K → K) (b : Bnd K) (it : It K)

/-- `curr_grad_lag_x` (IpIpoptCalculatedQuantities.cpp:1993-2030). -/
def gradLagX : List K :=
  let t1 := axpy 1 ((evalJacC p sc it.pt.x).transMult hom 1 it.pt.yc 0 (List.replicate p.nx 0)) (evalGradF p sc it.pt.x)
  let t2 := axpy 1 ((evalJacD p sc it.pt.x).transMult hom 1 it.pt.yd 0 (List.replicate p.nx 0)) t1
  p.PxU.mult hom 1 it.pt.zU 1 (p.PxL.mult hom (-1) it.pt.zL 1 t2)

/-- `curr_grad_lag_s` (IpIpoptCalculatedQuantities.cpp:2069-2098). -/
def gradLagS : List K :=
  axpy (-1) it.pt.yd (p.PdL.mult hom (-1) it.vL 1 (p.PdU.mult hom 1 it.vU 0 (List.replicate p.nd 0)))

/-- `curr_dual_infeasibility` (IpIpoptCalculatedQuantities.cpp:2653-2696). -/
def dualInf (t : NormType) : K := norm2 sqrt t (gradLagX p sc hom it) (gradLagS p hom it)

/-- `unscaled_curr_dual_infeasibility` (IpIpoptCalculatedQuantities.cpp:2746-2797). -/
def unscaledDualInf (t : NormType) : K :=
  let o := sc.unapplyObj 1
  let ls := if o ≠ 1 then (sc.applyD (gradLagS p hom it)).map (fun v => o * v) else sc.applyD (gradLagS p hom it)
  norm2 sqrt t (sc.unapplyGrad (gradLagX p sc hom it)) ls

/-- `curr_nlp_constraint_violation` (IpIpoptCalculatedQuantities.cpp:1482-1525). -/
def violation (t : NormType) : K :=
  let d := evalD p sc it.pt.x
  let vL := (p.PdL.transMult hom (-1) d 1 b.dL).map (fun v => max v 0)
  let vU := (p.PdU.transMult hom (-1) d 1 b.dU).map (fun v => min v 0)
  normL sqrt t [evalC p sc it.pt.x, vL, vU]

/-- one side of `unscaled_curr_nlp_constraint_violation` (IpIpoptCalculatedQuantities.cpp:1553-1564, 1567-1578) before cutting off the sign. -/
def unscaledSide (P : Mat K) (d bound : List K) : List K :=
  P.transMult hom 1 (sc.unapplyD (P.mult hom 1 bound (-1) d)) 0 (List.replicate bound.length 0)

/-- `unscaled_curr_nlp_constraint_violation` (IpIpoptCalculatedQuantities.cpp:1527-1589). -/
def unscaledViolation (t : NormType) : K :=
  let d := evalD p sc it.pt.x
  let vL := if 0 < b.dL.length then (unscaledSide sc hom p.PdL d b.dL).map (fun v => max v 0) else []
  let vU := if 0 < b.dU.length then (unscaledSide sc hom p.PdU d b.dU).map (fun v => min v 0) else []
  normL sqrt t [sc.unapplyC (evalC p sc it.pt.x), vL, vU]

/-- `curr_compl_x_L`, `curr_compl_x_U`, `curr_compl_s_L`, `curr_compl_s_U` with `CalcCompl` and the slacks
(IpIpoptCalculatedQuantities.cpp:238-330, 2229-2340). -/
def compls : List (List K) :=
  [emul (CurrIter.slackL hom p.PxL it.pt.x b.xL) it.pt.zL, emul (CurrIter.slackU hom p.PxU it.pt.x b.xU) it.pt.zU,
   emul (CurrIter.slackL hom p.PdL it.s b.dL) it.vL, emul (CurrIter.slackU hom p.PdU it.s b.dU) it.vU]

/-- `curr_complementarity` (IpIpoptCalculatedQuantities.cpp:2799-2871). -/
def complementarity (mu : K) (t : NormType) : K :=
  normL sqrt t (if mu = 0 then compls p hom b it else (compls p hom b it).map fun v => v.map fun a => a + -mu)

/-- `unscaled_curr_complementarity` (IpIpoptCalculatedQuantities.cpp:2947-2953). -/
def unscaledComplementarity (mu : K) (t : NormType) : K := nabs (sc.unapplyObj (complementarity p hom sqrt b it mu t))

/-- `ComputeOptimalityErrorScaling` (IpIpoptCalculatedQuantities.cpp:3663-3700): one of the two numbers. -/
def errScale (sMax : K) (vs : List (List K)) : K :=
  let n := (vs.map List.length).sum
  if n = 0 then 1 else max sMax ((vs.map asum).sum / n) / sMax

/-- `s_d`, `s_c`. -/
def sD (sMax : K) : K := errScale sMax [it.pt.yc, it.pt.yd, it.pt.zL, it.pt.zU, it.vL, it.vU]
@[inherit_doc sD] def sC (sMax : K) : K := errScale sMax [it.pt.zL, it.pt.zU, it.vL, it.vU]

/-- `curr_nlp_error` (IpIpoptCalculatedQuantities.cpp:3050-3104). -/
def nlpError (sMax muTarget : K) : K :=
  max (max (dualInf p sc hom sqrt it .max / sD it sMax) (violation p sc hom sqrt b it .max)) (complementarity p hom sqrt b it muTarget .max / sC it sMax)

/-- `unscaled_curr_nlp_error` (IpIpoptCalculatedQuantities.cpp:3106-3147). -/
def unscaledNlpError (muTarget : K) : K :=
  max (max (unscaledDualInf p sc hom sqrt it .max) (unscaledViolation p sc hom sqrt b it .max)) (unscaledComplementarity p sc hom sqrt b it muTarget .max)

/-- `unscaled_curr_orig_bounds_violation` (IpIpoptCalculatedQuantities.cpp:1591-1726). -/
def unscaledBoundViolation (t : NormType) : K :=
  match b.orig with
  | none => norm2 sqrt t (List.replicate p.PxL.dims.2 0) (List.replicate p.PxU.dims.2 0)
  | some o => norm2 sqrt t (CurrIter.origViol hom p.PxL (-1) (sc.unapplyX it.pt.x) o.1) (CurrIter.origViol hom p.PxU 1 (sc.unapplyX it.pt.x) o.2)

/-- `curr_orig_bounds_violation` (IpIpoptCalculatedQuantities.cpp:1728-1880). -/
def boundViolation (t : NormType) : K :=
  if sc.dx.isNone then unscaledBoundViolation p sc hom sqrt b it t
  else
    match b.orig with
    | none => norm2 sqrt t (List.replicate p.PxL.dims.2 0) (List.replicate p.PxU.dims.2 0)
    | some o => norm2 sqrt t (CurrIter.origViol hom p.PxL (-1) it.pt.x (sc.applyXLU hom p.PxL o.1)) (CurrIter.origViol hom p.PxU 1 it.pt.x (sc.applyXLU hom p.PxU o.2))

/-- the error measures and objective values in `SolveStatistics` (IpSolveStatistics.cpp:31-44). -/
structure Stats (K : Type) where
  scaledObj : K
  obj : K
  scaledDual : K
  dual : K
  scaledViol : K
  viol : K
  scaledBound : K
  bound : K
  scaledCompl : K
  compl : K
  scaledKkt : K
  kkt : K

/-- the constructor of `SolveStatistics` (IpSolveStatistics.cpp:15-44). -/
def stats (sMax muTarget : K) : Stats K where
  scaledObj := evalF p sc it.pt.x
  obj := sc.unapplyObj (evalF p sc it.pt.x)
  scaledDual := dualInf p sc hom sqrt it .max
  dual := unscaledDualInf p sc hom sqrt it .max
  scaledViol := violation p sc hom sqrt b it .max
  viol := unscaledViolation p sc hom sqrt b it .max
  scaledBound := boundViolation p sc hom sqrt b it .max
  bound := unscaledBoundViolation p sc hom sqrt b it .max
  scaledCompl := complementarity p hom sqrt b it 0 .max
  compl := unscaledComplementarity p sc hom sqrt b it 0 .max
  scaledKkt := nlpError p sc hom sqrt b it sMax muTarget
  kkt := unscaledNlpError p sc hom sqrt b it muTarget
end

/-- what the convergence check sees of the error measures (IpOptErrorConvCheck.cpp:204-207, 284-287): the other fields are arbitrary. -/
def observe (p : Prob ℚ) (sc : Scal ℚ) (hom : List ℚ → Option ℚ) (sqrt : ℚ → ℚ) (b : Bnd ℚ) (it : It ℚ) (sMax muTarget : ℚ) (o : Alg.Obs) : Alg.Obs :=
  { o with dim := p.nx, err := .fin (nlpError p sc hom sqrt b it sMax muTarget), dual := .fin (unscaledDualInf p sc hom sqrt it .max), viol := .fin (unscaledViolation p sc hom sqrt b it .max), compl := .fin (unscaledComplementarity p sc hom sqrt b it muTarget .max) }

end Verif.KktErr
