import Verif.Model.CurrIter
import Verif.Model.Optimize

/-! # From the last iterate to `TNLP::finalize_solution`

`IpoptApplication::call_optimize` (src/Interfaces/IpIpoptApplication.cpp:894-943) selects vectors, `OrigIpoptNLP::FinalizeSolution` undoes the scaling
(`Scaling.finalize`) and `TNLPAdapter::FinalizeSolution` (src/Interfaces/IpTNLPAdapter.cpp:2094-2283) puts everything into the user's arrays.

Not modelled: meta data (2116-2164, 2206-2237), the objective value (C25), the message about the violation of all constraints (2249-2281). -/

namespace Verif.FinalTnlp
open Verif.Matrix Verif.Scaling Verif.Adapter Verif.CurrIter

variable {K : Type} [Field K] [LinearOrder K]

/-- the status codes for which `ResortBoundMultipliers` is called (IpTNLPAdapter.cpp:2179-2199). -/
def resorts : Alg.SolverReturn → Bool
  | .SUCCESS | .MAXITER_EXCEEDED | .STOP_AT_TINY_STEP | .STOP_AT_ACCEPTABLE_POINT | .LOCAL_INFEASIBILITY | .USER_REQUESTED_STOP
  | .FEASIBLE_POINT_FOUND | .DIVERGING_ITERATES | .RESTORATION_FAILURE | .ERROR_IN_STEP_COMPUTATION => true
  | _ => false

/-- user arrays: what is in the memory before (`full_lambda_`, and the newly allocated `full_g`, `full_z_L`, `full_z_U`), or what is delivered. -/
structure Arr (K : Type) where
  x : Nat → K
  zL : Nat → K
  zU : Nat → K
  g : Nat → K
  lam : Nat → K

section
variable (s : Spaces) (U : User K) (sc : Scal K) (hom : List K → Option K)

/-- the vectors selected in `call_optimize` (IpIpoptApplication.cpp:902-941): those of the last iterate or zeros; `x` always is the last one. -/
def selected (status : Alg.SolverReturn) (i : Point K) : Point K :=
  if Alg.passesValues status then i
  else { x := i.x, yc := List.replicate i.yc.length 0, yd := List.replicate i.yd.length 0, zL := List.replicate i.zL.length 0, zU := List.replicate i.zU.length 0 }

/-- `curr_c()`, `curr_d()` or zeros. -/
def selectedCon (status : Alg.SolverReturn) (i : Point K) : List K × List K :=
  if Alg.passesValues status then (Scaling.evalC (innerProb U s) sc i.x, Scaling.evalD (innerProb U s) sc i.x)
  else (List.replicate i.yc.length 0, List.replicate i.yd.length 0)

/-- `TNLPAdapter::FinalizeSolution` (IpTNLPAdapter.cpp:2094-2240) with the vectors in `fin`; `gradOk`, `jacOk`: results of the evaluations of the user's functions in
`ResortBoundMultipliers`. -/
def adapterFinal (status : Alg.SolverReturn) (gradOk jacOk : Bool) (fin : Final K) (mem : Arr K) : Arr K :=
  let z := if resorts status then (resortBM s U gradOk jacOk fin.pt.x fin.pt.yc fin.pt.yd fin.pt.zL fin.pt.zU mem.zL mem.zU).2
    else (resortBound s s.pxl (vec fin.pt.zL) mem.zL, resortBound s s.pxu (vec fin.pt.zU) mem.zU)
  { x := U.full s fin.pt.x
    zL := z.1
    zU := z.2
    g := resortG s (U.rhs s) true (vec fin.c) (vec fin.d) (if fin.c.length + fin.d.length < s.mFull then fun _ => 0 else mem.g)
    lam := resortG s (U.rhs s) false (vec fin.pt.yc) (vec fin.pt.yd) mem.lam }

/-- the arrays `TNLP::finalize_solution` is called with. -/
def deliver (status : Alg.SolverReturn) (honor relaxed : Bool) (oL oU : List K) (gradOk jacOk : Bool) (i : Point K) (mem : Arr K) : Arr K :=
  let con := selectedCon s U sc status i
  adapterFinal s U status gradOk jacOk (finalize (innerProb U s) sc hom honor relaxed oL oU (selected status i) con.1 con.2 0) mem
end

end Verif.FinalTnlp
