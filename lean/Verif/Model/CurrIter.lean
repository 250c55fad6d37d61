import Verif.Model.Scaling
import Verif.Model.Adapter

/-! # `TNLP::get_curr_iterate` and `TNLP::get_curr_violations` (src/Interfaces/IpTNLP.cpp)

The model composes the numbering of the adapter (`Verif.Adapter`), the scaling layer and the function values of `OrigIpoptNLP`
(`Verif.Scaling`), the few quantities of `IpoptCalculatedQuantities` that are used, and the two functions themselves.

Internal vectors are lists, the user's arrays are functions from positions to values.  Simplified: the quantities are computed where
they are used (that caching does not change them is C46), the correction of tiny slacks (`CalculateSafeSlack`, C43) is not applied to
the slacks in the complementarity, and evaluations inside `OrigIpoptNLP` succeed (they did when the iterate was accepted); the
evaluations triggered by `ResortBoundMultipliers` may fail. -/

namespace Verif.CurrIter
open Verif.Matrix Verif.Scaling Verif.Adapter

variable {K : Type} [Field K] [LinearOrder K]

/-- the values of an internal vector. -/
def vec (l : List K) : Nat → K := fun k => l.getD k 0

/-- the problem as the user programmed it: gradient, constraints, Jacobian (structure, values), bounds; `fullX0` is what is in the
adapter's array `full_x_` before the fixed variables are set. -/
structure User (K : Type) where
  gradF : (Nat → K) → Nat → K
  g : (Nat → K) → Nat → K
  jacPos : List (Nat × Nat)
  jac : (Nat → K) → Nat → K
  xl : Nat → K
  xu : Nat → K
  gl : Nat → K
  gu : Nat → K
  fullX0 : Nat → K

/-- `full_x_` for an internal point (`update_local_x`, IpTNLPAdapter.cpp:2798-2812). -/
def User.full (U : User K) (s : Spaces) (u : List K) : Nat → K := resortX s (setFixed s U.xl U.fullX0) (vec u) true

/-- `c_rhs_` (`GetC_Rhs`, IpTNLPAdapter.hpp:416-419). -/
def User.rhs (U : User K) (s : Spaces) : Nat → K := cRhs s U.gl U.xl

/-- number of equality constraints added for fixed variables (IpTNLPAdapter.cpp:912-924). -/
def nFix (s : Spaces) : Nat := if s.treat.isParam then 0 else s.fixed.length

/-- the problem handed to `OrigIpoptNLP` by the adapter: `Eval_grad_f` (IpTNLPAdapter.cpp:1724-1763), `Eval_c` (1811-1845), `Eval_d`
(1879-1904), `Eval_jac_c` (1847-1877), `Eval_jac_d` (1906-1931); objective and Hessian are not used here. -/
def innerProb (U : User K) (s : Spaces) : Prob K where
  nx := s.nVar
  nc := s.pc.length + nFix s
  nd := s.pd.length
  f := fun _ => 0
  gradF := fun u => (List.range s.nVar).map fun j => U.gradF (U.full s u) (s.user j)
  c := fun u => (List.range (s.pc.length + nFix s)).map (Adapter.evalC s (U.rhs s) (U.full s u) (U.g (U.full s u)))
  d := fun u => (List.range s.pd.length).map (Adapter.evalD s (U.g (U.full s u)))
  jacC := fun u => .genT (s.pc.length + nFix s) s.nVar
    (((Adapter.jacC s U.jacPos).map fun e => ⟨e.1.1 + 1, e.1.2 + 1, U.jac (U.full s u) e.2⟩) ++
      (jacCExtra s).map fun e => ⟨e.1 + 1, e.2 + 1, 1⟩)
  jacD := fun u => .genT s.pd.length s.nVar
    ((Adapter.jacD s U.jacPos).map fun e => ⟨e.1.1 + 1, e.1.2 + 1, U.jac (U.full s u) e.2⟩)
  hess := fun _ _ _ _ => .zeroSym s.nVar
  posXL := s.pxl
  posXU := s.pxu
  posDL := s.pdl
  posDU := s.pdu

/-- the slack variables of the restoration problem (IpRestoIpoptNLP.hpp: x, n_c, p_c, n_d, p_d). -/
structure Resto (K : Type) where
  nc : List K
  pc : List K
  nd : List K
  pd : List K

/-- the original (not relaxed, not scaled) bounds kept by `OrigIpoptNLP` if `bound_relax_factor` is positive
(IpOrigIpoptNLP.cpp:344-360). -/
structure Orig (K : Type) where
  xL : List K
  xU : List K
  dL : List K
  dU : List K

/-- `IpoptData::curr()` and the bounds of the algorithm: `pt` holds the components belonging to the original problem (in the
restoration phase, component 0 of the compound vectors), `resto` the others; `xL`, ... are `OrigIpoptNLP::x_L()`, ... . -/
structure Curr (K : Type) where
  pt : Point K
  resto : Option (Resto K)
  xL : List K
  xU : List K
  dL : List K
  dU : List K
  orig : Option (Orig K)

/-- `RestoIpoptNLP::c`, `RestoIpoptNLP::d` (IpRestoIpoptNLP.cpp:525-544, 553-572), component 0. -/
def restoVal (v n p : List K) : List K := axpy (-1) p (axpy 1 n v)

/-- undoing it (IpTNLP.cpp:172-174, 274-276). -/
def undoResto (v n p : List K) : List K := axpy 1 p (axpy (-1) n v)

section
variable (p : Prob K) (sc : Scal K) (hom : List K → Option K) (q : Curr K)

/-- `curr_x` (IpTNLP.cpp:18-49). -/
def currX (scaled : Bool) : List K := if !scaled && sc.dx.isSome then sc.unapplyX q.pt.x else q.pt.x

/-- `curr_z_L`, `curr_z_U` (IpTNLP.cpp:51-95, 97-141); `P` = Px_L or Px_U. -/
def currZ (P : Mat K) (z : List K) (scaled : Bool) : List K :=
  if scaled then z
  else if sc.dx.isSome then (sc.applyXLU hom P z).map fun v => sc.unapplyObj 1 * v
  else scalIf (sc.unapplyObj 1) z

/-- `curr_c` (IpTNLP.cpp:143-188); regular mode `IpoptCalculatedQuantities::curr_c`. -/
def currC (scaled : Bool) : List K :=
  let c := match q.resto with
    | none => evalC p sc q.pt.x
    | some r => undoResto (restoVal (evalC p sc q.pt.x) r.nc r.pc) r.nc r.pc
  if scaled then c else sc.unapplyC c

/-- `curr_d` (IpTNLP.cpp:245-290). -/
def currD (scaled : Bool) : List K :=
  let d := match q.resto with
    | none => evalD p sc q.pt.x
    | some r => undoResto (restoVal (evalD p sc q.pt.x) r.nd r.pd) r.nd r.pd
  if scaled then d else sc.unapplyD d

/-- `curr_y_c` (IpTNLP.cpp:190-243). -/
def currYc (scaled : Bool) : List K :=
  if scaled then q.pt.yc
  else if (rowOf sc.jacC).isSome then (sc.applyC q.pt.yc).map fun v => sc.unapplyObj 1 * v
  else scalIf (sc.unapplyObj 1) q.pt.yc

/-- `curr_y_d` (IpTNLP.cpp:292-335). -/
def currYd (scaled : Bool) : List K :=
  if scaled then q.pt.yd
  else if (rowOf sc.jacD).isSome then (sc.applyD q.pt.yd).map fun v => sc.unapplyObj 1 * v
  else scalIf (sc.unapplyObj 1) q.pt.yd

/-- one side of `(unscaled_)orig_x_L_violation` (IpIpoptCalculatedQuantities.cpp:1590-1660, 1728-1800); `sgn` is `-1` for lower bounds
(`x_L - x`), `1` for upper bounds (`x - x_U`); `b` are the bounds in the same units as `x`. -/
def origViol (P : Mat K) (sgn : K) (x b : List K) : List K :=
  if P.dims.2 = 0 then List.replicate P.dims.2 0
  else (axpy (-sgn) b (P.transMult hom sgn x 0 b)).map fun v => max v 0

/-- `curr_x_L_viol`, `curr_x_U_viol` (IpTNLP.cpp:337-379, 381-423) with `curr_orig_x_L_violation`, ... (1662-1695, 1807-1848): without
relaxation of the bounds, no original bounds are stored and the result is zero. -/
def currXViol (P : Mat K) (sgn : K) (b : Orig K → List K) (scaled : Bool) : List K :=
  match q.orig with
  | none => List.replicate P.dims.2 0
  | some o =>
    if scaled && sc.dx.isSome then origViol hom P sgn q.pt.x (sc.applyXLU hom P (b o))
    else origViol hom P sgn (sc.unapplyX q.pt.x) (b o)

/-- `curr_slack_x_L`, `curr_slack_x_U` (IpIpoptCalculatedQuantities.cpp:238-266), without the correction of tiny slacks. -/
def slackL (P : Mat K) (x b : List K) : List K := P.transMult hom 1 x (-1) b
@[inherit_doc slackL] def slackU (P : Mat K) (x b : List K) : List K := P.transMult hom (-1) x 1 b

/-- `curr_compl_x_L`, `curr_compl_x_U` (IpTNLP.cpp:425-476, 478-529) from slack and multiplier. -/
def currCompl (slack z : List K) (scaled : Bool) : List K :=
  let f := if scaled then 1 else sc.unapplyObj 1
  match q.resto with
  | none => scalIf f (emul slack z)
  | some _ => (emul slack z).map fun v => f * v

/-- `curr_grad_lag_x` (IpTNLP.cpp:531-585; regular mode IpIpoptCalculatedQuantities.cpp:1993-2030): in both modes the gradient of the
Lagrangian of the original problem. -/
def currGradLag (scaled : Bool) : List K :=
  let t1 := axpy 1 ((evalJacC p sc q.pt.x).transMult hom 1 q.pt.yc 0 (List.replicate p.nx 0)) (evalGradF p sc q.pt.x)
  let t2 := axpy 1 ((evalJacD p sc q.pt.x).transMult hom 1 q.pt.yd 0 (List.replicate p.nx 0)) t1
  let t3 := p.PxU.mult hom 1 q.pt.zU 1 (p.PxL.mult hom (-1) q.pt.zL 1 t2)
  if scaled then t3 else sc.unapplyGrad t3

/-- the lower (upper) bounds on `d` used in `get_curr_violations` (IpTNLP.cpp:926-940, 958-972): the original bounds, scaled with
`apply_vector_scaling_d_NonConst` (the vector is in the space of the bounds, the scaling vector in the space of `d`; the loop of
`DenseVector::ElementWiseMultiply` runs over the former). -/
def dBound (orig : Option (List K)) (b : List K) : List K :=
  match orig with
  | some o => if (rowOf sc.jacD).isSome then sc.applyD o else o
  | none => b

/-- `d_viol_L` (IpTNLP.cpp:941-957): `P (d_L - Pᵀ d)`, unscaled if requested. -/
def dViolL (d dL : List K) (scaled : Bool) : List K :=
  if 0 < dL.length then
    let t := p.PdL.transMult hom (-1) d 1 dL
    let v := p.PdL.mult hom 1 t 0 (d.map fun _ => 0)
    if !scaled && (rowOf sc.jacD).isSome then sc.unapplyD v else v
  else d.map fun _ => 0

/-- `d_viol_U` (IpTNLP.cpp:973-989): `P (Pᵀ d - d_U)`. -/
def dViolU (d dU : List K) (scaled : Bool) : List K :=
  if 0 < dU.length then
    let t := p.PdU.transMult hom 1 d (-1) dU
    let v := p.PdU.mult hom 1 t 0 (d.map fun _ => 0)
    if !scaled && (rowOf sc.jacD).isSome then sc.unapplyD v else v
  else d.map fun _ => 0

/-- the two vectors as used (IpTNLP.cpp:919-989): `d` is always the scaled one. -/
def violL (scaled : Bool) : List K :=
  dViolL p sc hom (currD p sc q true) (dBound sc (q.orig.map (·.dL)) q.dL) scaled
@[inherit_doc violL] def violU (scaled : Bool) : List K :=
  dViolU p sc hom (currD p sc q true) (dBound sc (q.orig.map (·.dU)) q.dU) scaled

/-- the part of `compl_g` for inequalities (IpTNLP.cpp:996-1011). -/
def complD (scaled : Bool) : List K :=
  let yd := currYd sc q scaled
  let pos := emul (yd.map fun v => max v 0) (violU p sc hom q scaled)
  let neg := emul (yd.map fun v => min v 0) (violL p sc hom q scaled)
  axpy (-1) pos neg

/-- the part of `compl_g` for equalities (IpTNLP.cpp:1013-1018). -/
def complC (scaled : Bool) : List K := (emul (currC p sc q scaled) (currYc sc q scaled)).map fun v => (-1) * v

/-- the part of `nlp_constraint_violation` for inequalities (IpTNLP.cpp:1029-1033). -/
def nlpViolD (scaled : Bool) : List K :=
  (List.zipWith max (violL p sc hom q scaled) (violU p sc hom q scaled)).map fun v => max v 0

/-- the part of `nlp_constraint_violation` for equalities (IpTNLP.cpp:1026-1027). -/
def nlpViolC (scaled : Bool) : List K := (currC p sc q scaled).map nabs
end

/-- `ResortBoundMultipliers` (IpTNLPAdapter.cpp:2653-2796) with the results of the two user evaluations for `make_parameter`: on
failure it returns `false` and only the multipliers from `ResortBounds` have been written. -/
def resortBM (s : Spaces) (U : User K) (gradOk jacOk : Bool) (x yc yd zL zU : List K) (zL0 zU0 : Nat → K) :
    Bool × (Nat → K) × (Nat → K) :=
  if decide (s.fixed.length ≠ 0) && decide (s.treat = .makeParameter) &&
      !(gradOk && ((jacFixed s U.jacPos).isEmpty || jacOk)) then
    (false, resortBound s s.pxl (vec zL) zL0, resortBound s s.pxu (vec zU) zU0)
  else (true, resortBoundMult s U.jacPos (U.gradF (U.full s x)) (U.jac (U.full s x)) (vec yc) (vec yd) (vec zL) (vec zU) zL0 zU0)

/-- the correction of the multipliers of fixed variables for the objective scaling (IpTNLP.cpp:694-711). -/
def scaleFixed (s : Spaces) (f : K) (z : (Nat → K) × (Nat → K)) : (Nat → K) × (Nat → K) :=
  if f = 1 then z
  else s.fixed.foldl (fun z i =>
    if 0 < f then (upd z.1 i (z.1 i * f), upd z.2 i (z.2 i * f))
    else (upd z.1 i (-(z.2 i) * f), upd z.2 i (-(z.1 i) * f))) z

/-- what is behind the pointers given to the two functions (IpTNLP.cpp:600-637): usable data, or something from which the functions
return `false` (no data, no current iterate, no calculated quantities, an unknown kind of NLP). -/
inductive Avail where
  | ready
  | unusable
  deriving DecidableEq

/-- the outcome of a call: returned `false`, thrown exception, returned `true` with the contents of the arrays (`none`: NULL). -/
inductive Out (α : Type) where
  | no
  | exc
  | yes (a : α)

/-- the arrays of `get_curr_iterate` (`none`: NULL). -/
structure Iter (K : Type) where
  x : Option (Nat → K)
  zL : Option (Nat → K)
  zU : Option (Nat → K)
  g : Option (Nat → K)
  lam : Option (Nat → K)

/-- the arrays of `get_curr_violations`. -/
structure Viol (K : Type) where
  xL : Option (Nat → K)
  xU : Option (Nat → K)
  cL : Option (Nat → K)
  cU : Option (Nat → K)
  grad : Option (Nat → K)
  con : Option (Nat → K)
  cg : Option (Nat → K)

section
variable (s : Spaces) (U : User K) (sc : Scal K) (hom : List K → Option K) (q : Curr K)

/-- the bound multipliers in `get_curr_iterate` (IpTNLP.cpp:671-713); the return value of `ResortBoundMultipliers` is not used. -/
def iterZ (gradOk jacOk scaled : Bool) (zL0 zU0 : Nat → K) : (Nat → K) × (Nat → K) :=
  let p := innerProb U s
  if !scaled || decide (s.fixed.length = 0) || !decide (s.treat = .makeParameter) then
    (resortBM s U gradOk jacOk (currX sc q scaled) (currYc sc q scaled) (currYd sc q scaled)
      (currZ sc hom p.PxL q.pt.zL scaled) (currZ sc hom p.PxU q.pt.zU scaled) zL0 zU0).2
  else
    scaleFixed s (sc.applyObj 1)
      (resortBM s U gradOk jacOk (currX sc q false) (currYc sc q false) (currYd sc q false)
        (currZ sc hom p.PxL q.pt.zL true) (currZ sc hom p.PxU q.pt.zU true) zL0 zU0).2

/-- the constraint values in `get_curr_iterate` (IpTNLP.cpp:715-735). -/
def iterG (scaled : Bool) (g0 : Nat → K) : Nat → K :=
  let p := innerProb U s
  if !scaled || (rowOf sc.jacC).isNone then
    resortG s (U.rhs s) true (vec (currC p sc q scaled)) (vec (currD p sc q scaled)) g0
  else
    let c := currC p sc q true
    let r := axpy 1 c (sc.applyC ((List.range c.length).map (U.rhs s)))
    resortG s (U.rhs s) false (vec r) (vec (currD p sc q scaled)) g0

/-- `TNLP::get_curr_iterate` (IpTNLP.cpp:587-743). -/
def getCurrIterate (av : Avail) (gradOk jacOk scaled : Bool) (n m : Nat) (b : Iter K) : Out (Iter K) :=
  match av with
  | .unusable => .no
  | .ready =>
    if n ≠ s.nFull ∧ (b.x.isSome ∨ (b.zL.isSome ∧ b.zU.isSome)) then .exc
    else if m ≠ s.mFull ∧ (b.lam.isSome ∨ b.g.isSome) then .exc
    else .yes
      { x := b.x.map fun _ => resortX s (setFixed s U.xl U.fullX0) (vec (currX sc q scaled)) true
        zL := match b.zL, b.zU with
          | some zL0, some zU0 => some (iterZ s U sc hom q gradOk jacOk scaled zL0 zU0).1
          | o, _ => o
        zU := match b.zL, b.zU with
          | some zL0, some zU0 => some (iterZ s U sc hom q gradOk jacOk scaled zL0 zU0).2
          | _, o => o
        g := b.g.map (iterG s U sc q scaled)
        lam := b.lam.map (resortG s (U.rhs s) false (vec (currYc sc q scaled)) (vec (currYd sc q scaled))) }

/-- writing the entries of fixed variables if they are treated by constraints (the loops IpTNLP.cpp:825-846, 878-888, 905-914): entry
`i` of the list of fixed variables belongs to entry `c->Dim() - n_x_fixed + i` of the internal vectors. -/
def putFixed (val : Nat → (Nat → K) → Nat → K) (a : Nat → K) : Nat → K :=
  if decide (0 < s.fixed.length) && decide (s.treat = .makeConstraint) then
    s.fixed.zipIdx.foldl (fun a e => upd a e.1 (val (s.pc.length + nFix s - s.fixed.length + e.2) a e.1)) a
  else a

/-- `x_L_violation`, `x_U_violation` (IpTNLP.cpp:816-850). -/
def outXL (scaled : Bool) (a0 : Nat → K) : Nat → K :=
  let p := innerProb U s
  putFixed s (fun k _ _ => max 0 (-(vec (currC p sc q scaled) k)))
    (resortBound s s.pxl (vec (currXViol sc hom q p.PxL (-1) (·.xL) scaled)) a0)
@[inherit_doc outXL] def outXU (scaled : Bool) (a0 : Nat → K) : Nat → K :=
  let p := innerProb U s
  putFixed s (fun k _ _ => max 0 (vec (currC p sc q scaled) k))
    (resortBound s s.pxu (vec (currXViol sc hom q p.PxU 1 (·.xU) scaled)) a0)

/-- `compl_x_L`, `compl_x_U` (IpTNLP.cpp:852-890). -/
def outCL (scaled : Bool) (a0 : Nat → K) : Nat → K :=
  let p := innerProb U s
  putFixed s (fun k _ _ => -(vec (emul ((currYc sc q scaled).map fun v => min v 0) (currC p sc q scaled)) k))
    (resortBound s s.pxl (vec (currCompl sc q (slackL hom p.PxL q.pt.x q.xL) q.pt.zL scaled)) a0)
@[inherit_doc outCL] def outCU (scaled : Bool) (a0 : Nat → K) : Nat → K :=
  let p := innerProb U s
  putFixed s (fun k _ _ => -(vec (emul ((currYc sc q scaled).map fun v => max v 0) (currC p sc q scaled)) k))
    (resortBound s s.pxu (vec (currCompl sc q (slackU hom p.PxU q.pt.x q.xU) q.pt.zU scaled)) a0)

/-- `grad_lag_x` (IpTNLP.cpp:892-917). -/
def outGrad (scaled : Bool) : Nat → K :=
  let p := innerProb U s
  putFixed s (fun k a i => a i + vec (currYc sc q scaled) k * (1 - U.rhs s k))
    (resortX s (setFixed s U.xl U.fullX0) (vec (currGradLag p sc hom q scaled)) false)

/-- `compl_g` and `nlp_constraint_violation` (IpTNLP.cpp:919-1039). -/
def outCG (scaled : Bool) (a0 : Nat → K) : Nat → K :=
  let p := innerProb U s
  resortG s (U.rhs s) false (vec (complC p sc q scaled)) (vec (complD p sc hom q scaled)) a0
@[inherit_doc outCG] def outCon (scaled : Bool) (a0 : Nat → K) : Nat → K :=
  let p := innerProb U s
  resortG s (U.rhs s) false (vec (nlpViolC p sc q scaled)) (vec (nlpViolD p sc hom q scaled)) a0

/-- `TNLP::get_curr_violations` (IpTNLP.cpp:745-1040). -/
def getCurrViolations (av : Avail) (scaled : Bool) (n m : Nat) (b : Viol K) : Out (Viol K) :=
  match av with
  | .unusable => .no
  | .ready =>
    if n ≠ s.nFull ∧ (b.xL.isSome ∨ b.xU.isSome ∨ b.cL.isSome ∨ b.cU.isSome ∨ b.grad.isSome) then .exc
    else if m ≠ s.mFull ∧ (b.con.isSome ∨ b.cg.isSome) then .exc
    else .yes
      { xL := b.xL.map (outXL s U sc hom q scaled)
        xU := b.xU.map (outXU s U sc hom q scaled)
        cL := b.cL.map (outCL s U sc hom q scaled)
        cU := b.cU.map (outCU s U sc hom q scaled)
        grad := b.grad.map fun _ => outGrad s U sc hom q scaled
        con := b.con.map (outCon s U sc hom q scaled)
        cg := b.cg.map (outCG s U sc hom q scaled) }
end

end Verif.CurrIter
