import Verif.Model.Matrix

/-! # NLP scaling (IpNLPScaling.cpp) and its use in OrigIpoptNLP (IpOrigIpoptNLP.cpp)

Vectors are lists, matrices are the classes of `Verif.Matrix`.  The user problem (already split into c and d by the adapter) is an
arbitrary collection of functions; only successful evaluations are modelled here (a failed or non-finite one throws `Eval_Error`, and
nothing is cached).  Caches are modelled separately (C09, C46). -/

namespace Verif.Scaling
open Verif.Matrix

section
variable {N : Type} [Zero N] [One N] [Add N] [Sub N] [Mul N] [Neg N] [Div N] [BEq N]

/-- `Vector::ElementWiseReciprocal` on a copy, if requested (IpScaledMatrix.cpp:207-211). -/
def recipIf (b : Bool) (d : List N) : List N := if b then d.map (fun v => 1 / v) else d

/-- the scaling vectors stored in a `ScaledMatrixSpace` (IpScaledMatrix.cpp:193-228). -/
structure Space (N : Type) where
  row : Option (List N)
  col : Option (List N)

@[inherit_doc Space] def mkSpace (row : Option (List N)) (rrec : Bool) (col : Option (List N)) (crec : Bool) : Space N :=
  ⟨row.map (recipIf rrec), col.map (recipIf crec)⟩

/-- the data members of `StandardScalingBase` (IpNLPScaling.hpp): `df_`, `dx_`, `scaled_jac_c_space_`, `scaled_jac_d_space_`,
`scaled_h_space_` (of which only the scaling vector matters). -/
structure Scal (N : Type) where
  df : N
  dx : Option (List N)
  jacC : Option (Space N)
  jacD : Option (Space N)
  h : Option (List N)

/-- `StandardScalingBase::DetermineScaling` (IpNLPScaling.cpp:253-371) from the parameters delivered by
`DetermineScalingParametersImpl`; `objFactor` = option obj_scaling_factor.  The Hessian space is taken to be valid. -/
def determine (objFactor df : N) (dx dc dd : Option (List N)) : Scal N where
  df := df * objFactor
  dx := dx
  jacC := if dx.isSome || dc.isSome then some (mkSpace dc false dx true) else none
  jacD := if dx.isSome || dd.isSome then some (mkSpace dd false dx true) else none
  h := if dx.isSome then dx.map (recipIf true) else none

/-- `apply_obj_scaling`, `unapply_obj_scaling` (IpNLPScaling.cpp:373-387). -/
def Scal.applyObj (s : Scal N) (f : N) : N := s.df * f
@[inherit_doc Scal.applyObj] def Scal.unapplyObj (s : Scal N) (f : N) : N := f / s.df

/-- elementwise division by an optional vector. -/
def optDiv (s : Option (List N)) (x : List N) : List N :=
  match s with
  | some d => ediv x d
  | none => x

/-- `RowScaling()` of an optional space (the test `IsValid(space) && IsValid(space->RowScaling())`). -/
def rowOf (sp : Option (Space N)) : Option (List N) :=
  match sp with
  | some sp => sp.row
  | none => none

/-- `apply_vector_scaling_x(_NonConst)` (IpNLPScaling.cpp:389-421). -/
def Scal.applyX (s : Scal N) (v : List N) : List N := optMul s.dx v
/-- `unapply_vector_scaling_x(_NonConst)` (IpNLPScaling.cpp:423-455). -/
def Scal.unapplyX (s : Scal N) (v : List N) : List N := optDiv s.dx v
/-- `apply_vector_scaling_c(_NonConst)` (IpNLPScaling.cpp:457-489). -/
def Scal.applyC (s : Scal N) (v : List N) : List N := optMul (rowOf s.jacC) v
/-- `unapply_vector_scaling_c(_NonConst)` (IpNLPScaling.cpp:491-523). -/
def Scal.unapplyC (s : Scal N) (v : List N) : List N := optDiv (rowOf s.jacC) v
/-- `apply_vector_scaling_d(_NonConst)` (IpNLPScaling.cpp:525-557). -/
def Scal.applyD (s : Scal N) (v : List N) : List N := optMul (rowOf s.jacD) v
/-- `unapply_vector_scaling_d(_NonConst)` (IpNLPScaling.cpp:559-591). -/
def Scal.unapplyD (s : Scal N) (v : List N) : List N := optDiv (rowOf s.jacD) v

/-- `apply_vector_scaling_x_LU(_NonConst)` (IpNLPScaling.cpp:25-69); `P` = Px_LU. -/
def Scal.applyXLU (s : Scal N) (hom : List N → Option N) (P : Mat N) (lu : List N) : List N :=
  if s.dx.isSome then P.transMult hom 1 (s.applyX (P.mult hom 1 lu 0 (List.replicate P.dims.1 0))) 0 (List.replicate P.dims.2 0)
  else lu

/-- `apply_vector_scaling_d_LU(_NonConst)` (IpNLPScaling.cpp:71-115). -/
def Scal.applyDLU (s : Scal N) (hom : List N → Option N) (P : Mat N) (lu : List N) : List N :=
  if (rowOf s.jacD).isSome then
    P.transMult hom 1 (s.applyD (P.mult hom 1 lu 0 (List.replicate P.dims.1 0))) 0 (List.replicate P.dims.2 0)
  else lu

/-- `unapply_vector_scaling_d_LU(_NonConst)` (IpNLPScaling.cpp:117-161). -/
def Scal.unapplyDLU (s : Scal N) (hom : List N → Option N) (P : Mat N) (lu : List N) : List N :=
  if (rowOf s.jacD).isSome then
    P.transMult hom 1 (s.unapplyD (P.mult hom 1 lu 0 (List.replicate P.dims.1 0))) 0 (List.replicate P.dims.2 0)
  else lu

/-- `Vector::Scal`, skipped for factor 1 (`if( df != 1. )`). -/
def scalIf (a : N) (v : List N) : List N := if a == 1 then v else v.map (fun x => a * x)

/-- `apply_grad_obj_scaling(_NonConst)` (IpNLPScaling.cpp:163-194). -/
def Scal.applyGrad (s : Scal N) (v : List N) : List N := scalIf (s.applyObj 1) (s.unapplyX v)
/-- `unapply_grad_obj_scaling(_NonConst)` (IpNLPScaling.cpp:196-227). -/
def Scal.unapplyGrad (s : Scal N) (v : List N) : List N := scalIf (s.unapplyObj 1) (s.applyX v)

/-- `apply_jac_c_scaling`, `apply_jac_d_scaling` (IpNLPScaling.cpp:593-623). -/
def scaleJac (sp : Option (Space N)) (J : Mat N) : Mat N :=
  match sp with
  | some sp => .scaled sp.row J sp.col
  | none => J

/-- `apply_hessian_scaling` (IpNLPScaling.cpp:625-642). -/
def Scal.applyHess (s : Scal N) (H : Mat N) : Mat N :=
  match s.h with
  | some d => .symScaled (some d) H
  | none => H

/-- the problem behind `OrigIpoptNLP` (its `nlp_`): functions, derivatives and the index sets of the bounds. -/
structure Prob (N : Type) where
  nx : Nat
  nc : Nat
  nd : Nat
  f : List N → N
  gradF : List N → List N
  c : List N → List N
  d : List N → List N
  jacC : List N → Mat N
  jacD : List N → Mat N
  hess : List N → N → List N → List N → Mat N
  posXL : List Nat
  posXU : List Nat
  posDL : List Nat
  posDU : List Nat

/-- `OrigIpoptNLP::f` (IpOrigIpoptNLP.cpp:484-505) after a successful evaluation. -/
def evalF (p : Prob N) (s : Scal N) (x : List N) : N := s.applyObj (p.f (s.unapplyX x))
/-- `OrigIpoptNLP::grad_f` (IpOrigIpoptNLP.cpp:516-543). -/
def evalGradF (p : Prob N) (s : Scal N) (x : List N) : List N := s.applyGrad (p.gradF (s.unapplyX x))
/-- `OrigIpoptNLP::c` (IpOrigIpoptNLP.cpp:554-597). -/
def evalC (p : Prob N) (s : Scal N) (x : List N) : List N := s.applyC (p.c (s.unapplyX x))
/-- `OrigIpoptNLP::d` (IpOrigIpoptNLP.cpp:599-646). -/
def evalD (p : Prob N) (s : Scal N) (x : List N) : List N := s.applyD (p.d (s.unapplyX x))
/-- `OrigIpoptNLP::jac_c` (IpOrigIpoptNLP.cpp:648-699). -/
def evalJacC (p : Prob N) (s : Scal N) (x : List N) : Mat N := scaleJac s.jacC (p.jacC (s.unapplyX x))
/-- `OrigIpoptNLP::jac_d` (IpOrigIpoptNLP.cpp:701-754). -/
def evalJacD (p : Prob N) (s : Scal N) (x : List N) : Mat N := scaleJac s.jacD (p.jacD (s.unapplyX x))
/-- `OrigIpoptNLP::h` (IpOrigIpoptNLP.cpp:761-816). -/
def evalH (p : Prob N) (s : Scal N) (x : List N) (σ : N) (yc yd : List N) : Mat N :=
  s.applyHess (p.hess (s.unapplyX x) (s.applyObj σ) (s.applyC yc) (s.applyD yd))

/-- `Px_L_`, ... (the adapter creates `ExpansionMatrix` objects). -/
def Prob.PxL (p : Prob N) : Mat N := .expansion p.nx p.posXL
@[inherit_doc Prob.PxL] def Prob.PxU (p : Prob N) : Mat N := .expansion p.nx p.posXU
@[inherit_doc Prob.PxL] def Prob.PdL (p : Prob N) : Mat N := .expansion p.nd p.posDL
@[inherit_doc Prob.PxL] def Prob.PdU (p : Prob N) : Mat N := .expansion p.nd p.posDU

/-- primal point and multipliers exchanged with the user. -/
structure Point (N : Type) where
  x : List N
  yc : List N
  yd : List N
  zL : List N
  zU : List N

/-- scaling of the starting point in `OrigIpoptNLP::InitializeStructures` (IpOrigIpoptNLP.cpp:391-457), all `init_*` flags set. -/
def scaleStart (p : Prob N) (s : Scal N) (hom : List N → Option N) (u : Point N) : Point N where
  x := s.applyX u.x
  yc := scalIf (s.applyObj 1) (s.unapplyC u.yc)
  yd := scalIf (s.applyObj 1) (s.unapplyD u.yd)
  zL := scalIf (s.applyObj 1) (s.applyXLU hom p.PxL u.zL)
  zU := scalIf (s.applyObj 1) (s.applyXLU hom p.PxU u.zU)

/-- what `FinalizeSolution` passes to the user before the correction for original bounds (IpOrigIpoptNLP.cpp:896-933). -/
def unscalePoint (p : Prob N) (s : Scal N) (hom : List N → Option N) (i : Point N) : Point N where
  x := s.unapplyX i.x
  yc := scalIf (s.unapplyObj 1) (s.applyC i.yc)
  yd := scalIf (s.unapplyObj 1) (s.applyD i.yd)
  zL := scalIf (s.unapplyObj 1) (s.applyXLU hom p.PxL i.zL)
  zU := scalIf (s.unapplyObj 1) (s.applyXLU hom p.PxU i.zU)
end

section
variable {N : Type} [Zero N] [One N] [Add N] [Sub N] [Mul N] [Neg N] [Div N] [BEq N] [Max N] [Min N]

/-- the absolute value. -/
def nabs (v : N) : N := max v (-v)

/-- `OrigIpoptNLP::relax_bounds` (IpOrigIpoptNLP.cpp:460-482) on one bound; `lower` when called with a negative factor. -/
def relaxOne (lower : Bool) (brf cvt b : N) : N :=
  let t := min (max (brf * nabs b) brf) cvt
  if lower then b + (-1) * t else b + 1 * t

/-- one side of the correction for the original bounds (IpOrigIpoptNLP.cpp:940-948, 949-957): `m` is the elementwise max (lower
bounds) or min (upper bounds). -/
def clipSide (hom : List N → Option N) (P : Mat N) (m : N → N → N) (orig x : List N) : List N :=
  let t := P.transMult hom 1 x 0 orig
  let x1 := P.mult hom (-1) t 1 x
  P.mult hom 1 (List.zipWith m t orig) 1 x1

/-- the correction for the original bounds in `FinalizeSolution` (IpOrigIpoptNLP.cpp:935-959). -/
def clipX (hom : List N → Option N) (honor relaxed : Bool) (PL PU : Mat N) (oL oU x : List N) : List N :=
  if honor && relaxed && (decide (0 < PL.dims.2) || decide (0 < PU.dims.2)) then
    let x1 := if 0 < PL.dims.2 then clipSide hom PL max oL x else x
    if 0 < PU.dims.2 then clipSide hom PU min oU x1 else x1
  else x

/-- what the user receives in `finalize_solution`. -/
structure Final (N : Type) where
  pt : Point N
  c : List N
  d : List N
  obj : N

/-- `OrigIpoptNLP::FinalizeSolution` (IpOrigIpoptNLP.cpp:881-969): `cVal`, `dVal`, `obj` are the (scaled) values at the final iterate
passed by the caller; only `x` is corrected for the original bounds. -/
def finalize (p : Prob N) (s : Scal N) (hom : List N → Option N) (honor relaxed : Bool) (oL oU : List N) (i : Point N)
    (cVal dVal : List N) (obj : N) : Final N :=
  let u := unscalePoint p s hom i
  ⟨{ u with x := clipX hom honor relaxed p.PxL p.PxU oL oU u.x }, s.unapplyC cVal, s.unapplyD dVal, s.unapplyObj obj⟩
end

end Verif.Scaling
