import Verif.Spec.CalcQuant
import Verif.Model.CalcQuantTable

/-!
# What each function of `IpoptCalculatedQuantities` means

Every quantity written as an expression in the iterate `w.self`, the bounds and the barrier parameter `w.gl`, and the arguments of the call.  `o` applies a numerical operation.
-/

namespace Verif.CQ.Meaning

variable {V : Type} (I : Interp V) (cfg : Cfg) (w : View V)

abbrev o (f : String) (a : List V) : V := I.op f a

/-- A slack as stored: the distance to the bound, made safe unless all slacks are large enough. -/
def safeSlack (slack bound mult : V) : V :=
  if cfg.safe then slack else o I "CalculateSafeSlack" [slack, bound, mult, w.gl .mu]

def sxL : V := safeSlack I cfg w (o I "CalcSlack_L" [w.self .x, w.gl .xL]) (w.gl .xL) (w.gl .czL)
def sxU : V := safeSlack I cfg w (o I "CalcSlack_U" [w.self .x, w.gl .xU]) (w.gl .xU) (w.gl .czU)
def ssL : V := safeSlack I cfg w (o I "CalcSlack_L" [w.self .s, w.gl .dL]) (w.gl .dL) (w.gl .cvL)
def ssU : V := safeSlack I cfg w (o I "CalcSlack_U" [w.self .s, w.gl .dU]) (w.gl .dU) (w.gl .cvU)

/-- Objective, with the barrier parameter if it depends on it. -/
def obj : V := if cfg.objMu then o I "f_mu" [w.self .x, w.gl .mu] else o I "f" [w.self .x]
def gradObj : V := if cfg.objMu then o I "grad_f_mu" [w.self .x, w.gl .mu] else o I "grad_f" [w.self .x]
def hess : V :=
  if cfg.objMu then o I "h_mu" [w.self .x, w.self .yc, w.self .yd, w.gl .mu] else o I "h" [w.self .x, w.self .yc, w.self .yd]
def cOf : V := o I "c" [w.self .x]
def dOf : V := o I "d" [w.self .x]
def Jc : V := o I "jac_c" [w.self .x]
def Jd : V := o I "jac_d" [w.self .x]
def dms : V := o I "AddTwoVectors" [dOf I w, w.self .s]

/-- Gradient of the Lagrangian: `∇f + J_cᵀ y_c + J_dᵀ y_d - z_L + z_U`. -/
def gLx : V :=
  o I "grad_lag_x" [gradObj I cfg w, o I "TransMultVector" [Jc I w, w.self .yc], o I "TransMultVector" [Jd I w, w.self .yd], w.self .zL, w.self .zU]
def gLs : V := o I "grad_lag_s" [w.self .yd, w.self .vL, w.self .vU]

def cxL : V := o I "CalcCompl" [sxL I cfg w, w.self .zL]
def cxU : V := o I "CalcCompl" [sxU I cfg w, w.self .zU]
def csL : V := o I "CalcCompl" [ssL I cfg w, w.self .vL]
def csU : V := o I "CalcCompl" [ssU I cfg w, w.self .vU]

def primal (norm : V) : V := o I "CalcNormOfType" [norm, cOf I w, dms I w]
def dual (norm : V) : V := o I "CalcNormOfType" [norm, gLx I cfg w, gLs I w]
def comp (mu norm : V) : V := o I "complementarity" [norm, mu, cxL I cfg w, cxU I cfg w, csL I cfg w, csU I cfg w]
def viol (norm : V) : V := o I "nlp_constraint_violation" [norm, cOf I w, dOf I w, w.gl .dL, w.gl .dU]
def unscViol (norm : V) : V :=
  o I "unscaled_nlp_constraint_violation" [norm, o I "unapply_vector_scaling_c" [cOf I w], dOf I w, w.gl .dL, w.gl .dU]
def unscDual (norm : V) : V :=
  o I "CalcNormOfType" [norm, o I "unapply_grad_obj_scaling" [gLx I cfg w], o I "scale_grad_lag_s" [gLs I w]]
def unscComp (mu norm : V) : V := o I "abs_unapply_obj_scaling" [comp I cfg w mu norm]
def scaling : V := o I "ComputeOptimalityErrorScaling" [w.self .yc, w.self .yd, w.self .zL, w.self .zU, w.self .vL, w.self .vU]
def gbx : V := o I "grad_barrier_obj_x" [w.gl .mu, gradObj I cfg w, sxL I cfg w, sxU I cfg w]
def gbs : V := o I "grad_barrier_obj_s" [w.gl .mu, ssL I cfg w, ssU I cfg w]
def xLU : V := o I "unscaled_orig_x_LU_violation" [w.self .x]
def oxL : V := if cfg.xScaling then o I "orig_x_L_violation" [w.self .x] else o I "first" [xLU I w]
def oxU : V := if cfg.xScaling then o I "orig_x_U_violation" [w.self .x] else o I "second" [xLU I w]
def normMax : V := o I "NORM_MAX" []
def norm1 : V := o I "NORM_1" []
def muTarget : V := o I "mu_target" []
def primFrac (tau dx ds : V) : V :=
  o I "Min" [o I "CalcFracToBound" [sxL I cfg w, sxU I cfg w, dx, tau], o I "CalcFracToBound" [ssL I cfg w, ssU I cfg w, ds, tau]]
def dFrac (tau a b c d : V) : V := o I "dual_frac" [w.self .zL, w.self .zU, w.self .vL, w.self .vU, a, b, c, d, tau]

/-- The meaning of every function; `a i` is argument `i` of the call (in the order of the C++ signature). -/
def value (a : Nat → V) : Name → V
  | .slackXL => sxL I cfg w | .slackXU => sxU I cfg w | .slackSL => ssL I cfg w | .slackSU => ssU I cfg w
  | .f => obj I cfg w
  | .unscF => o I "unapply_obj_scaling" [obj I cfg w]
  | .gradF => gradObj I cfg w
  | .barrierObj =>
    o I "+" [obj I cfg w, o I "CalcBarrierTerm" [w.gl .mu, sxL I cfg w, sxU I cfg w, ssL I cfg w, ssU I cfg w]]
  | .gradBarrierX => gbx I cfg w
  | .gradBarrierS => gbs I cfg w
  | .kappaDampX => o I "grad_kappa_times_damping_x" [o I "Px_L" [], o I "Px_U" [], o I "kappa_d" []]
  | .kappaDampS => o I "grad_kappa_times_damping_s" [o I "Pd_L" [], o I "Pd_U" [], o I "kappa_d" []]
  | .c => cOf I w | .unscC => o I "unapply_vector_scaling_c" [cOf I w]
  | .d => dOf I w | .unscD => o I "unapply_vector_scaling_d" [dOf I w]
  | .dMinusS => dms I w
  | .jacC => Jc I w | .jacD => Jd I w
  | .jacCVec => o I "MultVector" [Jc I w, a 0] | .jacDVec => o I "MultVector" [Jd I w, a 0]
  | .jacCTVec => o I "TransMultVector" [Jc I w, a 0] | .jacDTVec => o I "TransMultVector" [Jd I w, a 0]
  | .jacCTyc => o I "TransMultVector" [Jc I w, w.self .yc] | .jacDTyd => o I "TransMultVector" [Jd I w, w.self .yd]
  | .primalInf => primal I w (a 0)
  | .constrViol => primal I w (o I "constr_viol_normtype" [])
  | .nlpConstrViol => viol I w (a 0)
  | .unscNlpConstrViol => unscViol I w (a 0)
  | .unscOrigXLU => xLU I w | .unscOrigXL => o I "first" [xLU I w] | .unscOrigXU => o I "second" [xLU I w]
  | .unscOrigBounds => o I "CalcNormOfPair" [a 0, xLU I w]
  | .origXL => oxL I cfg w | .origXU => oxU I cfg w
  | .origBounds =>
    if cfg.xScaling then o I "CalcNormOfType" [a 0, oxL I cfg w, oxU I cfg w] else o I "CalcNormOfPair" [a 0, xLU I w]
  | .hessian => hess I cfg w
  | .gradLagX => gLx I cfg w | .gradLagS => gLs I w
  | .gradLagDampX => if cfg.damp then o I "grad_lag_with_damping_x" [gLx I cfg w, w.gl .mu] else gLx I cfg w
  | .gradLagDampS => if cfg.damp then o I "grad_lag_with_damping_s" [gLs I w, w.gl .mu] else gLs I w
  | .complXL => cxL I cfg w | .complXU => cxU I cfg w | .complSL => csL I cfg w | .complSU => csU I cfg w
  | .relComplXL => o I "AddScalar" [cxL I cfg w, w.gl .mu] | .relComplXU => o I "AddScalar" [cxU I cfg w, w.gl .mu]
  | .relComplSL => o I "AddScalar" [csL I cfg w, w.gl .mu] | .relComplSU => o I "AddScalar" [csU I cfg w, w.gl .mu]
  | .dualInf => dual I cfg w (a 0)
  | .unscDualInf => unscDual I cfg w (a 0)
  | .complementarity => comp I cfg w (a 0) (a 1)
  | .unscComplementarity => unscComp I cfg w (a 0) (a 1)
  | .centrality => o I "CalcCentralityMeasure" [cxL I cfg w, cxU I cfg w, csL I cfg w, csU I cfg w]
  | .nlpError => o I "nlp_error" [scaling I w, dual I cfg w (normMax I), viol I w (normMax I), comp I cfg w (muTarget I) (normMax I)]
  | .unscNlpError => o I "max3" [unscDual I cfg w (normMax I), unscViol I w (normMax I), unscComp I cfg w (muTarget I) (normMax I)]
  | .barrierError => o I "nlp_error" [scaling I w, dual I cfg w (normMax I), primal I w (normMax I), comp I cfg w (w.gl .mu) (normMax I)]
  | .pdError => o I "primal_dual_system_error" [w.self .x, w.self .s, w.self .yc, w.self .yd, w.self .zL, w.self .zU, w.self .vL, w.self .vU,
      dual I cfg w (norm1 I), primal I w (norm1 I), comp I cfg w (a 0) (norm1 I)]
  | .primalFrac => primFrac I cfg w (a 0) (a 1) (a 2)
  | .currPrimalFrac => primFrac I cfg w (a 0) (w.gl .dx) (w.gl .ds)
  | .uncDualFrac => dFrac I w (a 0) (a 1) (a 2) (a 3) (a 4)
  | .dualFrac => dFrac I w (a 0) (a 1) (a 2) (a 3) (a 4)
  | .currDualFrac => dFrac I w (a 0) (w.gl .dzL) (w.gl .dzU) (w.gl .dvL) (w.gl .dvU)
  | .uncSlackFrac => o I "dual_frac" [sxL I cfg w, sxU I cfg w, ssL I cfg w, ssU I cfg w, a 1, a 2, a 3, a 4, a 0]
  | .sigmaX => o I "sigma" [sxL I cfg w, w.self .zL, sxU I cfg w, w.self .zU]
  | .sigmaS => o I "sigma" [ssL I cfg w, w.self .vL, ssU I cfg w, w.self .vU]
  | .avrgCompl => o I "avrg_compl" [w.self .zL, w.self .zU, w.self .vL, w.self .vU, sxL I cfg w, sxU I cfg w, ssL I cfg w, ssU I cfg w]
  | .gradBarrTDelta => o I "+" [o I "Dot" [gbx I cfg w, w.gl .dx], o I "Dot" [gbs I cfg w, w.gl .ds]]

end Verif.CQ.Meaning
