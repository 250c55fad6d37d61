import Verif.Model.CalcQuant

/-!
# The functions of `IpoptCalculatedQuantities`

`/repo/src/Algorithm/IpIpoptCalculatedQuantities.cpp`; sizes of the caches: constructor, lines 28-133.  One definition stands for the function for the current
point and, where it exists, the one for the trial point (the two are the same code with `curr` and `trial` exchanged; functions that exist
only for the current point have `peer = false` and are to be called with `Side.curr`).

Constants during a run (operations without arguments): options (`kappa_d`, `mu_target`, `s_max`, `constr_viol_norm_type`, ...), the expansion matrices
`Px_L`, ..., the damping indicators computed from them once (`:1044-1092`), the scaling, and the original bounds.  The order in which a C++ compiler evaluates the arguments of one call is not specified;
left to right here.  Not included: `CalculateSafeSlack`'s counters `num_adjusted_slack_*` and `IsSquareProblem`.
-/

namespace Verif.CQ

/-- Fixed circumstances of a run: `objective_depends_on_mu` (true in the restoration phase), `kappa_d > 0`, `have_x_scaling`, and `safe`:
`CalculateSafeSlack` never adjusts a slack (all slacks are at least `s_min`, `:479`), so that it reads no more than the slacks. -/
structure Cfg where
  objMu : Bool
  damp : Bool
  xScaling : Bool
  safe : Bool
  deriving DecidableEq, Repr

/-- The functions.  Each calls only functions listed before it. -/
inductive Name where
  | slackXL | slackXU | slackSL | slackSU | f | unscF | gradF | barrierObj | gradBarrierX | kappaDampX
  | gradBarrierS | kappaDampS | c | unscC | d | unscD | dMinusS | jacC | jacD | jacCVec
  | jacDVec | jacCTVec | jacDTVec | jacCTyc | jacDTyd | primalInf | constrViol | nlpConstrViol | unscNlpConstrViol | unscOrigXLU
  | unscOrigXL | unscOrigXU | unscOrigBounds | origXL | origXU | origBounds | hessian | gradLagX | gradLagS | gradLagDampX
  | gradLagDampS | complXL | complXU | complSL | complSU | relComplXL | relComplXU | relComplSL | relComplSU | dualInf
  | unscDualInf | complementarity | unscComplementarity | centrality | nlpError | unscNlpError | barrierError | pdError | primalFrac | currPrimalFrac
  | uncDualFrac | dualFrac | currDualFrac | uncSlackFrac | sigmaX | sigmaS | avrgCompl | gradBarrTDelta
  deriving DecidableEq, Repr

/-- All of them. -/
def Name.all : List Name :=
  [.slackXL, .slackXU, .slackSL, .slackSU, .f, .unscF, .gradF, .barrierObj, .gradBarrierX, .kappaDampX,
   .gradBarrierS, .kappaDampS, .c, .unscC, .d, .unscD, .dMinusS, .jacC, .jacD, .jacCVec,
   .jacDVec, .jacCTVec, .jacDTVec, .jacCTyc, .jacDTyd, .primalInf, .constrViol, .nlpConstrViol, .unscNlpConstrViol, .unscOrigXLU,
   .unscOrigXL, .unscOrigXU, .unscOrigBounds, .origXL, .origXU, .origBounds, .hessian, .gradLagX, .gradLagS, .gradLagDampX,
   .gradLagDampS, .complXL, .complXU, .complSL, .complSU, .relComplXL, .relComplXU, .relComplSL, .relComplSU, .dualInf,
   .unscDualInf, .complementarity, .unscComplementarity, .centrality, .nlpError, .unscNlpError, .barrierError, .pdError, .primalFrac, .currPrimalFrac,
   .uncDualFrac, .dualFrac, .currDualFrac, .uncSlackFrac, .sigmaX, .sigmaS, .avrgCompl, .gradBarrTDelta]

/-- slack of `x` to `xL` (`IpIpoptCalculatedQuantities.cpp:268-287, 361-381`). -/
def q_slackXL (cfg : Cfg) : QDef Name where
  pre := [.read (.self .x), .read (.glob .xL)]
  tagKeys := [0]
  valKeys := []
  body := if cfg.safe then [.op "CalcSlack_L" [0, 1]] else [.op "CalcSlack_L" [0, 1], .read (.glob .czL), .read (.glob .mu), .op "CalculateSafeSlack" [2, 1, 3, 4]]
  peer := true
  store := .all
  capCurr := 1
  capTrial := 1

/-- slack of `x` to `xU` (`IpIpoptCalculatedQuantities.cpp:289-308, 383-403`). -/
def q_slackXU (cfg : Cfg) : QDef Name where
  pre := [.read (.self .x), .read (.glob .xU)]
  tagKeys := [0]
  valKeys := []
  body := if cfg.safe then [.op "CalcSlack_U" [0, 1]] else [.op "CalcSlack_U" [0, 1], .read (.glob .czU), .read (.glob .mu), .op "CalculateSafeSlack" [2, 1, 3, 4]]
  peer := true
  store := .all
  capCurr := 1
  capTrial := 1

/-- slack of `s` to `dL` (`IpIpoptCalculatedQuantities.cpp:310-329, 405-425`). -/
def q_slackSL (cfg : Cfg) : QDef Name where
  pre := [.read (.self .s), .read (.glob .dL)]
  tagKeys := [0]
  valKeys := []
  body := if cfg.safe then [.op "CalcSlack_L" [0, 1]] else [.op "CalcSlack_L" [0, 1], .read (.glob .cvL), .read (.glob .mu), .op "CalculateSafeSlack" [2, 1, 3, 4]]
  peer := true
  store := .all
  capCurr := 1
  capTrial := 1

/-- slack of `s` to `dU` (`IpIpoptCalculatedQuantities.cpp:331-350, 427-447`). -/
def q_slackSU (cfg : Cfg) : QDef Name where
  pre := [.read (.self .s), .read (.glob .dU)]
  tagKeys := [0]
  valKeys := []
  body := if cfg.safe then [.op "CalcSlack_U" [0, 1]] else [.op "CalcSlack_U" [0, 1], .read (.glob .cvU), .read (.glob .mu), .op "CalculateSafeSlack" [2, 1, 3, 4]]
  peer := true
  store := .all
  capCurr := 1
  capTrial := 1

/-- `curr_f`, `trial_f` (`IpIpoptCalculatedQuantities.cpp:559-599, 606-646`). -/
def q_f (cfg : Cfg) : QDef Name where
  pre := if cfg.objMu then [.read (.self .x), .read (.glob .mu)] else [.read (.self .x), .op "-1" []]
  tagKeys := [0]
  valKeys := [1]
  body := if cfg.objMu then [.op "f_mu" [0, 1]] else [.op "f" [0]]
  peer := true
  store := .all
  capCurr := 2
  capTrial := 5

/-- `unscaled_curr_f` (`IpIpoptCalculatedQuantities.cpp:601-604, 648-651`). -/
def q_unscF (cfg : Cfg) : QDef Name where
  pre := []
  tagKeys := []
  valKeys := []
  body := [.call .f [], .op "unapply_obj_scaling" [0]]
  peer := false
  store := .never
  capCurr := 0
  capTrial := 0

/-- `curr_grad_f` (`IpIpoptCalculatedQuantities.cpp:653-689, 691-727`). -/
def q_gradF (cfg : Cfg) : QDef Name where
  pre := if cfg.objMu then [.read (.self .x), .read (.glob .mu)] else [.read (.self .x), .op "-1" []]
  tagKeys := [0]
  valKeys := [1]
  body := if cfg.objMu then [.op "grad_f_mu" [0, 1]] else [.op "grad_f" [0]]
  peer := true
  store := .all
  capCurr := 2
  capTrial := 1

/-- `curr_barrier_obj` with `CalcBarrierTerm` (`IpIpoptCalculatedQuantities.cpp:732-789, 791-857`). -/
def q_barrierObj (cfg : Cfg) : QDef Name where
  pre := [.read (.self .x), .read (.self .s), .read (.glob .mu)]
  tagKeys := [0, 1]
  valKeys := [2]
  body := [.call .f [], .call .slackXL [], .call .slackXU [], .call .slackSL [], .call .slackSU [], .op "CalcBarrierTerm" [2, 4, 5, 6, 7], .op "+" [3, 8]]
  peer := true
  store := .all
  capCurr := 2
  capTrial := 5

/-- `curr_grad_barrier_obj_x` (`IpIpoptCalculatedQuantities.cpp:859-910`). -/
def q_gradBarrierX (cfg : Cfg) : QDef Name where
  pre := [.read (.self .x), .read (.glob .mu)]
  tagKeys := [0]
  valKeys := [1]
  body := [.call .gradF [], .call .slackXL [], .call .slackXU [], .op "grad_barrier_obj_x" [1, 2, 3, 4]]
  peer := false
  store := .all
  capCurr := 1
  capTrial := 0

/-- `grad_kappa_times_damping_x`; the expansion matrices are constants (`IpIpoptCalculatedQuantities.cpp:912-949`). -/
def q_kappaDampX (cfg : Cfg) : QDef Name where
  pre := [.op "Px_L" [], .op "Px_U" [], .op "kappa_d" []]
  tagKeys := []
  valKeys := [0, 1, 2]
  body := [.op "grad_kappa_times_damping_x" [0, 1, 2]]
  peer := false
  store := .all
  capCurr := 1
  capTrial := 0

/-- `curr_grad_barrier_obj_s` (`IpIpoptCalculatedQuantities.cpp:951-1003`). -/
def q_gradBarrierS (cfg : Cfg) : QDef Name where
  pre := [.read (.self .s), .read (.glob .mu)]
  tagKeys := [0]
  valKeys := [1]
  body := [.call .slackSL [], .call .slackSU [], .op "grad_barrier_obj_s" [1, 2, 3]]
  peer := false
  store := .all
  capCurr := 1
  capTrial := 0

/-- `grad_kappa_times_damping_s` (`IpIpoptCalculatedQuantities.cpp:1005-1042`). -/
def q_kappaDampS (cfg : Cfg) : QDef Name where
  pre := [.op "Pd_L" [], .op "Pd_U" [], .op "kappa_d" []]
  tagKeys := []
  valKeys := [0, 1, 2]
  body := [.op "grad_kappa_times_damping_s" [0, 1, 2]]
  peer := false
  store := .all
  capCurr := 1
  capTrial := 0

/-- `curr_c` (`IpIpoptCalculatedQuantities.cpp:1098-1114, 1121-1137`). -/
def q_c (cfg : Cfg) : QDef Name where
  pre := [.read (.self .x)]
  tagKeys := [0]
  valKeys := []
  body := [.op "c" [0]]
  peer := true
  store := .all
  capCurr := 1
  capTrial := 2

/-- `unscaled_curr_c` (`IpIpoptCalculatedQuantities.cpp:1116-1119, 1139-1142`). -/
def q_unscC (cfg : Cfg) : QDef Name where
  pre := []
  tagKeys := []
  valKeys := []
  body := [.call .c [], .op "unapply_vector_scaling_c" [0]]
  peer := false
  store := .never
  capCurr := 0
  capTrial := 0

/-- `curr_d` (`IpIpoptCalculatedQuantities.cpp:1144-1160, 1167-1183`). -/
def q_d (cfg : Cfg) : QDef Name where
  pre := [.read (.self .x)]
  tagKeys := [0]
  valKeys := []
  body := [.op "d" [0]]
  peer := true
  store := .all
  capCurr := 1
  capTrial := 2

/-- `unscaled_curr_d` (`IpIpoptCalculatedQuantities.cpp:1162-1165`). -/
def q_unscD (cfg : Cfg) : QDef Name where
  pre := []
  tagKeys := []
  valKeys := []
  body := [.call .d [], .op "unapply_vector_scaling_d" [0]]
  peer := false
  store := .never
  capCurr := 0
  capTrial := 0

/-- `curr_d_minus_s` (`IpIpoptCalculatedQuantities.cpp:1185-1206, 1208-1229`). -/
def q_dMinusS (cfg : Cfg) : QDef Name where
  pre := [.read (.self .x), .read (.self .s)]
  tagKeys := [0, 1]
  valKeys := []
  body := [.call .d [], .op "AddTwoVectors" [2, 1]]
  peer := true
  store := .all
  capCurr := 1
  capTrial := 1

/-- `curr_jac_c` (`IpIpoptCalculatedQuantities.cpp:1231-1247, 1249-1265`). -/
def q_jacC (cfg : Cfg) : QDef Name where
  pre := [.read (.self .x)]
  tagKeys := [0]
  valKeys := []
  body := [.op "jac_c" [0]]
  peer := true
  store := .all
  capCurr := 1
  capTrial := 1

/-- `curr_jac_d` (`IpIpoptCalculatedQuantities.cpp:1267-1283, 1285-1301`). -/
def q_jacD (cfg : Cfg) : QDef Name where
  pre := [.read (.self .x)]
  tagKeys := [0]
  valKeys := []
  body := [.op "jac_d" [0]]
  peer := true
  store := .all
  capCurr := 1
  capTrial := 1

/-- `curr_jac_c_times_vec(vec)` (`IpIpoptCalculatedQuantities.cpp:1303-1321`). -/
def q_jacCVec (cfg : Cfg) : QDef Name where
  pre := [.read (.self .x), .read (.arg 0)]
  tagKeys := [0, 1]
  valKeys := []
  body := [.call .jacC [], .op "MultVector" [2, 1]]
  peer := false
  store := .all
  capCurr := 1
  capTrial := 0

/-- `curr_jac_d_times_vec(vec)` (`IpIpoptCalculatedQuantities.cpp:1323-1343`). -/
def q_jacDVec (cfg : Cfg) : QDef Name where
  pre := [.read (.self .x), .read (.arg 0)]
  tagKeys := [0, 1]
  valKeys := []
  body := [.call .jacD [], .op "MultVector" [2, 1]]
  peer := false
  store := .all
  capCurr := 1
  capTrial := 0

/-- `curr_jac_cT_times_vec(vec)` (`IpIpoptCalculatedQuantities.cpp:1373-1394, 1396-1417`). -/
def q_jacCTVec (cfg : Cfg) : QDef Name where
  pre := [.read (.self .x), .read (.arg 0)]
  tagKeys := [0, 1]
  valKeys := []
  body := [.call .jacC [], .op "TransMultVector" [2, 1]]
  peer := true
  store := .all
  capCurr := 2
  capTrial := 1

/-- `curr_jac_dT_times_vec(vec)` (`IpIpoptCalculatedQuantities.cpp:1419-1443, 1445-1466`). -/
def q_jacDTVec (cfg : Cfg) : QDef Name where
  pre := [.read (.self .x), .read (.arg 0)]
  tagKeys := [0, 1]
  valKeys := []
  body := [.call .jacD [], .op "TransMultVector" [2, 1]]
  peer := true
  store := .all
  capCurr := 2
  capTrial := 1

/-- `curr_jac_cT_times_curr_y_c` (`IpIpoptCalculatedQuantities.cpp:1345-1357`). -/
def q_jacCTyc (cfg : Cfg) : QDef Name where
  pre := []
  tagKeys := []
  valKeys := []
  body := [.read (.self .yc), .call .jacCTVec [0]]
  peer := false
  store := .never
  capCurr := 0
  capTrial := 0

/-- `curr_jac_dT_times_curr_y_d` (`IpIpoptCalculatedQuantities.cpp:1359-1371`). -/
def q_jacDTyd (cfg : Cfg) : QDef Name where
  pre := []
  tagKeys := []
  valKeys := []
  body := [.read (.self .yd), .call .jacDTVec [0]]
  peer := false
  store := .never
  capCurr := 0
  capTrial := 0

/-- `curr_primal_infeasibility(NormType)` (`IpIpoptCalculatedQuantities.cpp:2570-2610, 2612-2651`). -/
def q_primalInf (cfg : Cfg) : QDef Name where
  pre := [.read (.self .x), .read (.self .s), .read (.arg 0)]
  tagKeys := [0, 1]
  valKeys := [2]
  body := [.call .c [], .call .dMinusS [], .op "CalcNormOfType" [2, 3, 4]]
  peer := true
  store := .all
  capCurr := 3
  capTrial := 3

/-- `curr_constraint_violation` (`IpIpoptCalculatedQuantities.cpp:1468-1480`). -/
def q_constrViol (cfg : Cfg) : QDef Name where
  pre := []
  tagKeys := []
  valKeys := []
  body := [.op "constr_viol_normtype" [], .call .primalInf [0]]
  peer := false
  store := .never
  capCurr := 0
  capTrial := 0

/-- `curr_nlp_constraint_violation(NormType)` (`IpIpoptCalculatedQuantities.cpp:1482-1525`). -/
def q_nlpConstrViol (cfg : Cfg) : QDef Name where
  pre := [.read (.self .x), .read (.arg 0)]
  tagKeys := [0]
  valKeys := [1]
  body := [.call .c [], .call .d [], .read (.glob .dL), .read (.glob .dU), .op "nlp_constraint_violation" [1, 2, 3, 4, 5]]
  peer := false
  store := .all
  capCurr := 3
  capTrial := 0

/-- `unscaled_curr_nlp_constraint_violation(NormType)` (`IpIpoptCalculatedQuantities.cpp:1527-1588, 1881-1942`). -/
def q_unscNlpConstrViol (cfg : Cfg) : QDef Name where
  pre := [.read (.self .x), .read (.arg 0)]
  tagKeys := [0]
  valKeys := [1]
  body := [.call .unscC [], .call .d [], .read (.glob .dL), .read (.glob .dU), .op "unscaled_nlp_constraint_violation" [1, 2, 3, 4, 5]]
  peer := true
  store := .all
  capCurr := 3
  capTrial := 3

/-- the pair computed in `unscaled_curr_orig_x_L_violation`; the original bounds are constants (`IpIpoptCalculatedQuantities.cpp:1590-1682`). -/
def q_unscOrigXLU (cfg : Cfg) : QDef Name where
  pre := [.read (.self .x)]
  tagKeys := [0]
  valKeys := []
  body := [.op "unscaled_orig_x_LU_violation" [0]]
  peer := false
  store := .all
  capCurr := 1
  capTrial := 0

/-- `unscaled_curr_orig_x_L_violation` (`IpIpoptCalculatedQuantities.cpp:1662-1682`). -/
def q_unscOrigXL (cfg : Cfg) : QDef Name where
  pre := []
  tagKeys := []
  valKeys := []
  body := [.call .unscOrigXLU [], .op "first" [0]]
  peer := false
  store := .never
  capCurr := 0
  capTrial := 0

/-- `unscaled_curr_orig_x_U_violation` (`IpIpoptCalculatedQuantities.cpp:1684-1696`). -/
def q_unscOrigXU (cfg : Cfg) : QDef Name where
  pre := []
  tagKeys := []
  valKeys := []
  body := [.call .unscOrigXLU [], .op "second" [0]]
  peer := false
  store := .never
  capCurr := 0
  capTrial := 0

/-- `unscaled_curr_orig_bounds_violation(NormType)` (`IpIpoptCalculatedQuantities.cpp:1698-1726`). -/
def q_unscOrigBounds (cfg : Cfg) : QDef Name where
  pre := [.read (.self .x), .read (.arg 0)]
  tagKeys := [0]
  valKeys := [1]
  body := [.call .unscOrigXLU [], .op "CalcNormOfPair" [1, 2]]
  peer := false
  store := .all
  capCurr := 1
  capTrial := 0

/-- `curr_orig_x_L_violation` (`IpIpoptCalculatedQuantities.cpp:1728-1766, 1807-1826`). -/
def q_origXL (cfg : Cfg) : QDef Name where
  pre := if cfg.xScaling then [.read (.self .x)] else []
  tagKeys := (if cfg.xScaling then [0] else [])
  valKeys := []
  body := if cfg.xScaling then [.op "orig_x_L_violation" [0]] else [.call .unscOrigXL []]
  peer := false
  store := (if cfg.xScaling then .all else .never)
  capCurr := 1
  capTrial := 0

/-- `curr_orig_x_U_violation` (`IpIpoptCalculatedQuantities.cpp:1768-1805, 1828-1847`). -/
def q_origXU (cfg : Cfg) : QDef Name where
  pre := if cfg.xScaling then [.read (.self .x)] else []
  tagKeys := (if cfg.xScaling then [0] else [])
  valKeys := []
  body := if cfg.xScaling then [.op "orig_x_U_violation" [0]] else [.call .unscOrigXU []]
  peer := false
  store := (if cfg.xScaling then .all else .never)
  capCurr := 1
  capTrial := 0

/-- `curr_orig_bounds_violation(NormType)` (`IpIpoptCalculatedQuantities.cpp:1849-1879`). -/
def q_origBounds (cfg : Cfg) : QDef Name where
  pre := if cfg.xScaling then [.read (.self .x), .read (.arg 0)] else [.read (.arg 0)]
  tagKeys := (if cfg.xScaling then [0] else [])
  valKeys := (if cfg.xScaling then [1] else [])
  body := if cfg.xScaling then [.call .origXL [], .call .origXU [], .op "CalcNormOfType" [1, 2, 3]] else [.call .unscOrigBounds [0]]
  peer := false
  store := (if cfg.xScaling then .all else .never)
  capCurr := 1
  capTrial := 0

/-- `curr_exact_hessian` (`IpIpoptCalculatedQuantities.cpp:1948-1991`). -/
def q_hessian (cfg : Cfg) : QDef Name where
  pre := if cfg.objMu then [.read (.self .x), .read (.self .yc), .read (.self .yd), .read (.glob .mu)] else [.read (.self .x), .read (.self .yc), .read (.self .yd), .op "-1" []]
  tagKeys := [0, 1, 2]
  valKeys := [3]
  body := if cfg.objMu then [.op "h_mu" [0, 1, 2, 3]] else [.op "h" [0, 1, 2]]
  peer := false
  store := .all
  capCurr := 1
  capTrial := 0

/-- `curr_grad_lag_x` (`IpIpoptCalculatedQuantities.cpp:1993-2030, 2032-2067`). -/
def q_gradLagX (cfg : Cfg) : QDef Name where
  pre := [.read (.self .x), .read (.self .yc), .read (.self .yd), .read (.self .zL), .read (.self .zU)]
  tagKeys := [0, 1, 2, 3, 4]
  valKeys := []
  body := [.call .gradF [], .call .jacCTyc [], .call .jacDTyd [], .op "grad_lag_x" [5, 6, 7, 3, 4]]
  peer := true
  store := .all
  capCurr := 1
  capTrial := 1

/-- `curr_grad_lag_s` (`IpIpoptCalculatedQuantities.cpp:2069-2098, 2100-2129`). -/
def q_gradLagS (cfg : Cfg) : QDef Name where
  pre := [.read (.self .yd), .read (.self .vL), .read (.self .vU)]
  tagKeys := [0, 1, 2]
  valKeys := []
  body := [.op "grad_lag_s" [0, 1, 2]]
  peer := true
  store := .all
  capCurr := 1
  capTrial := 1

/-- `curr_grad_lag_with_damping_x`; the cache has size 0 (`IpIpoptCalculatedQuantities.cpp:2131-2180`). -/
def q_gradLagDampX (cfg : Cfg) : QDef Name where
  pre := if cfg.damp then [.read (.self .x), .read (.self .yc), .read (.self .yd), .read (.self .zL), .read (.self .zU), .read (.glob .mu)] else []
  tagKeys := (if cfg.damp then [0, 1, 2, 3, 4] else [])
  valKeys := (if cfg.damp then [5] else [])
  body := if cfg.damp then [.call .gradLagX [], .op "grad_lag_with_damping_x" [6, 5]] else [.call .gradLagX []]
  peer := false
  store := (if cfg.damp then .all else .never)
  capCurr := 0
  capTrial := 0

/-- `curr_grad_lag_with_damping_s`; the cache has size 0 (`IpIpoptCalculatedQuantities.cpp:2182-2227`). -/
def q_gradLagDampS (cfg : Cfg) : QDef Name where
  pre := if cfg.damp then [.read (.self .yd), .read (.self .vL), .read (.self .vU), .read (.glob .mu)] else []
  tagKeys := (if cfg.damp then [0, 1, 2] else [])
  valKeys := (if cfg.damp then [3] else [])
  body := if cfg.damp then [.call .gradLagS [], .op "grad_lag_with_damping_s" [4, 3]] else [.call .gradLagS []]
  peer := false
  store := (if cfg.damp then .all else .never)
  capCurr := 0
  capTrial := 0

/-- `curr_compl_x_L` (`IpIpoptCalculatedQuantities.cpp:2242-2284`). -/
def q_complXL (cfg : Cfg) : QDef Name where
  pre := [.call .slackXL [], .read (.self .zL)]
  tagKeys := [0, 1]
  valKeys := []
  body := [.op "CalcCompl" [0, 1]]
  peer := true
  store := .all
  capCurr := 1
  capTrial := 1

/-- `curr_compl_x_U` (`IpIpoptCalculatedQuantities.cpp:2286-2324`). -/
def q_complXU (cfg : Cfg) : QDef Name where
  pre := [.call .slackXU [], .read (.self .zU)]
  tagKeys := [0, 1]
  valKeys := []
  body := [.op "CalcCompl" [0, 1]]
  peer := true
  store := .all
  capCurr := 1
  capTrial := 1

/-- `curr_compl_s_L`; the result is never added to the cache (`IpIpoptCalculatedQuantities.cpp:2326-2364`). -/
def q_complSL (cfg : Cfg) : QDef Name where
  pre := [.call .slackSL [], .read (.self .vL)]
  tagKeys := [0, 1]
  valKeys := []
  body := [.op "CalcCompl" [0, 1]]
  peer := true
  store := .never
  capCurr := 1
  capTrial := 1

/-- `curr_compl_s_U`; the result is never added to the cache (`IpIpoptCalculatedQuantities.cpp:2366-2404`). -/
def q_complSU (cfg : Cfg) : QDef Name where
  pre := [.call .slackSU [], .read (.self .vU)]
  tagKeys := [0, 1]
  valKeys := []
  body := [.op "CalcCompl" [0, 1]]
  peer := true
  store := .never
  capCurr := 1
  capTrial := 1

/-- `curr_relaxed_compl_x_L` (`IpIpoptCalculatedQuantities.cpp:2406-2431`). -/
def q_relComplXL (cfg : Cfg) : QDef Name where
  pre := [.call .slackXL [], .read (.self .zL), .read (.glob .mu)]
  tagKeys := [0, 1]
  valKeys := [2]
  body := [.call .complXL [], .op "AddScalar" [3, 2]]
  peer := false
  store := .all
  capCurr := 1
  capTrial := 0

/-- `curr_relaxed_compl_x_U` (`IpIpoptCalculatedQuantities.cpp:2433-2458`). -/
def q_relComplXU (cfg : Cfg) : QDef Name where
  pre := [.call .slackXU [], .read (.self .zU), .read (.glob .mu)]
  tagKeys := [0, 1]
  valKeys := [2]
  body := [.call .complXU [], .op "AddScalar" [3, 2]]
  peer := false
  store := .all
  capCurr := 1
  capTrial := 0

/-- `curr_relaxed_compl_s_L` (`IpIpoptCalculatedQuantities.cpp:2460-2485`). -/
def q_relComplSL (cfg : Cfg) : QDef Name where
  pre := [.call .slackSL [], .read (.self .vL), .read (.glob .mu)]
  tagKeys := [0, 1]
  valKeys := [2]
  body := [.call .complSL [], .op "AddScalar" [3, 2]]
  peer := false
  store := .all
  capCurr := 1
  capTrial := 0

/-- `curr_relaxed_compl_s_U` (`IpIpoptCalculatedQuantities.cpp:2487-2512`). -/
def q_relComplSU (cfg : Cfg) : QDef Name where
  pre := [.call .slackSU [], .read (.self .vU), .read (.glob .mu)]
  tagKeys := [0, 1]
  valKeys := [2]
  body := [.call .complSU [], .op "AddScalar" [3, 2]]
  peer := false
  store := .all
  capCurr := 1
  capTrial := 0

/-- `curr_dual_infeasibility(NormType)` (`IpIpoptCalculatedQuantities.cpp:2653-2697, 2699-2744`). -/
def q_dualInf (cfg : Cfg) : QDef Name where
  pre := [.read (.self .x), .read (.self .s), .read (.self .yc), .read (.self .yd), .read (.self .zL), .read (.self .zU), .read (.self .vL), .read (.self .vU), .read (.arg 0)]
  tagKeys := [0, 1, 2, 3, 4, 5, 6, 7]
  valKeys := [8]
  body := [.call .gradLagX [], .call .gradLagS [], .op "CalcNormOfType" [8, 9, 10]]
  peer := true
  store := .all
  capCurr := 3
  capTrial := 3

/-- `unscaled_curr_dual_infeasibility(NormType)` (`IpIpoptCalculatedQuantities.cpp:2746-2797`). -/
def q_unscDualInf (cfg : Cfg) : QDef Name where
  pre := [.read (.self .x), .read (.self .s), .read (.self .yc), .read (.self .yd), .read (.self .zL), .read (.self .zU), .read (.self .vL), .read (.self .vU), .read (.arg 0)]
  tagKeys := [0, 1, 2, 3, 4, 5, 6, 7]
  valKeys := [8]
  body := [.call .gradLagX [], .call .gradLagS [], .op "unapply_grad_obj_scaling" [9], .op "scale_grad_lag_s" [10], .op "CalcNormOfType" [8, 11, 12]]
  peer := false
  store := .all
  capCurr := 3
  capTrial := 0

/-- `curr_complementarity(mu, NormType)` (`IpIpoptCalculatedQuantities.cpp:2799-2871, 2873-2945`). -/
def q_complementarity (cfg : Cfg) : QDef Name where
  pre := [.read (.self .x), .read (.self .s), .read (.self .zL), .read (.self .zU), .read (.self .vL), .read (.self .vU), .read (.arg 1), .read (.arg 0)]
  tagKeys := [0, 1, 2, 3, 4, 5]
  valKeys := [6, 7]
  body := [.call .complXL [], .call .complXU [], .call .complSL [], .call .complSU [], .op "complementarity" [6, 7, 8, 9, 10, 11]]
  peer := true
  store := .all
  capCurr := 6
  capTrial := 6

/-- `unscaled_curr_complementarity(mu, NormType)` (`IpIpoptCalculatedQuantities.cpp:2947-2953`). -/
def q_unscComplementarity (cfg : Cfg) : QDef Name where
  pre := []
  tagKeys := []
  valKeys := []
  body := [.read (.arg 0), .read (.arg 1), .call .complementarity [0, 1], .op "abs_unapply_obj_scaling" [2]]
  peer := false
  store := .never
  capCurr := 0
  capTrial := 0

/-- `curr_centrality_measure` (`IpIpoptCalculatedQuantities.cpp:2955-3048`). -/
def q_centrality (cfg : Cfg) : QDef Name where
  pre := [.read (.self .x), .read (.self .s), .read (.self .zL), .read (.self .zU), .read (.self .vL), .read (.self .vU)]
  tagKeys := [0, 1, 2, 3, 4, 5]
  valKeys := []
  body := [.call .complXL [], .call .complXU [], .call .complSL [], .call .complSU [], .op "CalcCentralityMeasure" [6, 7, 8, 9]]
  peer := false
  store := .all
  capCurr := 1
  capTrial := 0

/-- `curr_nlp_error` (`IpIpoptCalculatedQuantities.cpp:3050-3104`). -/
def q_nlpError (cfg : Cfg) : QDef Name where
  pre := [.read (.self .x), .read (.self .s), .read (.self .yc), .read (.self .yd), .read (.self .zL), .read (.self .zU), .read (.self .vL), .read (.self .vU)]
  tagKeys := [0, 1, 2, 3, 4, 5, 6, 7]
  valKeys := []
  body := [.op "ComputeOptimalityErrorScaling" [2, 3, 4, 5, 6, 7], .op "NORM_MAX" [], .call .dualInf [9], .call .nlpConstrViol [9], .op "mu_target" [], .call .complementarity [12, 9], .op "nlp_error" [8, 10, 11, 13]]
  peer := false
  store := .all
  capCurr := 1
  capTrial := 0

/-- `unscaled_curr_nlp_error` (`IpIpoptCalculatedQuantities.cpp:3106-3146`). -/
def q_unscNlpError (cfg : Cfg) : QDef Name where
  pre := [.read (.self .x), .read (.self .s), .read (.self .yc), .read (.self .yd), .read (.self .zL), .read (.self .zU), .read (.self .vL), .read (.self .vU)]
  tagKeys := [0, 1, 2, 3, 4, 5, 6, 7]
  valKeys := []
  body := [.op "NORM_MAX" [], .call .unscDualInf [8], .call .unscNlpConstrViol [8], .op "mu_target" [], .call .unscComplementarity [11, 8], .op "max3" [9, 10, 12]]
  peer := false
  store := .all
  capCurr := 1
  capTrial := 0

/-- `curr_barrier_error`; added without its scalar dependency (`IpIpoptCalculatedQuantities.cpp:3148-3196`). -/
def q_barrierError (cfg : Cfg) : QDef Name where
  pre := [.read (.self .x), .read (.self .s), .read (.self .yc), .read (.self .yd), .read (.self .zL), .read (.self .zU), .read (.self .vL), .read (.self .vU), .read (.glob .mu)]
  tagKeys := [0, 1, 2, 3, 4, 5, 6, 7]
  valKeys := [8]
  body := [.op "ComputeOptimalityErrorScaling" [2, 3, 4, 5, 6, 7], .op "NORM_MAX" [], .call .dualInf [10], .call .primalInf [10], .call .complementarity [8, 10], .op "nlp_error" [9, 11, 12, 13]]
  peer := false
  store := .objectsOnly
  capCurr := 1
  capTrial := 0

/-- `curr_primal_dual_system_error(mu)` (`IpIpoptCalculatedQuantities.cpp:3198-3256, 3258-3316`). -/
def q_pdError (cfg : Cfg) : QDef Name where
  pre := [.read (.self .x), .read (.self .s), .read (.self .yc), .read (.self .yd), .read (.self .zL), .read (.self .zU), .read (.self .vL), .read (.self .vU), .read (.arg 0)]
  tagKeys := [0, 1, 2, 3, 4, 5, 6, 7]
  valKeys := [8]
  body := [.op "NORM_1" [], .call .dualInf [9], .call .primalInf [9], .call .complementarity [8, 9], .op "primal_dual_system_error" [0, 1, 2, 3, 4, 5, 6, 7, 10, 11, 12]]
  peer := true
  store := .all
  capCurr := 1
  capTrial := 3

/-- `primal_frac_to_the_bound(tau, delta_x, delta_s)` (`IpIpoptCalculatedQuantities.cpp:3322-3389`). -/
def q_primalFrac (cfg : Cfg) : QDef Name where
  pre := [.read (.self .x), .read (.self .s), .read (.arg 1), .read (.arg 2), .read (.arg 0)]
  tagKeys := [0, 1, 2, 3]
  valKeys := [4]
  body := [.call .slackXL [], .call .slackXU [], .call .slackSL [], .call .slackSU [], .op "CalcFracToBound" [5, 6, 2, 4], .op "CalcFracToBound" [7, 8, 3, 4], .op "Min" [9, 10]]
  peer := false
  store := .all
  capCurr := 5
  capTrial := 0

/-- `curr_primal_frac_to_the_bound(tau)` (`IpIpoptCalculatedQuantities.cpp:3391-3398`). -/
def q_currPrimalFrac (cfg : Cfg) : QDef Name where
  pre := []
  tagKeys := []
  valKeys := []
  body := [.read (.arg 0), .read (.glob .dx), .read (.glob .ds), .call .primalFrac [0, 1, 2]]
  peer := false
  store := .never
  capCurr := 0
  capTrial := 0

/-- `uncached_dual_frac_to_the_bound(tau, ...)` (`IpIpoptCalculatedQuantities.cpp:3400-3418`). -/
def q_uncDualFrac (cfg : Cfg) : QDef Name where
  pre := []
  tagKeys := []
  valKeys := []
  body := [.read (.arg 0), .read (.arg 1), .read (.arg 2), .read (.arg 3), .read (.arg 4), .read (.self .zL), .read (.self .zU), .read (.self .vL), .read (.self .vU), .op "dual_frac" [5, 6, 7, 8, 1, 2, 3, 4, 0]]
  peer := false
  store := .never
  capCurr := 0
  capTrial := 0

/-- `dual_frac_to_the_bound(tau, ...)` (`IpIpoptCalculatedQuantities.cpp:3420-3460`). -/
def q_dualFrac (cfg : Cfg) : QDef Name where
  pre := [.read (.self .zL), .read (.self .zU), .read (.self .vL), .read (.self .vU), .read (.arg 1), .read (.arg 2), .read (.arg 3), .read (.arg 4), .read (.arg 0)]
  tagKeys := [0, 1, 2, 3, 4, 5, 6, 7]
  valKeys := [8]
  body := [.op "dual_frac" [0, 1, 2, 3, 4, 5, 6, 7, 8]]
  peer := false
  store := .all
  capCurr := 5
  capTrial := 0

/-- `curr_dual_frac_to_the_bound(tau)` (`IpIpoptCalculatedQuantities.cpp:3462-3470`). -/
def q_currDualFrac (cfg : Cfg) : QDef Name where
  pre := []
  tagKeys := []
  valKeys := []
  body := [.read (.arg 0), .read (.glob .dzL), .read (.glob .dzU), .read (.glob .dvL), .read (.glob .dvU), .call .dualFrac [0, 1, 2, 3, 4]]
  peer := false
  store := .never
  capCurr := 0
  capTrial := 0

/-- `uncached_slack_frac_to_the_bound(tau, ...)` (`IpIpoptCalculatedQuantities.cpp:3472-3495`). -/
def q_uncSlackFrac (cfg : Cfg) : QDef Name where
  pre := []
  tagKeys := []
  valKeys := []
  body := [.read (.arg 0), .read (.arg 1), .read (.arg 2), .read (.arg 3), .read (.arg 4), .call .slackXL [], .call .slackXU [], .call .slackSL [], .call .slackSU [], .op "dual_frac" [5, 6, 7, 8, 1, 2, 3, 4, 0]]
  peer := false
  store := .never
  capCurr := 0
  capTrial := 0

/-- `curr_sigma_x` (`IpIpoptCalculatedQuantities.cpp:3501-3525`). -/
def q_sigmaX (cfg : Cfg) : QDef Name where
  pre := [.read (.self .x), .read (.self .zL), .read (.self .zU)]
  tagKeys := [0, 1, 2]
  valKeys := []
  body := [.call .slackXL [], .call .slackXU [], .op "sigma" [3, 1, 4, 2]]
  peer := false
  store := .all
  capCurr := 1
  capTrial := 0

/-- `curr_sigma_s` (`IpIpoptCalculatedQuantities.cpp:3527-3551`). -/
def q_sigmaS (cfg : Cfg) : QDef Name where
  pre := [.read (.self .s), .read (.self .vL), .read (.self .vU)]
  tagKeys := [0, 1, 2]
  valKeys := []
  body := [.call .slackSL [], .call .slackSU [], .op "sigma" [3, 1, 4, 2]]
  peer := false
  store := .all
  capCurr := 1
  capTrial := 0

/-- `curr_avrg_compl` (`IpIpoptCalculatedQuantities.cpp:3553-3606, 3608-3661`). -/
def q_avrgCompl (cfg : Cfg) : QDef Name where
  pre := [.read (.self .x), .read (.self .s), .read (.self .zL), .read (.self .zU), .read (.self .vL), .read (.self .vU)]
  tagKeys := [0, 1, 2, 3, 4, 5]
  valKeys := []
  body := [.call .slackXL [], .call .slackXU [], .call .slackSL [], .call .slackSU [], .op "avrg_compl" [2, 3, 4, 5, 6, 7, 8, 9]]
  peer := true
  store := .all
  capCurr := 1
  capTrial := 1

/-- `curr_gradBarrTDelta` (`IpIpoptCalculatedQuantities.cpp:3702-3730`). -/
def q_gradBarrTDelta (cfg : Cfg) : QDef Name where
  pre := [.read (.self .x), .read (.self .s), .read (.glob .dx), .read (.glob .ds), .read (.glob .mu)]
  tagKeys := [0, 1, 2, 3]
  valKeys := [4]
  body := [.call .gradBarrierX [], .call .gradBarrierS [], .op "Dot" [5, 2], .op "Dot" [6, 3], .op "+" [7, 8]]
  peer := false
  store := .all
  capCurr := 1
  capTrial := 0

/-- The class. -/
def table (cfg : Cfg) : Name → QDef Name
  | .slackXL => q_slackXL cfg
  | .slackXU => q_slackXU cfg
  | .slackSL => q_slackSL cfg
  | .slackSU => q_slackSU cfg
  | .f => q_f cfg
  | .unscF => q_unscF cfg
  | .gradF => q_gradF cfg
  | .barrierObj => q_barrierObj cfg
  | .gradBarrierX => q_gradBarrierX cfg
  | .kappaDampX => q_kappaDampX cfg
  | .gradBarrierS => q_gradBarrierS cfg
  | .kappaDampS => q_kappaDampS cfg
  | .c => q_c cfg
  | .unscC => q_unscC cfg
  | .d => q_d cfg
  | .unscD => q_unscD cfg
  | .dMinusS => q_dMinusS cfg
  | .jacC => q_jacC cfg
  | .jacD => q_jacD cfg
  | .jacCVec => q_jacCVec cfg
  | .jacDVec => q_jacDVec cfg
  | .jacCTVec => q_jacCTVec cfg
  | .jacDTVec => q_jacDTVec cfg
  | .jacCTyc => q_jacCTyc cfg
  | .jacDTyd => q_jacDTyd cfg
  | .primalInf => q_primalInf cfg
  | .constrViol => q_constrViol cfg
  | .nlpConstrViol => q_nlpConstrViol cfg
  | .unscNlpConstrViol => q_unscNlpConstrViol cfg
  | .unscOrigXLU => q_unscOrigXLU cfg
  | .unscOrigXL => q_unscOrigXL cfg
  | .unscOrigXU => q_unscOrigXU cfg
  | .unscOrigBounds => q_unscOrigBounds cfg
  | .origXL => q_origXL cfg
  | .origXU => q_origXU cfg
  | .origBounds => q_origBounds cfg
  | .hessian => q_hessian cfg
  | .gradLagX => q_gradLagX cfg
  | .gradLagS => q_gradLagS cfg
  | .gradLagDampX => q_gradLagDampX cfg
  | .gradLagDampS => q_gradLagDampS cfg
  | .complXL => q_complXL cfg
  | .complXU => q_complXU cfg
  | .complSL => q_complSL cfg
  | .complSU => q_complSU cfg
  | .relComplXL => q_relComplXL cfg
  | .relComplXU => q_relComplXU cfg
  | .relComplSL => q_relComplSL cfg
  | .relComplSU => q_relComplSU cfg
  | .dualInf => q_dualInf cfg
  | .unscDualInf => q_unscDualInf cfg
  | .complementarity => q_complementarity cfg
  | .unscComplementarity => q_unscComplementarity cfg
  | .centrality => q_centrality cfg
  | .nlpError => q_nlpError cfg
  | .unscNlpError => q_unscNlpError cfg
  | .barrierError => q_barrierError cfg
  | .pdError => q_pdError cfg
  | .primalFrac => q_primalFrac cfg
  | .currPrimalFrac => q_currPrimalFrac cfg
  | .uncDualFrac => q_uncDualFrac cfg
  | .dualFrac => q_dualFrac cfg
  | .currDualFrac => q_currDualFrac cfg
  | .uncSlackFrac => q_uncSlackFrac cfg
  | .sigmaX => q_sigmaX cfg
  | .sigmaS => q_sigmaS cfg
  | .avrgCompl => q_avrgCompl cfg
  | .gradBarrTDelta => q_gradBarrTDelta cfg

end Verif.CQ
