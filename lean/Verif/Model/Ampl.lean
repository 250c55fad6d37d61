import Mathlib.Algebra.BigOperators.Fin
import Mathlib.Algebra.Order.Field.Basic

/-! # Model of the AMPL interface `AmplTNLP`

`src/Apps/AmplSolver/AmplTNLP.cpp`. The AMPL Solver Library (ASL) is not part of the code base; it is modelled by an arbitrary
problem (`Nl`) and a small state (`Asl`) that follows its documentation: after `xknown(x)` all functions are evaluated at that `x`
whatever point is passed, and `sphes` uses the partial derivatives left by the last evaluations of the objective and of the
constraints. Vectors are functions of the index, points have an arbitrary type. Option parsing and printing are not modelled. -/

namespace Verif.Ampl

variable {X α : Type}

/-- What the `.nl` file contains, as the ASL offers it. `none`: the evaluation has an error. -/
structure Nl (X α : Type) where
  nVar : Nat
  nCon : Nat
  nObj : Nat
  /-- `objtype[i] != 0` -/
  isMax : Nat → Bool
  /-- `LUv`, `LUrhs`: lower and upper bounds alternating -/
  LUv : Nat → α
  LUrhs : Nat → α
  havex0 : Nat → Bool
  X0 : Nat → α
  havepi0 : Nat → Bool
  pi0 : Nat → α
  /-- number of nonlinear constraints, of variables nonlinear in objective / constraints -/
  nlc : Nat
  nlvo : Nat
  nlvc : Nat
  /-- `xknowne` detects an error -/
  xErr : X → Bool
  objval : Nat → X → Option α
  objgrd : Nat → X → Option (Nat → α)
  conval : X → Option (Nat → α)
  jacval : X → Option (Nat → α)
  /-- entries of the Hessians of the objectives and of `lambda^T g` in the structure of `sphsetup` -/
  hObj : Nat → X → Nat → α
  hCon : X → (Nat → α) → Nat → α
  /-- what `sphes` makes of partial derivatives of an incomplete evaluation -/
  junk : Nat → α

/-- State of the ASL: the point of `xknown`, the points of the last complete evaluation of the active objective and of the
constraints (`none`: incomplete or none yet). -/
structure Asl (X : Type) where
  known : Option X
  objAt : Option X
  conAt : Option X

/-- Fields of `AmplTNLP` (`AmplTNLP.hpp`); `objNo` is the macro `obj_no`. -/
structure St (X α : Type) where
  objNo : Nat
  activeCalled : Bool
  hessetCalled : Bool
  objSign : α
  objFlag : Bool
  conFlag : Bool
  asl : Asl X

/-- Constructor (`AmplTNLP.cpp:208-247`, `obj_no = 0` at `:104`). -/
def St.new [One α] : St X α :=
  { objNo := 0, activeCalled := false, hessetCalled := false, objSign := 1, objFlag := false, conFlag := false,
    asl := ⟨none, none, none⟩ }

/-- Answers: a value (`return true`), `return false`, exception `INVALID_TNLP`, end of the process (an ASL error with
`halt_on_ampl_error`, i.e. `nerror_ == NULL`). -/
inductive Res (β : Type)
  | val (b : β)
  | fail
  | exc
  | halt

/-- An evaluation error of the ASL as seen through `nerror_ok` (`:1726-1741`). -/
def aslError {β : Type} (halt : Bool) : Res β := if halt then .halt else .fail

/-- The point at which the ASL evaluates when it is given `x`. -/
def Asl.point (a : Asl X) (x : X) : X := a.known.getD x

/-- `set_active_objective` (`:249-265`). -/
def setActive (s : St X α) (i : Nat) : Res Unit × St X α :=
  if s.hessetCalled then (.exc, s) else (.val (), { s with objNo := i, activeCalled := true })

/-- `call_hesset` (`:267-309`); `false`: exception. -/
def callHesset [One α] [Neg α] (P : Nl X α) (s : St X α) : Bool × St X α :=
  if s.hessetCalled then (false, s)
  else if 1 < P.nObj ∧ s.activeCalled = false then (false, s)
  else (true, { s with
    objSign := if 0 < P.nObj ∧ P.isMax s.objNo = true then -1 else 1
    hessetCalled := true })

/-- `call_hesset` unless it has been called (`:367-370`, `:1012-1016`). -/
def ensureHesset [One α] [Neg α] (P : Nl X α) (s : St X α) : Bool × St X α :=
  if s.hessetCalled then (true, s) else callHesset P s

/-- `get_nlp_info` (`:361-387`): number of variables and constraints. -/
def nlpInfo [One α] [Neg α] (P : Nl X α) (s : St X α) : Res (Nat × Nat) × St X α :=
  match ensureHesset P s with
  | (true, s') => (.val (P.nVar, P.nCon), s')
  | (false, s') => (.exc, s')

/-- `apply_new_x` (`:1000-1030`). -/
def applyNewX [One α] [Neg α] (P : Nl X α) (halt : Bool) (s : St X α) (new : Bool) (x : X) : Res Unit × St X α :=
  if new then
    match ensureHesset P s with
    | (false, s') => (.exc, s')
    | (true, s') =>
      let s'' := { s' with objFlag := false, conFlag := false, asl := { s'.asl with known := some x } }
      if P.xErr x then (aslError halt, s'') else (.val (), s'')
  else (.val (), s)

/-- ASL: the state after an evaluation of the active objective at `p`. -/
def Asl.evalObj (P : Nl X α) (a : Asl X) (i : Nat) (p : X) : Asl X :=
  { a with objAt := if (P.objval i p).isSome then some p else none }

/-- ASL: the state after an evaluation of the constraints at `p`. -/
def Asl.evalCon (P : Nl X α) (a : Asl X) (p : X) : Asl X :=
  { a with conAt := if (P.conval p).isSome then some p else none }

/-- `internal_objval` (`:930-962`). -/
def internalObjval [Zero α] [Mul α] (P : Nl X α) (halt : Bool) (s : St X α) (x : X) : Res α × St X α :=
  if P.nObj = 0 then (.val 0, { s with objFlag := true })
  else
    let p := s.asl.point x
    let a := s.asl.evalObj P s.objNo p
    match P.objval s.objNo p with
    | some v => (.val (s.objSign * v), { s with objFlag := true, asl := a })
    | none => (aslError halt, { s with objFlag := false, asl := a })

/-- `internal_conval` (`:964-998`). -/
def internalConval (P : Nl X α) (halt : Bool) (s : St X α) (x : X) : Res (Nat → α) × St X α :=
  let p := s.asl.point x
  let a := s.asl.evalCon P p
  match P.conval p with
  | some v => (.val v, { s with conFlag := true, asl := a })
  | none => (aslError halt, { s with conFlag := false, asl := a })

/-- Continue only after a successful `apply_new_x`. -/
def afterNewX {β : Type} (r : Res Unit × St X α) (k : St X α → Res β × St X α) : Res β × St X α :=
  match r with
  | (.val (), s) => k s
  | (.fail, s) => (.fail, s)
  | (.exc, s) => (.exc, s)
  | (.halt, s) => (.halt, s)

section Eval
variable [Ring α] [DecidableEq α] (P : Nl X α) (halt : Bool)

/-- `eval_f` (`:548-563`). -/
def evalF (s : St X α) (x : X) (new : Bool) : Res α × St X α :=
  afterNewX (applyNewX P halt s new x) fun s => internalObjval P halt s x

/-- Second part of `eval_grad_f` (`:582-609`); `objgrd` evaluates the objective if it has to. -/
def gradPart (s : St X α) (x : X) : Res (Nat → α) × St X α :=
  if P.nObj = 0 then (.val (fun _ => 0), s)
  else
    let p := s.asl.point x
    let s' := { s with asl := s.asl.evalObj P s.objNo p }
    match P.objval s.objNo p, P.objgrd s.objNo p with
    | some _, some v => (.val (fun i => if s.objSign = -1 then v i * -1 else v i), s')
    | _, _ => (aslError halt, s')

/-- `eval_grad_f` (`:565-610`). -/
def evalGrad (s : St X α) (x : X) (new : Bool) : Res (Nat → α) × St X α :=
  afterNewX (applyNewX P halt s new x) fun s => gradPart P halt s x

/-- `eval_g` (`:612-633`). -/
def evalG (s : St X α) (x : X) (new : Bool) : Res (Nat → α) × St X α :=
  afterNewX (applyNewX P halt s new x) fun s => internalConval P halt s x

/-- Values part of `eval_jac_g` (`:671-684`); `jacval` evaluates the constraints if it has to. -/
def jacPart (s : St X α) (x : X) : Res (Nat → α) × St X α :=
  let p := s.asl.point x
  let s' := { s with asl := s.asl.evalCon P p }
  match P.conval p, P.jacval p with
  | some _, some v => (.val v, s')
  | _, _ => (aslError halt, s')

/-- `eval_jac_g` (`:635-692`), values. -/
def evalJac (s : St X α) (x : X) (new : Bool) : Res (Nat → α) × St X α :=
  afterNewX (applyNewX P halt s new x) fun s => jacPart P halt s x

/-- The weights of the objectives passed to `sphes` (`:752-760`). -/
def weights (s : St X α) (objFactor : α) (i : Nat) : α := if i = s.objNo then s.objSign * objFactor else 0

/-- ASL: `sphes` (`:761`). -/
def sphes (s : St X α) (objFactor : α) (lam : Nat → α) (k : Nat) : α :=
  (match s.asl.objAt with
    | some p => ∑ i ∈ Finset.range P.nObj, weights s objFactor i * P.hObj i p k
    | none => if P.nObj = 0 then 0 else P.junk k) +
  (match s.asl.conAt with
    | some p => P.hCon p lam k
    | none => P.junk k)

/-- Whether the process ended. -/
def Res.isHalt {β : Type} : Res β → Bool
  | .halt => true
  | _ => false

/-- `:739-750`: evaluate objective and constraints if they have not been; their results are ignored (unless the process ends). -/
def prepareHess (s : St X α) (x : X) : Bool × St X α :=
  let (h1, s1) :=
    if s.objFlag then (false, s)
    else
      let r := internalObjval P halt s x
      let r' := internalConval P halt r.2 x
      (r.1.isHalt || r'.1.isHalt, r'.2)
  if s1.conFlag then (h1, s1)
  else
    let r := internalConval P halt s1 x
    (h1 || r.1.isHalt, r.2)

/-- Values part of `eval_h` (`:733-765`). -/
def hessPart (s : St X α) (x : X) (objFactor : α) (lam : Nat → α) : Res (Nat → α) × St X α :=
  match prepareHess P halt s x with
  | (true, s') => (.halt, s')
  | (false, s') => (.val (sphes P s' objFactor lam), s')

/-- `eval_h` (`:694-772`), values. -/
def evalH (s : St X α) (x : X) (new : Bool) (objFactor : α) (lam : Nat → α) : Res (Nat → α) × St X α :=
  afterNewX (applyNewX P halt s new x) fun s => hessPart P halt s x objFactor lam

end Eval

/-! ## Structures, bounds, starting point, solution -/

/-- One element of `Cgrad[i]` (`cgrad`): variable and position in the array of values. -/
structure CGrad where
  varno : Nat
  goff : Nat

/-- `eval_jac_g`, structure (`:657-675`): the writes to `iRow`, `jCol` at position `goff`, from row `i` on. -/
def jacWrites : Nat → List (List CGrad) → List (Nat × Nat × Nat)
  | _, [] => []
  | i, row :: rest => row.map (fun c => (c.goff, i + 1, c.varno + 1)) ++ jacWrites (i + 1) rest

/-- The array after the writes. -/
def writeAll (w : List (Nat × Nat × Nat)) (init : Nat → Nat × Nat) : Nat → Nat × Nat :=
  w.foldl (fun a e => Function.update a e.1 e.2) init

/-- `eval_jac_g`, structure. -/
def jacStructure (cgrad : List (List CGrad)) (init : Nat → Nat × Nat) : Nat → Nat × Nat := writeAll (jacWrites 0 cgrad) init

/-- `eval_h`, structure (`:715-733`): column `i` contributes its row numbers `hrownos[hcolstarts[i] ..]`, given as one list per
column. -/
def hessStructure : Nat → List (List Nat) → List (Nat × Nat)
  | _, [] => []
  | i, rows :: rest => rows.map (fun r => (i + 1, r + 1)) ++ hessStructure (i + 1) rest

/-- `get_bounds_info` (`:436-463`): `x_l, x_u, g_l, g_u`. -/
def boundsInfo (P : Nl X α) : (Nat → α) × (Nat → α) × (Nat → α) × (Nat → α) :=
  (fun i => P.LUv (2 * i), fun i => P.LUv (2 * i + 1), fun i => P.LUrhs (2 * i), fun i => P.LUrhs (2 * i + 1))

/-- `get_constraints_linearity` (`:465-489`): linear? -/
def isLinear (P : Nl X α) (i : Nat) : Bool := !decide (i < P.nlc)

/-- `get_list_of_nonlinear_variables` (`:1136-1162`), 1-based. -/
def nonlinearVars (P : Nl X α) : List Nat := (List.range (max P.nlvo P.nlvc)).map (· + 1)

/-- One block of `get_scaling_parameters` (`:1074-1134`): the values of the suffix `scaling_factor`, `none` if there are none. -/
def scalingFactors [Zero α] [One α] [LT α] [DecidableLT α] (suffix : Option (Nat → α)) : Option (Nat → α) :=
  suffix.map fun v i => if 0 < v i then v i else 1

/-- `get_starting_point` (`:491-546`): `x, z_L, z_U, lambda`; `zLin`, `zUin` are the values of the suffixes. -/
def startX [Zero α] [LinearOrder α] (P : Nl X α) (i : Nat) : α :=
  if P.havex0 i then P.X0 i else max (P.LUv (2 * i)) (min (P.LUv (2 * i + 1)) 0)

/-- `z_L` (`:525-533`). -/
def startZL [Ring α] (s : St X α) (zLin : Option (Nat → α)) (i : Nat) : α := match zLin with
  | some v => s.objSign * v i
  | none => 1

/-- `z_U` (`:525-533`). -/
def startZU [Ring α] (s : St X α) (zUin : Option (Nat → α)) (i : Nat) : α := match zUin with
  | some v => -s.objSign * v i
  | none => 1

/-- `lambda` (`:537-541`). -/
def startLambda [Ring α] (P : Nl X α) (s : St X α) (i : Nat) : α := if P.havepi0 i then -s.objSign * P.pi0 i else 0

/-- What `finalize_solution` reports for the multipliers (`:774-838`): suffixes `ipopt_zL_out`, `ipopt_zU_out` and the duals in
the `.sol` file. -/
structure Sol (α : Type) where
  zL : Nat → α
  zU : Nat → α
  dual : Nat → α

/-- `finalize_solution` (`:809-837`). -/
def finalize [Ring α] [DecidableEq α] (s : St X α) (zL zU lam : Nat → α) : Sol α :=
  if s.objSign = -1 then { zL := fun i => -zL i, zU := zU, dual := lam }
  else { zL := zL, zU := fun i => -zU i, dual := fun i => -lam i }

/-- `SolverReturn` (`src/Interfaces/IpAlgTypes.hpp:19-39`). -/
inductive Status
  | success | maxiter | cputime | walltime | tinyStep | acceptable | localInfeas | userStop | feasiblePoint | diverging
  | restoFailure | stepError | invalidNumber | tooFewDof | invalidOption | outOfMemory | internalError | unassigned
  deriving DecidableEq

/-- `solve_result_num` (`:841-935`). -/
def solveResult : Status → Nat
  | .success => 0
  | .acceptable => 1
  | .feasiblePoint => 2
  | .localInfeas => 200
  | .diverging => 300
  | .maxiter => 400
  | .cputime => 401
  | .walltime => 402
  | .userStop => 403
  | .tinyStep => 500
  | .restoFailure => 501
  | .stepError => 502
  | .invalidNumber => 550
  | .tooFewDof => 551
  | .invalidOption => 552
  | .outOfMemory => 553
  | .internalError => 554
  | .unassigned => 599

/-- The calls of a user of the interface that change its state. -/
inductive Op (X α : Type)
  | setActive (i : Nat)
  | info
  | f (x : X) (new : Bool)
  | grad (x : X) (new : Bool)
  | g (x : X) (new : Bool)
  | jac (x : X) (new : Bool)
  | h (x : X) (new : Bool) (objFactor : α) (lam : Nat → α)

/-- Kind of the answer. -/
inductive Kind
  | ok | fail | exc | halt
  deriving DecidableEq

/-- Kind of an answer. -/
def Res.kind {β : Type} : Res β → Kind
  | .val _ => .ok
  | .fail => .fail
  | .exc => .exc
  | .halt => .halt

/-- One call. -/
def step [Ring α] [DecidableEq α] (P : Nl X α) (halt : Bool) (s : St X α) : Op X α → Kind × St X α
  | .setActive i => let r := setActive s i; (r.1.kind, r.2)
  | .info => let r := nlpInfo P s; (r.1.kind, r.2)
  | .f x new => let r := evalF P halt s x new; (r.1.kind, r.2)
  | .grad x new => let r := evalGrad P halt s x new; (r.1.kind, r.2)
  | .g x new => let r := evalG P halt s x new; (r.1.kind, r.2)
  | .jac x new => let r := evalJac P halt s x new; (r.1.kind, r.2)
  | .h x new o l => let r := evalH P halt s x new o l; (r.1.kind, r.2)

/-- The point of an evaluation. -/
def Op.point : Op X α → Option (X × Bool)
  | .setActive _ => none
  | .info => none
  | .f x new => some (x, new)
  | .grad x new => some (x, new)
  | .g x new => some (x, new)
  | .jac x new => some (x, new)
  | .h x new _ _ => some (x, new)

end Verif.Ampl
