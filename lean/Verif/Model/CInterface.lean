import Verif.Model.Options
import Verif.Model.Optimize

/-!
# Model of the C interface

`/repo/src/Interfaces/IpStdCInterface.cpp`, `/repo/src/Interfaces/IpStdInterfaceTNLP.{hpp,cpp}`.

The caller's arrays live in a heap (array number to contents); a pointer is `NULL` (`none`) or an array number.  Callback functions are
numbers; their behaviour is an arbitrary function of everything that was passed to callbacks so far and of the heap, and may overwrite any
caller array and the array `x` it is handed (the signatures are not `const`).  The solver (`OptimizeTNLP`) is an arbitrary interaction tree
over the virtual functions of `TNLP`.  Not modelled: memory exhaustion, `OpenIpoptOutputFile`, callbacks that call the interface functions
(other than the two `GetIpoptCurrent…` functions) for the same problem, `FreeIpoptProblem` (deletes everything).
-/

namespace Verif.CInterface
open Text

variable {K : Type}

/-- Pointer into the caller's memory: `NULL` or an array. -/
abbrev Ptr := Option Nat

/-- Contents of the caller's arrays. -/
abbrev Heap (K : Type) := Nat → List K

/-- `new Number[n]; IpBlasCopy(n, src, 1, dst, 1)` for a possibly `NULL` source. -/
def copyIn (h : Heap K) (n : Int) (p : Ptr) : Option (List K) := p.map fun a => (h a).take n.toNat

/-- `if( dst != NULL ) IpBlasCopy(n, src, 1, dst, 1)`. -/
def copyOut (h : Heap K) (n : Int) (src : List K) (p : Ptr) : Heap K :=
  match p with
  | none => h
  | some a => fun b => if b = a then src.take n.toNat ++ (h a).drop n.toNat else h b

/-- Arguments of `CreateIpoptProblem` (`IpStdCInterface.cpp:37-52`); a callback pointer is `NULL` or a function. -/
structure CreateArgs where
  n : Int
  xL : Ptr
  xU : Ptr
  m : Int
  gL : Ptr
  gU : Ptr
  neleJac : Int
  neleHess : Int
  indexStyle : Int
  evalF : Option Nat
  evalG : Option Nat
  evalGradF : Option Nat
  evalJacG : Option Nat
  evalH : Option Nat

/-- `IpoptProblemInfo` (`IpStdCInterface.cpp:14-36`); `app` is represented by its option list. -/
structure Problem (K : Type) where
  opts : Opt.Store
  /-- `tnlp` is not `NULL`. -/
  tnlp : Bool
  n : Int
  xL : Option (List K)
  xU : Option (List K)
  m : Int
  gL : Option (List K)
  gU : Option (List K)
  neleJac : Int
  neleHess : Int
  indexStyle : Int
  evalF : Option Nat
  evalG : Option Nat
  evalGradF : Option Nat
  evalJacG : Option Nat
  evalH : Option Nat
  interm : Option Nat
  objScaling : K
  xScaling : Option (List K)
  gScaling : Option (List K)

/-- `CreateIpoptProblem` (`IpStdCInterface.cpp:37-103`). -/
def create [One K] (h : Heap K) (a : CreateArgs) : Option (Problem K) :=
  if a.n < 1 || a.m < 0 || a.xL.isNone || a.xU.isNone || (decide (a.m > 0) && (a.gL.isNone || a.gU.isNone))
      || (a.m == 0 && a.neleJac != 0) || (decide (a.m > 0) && decide (a.neleJac < 1)) || decide (a.neleHess < 0) || a.evalF.isNone
      || a.evalGradF.isNone || (decide (a.m > 0) && (a.evalG.isNone || a.evalJacG.isNone)) then none
  else some
    { opts := [], tnlp := false, n := a.n, xL := copyIn h a.n a.xL, xU := copyIn h a.n a.xU, m := a.m
      gL := if a.m > 0 then copyIn h a.m a.gL else none
      gU := if a.m > 0 then copyIn h a.m a.gU else none
      neleJac := a.neleJac, neleHess := a.neleHess, indexStyle := a.indexStyle
      evalF := a.evalF, evalG := a.evalG, evalGradF := a.evalGradF, evalJacG := a.evalJacG, evalH := a.evalH
      interm := none, objScaling := 1, xScaling := none, gScaling := none }

/-! ### `StdInterfaceTNLP` -/

/-- What the solver may ask of a `TNLP`.  `x = none`: the `NULL` pointer of a call for the sparsity structure. -/
inductive Req (K : Type) where
  | info
  | bounds
  | scaling
  | start (initX initZ initLambda : Bool)
  | evalF (x : Option (List K)) (newX : Bool)
  | evalGradF (x : Option (List K)) (newX : Bool)
  | evalG (x : Option (List K)) (newX : Bool)
  | evalJacG (x : Option (List K)) (newX : Bool)
  | evalH (x : Option (List K)) (newX : Bool) (objFactor : K) (lambda : Option (List K)) (newLambda : Bool)
  | interm (mode iter : Int) (vals : List K) (lsTrials : Int)
  | finalize (x zL zU g lambda : List K) (obj : K)

/-- What the solver gets. -/
inductive Ans (K : Type) where
  | info (n m nnzJac nnzHess : Int) (cStyle : Bool)
  | bounds (xL xU gL gU : Option (List K))
  /-- objective scaling; scaling of `x` and `g` if `use_x_scaling`, `use_g_scaling` -/
  | scaling (obj : K) (x g : Option (List K))
  /-- success; the arrays that were filled -/
  | start (ok : Bool) (x zL zU lambda : Option (List K))
  /-- success; output values -/
  | eval (ok : Bool) (vals : List K)
  | interm (ok : Bool)
  | unit

/-- A call of one of the user's callback functions. -/
structure Call (K : Type) where
  /-- the function called -/
  fn : Nat
  /-- the solver's request that led to the call -/
  req : Req K
  /-- contents of the array `x` passed (`none`: `NULL`) -/
  x : Option (List K)
  newX : Bool
  /-- contents of the array `lambda` passed to the Hessian callback (`none`: not initialised) -/
  lambda : Option (List K)
  userData : Nat
  /-- `ip_data_` and `ip_cq_` are set during the call, that is, `GetIpoptCurrentIterate` and `…Violations` can succeed -/
  live : Bool

/-- What a callback function does: return value, output values, new contents of the array `x` it was handed. -/
structure CallAns (K : Type) where
  ok : Bool
  vals : List K
  buf : List K

/-- The user's callback functions; the first argument lists all calls so far, the current one first. -/
abbrev User (K : Type) := List (Call K) → Heap K → CallAns K × Heap K

/-- `StdInterfaceTNLP` (`IpStdInterfaceTNLP.hpp:236-320`). -/
structure T (K : Type) where
  n : Int
  m : Int
  xL : Option (List K)
  xU : Option (List K)
  gL : Option (List K)
  gU : Option (List K)
  neleJac : Int
  neleHess : Int
  indexStyle : Int
  startX : Option (List K)
  startLam : Option (List K)
  startZL : Option (List K)
  startZU : Option (List K)
  evalF : Option Nat
  evalG : Option Nat
  evalGradF : Option Nat
  evalJacG : Option Nat
  evalH : Option Nat
  interm : Option Nat
  userData : Nat
  objScaling : K
  xScaling : Option (List K)
  gScaling : Option (List K)
  /-- `non_const_x_` -/
  buf : Option (List K)
  xSol : Ptr
  zLSol : Ptr
  zUSol : Ptr
  gSol : Ptr
  lamSol : Ptr
  objSol : Ptr
  /-- `ip_data_`, `ip_cq_` not `NULL` -/
  live : Bool

/-- The assertions of the constructor (`IpStdInterfaceTNLP.cpp:76-90`); if one fails, `INVALID_STDINTERFACE_NLP` is raised. -/
def T.valid (t : T K) : Bool :=
  decide (t.n > 0) && decide (t.m ≥ 0) && t.xL.isSome && t.xU.isSome && (t.gL.isSome || t.m == 0) && (t.gU.isSome || t.m == 0)
    && decide (t.neleJac ≥ 0) && decide (t.neleHess ≥ 0) && (t.indexStyle == 0 || t.indexStyle == 1) && t.startX.isSome
    && t.evalF.isSome && t.evalG.isSome && t.evalGradF.isSome && t.evalJacG.isSome && t.evalH.isSome

/-- State while the solver runs: the TNLP, the caller's arrays, the callback calls (newest first) and the requests with their answers
(newest first). -/
structure Rt (K : Type) where
  t : T K
  h : Heap K
  calls : List (Call K)
  qa : List (Req K × Ans K)

/-- `apply_new_x` (`IpStdInterfaceTNLP.cpp:443-462`). -/
def applyNewX (t : T K) (newX : Bool) (x : Option (List K)) : T K :=
  if newX then { t with buf := x.map (·.take t.n.toNat) } else t

/-- The evaluation functions (`:242-350`): `apply_new_x`, call of the callback with `non_const_x_`; the Hessian callback gets a fresh array
with a copy of `lambda`, if given.  (The pointer to the function is not `NULL`: checked by the constructor.) -/
def evalCall (user : User K) (s : Rt K) (q : Req K) (fn : Option Nat) (x : Option (List K)) (newX : Bool) (lam : Option (List K)) :
    Ans K × Rt K :=
  let t := applyNewX s.t newX x
  let c : Call K := ⟨fn.getD 0, q, t.buf, newX, lam.map (·.take t.m.toNat), t.userData, t.live⟩
  let r := user (c :: s.calls) s.h
  (.eval r.1.ok r.1.vals, { s with t := { t with buf := t.buf.map fun _ => r.1.buf }, h := r.2, calls := c :: s.calls })

/-- The virtual functions of `StdInterfaceTNLP`. -/
def serve (user : User K) (s : Rt K) (q : Req K) : Ans K × Rt K :=
  match q with
  -- `get_nlp_info` (`:115-131`)
  | .info => (.info s.t.n s.t.m s.t.neleJac s.t.neleHess (s.t.indexStyle == 0), s)
  -- `get_bounds_info` (`:133-151`); copying zero elements from `NULL` does nothing
  | .bounds => (.bounds s.t.xL s.t.xU s.t.gL s.t.gU, s)
  -- `get_scaling_parameters` (`:153-191`)
  | .scaling => (.scaling s.t.objScaling s.t.xScaling s.t.gScaling, s)
  -- `get_starting_point` (`:193-240`)
  | .start ix iz il =>
    (.start (!(iz && s.t.startZL.isNone) && !(iz && s.t.startZU.isNone) && !(il && s.t.startLam.isNone))
      (if ix then s.t.startX else none) (if iz then s.t.startZL else none) (if iz then s.t.startZU else none)
      (if il then s.t.startLam else none), s)
  | .evalF x nx => evalCall user s q s.t.evalF x nx none
  | .evalGradF x nx => evalCall user s q s.t.evalGradF x nx none
  | .evalG x nx => evalCall user s q s.t.evalG x nx none
  | .evalJacG x nx => evalCall user s q s.t.evalJacG x nx none
  | .evalH x nx _ lam _ => evalCall user s q s.t.evalH x nx lam
  -- `intermediate_callback` (`:352-386`)
  | .interm _ _ _ _ =>
    match s.t.interm with
    | none => (.interm true, s)
    | some fn =>
      let c : Call K := ⟨fn, q, none, false, none, s.t.userData, true⟩
      let r := user (c :: s.calls) s.h
      (.interm r.1.ok, { s with h := r.2, calls := c :: s.calls, t := { s.t with live := false } })
  -- `finalize_solution` (`:388-441`)
  | .finalize x zL zU g lam obj =>
    let h := copyOut s.h s.t.n x s.t.xSol
    let h := copyOut h s.t.n zL s.t.zLSol
    let h := copyOut h s.t.n zU s.t.zUSol
    let h := copyOut h s.t.m g s.t.gSol
    let h := copyOut h s.t.m lam s.t.lamSol
    let h := copyOut h 1 [obj] s.t.objSol
    (.unit, { s with h := h })

/-- A solver: asks the TNLP, or ends with a status or an exception. -/
inductive Solver (K : Type) where
  | ret (r : Except Alg.Exn Alg.AppStatus)
  | ask (q : Req K) (k : Ans K → Solver K)

/-- Running a solver on the TNLP. -/
def exec (user : User K) : Solver K → Rt K → Except Alg.Exn Alg.AppStatus × Rt K
  | .ret r, s => (r, s)
  | .ask q k, s =>
    let r := serve user s q
    exec user (k r.1) { r.2 with qa := (q, r.1) :: r.2.qa }

/-! ### The interface functions -/

/-- Arguments of `IpoptSolve`. -/
structure SolveArgs where
  x : Ptr
  g : Ptr := none
  obj : Ptr := none
  multG : Ptr := none
  multXL : Ptr := none
  multXU : Ptr := none
  userData : Nat := 0

/-- The rest of the program: registered options, `app->Initialize()` (status; what it does with the option list), the solver for a given
option list (and what it does with the list), the user's functions. -/
structure World (K : Type) where
  optEnv : Opt.Env
  initApp : Opt.Store → Alg.AppStatus × List Opt.Op
  solver : Opt.Store → Solver K × List Opt.Op
  user : User K

/-- State of a program using one problem object: the object, the caller's arrays, callback calls (newest first), requests of the solver in
the last `IpoptSolve` with their answers (newest first). -/
structure Sess (K : Type) where
  p : Problem K
  h : Heap K
  calls : List (Call K)
  qa : List (Req K × Ans K)

/-- The `StdInterfaceTNLP` that `IpoptSolve` constructs (`IpStdCInterface.cpp:236-280`): starting values are copied from the arrays. -/
def mkT (p : Problem K) (h : Heap K) (a : SolveArgs) : T K :=
  { n := p.n, m := p.m, xL := p.xL, xU := p.xU, gL := p.gL, gU := p.gU, neleJac := p.neleJac, neleHess := p.neleHess
    indexStyle := p.indexStyle
    startX := copyIn h p.n a.x, startLam := copyIn h p.m a.multG, startZL := copyIn h p.n a.multXL, startZU := copyIn h p.n a.multXU
    evalF := p.evalF, evalG := p.evalG, evalGradF := p.evalGradF, evalJacG := p.evalJacG, evalH := p.evalH
    interm := p.interm, userData := a.userData, objScaling := p.objScaling, xScaling := p.xScaling, gScaling := p.gScaling
    buf := none, xSol := a.x, zLSol := a.multXL, zUSol := a.multXU, gSol := a.g, lamSol := a.multG, objSol := a.obj, live := false }

/-- Whether an exception is an `IpoptException`. -/
def isIpopt : Alg.Exn → Bool
  | .bad_alloc | .overflow_error | .foreign => false
  | _ => true

/-- `IpoptSolve` (`IpStdCInterface.cpp:212-307`). -/
def ipoptSolve (W : World K) (s : Sess K) (a : SolveArgs) : Except Alg.Exn Alg.AppStatus × Sess K :=
  let i := W.initApp s.p.opts
  let s : Sess K := { s with p := { s.p with opts := Opt.run W.optEnv s.p.opts i.2 }, qa := [] }
  if i.1 ≠ .Solve_Succeeded then (.ok i.1, s)
  else if a.x.isNone then (.ok .Invalid_Problem_Definition, s)
  else
    let t := mkT s.p s.h a
    if !t.valid then (.ok .Invalid_Problem_Definition, { s with p := { s.p with tnlp := false } })
    else
      let sv := W.solver s.p.opts
      let r := exec W.user sv.1 ⟨t, s.h, s.calls, []⟩
      let p : Problem K := { s.p with opts := Opt.run W.optEnv s.p.opts sv.2, tnlp := true }
      let s' : Sess K := ⟨p, r.2.h, r.2.calls, r.2.qa⟩
      match r.1 with
      | .ok st => (.ok st, { s' with p := { p with tnlp := false } })
      | .error e => if isIpopt e then (.ok .Unrecoverable_Exception, { s' with p := { p with tnlp := false } }) else (.error e, s')

/-- `SetIpoptProblemScaling` (`IpStdCInterface.cpp:161-200`). -/
def setScaling (s : Sess K) (obj : K) (x g : Ptr) : Sess K :=
  { s with p := { s.p with objScaling := obj, xScaling := copyIn s.h s.p.n x, gScaling := copyIn s.h s.p.m g } }

/-- What the caller may do after creating the problem: write to one of its arrays, or call the interface. -/
inductive Op (K : Type) where
  | write (a : Nat) (vals : List K)
  | addStr (key val : Str)
  | addNum (key : Str) (val : Num)
  | addInt (key : Str) (val : Int)
  | scaling (obj : K) (x g : Ptr)
  | setInterm (cb : Option Nat)
  | solve (a : SolveArgs)

/-- What a call returns. -/
inductive Ret where
  | unit
  | bool (b : Bool)
  | status (r : Except Alg.Exn Alg.AppStatus)

/-- An option call (`AddIpoptStrOption`, `AddIpoptNumOption`, `AddIpoptIntOption`, `IpStdCInterface.cpp:123-148`), with the default
arguments `allow_clobber = true`, `dont_print = false` (`IpOptionsList.hpp:214-237`). -/
def optOp : Op K → Option Opt.Op
  | .addStr k v => some (.setString k v true false)
  | .addNum k v => some (.setNumeric k v true false)
  | .addInt k v => some (.setInteger k v true false)
  | _ => none

/-- One call. -/
def step (W : World K) (s : Sess K) (o : Op K) : Ret × Sess K :=
  match o with
  | .write a v => (.unit, { s with h := fun b => if b = a then v else s.h b })
  | .addStr k v =>
    let r := Opt.setString W.optEnv s.p.opts k v true false
    (.bool r.1, { s with p := { s.p with opts := r.2 } })
  | .addNum k v =>
    let r := Opt.setNumeric W.optEnv s.p.opts k v true false
    (.bool r.1, { s with p := { s.p with opts := r.2 } })
  | .addInt k v =>
    let r := Opt.setInteger W.optEnv s.p.opts k v true false
    (.bool r.1, { s with p := { s.p with opts := r.2 } })
  | .scaling o x g => (.bool true, setScaling s o x g)
  | .setInterm cb => (.bool true, { s with p := { s.p with interm := cb } })
  | .solve a => let r := ipoptSolve W s a; (.status r.1, r.2)

/-- A history of calls. -/
def run (W : World K) (s : Sess K) (ops : List (Op K)) : Sess K := ops.foldl (fun s o => (step W s o).2) s

/-- `GetIpoptCurrentIterate`, `GetIpoptCurrentViolations` (`IpStdCInterface.cpp:309-355`, `IpTNLP.cpp:600-607`) called while no callback is
active: `false` unless `tnlp` is set; the TNLP's data pointers are `NULL` then. -/
def canRetrieve (p : Problem K) (live : Bool) : Bool := p.tnlp && live

end Verif.CInterface
