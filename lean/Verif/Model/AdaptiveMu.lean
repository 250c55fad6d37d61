import Verif.Model.Filter
import Mathlib.Algebra.Order.Field.Basic

/-! # Model of `AdaptiveMuUpdate` (src/Algorithm/IpAdaptiveMuUpdate.cpp)

Exact arithmetic over an ordered field `K`.  `P` is the type of iterates; everything the update asks `IpoptCalculatedQuantities` for is a
function of the iterate (`Quant`), so that the quantities are read again after the accepted iterate has been restored.  `pw` stands for
`std::pow(., mu_superlinear_decrease_power)`, `sqrt` and `log` for the library functions.  The journal output is not modelled. -/

namespace Verif.AdaptiveMu

variable {K P : Type} [Field K] [LinearOrder K] [IsStrictOrderedRing K]

/-- `AdaptiveMuGlobalizationEnum` (IpAdaptiveMuUpdate.hpp; option `adaptive_mu_globalization`). -/
inductive Glob where
  | kktError
  | filter
  | neverMonotone
  deriving DecidableEq, Repr

/-- `QualityFunctionMuOracle::NormEnum`. -/
inductive NormT where
  | one
  | twoSquared
  | max
  | two
  deriving DecidableEq, Repr

/-- `QualityFunctionMuOracle::CentralityEnum`. -/
inductive Cen where
  | none
  | log
  | reciprocal
  | cubedReciprocal
  deriving DecidableEq, Repr

/-- The norms offered by `IpoptCalculatedQuantities` (`ENormType`). -/
inductive VNorm where
  | n1
  | n2
  | nmax
  deriving DecidableEq, Repr

/-- The values read from the options (IpAdaptiveMuUpdate.cpp:155-230).  `muMaxOpt`/`muMinOpt` are `none` if the user did not set the option;
`muMinDflt` is the default value that `GetNumericValue` then delivers, `restoPrefix` tells that the prefix is `resto.`. -/
structure Par (K : Type) where
  muMaxFact : K
  muMaxOpt : Option K
  muMinOpt : Option K
  muMinDflt : K
  restoPrefix : Bool
  tauMin : K
  safeguard : K
  redFact : K
  numRefsMax : Nat
  glob : Glob
  filterMaxMargin : K
  filterMarginFact : K
  restoreAcc : Bool
  hasFixOracle : Bool
  monoInitFactor : K
  barrierTolFactor : K
  linear : K
  pw : K → K
  sqrt : K → K
  log : K → K
  norm : NormT
  centrality : Cen
  balancing : Bool
  muTarget : K

/-- What the update reads about one iterate (`IpCq()`, dimensions, `NLP_scaling`): `complTol` is the absolute value of the scaled
`compl_inf_tol`; `compl` is the complementarity for `mu = 0`.  The oracles get their bounds and the current `tau` and answer a value or fail. -/
structure Quant (K : Type) where
  tol : K
  complTol : K
  avrgCompl : K
  nBounds : Nat
  nDual : Nat
  nPri : Nat
  dualInf : VNorm → K
  primalInf : VNorm → K
  compl : VNorm → K
  xi : K
  nlpError : K
  f : K
  theta : K
  barrierError : K → K
  freeOracle : (tau lo hi : K) → Option K
  fixOracle : (tau lo hi : K) → Option K

/-- The state: data members of `AdaptiveMuUpdate` and the parts of `IpoptData` and of the line search it writes. -/
structure State (K P : Type) where
  mu : K
  tau : K
  free : Bool
  tiny : Bool
  curr : P
  muMin : K
  muMax : K
  refs : List K
  filter : Filter.State K
  checkedNoBounds : Bool
  noBounds : Bool
  accepted : Option P
  initDual : K
  initPrimal : K
  lsResets : Nat
  rigorous : Bool
  info : List Char
  deriving DecidableEq

/-- Outcome of a call: return value and state, `TINY_STEP_DETECTED`, or undefined behaviour (a null `SmartPtr` or the end of a list is
dereferenced). -/
inductive Res (K P : Type) where
  | ok (ret : Bool) (s : State K P)
  | tinyStep (s : State K P)
  | undefined
  deriving DecidableEq

/-- `InitializeImpl` (IpAdaptiveMuUpdate.cpp:155-251); `curr` and the state of the line search are what is there when it is called. -/
def init (p : Par K) (curr : P) (rigorous : Bool) : State K P where
  mu := 1
  tau := 0
  free := true
  tiny := false
  curr := curr
  muMin := match p.muMinOpt with
    | some m => m
    | none => if p.restoPrefix = true then 100 * p.muMinDflt else p.muMinDflt
  muMax := match p.muMaxOpt with
    | some m => m
    | none => -1
  refs := []
  filter := []
  checkedNoBounds := false
  noBounds := false
  accepted := none
  initDual := -1
  initPrimal := -1
  lsResets := 0
  rigorous := rigorous
  info := []

/-- `quality_function_pd_system` (IpAdaptiveMuUpdate.cpp:636-756). -/
def kktError (p : Par K) (q : Quant K) : K :=
  let n_comp := q.nBounds
  let scale (fn : K → K) (v : K) (n : Nat) : K := if n > 0 then v / fn n else v
  let (dual, primal, compl) : K × K × K :=
    match p.norm with
    | .one => (q.dualInf .n1 / q.nDual, scale id (q.primalInf .n1) q.nPri, scale id (q.compl .n1) n_comp)
    | .twoSquared =>
      (q.dualInf .n2 * q.dualInf .n2 / q.nDual, scale id (q.primalInf .n2 * q.primalInf .n2) q.nPri,
        scale id (q.compl .n2 * q.compl .n2) n_comp)
    | .max => (q.dualInf .nmax, q.primalInf .nmax, q.compl .nmax)
    | .two => (q.dualInf .n2 / p.sqrt q.nDual, scale p.sqrt (q.primalInf .n2) q.nPri, scale p.sqrt (q.compl .n2) n_comp)
  let centrality : K :=
    match p.centrality with
    | .none => 0
    | .log => -compl * p.log q.xi
    | .reciprocal => compl / q.xi
    | .cubedReciprocal => compl / (q.xi ^ 3)
  let balancing : K := if p.balancing = true then (max 0 (max dual primal - compl)) ^ 3 else 0
  primal + dual + compl + centrality + balancing

/-- `CheckSufficientProgress` (IpAdaptiveMuUpdate.cpp:447-492). -/
def checkProgress (p : Par K) (q : Quant K) (s : State K P) : Option Bool :=
  match p.glob with
  | .kktError =>
    if s.refs.length ≥ p.numRefsMax then
      some (s.refs.foldl (fun r v => if kktError p q ≤ p.redFact * v then true else r) false)
    else some true
  | .filter =>
    let margin := p.filterMarginFact * min p.filterMaxMargin q.nlpError
    Filter.acceptable s.filter [q.f + margin, q.theta + margin]
  | .neverMonotone => some true

/-- `RememberCurrentPointAsAccepted` (IpAdaptiveMuUpdate.cpp:494-552); `pop_front` of an empty list is undefined. -/
def remember (p : Par K) (q : Quant K) (iter : Int) (s : State K P) : Option (State K P) :=
  let s1 : Option (State K P) :=
    match p.glob with
    | .kktError =>
      let e := kktError p q
      if s.refs.length ≥ p.numRefsMax then
        match s.refs with
        | [] => none
        | _ :: rest => some { s with refs := rest ++ [e] }
      else some { s with refs := s.refs ++ [e] }
    | .filter => (Filter.addEntry s.filter [q.f, q.theta] iter).map fun fl => { s with filter := fl }
    | .neverMonotone => some s
  s1.map fun s => if p.restoreAcc = true then { s with accepted := some s.curr } else s

/-- `Compute_tau_monotone` (IpAdaptiveMuUpdate.cpp:554-559). -/
def tauMonotone (p : Par K) (mu : K) : K := max p.tauMin (1 - mu)

/-- `min_ref_val` (IpAdaptiveMuUpdate.cpp:561-573): undefined for an empty list. -/
def minRef : List K → Option K
  | [] => none
  | r :: rs => some (rs.foldl min r)

/-- `lower_mu_safeguard` (IpAdaptiveMuUpdate.cpp:758-803). -/
def lowerSafeguard (p : Par K) (q : Quant K) (s : State K P) : Option (K × State K P) :=
  if p.safeguard = 0 then some (0, s)
  else
    let dual := q.dualInf .n1 / q.nDual
    let primal := if q.nPri > 0 then q.primalInf .n1 / q.nPri else q.primalInf .n1
    let s1 := { s with initDual := if s.initDual < 0 then max 1 dual else s.initDual
                       initPrimal := if s.initPrimal < 0 then max 1 primal else s.initPrimal }
    let v := max (p.safeguard * (dual / s1.initDual)) (p.safeguard * (primal / s1.initPrimal))
    match p.glob with
    | .kktError => (minRef s.refs).map fun m => (min v m, s1)
    | _ => some (v, s1)

/-- `NewFixedMu` (IpAdaptiveMuUpdate.cpp:589-634). -/
def newFixedMu (p : Par K) (q : Quant K) (s : State K P) : Option (K × State K P) :=
  let fromOracle : Option K := if p.hasFixOracle = true then q.fixOracle s.tau (max s.muMin p.muTarget) s.muMax else none
  let m0 := match fromOracle with
    | some m => m
    | none => p.monoInitFactor * q.avrgCompl
  (lowerSafeguard p q s).map fun (safe, s1) =>
    let m1 := max m0 safe
    let m2 := min m1 (10 ^ 19)
    let m3 := max m2 s1.muMin
    (min m3 s1.muMax, s1)

/-- The reduced parameter of the fixed mode (IpAdaptiveMuUpdate.cpp:323-327). -/
def fixedReduction (p : Par K) (q : Quant K) (mu : K) : K :=
  max (min (p.linear * mu) (p.pw mu)) (min q.complTol q.tol / (p.barrierTolFactor + 1))

/-- The first half of `UpdateBarrierParameter` in the fixed mode (IpAdaptiveMuUpdate.cpp:295-342): back to the free mode, reduce `mu`, or
wait.  Note that `Compute_tau_monotone` gets the old `mu`. -/
def fixedPart (p : Par K) (q : P → Quant K) (iter : Int) (tiny : Bool) (s : State K P) : Res K P :=
  match checkProgress p (q s.curr) s with
  | none => .undefined
  | some prog =>
    if prog = true ∧ tiny = false then
      match remember p (q s.curr) iter { s with free := true } with
      | none => .undefined
      | some s1 => .ok true s1
    else
      let mu := s.mu
      if (q s.curr).barrierError mu ≤ p.barrierTolFactor * mu ∨ tiny = true then
        let newMu := fixedReduction p (q s.curr) mu
        if tiny = true ∧ newMu = mu then .tinyStep s
        else .ok true { s with mu := newMu, tau := tauMonotone p mu, lsResets := s.lsResets + 1 }
      else .ok true s

/-- Entering the fixed mode (IpAdaptiveMuUpdate.cpp:362-397). -/
def enterFixed (p : Par K) (q : P → Quant K) (tiny : Bool) (s : State K P) : Res K P :=
  let s1 := { s with free := false }
  let s2 : Option (State K P) :=
    if p.restoreAcc = true then
      match s1.accepted with
      | none => none
      | some a => some { s1 with curr := a }
    else some s1
  match s2 with
  | none => .undefined
  | some s2 =>
    match newFixedMu p (q s2.curr) s2 with
    | none => .undefined
    | some (mu, s3) =>
      if tiny = true ∧ mu = s3.mu then .tinyStep s3
      else .ok true { s3 with mu := mu, tau := tauMonotone p mu, lsResets := s3.lsResets + 1 }

/-- The first half of `UpdateBarrierParameter` in the free mode (IpAdaptiveMuUpdate.cpp:343-398). -/
def freePart (p : Par K) (q : P → Quant K) (iter : Int) (tiny skipped : Bool) (s : State K P) : Res K P :=
  match checkProgress p (q s.curr) s with
  | none => .undefined
  | some prog =>
    let prog := if p.glob ≠ .neverMonotone ∧ (skipped = true ∨ tiny = true) then false else prog
    if prog = true then
      match remember p (q s.curr) iter s with
      | none => .undefined
      | some s1 => .ok true s1
    else enterFixed p q tiny s

/-- The second half of `UpdateBarrierParameter` (IpAdaptiveMuUpdate.cpp:400-444). -/
def finish (p : Par K) (q : P → Quant K) (s : State K P) : Res K P :=
  if s.free = true then
    let tau := max p.tauMin (1 - (q s.curr).nlpError)
    let s1 := { s with tau := tau }
    match (q s1.curr).freeOracle tau (max s1.muMin p.muTarget) s1.muMax with
    | none => .ok false s1
    | some m0 =>
      let m1 := max m0 s1.muMin
      match lowerSafeguard p (q s1.curr) s1 with
      | none => .undefined
      | some (safe, s2) =>
        let m2 := if m1 < safe then safe else m1
        let s3 := if m1 < safe then { s2 with info := s2.info ++ ['m'] } else s2
        .ok true { s3 with mu := min m2 s3.muMax, lsResets := s3.lsResets + 1 }
  else .ok true { s with info := s.info ++ ['F'], rigorous := true }

/-- The bounds of the parameter, computed at the begin of every call (IpAdaptiveMuUpdate.cpp:258-275). -/
def setBounds (p : Par K) (q : Quant K) (s : State K P) : State K P :=
  let mn := match p.muMinOpt with
    | some _ => s.muMin
    | none => min s.muMin (1 / 2 * min q.tol q.complTol)
  { s with muMin := mn, muMax := if s.muMax < 0 then p.muMaxFact * q.avrgCompl else s.muMax }

/-- The test whether the problem has bounds, made once (IpAdaptiveMuUpdate.cpp:277-293). -/
def checkBounds (p : Par K) (q : Quant K) (s : State K P) : State K P :=
  if s.checkedNoBounds = true then s
  else if q.nBounds = 0 then { s with noBounds := true, mu := s.muMin, tau := p.tauMin, checkedNoBounds := true }
  else { s with checkedNoBounds := true }

/-- `UpdateBarrierParameter` (IpAdaptiveMuUpdate.cpp:253-445).  `iter` is the iteration counter, `skipped` the answer of
`linesearch_->CheckSkippedLineSearch()`. -/
def update (p : Par K) (q : P → Quant K) (iter : Int) (skipped : Bool) (s : State K P) : Res K P :=
  let s1 := checkBounds p (q s.curr) (setBounds p (q s.curr) s)
  if s1.noBounds = true then .ok true s1
  else
    let tiny := s1.tiny
    let s2 := { s1 with tiny := false }
    let r := if s2.free = true then freePart p q iter tiny skipped s2 else fixedPart p q iter tiny s2
    match r with
    | .ok _ s3 => finish p q s3
    | .tinyStep s3 => .tinyStep s3
    | .undefined => .undefined

/-- What happens between two calls: the algorithm moves to another iterate, and the line search may report a tiny step and answers whether it
skipped the line search (IpIpoptAlg.cpp main loop; IpBacktrackingLineSearch.cpp). -/
structure Call (P : Type) where
  point : P
  iter : Int
  tiny : Bool
  skipped : Bool

/-- One iteration of the algorithm as far as the update sees it. -/
def call (p : Par K) (q : P → Quant K) (c : Call P) (s : State K P) : Res K P :=
  update p q c.iter c.skipped { s with curr := c.point, tiny := c.tiny }

/-- The histories of calls that all returned, each recorded with the state after it; `s0` is the state after `InitializeImpl`. -/
inductive Run (p : Par K) (q : P → Quant K) (s0 : State K P) : List (Call P × State K P) → State K P → Prop
  | nil : Run p q s0 [] s0
  | snoc {cs : List (Call P × State K P)} {s s' : State K P} {c : Call P} {ret : Bool} :
      Run p q s0 cs s → call p q c s = .ok ret s' → Run p q s0 (cs ++ [(c, s')]) s'

end Verif.AdaptiveMu
