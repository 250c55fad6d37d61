import Mathlib.Algebra.Order.Field.Basic

/-! # Model of `BacktrackingLineSearch` (src/Algorithm/IpBacktrackingLineSearch.cpp)

Iterates are elements of a type `I`, search directions of a type `D`.  What the acceptor, the functions of the problem and the
restoration phase answer during one call is an arbitrary environment `Env`; the line search decides what is tried, accepted and stored.
`red` is the (rounded) multiplication of the step size by `alpha_red_factor`. -/

namespace Verif.LineSearch

/-- Outcome of the evaluation and the acceptance test at one trial point. -/
inductive Trial where
  | evalError
  | accept
  | reject
deriving DecidableEq, Repr

/-- Options (IpBacktrackingLineSearch.cpp:196-220); `acceptAfterMax = none` stands for -1, `trigger = 0` switches the watchdog off. -/
structure Par (K : Type) where
  red : K → K
  acceptEvery : Bool
  acceptAfterMax : Option Nat
  trigger : Nat
  wdMax : Nat
  maxSoft : Nat
  rigorous : Bool

/-- What the rest of the program answers during one call of `FindAcceptableTrialPoint`. -/
structure Env (I D K : Type) where
  mu : K
  currAcceptable : I → Bool
  hasResto : Bool
  doFallback : Bool
  yLarge : Bool
  tiny : Bool
  tinyEvalOk : Bool
  dySmall : Bool
  alphaTiny : K
  alphaTest0 : K
  alphaMax : I → D → K
  alphaMin : I → D → K
  corrector : I → D → Option (K × D)
  /-- evaluation and acceptance test at `curr + alpha * delta` -/
  check : I → D → K → Trial
  /-- the functions can be evaluated and `theta_curr ≤ theta_trial` -/
  thetaWorse : I → D → K → Bool
  soc : I → D → K → Option (K × D)
  /-- soft restoration step: `none` rejected, `some b` accepted, `b`: also by the original criterion -/
  soft : I → D → Option Bool
  almostFeasible : I → Bool
  restoOk : Bool
  ctolOk : Bool
  restoredIterate : Bool

variable {I D K : Type} [LinearOrder K]

/-- Result of `DoBacktrackingLineSearch`; `trials` lists the step sizes tried in the loop. -/
structure BTRes (D K : Type) where
  accept : Bool
  alpha : K
  nSteps : Nat
  evalErr : Bool
  corrTaken : Bool
  socTaken : Bool
  delta : D
  trials : List K
deriving DecidableEq, Repr

/-- The test at one trial point (IpBacktrackingLineSearch.cpp:748-783): with `accept_every_trial_step` or after `accept_after_max_steps` steps only the
evaluation counts. -/
def checkTrial (p : Par K) (e : Env I D K) (it : I) (d : D) (nSteps : Nat) (alpha : K) : Trial :=
  if p.acceptEvery = true ∨ (∃ m, p.acceptAfterMax = some m ∧ m ≤ nSteps) then
    match e.check it d alpha with
    | .evalError => .evalError
    | _ => .accept
  else e.check it d alpha

instance (p : Par K) (n : Nat) : Decidable (∃ m, p.acceptAfterMax = some m ∧ m ≤ n) := by
  rcases h : p.acceptAfterMax with _ | m
  · exact isFalse (by simp)
  · exact decidable_of_iff (m ≤ n) (by simp)

/-- The loop over decreasing step sizes (IpBacktrackingLineSearch.cpp:738-822). `none`: not finished within the fuel. -/
def btLoop (p : Par K) (e : Env I D K) (inWd expectInf : Bool) (countShort : Nat) (it : I) (d : D) (alphaMax alphaMin : K) :
    Nat → K → Nat → Bool → List K → Option (BTRes D K)
  | 0, _, _, _, _ => none
  | fuel + 1, alpha, n, ee, tr =>
    if alphaMin < alpha ∨ n = 0 then
      let t := checkTrial p e it d n alpha
      let ee1 := if t = .evalError then true else ee
      let tr1 := tr ++ [alpha]
      if t = .accept then some ⟨true, alpha, n, ee1, false, false, d, tr1⟩
      else if inWd = true then some ⟨false, alpha, n, ee1, false, false, d, tr1⟩
      else if expectInf = true ∧ 5 ≤ countShort then some ⟨false, alpha, n, ee1, false, false, d, tr1⟩
      else
        match (if ee1 = false ∧ alpha = alphaMax ∧ e.thetaWorse it d alpha = true then e.soc it d alpha else none) with
        | some (a', d') => some ⟨true, a', n, ee1, false, true, d', tr1⟩
        | none => btLoop p e inWd expectInf countShort it d alphaMax alphaMin fuel (p.red alpha) (n + 1) ee1 tr1
    else some ⟨false, alpha, n, ee, false, false, d, tr⟩

/-- `DoBacktrackingLineSearch` (IpBacktrackingLineSearch.cpp:669-843). -/
def doBT (p : Par K) (e : Env I D K) (fuel : Nat) (inWd expectInf : Bool) (countShort : Nat) (skipFirst : Bool) (nSteps : Nat) (it : I) (d : D) :
    Option (BTRes D K) :=
  let aMax := e.alphaMax it d
  let aMin := if inWd = true then aMax else e.alphaMin it d
  match (if skipFirst = true then none else e.corrector it d) with
  | some (a', d') => some ⟨true, a', nSteps, false, true, false, d', []⟩
  | none =>
    btLoop p e inWd expectInf countShort it d aMax aMin fuel (if skipFirst = true then p.red aMax else aMax) nSteps false []

/-- The data members (IpBacktrackingLineSearch.hpp) and the parts of `IpoptData` used: current iterate, search direction, tiny step flag. -/
structure State (I D K : Type) where
  lastMu : Option K
  inWd : Bool
  wdIterate : Option I
  wdDelta : Option D
  wdTrialIter : Nat
  wdShort : Nat
  countShort : Nat
  inSoft : Bool
  softCounter : Nat
  fallback : Bool
  startWithResto : Bool
  expectInf : Bool
  tinyLast : Bool
  skipped : Bool
  accIterate : Option I
  curr : I
  delta : D
  tinyFlag : Bool

/-- How the trial point handed to the algorithm was obtained. -/
inductive Kind (D K : Type) where
  /-- `curr + alpha * delta` with the given direction, primal and dual -/
  | step (alpha : K) (delta : D)
  | tiny (alpha : K)
  /-- soft restoration step, primal and dual variables with one step size -/
  | soft
  /-- soft restoration step accepted by the original criterion while already in the soft restoration phase: the dual variables are then
  recomputed by `PerformDualStep` with the given (stale) primal step size -/
  | softDual (alpha : K)
  | resto
  | none
deriving DecidableEq, Repr

/-- Exceptions thrown. -/
inductive Exc where
  | acceptablePointReached
  | stepComputationFailed
  | restorationFailed
  | noRestoration
deriving DecidableEq, Repr

/-- Result of the call; a thrown exception leaves a state. `hang`: the backtracking loop does not end within the fuel. -/
inductive Out (I D K : Type) where
  | ok (s : State I D K) (k : Kind D K)
  | throw (s : State I D K) (x : Exc)
  | hang

/-- `StartWatchDog` (IpBacktrackingLineSearch.cpp:845-859). -/
def startWd (s : State I D K) : State I D K :=
  { s with inWd := true, wdIterate := some s.curr, wdDelta := some s.delta, wdTrialIter := 0 }

/-- `StopWatchDog` (IpBacktrackingLineSearch.cpp:861-888): the stored iterate becomes the current one again; the search direction to be used is the
stored one. -/
def stopWd (s : State I D K) : State I D K × D :=
  ({ s with inWd := false, curr := s.wdIterate.getD s.curr, wdIterate := none, wdDelta := none, wdShort := 0 }, s.wdDelta.getD s.delta)

/-- The loop around the backtracking line search with the watchdog (IpBacktrackingLineSearch.cpp:456-501): at most two passes, because the
second one is made with the watchdog stopped. Returns the state, the direction, and the result with the final `accept`. -/
def wdLoop (p : Par K) (e : Env I D K) (fuel : Nat) (s : State I D K) (d : D) : Option (State I D K × BTRes D K) :=
  match doBT p e fuel s.inWd s.expectInf s.countShort false 0 s.curr d with
  | none => none
  | some r =>
    if s.inWd = true then
      if r.accept = true then some ({ s with inWd := false }, r)
      else
        let s1 := { s with wdTrialIter := s.wdTrialIter + 1 }
        if r.evalErr = true ∨ p.wdMax < s1.wdTrialIter then
          let (s2, d2) := stopWd s1
          match doBT p e fuel s2.inWd s2.expectInf s2.countShort true r.nSteps s2.curr d2 with
          | none => none
          | some r2 => some (s2, r2)
        else some (s1, { r with accept := true })
    else some (s, r)

/-- The end of the call when a restoration phase is required (IpBacktrackingLineSearch.cpp:553-622). -/
def goResto (e : Env I D K) (s : State I D K) : Out I D K :=
  let restore : State I D K := match s.accIterate with
    | some a => { s with curr := a }
    | none => s
  if e.currAcceptable s.curr = true then .throw s .acceptablePointReached
  else if e.hasResto = false then .throw s .noRestoration
  else if e.almostFeasible s.curr = true then
    if s.accIterate.isSome then .throw restore .acceptablePointReached else .throw s .stepComputationFailed
  else if e.restoOk = false then
    if s.accIterate.isSome then .throw restore .acceptablePointReached else .throw s .restorationFailed
  else .ok { s with countShort := 0, expectInf := false, inSoft := false, softCounter := 0, wdShort := 0 } .resto

/-- The end of the call (IpBacktrackingLineSearch.cpp:506-666). -/
def finish (p : Par K) (e : Env I D K) (s : State I D K) (d : D) (accept gotoResto tiny softStep : Bool) (alpha : K) (nSteps : Nat) : Out I D K :=
  if accept = false then
    if p.rigorous = false then .ok { s with skipped := true } .none
    else if s.inSoft = false ∧ gotoResto = false ∧ s.expectInf = false then
      match e.soft s.curr d with
      | some true => .ok s .soft
      | some false => .ok { s with inSoft := true } .soft
      | none => goResto e s
    else goResto e s
  else if s.inSoft = false ∨ tiny = true then
    let s1 : State I D K := if nSteps = 0 then { s with countShort := 0, wdShort := 0 } else { s with countShort := s.countShort + 1, wdShort := s.wdShort + 1 }
    let s2 : State I D K := if s1.expectInf = true ∧ e.ctolOk = true then { s1 with expectInf := false } else s1
    let s3 : State I D K := if e.restoredIterate = true then { s2 with inWd := false, wdIterate := none, wdDelta := none, countShort := 0, wdShort := 0 } else s2
    .ok s3 (if tiny = true then .tiny alpha else if softStep = true then .softDual alpha else .step alpha d)
  else .ok s .soft

/-- The beginning of the call (IpBacktrackingLineSearch.cpp:259-289): a changed barrier parameter ends the watchdog, an acceptable iterate is stored,
`skipped_line_search_` is cleared. -/
def begin (e : Env I D K) (s : State I D K) : State I D K :=
  let s1 : State I D K :=
    if s.lastMu = some e.mu then s
    else { s with inWd := false, wdIterate := none, wdDelta := none, wdShort := 0, lastMu := some e.mu }
  let s2 : State I D K := if e.currAcceptable s1.curr = true then { s1 with accIterate := some s1.curr } else s1
  { s2 with skipped := false }

/-- The state and flags with which the line search proper starts: direction, `goto_resto`, a tiny step was detected, it is usable. -/
structure Prep (I D K : Type) where
  s : State I D K
  d : D
  g : Bool
  tiny1 : Bool
  tiny : Bool

/-- Start with the restoration phase, tiny steps, stopping and starting the watchdog (IpBacktrackingLineSearch.cpp:332-426), with `goto_resto` so far. -/
def prep (p : Par K) (e : Env I D K) (s : State I D K) (gotoResto : Bool) : Prep I D K :=
  let g1 := gotoResto || s.startWithResto
  let s1 := { s with startWithResto := false }
  let g2 := g1 || (s1.expectInf && e.hasResto && e.yLarge)
  let tiny0 := !g2 && e.tiny
  -- stop the watchdog if the step is tiny or could not be computed
  let stop := s1.inWd && (g2 || tiny0)
  let sd : State I D K × D := if stop then stopWd s1 else (s1, s1.delta)
  let g := if stop then false else g2
  let tiny1 := if stop then false else tiny0
  let s2 := sd.1
  -- wake up the watchdog
  let s3 := if 0 < p.trigger ∧ s2.inWd = false ∧ g = false ∧ tiny1 = false ∧ s2.inSoft = false ∧ s2.expectInf = false ∧ p.trigger ≤ s2.wdShort
    then startWd s2 else s2
  -- tiny step
  let tiny := tiny1 && e.tinyEvalOk
  { s := { s3 with tinyFlag := if tiny && s3.tinyLast then true else s3.tinyFlag, tinyLast := tiny1 && e.dySmall }
    d := sd.2, g := g, tiny1 := tiny1, tiny := tiny }

/-- The middle part (IpBacktrackingLineSearch.cpp:427-505). -/
def search (p : Par K) (e : Env I D K) (fuel : Nat) (q : Prep I D K) (zero : K) : Out I D K :=
  if q.g = false ∧ q.tiny = false then
    if q.s.inSoft = true then
      let s5 := { q.s with softCounter := q.s.softCounter + 1 }
      if p.maxSoft < s5.softCounter then finish p e s5 q.d false q.g q.tiny false zero 0
      else
        match e.soft s5.curr q.d with
        | none => finish p e s5 q.d false q.g q.tiny false zero 0
        | some orig =>
          finish p e { s5 with inSoft := !orig, softCounter := if orig = true then 0 else s5.softCounter } q.d true q.g q.tiny true zero 0
    else
      match wdLoop p e fuel q.s q.d with
      | none => .hang
      | some (s5, r) => finish p e s5 r.delta r.accept q.g q.tiny false r.alpha r.nSteps
  else
    finish p e q.s q.d q.tiny1 q.g q.tiny false (if q.tiny1 then e.alphaTiny else zero) 0

/-- From line 332 to the end. -/
def middle (p : Par K) (e : Env I D K) (fuel : Nat) (s : State I D K) (gotoResto : Bool) (zero : K) : Out I D K :=
  search p e fuel (prep p e s gotoResto) zero

/-- `FindAcceptableTrialPoint` (IpBacktrackingLineSearch.cpp:252-667). `zero` is the initial value of `alpha_primal`. -/
def findTrial (p : Par K) (e : Env I D K) (fuel : Nat) (zero : K) (s : State I D K) : Out I D K :=
  let s1 := begin e s
  if s1.fallback = true then
    if e.hasResto = true then middle p e fuel { s1 with fallback := false } true zero
    else if e.doFallback = true then
      .ok { s1 with inWd := false, wdIterate := none, wdDelta := none, countShort := 0, wdShort := 0, fallback := false } .none
    else .throw s1 .stepComputationFailed
  else middle p e fuel s1 false zero

/-- `Reset` (IpBacktrackingLineSearch.cpp:900-907), called by the barrier parameter updates. -/
def reset (s : State I D K) : State I D K := { s with inSoft := false, softCounter := 0 }

/-- `StopWatchDog()` without argument (IpBacktrackingLineSearch.cpp:890-898). -/
def stopWatchDog (s : State I D K) : State I D K := if s.inWd = true then (stopWd s).1 else s

/-- `ActivateFallbackMechanism` (IpBacktrackingLineSearch.cpp:1305-1321) for a problem with constraints. -/
def activateFallback (s : State I D K) : State I D K := { s with fallback := true }

/-- What happens between two calls: the trial point is accepted and a new direction computed
(`IpoptData::AcceptTrialPoint`, `ComputeSearchDirection`), and the public functions above. -/
inductive Ev (I D K : Type) where
  | call (e : Env I D K) (fuel : Nat) (zero : K)
  | next (it : I) (d : D)
  | reset
  | stopWatchDog
  | fallback

/-- One event; `none`: an exception was thrown or the call does not end. -/
def step (p : Par K) (s : State I D K) : Ev I D K → Option (State I D K)
  | .call e fuel zero => match findTrial p e fuel zero s with
    | .ok s' _ => some s'
    | .throw _ _ => none
    | .hang => none
  | .next it d => some { s with curr := it, delta := d, tinyFlag := false }
  | .reset => some (reset s)
  | .stopWatchDog => some (stopWatchDog s)
  | .fallback => some (activateFallback s)

/-- `InitializeImpl` (IpBacktrackingLineSearch.cpp:233-248); `in_watchdog_` is cleared in the constructor / by the first call, since `last_mu_ = -1`
differs from every barrier parameter. -/
def init (it : I) (d : D) (swr ei : Bool) : State I D K :=
  { lastMu := none, inWd := false, wdIterate := none, wdDelta := none, wdTrialIter := 0, wdShort := 0, countShort := 0, inSoft := false,
    softCounter := 0, fallback := false, startWithResto := swr, expectInf := ei, tinyLast := false, skipped := false, accIterate := none,
    curr := it, delta := d, tinyFlag := false }

end Verif.LineSearch
