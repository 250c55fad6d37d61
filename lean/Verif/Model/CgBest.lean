import Mathlib.Algebra.Order.Field.Basic

/-! # Model of the best iterate and the penalty parameter of the Chen-Goldfarb method

`/repo/src/contrib/CGPenalty/IpCGPenaltyLSAcceptor.cpp` (`line_search_method=cg-penalty`): `CurrentIsBest`, `StoreBestPoint`, `RestoreBestPoint`,
`RestoredIterate`, `DoFallback`, `UpdatePenaltyParameter`, and the parts of `InitializeImpl`, `InitThisLineSearch`, `Reset`,
`UpdateForNextIteration` for these.  Iterates are abstract; norms, scalar products, the unscaled KKT error and the test for diverging
multipliers are arguments.  Acceptance tests are in the model Piecewise. -/

namespace Verif.CgBest

variable {K : Type} [Field K] [LinearOrder K]

/-- `pen_curr_mu_`, `best_KKT_error_`, `best_iterate_`, `restor_counter_`, `never_try_pure_Newton_`. -/
structure St (α K : Type) where
  penMu : K
  err : K
  best : Option α
  counter : Nat
  never : Bool

variable {α : Type}

/-- `InitializeImpl` (IpCGPenaltyLSAcceptor.cpp:209-215) and `CGPenaltyData::Initialize` (IpCGPenaltyData.cpp:34-36).  `best_iterate_` is kept. -/
def St.init (mu : K) (s : St α K) : St α K := ⟨mu, -1, s.best, 0, false⟩

/-- `InitThisLineSearch` with `Reset` (IpCGPenaltyLSAcceptor.cpp:233-242, 448-454); `r`: the iterate was restored. -/
def St.initLineSearch (mu : K) (r : Bool) (s : St α K) : St α K :=
  let s := if r then { s with penMu := mu } else s
  if mu < s.penMu then { s with penMu := mu } else s

/-- `CurrentIsBest` and `StoreBestPoint` (IpCGPenaltyLSAcceptor.cpp:634-662). -/
def St.store (it : α) (e : K) (s : St α K) : St α K :=
  if e < s.err ∨ s.err < 0 then { s with err := e, best := some it } else s

/-- `UpdateForNextIteration` (IpCGPenaltyLSAcceptor.cpp:572-582). -/
def St.update (mu : K) (it : α) (e : K) (s : St α K) : St α K :=
  (if mu < s.penMu then { s with penMu := mu, err := -1 } else s).store it e

/-- `RestoredIterate` with `RestoreBestPoint` (IpCGPenaltyLSAcceptor.cpp:599-627, 664-676); `div`: `MultipliersDiverged`.  The result is the
new trial point, if any. -/
def St.restored (div : Bool) (s : St α K) : Option α × St α K :=
  if s.counter < 3 then
    if div then
      match s.best with
      | some b => (some b, { s with counter := s.counter + 1, never := true })
      | none => (none, s)
    else (none, s)
  else (none, s)

/-- `DoFallback` (IpCGPenaltyLSAcceptor.cpp:882-897). -/
def St.fallback (s : St α K) : Option α × St α K :=
  match s.best with
  | some b => (some b, { s with never := true })
  | none => (none, s)

/-- options (IpCGPenaltyLSAcceptor.cpp:178-199). -/
structure PCfg (K : Type) where
  etaMin : K
  chiHat : K
  chiTilde : K
  chiCup : K
  gHat : K
  gTilde : K
  epsC : K
  penMax : K
  infTol : K
  complTol : K
  neverPw : Bool

/-- numbers used in `UpdatePenaltyParameter`: infeasibility of the trial point, error, length of the step, barrier parameter, all
complementarities, the two `omega_test`, `y_full_step_max`, infeasibility, `scaled_y_Amax`, are there constraints, `result`, `nrm2_y`,
`NeverTryPureNewton`. -/
structure PIn (K : Type) where
  trialInf : K
  nlpErr : K
  maxStep : K
  mu : K
  compl : List K
  omegaC : K
  omegaD : K
  yFull : K
  currInf : K
  yAmax : K
  hasDual : Bool
  result : K
  nrmY : K
  never : Bool

/-- `curr_eta_`, `curr_kkt_penalty_`, `curr_penalty_`, the two counters. -/
structure PSt (K : Type) where
  eta : K
  kkt : K
  pen : K
  c1 : Nat
  c2 : Nat

/-- initialization of the tolerance (IpCGPenaltyLSAcceptor.cpp:719-723). -/
def PSt.initEta (c : PCfg K) (i : PIn K) (s : PSt K) : PSt K :=
  if s.eta < 0 then { s with eta := max c.etaMin (min c.gTilde (c.gHat * i.nlpErr)) } else s

/-- `min_compl`, `max_compl` (IpCGPenaltyLSAcceptor.cpp:749-774). -/
def PIn.minCompl (i : PIn K) : K := i.compl.foldl min i.mu
@[inherit_doc PIn.minCompl] def PIn.maxCompl (i : PIn K) : K := i.compl.foldl max i.mu

/-- is the penalty parameter to be increased? (IpCGPenaltyLSAcceptor.cpp:727-807) -/
def PSt.increase (c : PCfg K) (i : PIn K) (s : PSt K) : Bool :=
  decide (c.infTol ≤ i.trialInf) && decide (i.maxStep ≤ s.eta) &&
    (decide (i.mu * c.complTol ≤ i.minCompl) && decide (i.maxCompl ≤ i.mu / c.complTol)) && decide (i.omegaC < s.eta) && decide (i.omegaD < s.eta)

/-- `Set_kkt_penalty`, and `Set_penalty` if pure Newton steps are not tried (IpCGPenaltyLSAcceptor.cpp:838-842, 867-871). -/
def PSt.set (i : PIn K) (p : K) (s : PSt K) : PSt K := { s with kkt := p, pen := if i.never then p else s.pen }

/-- value of the first update (IpCGPenaltyLSAcceptor.cpp:823-832). -/
def PSt.newPen (c : PCfg K) (i : PIn K) (s : PSt K) : K :=
  if c.epsC ≤ i.currInf then max (c.chiHat * s.kkt) (i.yFull + 1) else max (c.chiTilde * s.kkt) (c.chiCup * i.yFull)

/-- first update (IpCGPenaltyLSAcceptor.cpp:808-843); `none` is the exception. -/
def PSt.first (c : PCfg K) (i : PIn K) (s : PSt K) : Option (PSt K) :=
  if s.increase c i then
    if c.penMax < s.newPen c i then none
    else some (PSt.set i (s.newPen c i) { s with c1 := s.c1 + 1, eta := max c.etaMin (s.eta / 2) })
  else some s

/-- second, heuristic update (IpCGPenaltyLSAcceptor.cpp:845-879). -/
def PSt.second (c : PCfg K) (i : PIn K) (s : PSt K) : PSt K :=
  if i.hasDual && !c.neverPw then
    if i.yAmax ≤ 10000 ∨ s.c2 < 5 then
      if 1 / 2 * s.kkt * i.currInf < i.result ∨ i.result < -(1 / 2) * s.kkt * i.currInf then
        let s := s.set i (5 * i.nrmY)
        if 10000 < i.yAmax then { s with c2 := s.c2 + 1 } else s
      else s
    else s
  else s

/-- `UpdatePenaltyParameter` (IpCGPenaltyLSAcceptor.cpp:710-880). -/
def PSt.update (c : PCfg K) (i : PIn K) (s : PSt K) : Option (PSt K) :=
  ((s.initEta c i).first c i).map (fun s => s.second c i)

end Verif.CgBest
