import Mathlib.Algebra.Order.Field.Basic

/-! # The piecewise linear penalty function of the Chen-Goldfarb line search (`line_search_method=cg-penalty`)

src/contrib/CGPenalty/IpPiecewisePenalty.{hpp,cpp} (all of it but `Print` and the unused `dim_`, `min_piece_penalty_`), and from
src/contrib/CGPenalty/IpCGPenaltyLSAcceptor.cpp: `InitThisLineSearch`, `CheckAcceptabilityOfTrialPoint`, `IsAcceptableToPiecewisePenalty`, `ArmijoHolds`, `Compare_le`, `Reset`,
`UpdateForNextIteration` (the update of the piecewise penalty; not: the best point, the penalty parameter of the regular penalty function), watchdog values.
Arithmetic is exact. -/

namespace Verif.Piecewise

variable {K : Type} [Field K] [LinearOrder K]

/-- `PiecewisePenEntry` (IpPiecewisePenalty.hpp:23-28): from the penalty parameter `r` on, `b + r v` (barrier function plus penalty times infeasibility) is the value. -/
@[ext] structure Entry (K : Type) where
  r : K
  b : K
  v : K
deriving DecidableEq

/-- `AddEntry` (IpPiecewisePenalty.hpp:86-104), also `InitPiecewisePenaltyList` (:59-65). -/
def addEntry (l : List (Entry K)) (r b v : K) : List (Entry K) := l ++ [⟨if l.isEmpty then 0 else r, b, v⟩]

/-- `Gzi1` for the entry `e` (IpPiecewisePenalty.cpp:140). -/
def G (b v : K) (e : Entry K) : K := b + e.r * (v - e.v) - e.b

/-- `Gzi2` for the entry `e` (IpPiecewisePenalty.cpp:143-152): at the next breakpoint, or the slope after the last one. -/
def nextG (b v : K) (e : Entry K) : List (Entry K) → K
  | e2 :: _ => G b v e2
  | [] => v - e.v

/-- the loop of `UpdateEntry` (IpPiecewisePenalty.cpp:141-190): `todo` is the rest of `TmpList`, `acc` is `PiecewisePenalty_list_`. -/
def updateLoop (b v : K) : List (Entry K) → K → K → List (Entry K) → List (Entry K)
  | [], _, _, acc => acc
  | e :: rest, g1, tmp, acc =>
    let g2 := nextG b v e rest
    let (tmp, acc) :=
      if g1 < 0 ∧ 0 ≤ g2 then
        let acc := if acc.isEmpty then addEntry acc tmp b v else acc
        if 0 < g2 then ((e.b - b) / (v - e.v), addEntry acc ((e.b - b) / (v - e.v)) e.b e.v) else (tmp, acc)
      else (tmp, acc)
    let (tmp, acc) :=
      if 0 ≤ g1 ∧ g2 < 0 then
        let acc := if 0 < g1 then addEntry acc e.r e.b e.v else acc
        ((e.b - b) / (v - e.v), addEntry acc ((e.b - b) / (v - e.v)) b v)
      else (tmp, acc)
    let acc := if 0 ≤ g1 ∧ 0 ≤ g2 then addEntry acc e.r e.b e.v else acc
    let acc := if rest.isEmpty ∧ g1 < 0 ∧ g2 < 0 ∧ acc.isEmpty then addEntry acc 0 b v else acc
    updateLoop b v rest g2 tmp acc

/-- `UpdateEntry` (IpPiecewisePenalty.cpp:122-192); `none`: empty list, dereference of `end()`. -/
def updateEntry (l : List (Entry K)) (b v : K) : Option (List (Entry K)) :=
  match l with
  | [] => none
  | e :: rest => some (updateLoop b v (e :: rest) (G b v e) 0 [])

/-- the expression `value` in `Acceptable` (IpPiecewisePenalty.cpp:48). -/
def gap (e : Entry K) (fc fl : K) : K := e.b + e.r * e.v - fc - e.r * fl

/-- `max_piece_number_` (IpPiecewisePenalty.cpp:24). -/
def maxPieces : Nat := 100

/-- the test at the end of `Acceptable` (IpPiecewisePenalty.cpp:91-106). -/
def acceptTest (l : List (Entry K)) (last : Entry K) (fc fl : K) : Bool :=
  l.any (fun e => decide (fc + e.r * (fl - e.v) - e.b < 0)) || decide (fl < last.v)

/-- `Acceptable` (IpPiecewisePenalty.cpp:28-107). `none`: undefined behaviour: for an empty list, and with at least 100 entries unless the first test returns, because
`end()--` is `end()`, which is dereferenced (:59-60). -/
def acceptable (l : List (Entry K)) (fc fl : K) : Option Bool :=
  match l.getLast? with
  | none => none
  | some last =>
    if maxPieces ≤ l.length then
      match l with
      | e0 :: e1 :: _ => if 0 ≤ gap e0 fc fl ∧ gap e1 fc fl ≤ 0 then some false else none
      | _ => none
    else some (acceptTest l last fc fl)

/-- `BiggestBarr` (IpPiecewisePenalty.cpp:109-120). -/
def biggestBarr (l : List (Entry K)) : K := (l.getLast?.map (·.b)).getD (-(10 ^ 20))

/-- `ResetList` (IpPiecewisePenalty.hpp:107-115); called nowhere. -/
def resetList (_l : List (Entry K)) (r b v : K) : List (Entry K) := addEntry [] r b v

section acceptor

/-- Options. -/
structure Cfg (K : Type) where
  never : Bool
  eta : K
  gObj : K
  gInf : K
  thetaMaxFact : K
  minAlpha : K
  thetaMin : K
  eps : K

/-- Members of `CGPenaltyLSAcceptor` that matter for the acceptance. -/
structure St (K : Type) where
  list : List (Entry K)
  reset : Bool
  byArmijo : Bool
  jump : Bool
  counter : Nat
  thetaMax : K
  mu : K
  refPen : K
  refTheta : K
  refDeriv : K
  wdPen : K
  wdDeriv : K

/-- What is read from `IpData`, `IpCq`, `CGPenData`, `CGPenCq` at the current iterate. -/
structure CurrObs (K : Type) where
  barr : K
  theta : K
  infMax : K
  mu : K
  pen : K
  deriv : K
  stepSq : K
  restored : Bool

/-- ... and at the trial point. -/
structure TrialObs (K : Type) where
  barr : K
  theta : K
  pen : K

/-- `Reset` (IpCGPenaltyLSAcceptor.cpp:447-454; `curr_eta_` is not modelled). -/
def reset (mu : K) (s : St K) : St K := { s with reset := true, thetaMax := -1, mu := mu }

/-- the part of `InitializeImpl` (IpCGPenaltyLSAcceptor.cpp:209-219) and `BacktrackingLineSearch::InitializeImpl` (:240, `Reset`). -/
def initImpl (mu : K) (s : St K) : St K := reset mu { s with thetaMax := -1, mu := mu, counter := 0, byArmijo := true, jump := false }

/-- `InitThisLineSearch` (IpCGPenaltyLSAcceptor.cpp:223-272); `o.deriv` is the directional derivative of the fast or the regular step. -/
def initThis (o : CurrObs K) (watchdog : Bool) (s : St K) : St K :=
  let s := { s with byArmijo := true, counter := 0 }
  let s := if o.restored then reset o.mu s else s
  let s := if o.mu < s.mu then reset o.mu s else s
  let s := if s.reset then { s with list := addEntry s.list 0 o.barr o.theta, reset := false } else s
  if watchdog then { s with refPen := s.wdPen, refDeriv := s.wdDeriv } else { s with refPen := o.pen, refTheta := o.theta, refDeriv := o.deriv }

/-- `Compare_le` (IpCGPenaltyLSAcceptor.cpp:417-428). -/
def compareLe (cfg : Cfg K) (lhs rhs bas : K) : Bool := decide (lhs - rhs ≤ 10 * cfg.eps * |bas|)

/-- `ArmijoHolds` (IpCGPenaltyLSAcceptor.cpp:391-416). -/
def armijo (cfg : Cfg K) (s : St K) (t : TrialObs K) (alpha : K) : Bool := compareLe cfg (t.pen - s.refPen) (cfg.eta * alpha * s.refDeriv) s.refPen

/-- `IsAcceptableToPiecewisePenalty` (IpCGPenaltyLSAcceptor.cpp:358-389). -/
def toPiecewise (cfg : Cfg K) (s : St K) (o : CurrObs K) (t : TrialObs K) (alpha : K) : Option Bool :=
  if o.infMax < cfg.thetaMin && !compareLe cfg (t.barr - biggestBarr s.list) (-alpha * cfg.gObj * o.stepSq) o.barr then some false
  else acceptable s.list (t.barr + alpha * cfg.gObj * o.stepSq) (t.theta + alpha * cfg.gInf * o.theta)

/-- `CheckAcceptabilityOfTrialPoint` (IpCGPenaltyLSAcceptor.cpp:274-349). -/
def check (cfg : Cfg K) (o : CurrObs K) (t : TrialObs K) (alpha : K) (s : St K) : Option (Bool × St K) :=
  let s := { s with counter := s.counter + 1 }
  if s.jump then some (true, reset o.mu { s with jump := false })
  else
    let s := if s.list.isEmpty then { s with list := addEntry s.list 0 o.barr o.theta } else s
    let s := if s.thetaMax < 0 then { s with thetaMax := cfg.thetaMaxFact * max 1 s.refTheta } else s
    if 0 < s.thetaMax ∧ s.thetaMax < t.theta then some (false, s)
    else
      (if !armijo cfg s t alpha && !cfg.never then
        (toPiecewise cfg s o t alpha).map fun a => (a, if a then { s with byArmijo := false } else s)
       else some (armijo cfg s t alpha, s)).map fun (accept, s) =>
        let accept := accept || decide (alpha < cfg.minAlpha)
        (accept, if accept then { s with jump := s.jump || (decide (15 < s.counter) && decide (alpha < 1 / 100000)), counter := 0 } else s)

/-- `UpdateForNextIteration` (IpCGPenaltyLSAcceptor.cpp:567-598). -/
def updateForNext (o : CurrObs K) (t : TrialObs K) (s : St K) : Option (St K) :=
  let s := if o.mu < s.mu then { s with mu := o.mu } else s
  if !s.byArmijo then (updateEntry s.list t.barr t.theta).map fun l => { s with list := l } else some s

end acceptor

end Verif.Piecewise
