import Verif.Model.VecOps

/-! # Safeguards for bound multipliers and slacks

Models `IpoptAlgorithm::correct_bound_multiplier` and its use in `AcceptTrialPoint` (src/Algorithm/IpIpoptAlg.cpp) and
`IpoptCalculatedQuantities::CalculateSafeSlack` with the slack getters (src/Algorithm/IpIpoptCalculatedQuantities.cpp). -/

namespace Verif.Safeguard

open Verif.VecOps

variable {K : Type} [Field K] [LinearOrder K] [IsStrictOrderedRing K]

/-- `correct_bound_multiplier` (IpIpoptAlg.cpp:1055-1137) with the barrier parameter already chosen; `compl` is the vector passed as
`trial_compl`. Returns the returned number and the new multipliers. -/
def correctBoundMultiplier (kappa mu : K) (z slack compl : List K) : K × List K :=
  if kappa < 1 ∨ z.length = 0 then (0, z)
  else if amax compl ≤ kappa * mu ∧ 1 / kappa * mu ≤ vmin compl then (0, z)
  else
    let oneOverS := slack.map (fun s => 1 / s)
    let step := zip2 (fun r a => kappa * mu * r + (-1) * a) oneOverS z
    let up := max 0 (-vmin step)
    let z1 := if 0 < up then zip2 (fun a d => a + d) z (step.map (fun d => min d 0)) else z
    let step2 := zip2 (fun r a => 1 / kappa * mu * r + (-1) * a) oneOverS z1
    let low := max 0 (vmax step2)
    let z2 := if 0 < low then zip2 (fun a d => a + d) z1 (step2.map (fun d => max d 0)) else z1
    (max up low, z2)

/-- `trial_avrg_compl` (IpIpoptCalculatedQuantities.cpp:3607-3665): the average of all complementarity products. -/
def avrgCompl (zL zU vL vU sxL sxU ssL ssU : List K) : K :=
  if 0 < zL.length + zU.length + vL.length + vU.length then
    (dot zL sxL + dot zU sxU + dot vL ssL + dot vU ssU) / ((zL.length + zU.length + vL.length + vU.length : Nat) : K)
  else 0

/-- The barrier parameter used (IpIpoptAlg.cpp:1071-1083). -/
def safeguardMu (free : Bool) (avrg curMu : K) : K := if free then min avrg 1000 else curMu

/-- The part of `AcceptTrialPoint` that corrects the four multiplier vectors (IpIpoptAlg.cpp:716-770); the result is the new
multipliers and whether any correction was made. -/
def acceptBoundMult (kappa : K) (free : Bool) (curMu : K) (zL zU vL vU sxL sxU ssL ssU : List K) :
    (List K × List K × List K × List K) × Bool :=
  let mu := safeguardMu free (avrgCompl zL zU vL vU sxL sxU ssL ssU) curMu
  let one := fun (z s : List K) => correctBoundMultiplier kappa mu z s (zip2 (· * ·) z s)
  let a := one zL sxL
  let b := one zU sxU
  let c := one vL ssL
  let d := one vU ssU
  ((a.2, b.2, c.2, d.2), decide (0 < a.1) || decide (0 < b.1) || decide (0 < c.1) || decide (0 < d.1))

/-- A nonnegative quotient that may be +infinity: the value of `mu / multiplier` when the multiplier is zero. -/
inductive Ext (K : Type) where
  | fin (a : K)
  | inf
deriving DecidableEq, Repr

/-- One element of `t2->Set(mu); t2->ElementWiseDivide(multiplier)` (IpIpoptCalculatedQuantities.cpp:505-506) for `mu > 0`; a zero
multiplier gives +infinity (a negative zero is not modelled). -/
def divExt (mu m : K) : Ext K := if m = 0 then .inf else .fin (mu / m)

/-- `ElementWiseMax` with a finite element. -/
def Ext.maxF : Ext K → K → Ext K
  | .fin a, b => .fin (max a b)
  | .inf, _ => .inf

/-- `Axpy(alpha, ...)`/adding a finite element. -/
def Ext.addF : Ext K → K → Ext K
  | .fin a, b => .fin (a + b)
  | .inf, _ => .inf

/-- `ElementWiseMin` with a finite element. -/
def Ext.minF : Ext K → K → K
  | .fin a, b => min a b
  | .inf, b => b

/-- One element of `ElementWiseSelect` (IpDenseVector.cpp ElementWiseSelectImpl): the element of the argument if the flag is nonzero,
otherwise zero. -/
def selectExt (t : K) (x : Ext K) : Ext K := if t = 0 then .fin 0 else x

/-- One element of the corrected slack (IpIpoptCalculatedQuantities.cpp:482-531), with `t` the flag computed before and `slack` already
replaced by `max(slack, 0)`. -/
def newSlackElem (mu slackMove sMin t slack bound mult : K) : K :=
  let t2 := ((divExt mu mult).maxF sMin).addF (-slack)
  let t' := (selectExt t t2).addF slack
  let tMax := slackMove * max 1 |bound| + slack
  t'.minF tMax

/-- The flag vector (IpIpoptCalculatedQuantities.cpp:483-491): one where `slack < s_min`, otherwise zero. -/
def tooSmall (sMin slack : K) : K := (-1) * min (sgn (slack + (-sMin))) 0

/-- `s_min` (IpIpoptCalculatedQuantities.cpp:469-476); `eps` and `tiny` are the machine constants `epsilon()` and `min()`. -/
def sMinOf (eps tiny mu : K) : K := if eps * min 1 mu = 0 then tiny else eps * min 1 mu

/-- `CalculateSafeSlack` (IpIpoptCalculatedQuantities.cpp:455-537): the returned number (as the field element `Asum`) and the slacks. -/
def calculateSafeSlack (eps tiny slackMove mu : K) (slack bound mult : List K) : K × List K :=
  if 0 < slack.length then
    let sMin := sMinOf eps tiny mu
    if vmin slack < sMin then
      let t := slack.map (tooSmall sMin)
      let s0 := slack.map (fun a => max a 0)
      (asum t,
        List.zipWith (fun (ts : K × K) (bm : K × K) => newSlackElem mu slackMove sMin ts.1 ts.2 bm.1 bm.2) (t.zip s0) (bound.zip mult))
    else (0, slack)
  else (0, slack)

/-- The state behind `trial_slack_x_L`: the counter of adjusted slacks and the one-entry cache, keyed by the tag of `x`. -/
structure SlackState (K : Type) where
  numAdjusted : K
  cache : Option (Nat × List K)

/-- `trial_slack_x_L` (IpIpoptCalculatedQuantities.cpp:358-378), without the second look into the cache for the current iterate: the counter is set to
zero first, and to the number of corrections only if the slack is computed. `raw` is the uncorrected slack. -/
def trialSlack (eps tiny slackMove mu : K) (tag : Nat) (raw bound mult : List K) (s : SlackState K) : SlackState K × List K :=
  match s.cache with
  | some (t, r) =>
    if t = tag then (⟨0, some (t, r)⟩, r)
    else
      let c := calculateSafeSlack eps tiny slackMove mu raw bound mult
      (⟨c.1, some (tag, c.2)⟩, c.2)
  | none =>
    let c := calculateSafeSlack eps tiny slackMove mu raw bound mult
    (⟨c.1, some (tag, c.2)⟩, c.2)

end Verif.Safeguard
