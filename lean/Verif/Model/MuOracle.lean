import Verif.Model.VecOps
import Verif.Model.Safeguard
import Verif.Model.AdaptiveMu

/-! # Model of the oracles for the barrier parameter

`LoqoMuOracle`, `ProbingMuOracle` and `QualityFunctionMuOracle` (src/Algorithm/Ip*MuOracle.cpp) and the quantities they use
(`CalcCentralityMeasure`, `..._frac_to_the_bound` of src/Algorithm/IpIpoptCalculatedQuantities.cpp).

Exact arithmetic over an ordered field.  Vectors are lists; the bound selection matrices are lists of positions.  The linear solver is an
arbitrary function that may fail; `sqrt` and `log` stand for the library functions.  Journal output, timing and the info string are not
modelled. -/

namespace Verif.MuOracle

open Verif.VecOps
open Verif.AdaptiveMu (NormT Cen)

variable {K : Type} [Field K] [LinearOrder K] [IsStrictOrderedRing K]

/-- Four vectors, one for each kind of bound. -/
structure Four (K : Type) where
  xL : List K
  xU : List K
  sL : List K
  sU : List K
  deriving DecidableEq, Repr

/-- A vector of the shape of the iterates (`IteratesVector`): `z` holds the components `z_L`, `z_U`, `v_L`, `v_U`. -/
structure Step (K : Type) where
  x : List K
  s : List K
  yc : List K
  yd : List K
  z : Four K
  deriving DecidableEq, Repr

/-- The current iterate as the oracles see it: slacks, bound multipliers, gradient of the Lagrangian, constraint values, the damping gradient
`grad_kappa_times_damping` and the selection matrices `Px_L`, `Px_U`, `Pd_L`, `Pd_U`. -/
structure Iter (K : Type) where
  slack : Four K
  mult : Four K
  gradLagX : List K
  gradLagS : List K
  c : List K
  dMinusS : List K
  dampX : List K
  dampS : List K
  pxL : List Nat
  pxU : List Nat
  pdL : List Nat
  pdU : List Nat

/-- The options of the oracles (IpQualityFunctionMuOracle.cpp:129-152, IpProbingMuOracle.cpp:37-45) and the current `tau`. -/
structure Par (K : Type) where
  sigmaMax : K
  sigmaMin : K
  norm : NormT
  cen : Cen
  balancing : Bool
  maxSteps : Nat
  sigmaTol : K
  qfTol : K
  tau : K
  sqrt : K → K
  log : K → K
  gfac : K

/-- `curr_avrg_compl` (IpIpoptCalculatedQuantities.cpp:3546-3605; same formula as `trial_avrg_compl`, see `Safeguard.avrgCompl`). -/
def avrgCompl (it : Iter K) : K :=
  Safeguard.avrgCompl it.mult.xL it.mult.xU it.mult.sL it.mult.sU it.slack.xL it.slack.xU it.slack.sL it.slack.sU

/-- `TransMultVector` of a selection matrix with factor one and `beta = 0` (IpExpansionMatrix.cpp, see C28). -/
def sel (idx : List Nat) (v : List K) : List K := idx.map fun i => v.getD i 0

/-- Componentwise `slack * multiplier` (`curr_compl_x_L` and the like, `ElementWiseMultiply`). -/
def compl (a b : Four K) : Four K :=
  ⟨zip2 (· * ·) a.xL b.xL, zip2 (· * ·) a.xU b.xU, zip2 (· * ·) a.sL b.sL, zip2 (· * ·) a.sU b.sU⟩

/-- `AddTwoVectors(1., a, t, b, 0.)` for each component. -/
def addScaled (a : Four K) (t : K) (b : Four K) : Four K :=
  ⟨zip2 (fun u v => u + t * v) a.xL b.xL, zip2 (fun u v => u + t * v) a.xU b.xU,
   zip2 (fun u v => u + t * v) a.sL b.sL, zip2 (fun u v => u + t * v) a.sU b.sU⟩

/-- `CalcCentralityMeasure` (IpIpoptCalculatedQuantities.cpp:2955-3015).  The largest number, with which the minimum starts, is replaced by
"no bound seen". -/
def centrality (c : Four K) : K :=
  let step (m : Option K) (v : List K) : Option K :=
    if v.length > 0 then (match m with
      | none => some (vmin v)
      | some a => some (min a (vmin v)))
    else m
  match step (step (step (step none c.xL) c.xU) c.sL) c.sU with
  | none => 0
  | some m =>
    let avrg := (asum c.xL + asum c.xU + asum c.sL + asum c.sU) / ((c.xL.length + c.xU.length + c.sL.length + c.sU.length : Nat) : K)
    min 1 (m / avrg)

/-- `FracToBound` (IpDenseVector.cpp:1325-1389; see `DenseVector.DV.fracToBound`, C27). -/
def frac (tau : K) (v d : List K) : K :=
  (List.zip v d).foldl (fun al p => if p.2 < 0 then min al (-tau / p.2 * p.1) else al) 1

/-- `uncached_slack_frac_to_the_bound` / `uncached_dual_frac_to_the_bound` (IpIpoptCalculatedQuantities.cpp:3400-3418, 3472-3495). -/
def frac4 (tau : K) (v d : Four K) : K := min (min (min (frac tau v.xL d.xL) (frac tau v.xU d.xU)) (frac tau v.sL d.sL)) (frac tau v.sU d.sU)

/-- The changes of the slacks for a step (`Px_L^T x`, `-Px_U^T x`, `Pd_L^T s`, `-Pd_U^T s`; IpQualityFunctionMuOracle.cpp:307-324 and the
products inside `CalcFracToBound`, IpIpoptCalculatedQuantities.cpp:3319-3355). -/
def slackStep (it : Iter K) (d : Step K) : Four K :=
  ⟨sel it.pxL d.x, (sel it.pxU d.x).map (fun a => -a), sel it.pdL d.s, (sel it.pdU d.s).map (fun a => -a)⟩

/-! ## LOQO rule -/

/-- `LoqoMuOracle::CalculateMu` (IpLoqoMuOracle.cpp:33-68); always succeeds. -/
def loqo (it : Iter K) (mu_min mu_max : K) : K :=
  let avrg := avrgCompl it
  let xi := centrality (compl it.slack it.mult)
  let sigma := 1 / 10 * (min (5 / 100 * (1 - xi) / xi) 2) ^ 3
  let mu := sigma * avrg
  max (min mu_max mu) mu_min

/-! ## Probing heuristic (Mehrotra) -/

/-- The right-hand side for the affine step (IpProbingMuOracle.cpp:63-73, IpQualityFunctionMuOracle.cpp:192-201). -/
def rhsAff (it : Iter K) : Step K := ⟨it.gradLagX, it.gradLagS, it.c, it.dMinusS, compl it.slack it.mult⟩

/-- `CalculateAffineMu` (IpProbingMuOracle.cpp:143-237); the caller guarantees that there are bounds. -/
def affineMu (it : Iter K) (ap ad : K) (d : Step K) : K :=
  let one (n : Nat) (slack ds z dz : List K) (sum : K) : K :=
    if n > 0 then sum + dot (zip2 (fun u v => u + ap * v) slack ds) (zip2 (fun u v => u + ad * v) z dz) else sum
  let ds := slackStep it d
  let s1 := one it.slack.xL.length it.slack.xL ds.xL it.mult.xL d.z.xL 0
  let s2 := one it.slack.xU.length it.slack.xU ds.xU it.mult.xU d.z.xU s1
  let s3 := one it.slack.sL.length it.slack.sL ds.sL it.mult.sL d.z.sL s2
  let s4 := one it.slack.sU.length it.slack.sU ds.sU it.mult.sU d.z.sU s3
  s4 / ((it.slack.xL.length + it.slack.xU.length + it.slack.sL.length + it.slack.sU.length : Nat) : K)

/-- What a successful call delivers: the parameter, the affine step stored in `IpData` and, for the quality function, the stored search
direction. -/
structure Answer (K : Type) where
  mu : K
  sigma : K
  deltaAff : Step K
  delta : Option (Step K)
  deriving DecidableEq, Repr

/-- `ProbingMuOracle::CalculateMu` (IpProbingMuOracle.cpp:47-141); `solve alpha rhs` is `pd_solver_->Solve(alpha, 0., rhs, ...)`. -/
def probing (p : Par K) (it : Iter K) (solve : K → Step K → Option (Step K)) (mu_min mu_max : K) : Option (Answer K) :=
  match solve (-1) (rhsAff it) with
  | none => none
  | some step =>
    let ap := frac4 1 it.slack (slackStep it step)
    let ad := frac4 1 it.mult step.z
    let mu_aff := affineMu it ap ad step
    let mu_curr := avrgCompl it
    let sigma := min ((mu_aff / mu_curr) ^ 3) p.sigmaMax
    let mu := sigma * mu_curr
    some ⟨max (min mu mu_max) mu_min, sigma, step, none⟩

/-! ## Quality function -/

/-- `Nrm2()` squared of a vector (`std::pow(v.Nrm2(), 2)`). -/
def sq (v : List K) : K := dot v v

/-- The terms of the quality function (IpQualityFunctionMuOracle.cpp:566-621): dual and primal infeasibility predicted for the step sizes, and
the complementarity `cc` after the step. -/
def qfTerms (p : Par K) (it : Iter K) (ap ad : K) (cc : Four K) : K × K × K :=
  let n_dual : K := ((it.gradLagX.length + it.gradLagS.length : Nat) : K)
  let n_pri := it.c.length + it.dMinusS.length
  let n_comp : K := ((it.mult.xL.length + it.mult.xU.length + it.mult.sL.length + it.mult.sU.length : Nat) : K)
  match p.norm with
  | .one =>
    let pi := (1 - ap) * (asum it.c + asum it.dMinusS)
    ((1 - ad) * (asum it.gradLagX + asum it.gradLagS) / n_dual,
     if n_pri > 0 then pi / (n_pri : K) else pi,
     (asum cc.xL + asum cc.xU + asum cc.sL + asum cc.sU) / n_comp)
  | .twoSquared =>
    let pi := (1 - ap) ^ 2 * (sq it.c + sq it.dMinusS)
    ((1 - ad) ^ 2 * (sq it.gradLagX + sq it.gradLagS) / n_dual,
     if n_pri > 0 then pi / (n_pri : K) else pi,
     (sq cc.xL + sq cc.xU + sq cc.sL + sq cc.sU) / n_comp)
  | .max =>
    ((1 - ad) * max (amax it.gradLagX) (amax it.gradLagS),
     (1 - ap) * max (amax it.c) (amax it.dMinusS),
     max (max (max (amax cc.xL) (amax cc.xU)) (amax cc.sL)) (amax cc.sU))
  | .two =>
    let pi := (1 - ap) * p.sqrt (sq it.c + sq it.dMinusS)
    ((1 - ad) * p.sqrt (sq it.gradLagX + sq it.gradLagS) / p.sqrt n_dual,
     if n_pri > 0 then pi / p.sqrt (n_pri : K) else pi,
     p.sqrt (sq cc.xL + sq cc.xU + sq cc.sL + sq cc.sU) / p.sqrt n_comp)

/-- The complementarity products after the step for `sigma`, cut by the fraction-to-the-boundary rule, and the two step sizes
(IpQualityFunctionMuOracle.cpp:505-555). -/
def afterStep (p : Par K) (it : Iter K) (aff cen : Step K) (sigma : K) : K × K × Four K :=
  let ds := addScaled (slackStep it aff) sigma (slackStep it cen)
  let dz := addScaled aff.z sigma cen.z
  let ap := frac4 p.tau it.slack ds
  let ad := frac4 p.tau it.mult dz
  (ap, ad, compl (addScaled it.slack ap ds) (addScaled it.mult ad dz))

/-- `CalculateQualityFunction` (IpQualityFunctionMuOracle.cpp:474-667). -/
def quality (p : Par K) (it : Iter K) (aff cen : Step K) (sigma : K) : K :=
  let (ap, ad, cc) := afterStep p it aff cen sigma
  let (dual, primal, cmp) := qfTerms p it ap ad cc
  let q := dual + primal + cmp
  let q := match p.cen with
    | .none => q
    | .log => q - cmp * p.log (centrality cc)
    | .reciprocal => q + cmp / centrality cc
    | .cubedReciprocal => q + cmp / (centrality cc) ^ 3
  if p.balancing = true then q + (max 0 (max dual primal - cmp)) ^ 3 else q

/-- The variables of the loop of `PerformGoldenSection`; `evals` records where the quality function was evaluated. -/
structure GS (K : Type) where
  lo : K
  up : K
  mid1 : K
  mid2 : K
  qlo : K
  qup : K
  q1 : K
  q2 : K
  evals : List K
  deriving DecidableEq, Repr

/-- `Min` and `Max` of the four values. -/
def GS.qmin (s : GS K) : K := min (min (min s.qlo s.qup) s.q1) s.q2
/-- See `GS.qmin`. -/
def GS.qmax (s : GS K) : K := max (max (max s.qlo s.qup) s.q1) s.q2

/-- The two tolerances of the loop condition (IpQualityFunctionMuOracle.cpp:722-725). -/
def GS.wide (s : GS K) (sigmaTol : K) : Prop := sigmaTol * s.up ≤ s.up - s.lo
/-- See `GS.wide`. -/
def GS.steep (s : GS K) (qfTol : K) : Prop := qfTol ≤ 1 - s.qmin / s.qmax

instance (s : GS K) (t : K) : Decidable (s.wide t) := inferInstanceAs (Decidable (_ ≤ _))
instance (s : GS K) (t : K) : Decidable (s.steep t) := inferInstanceAs (Decidable (_ ≤ _))

/-- The start of the search (IpQualityFunctionMuOracle.cpp:699-718). -/
def gsInit (q : K → K) (g up qup lo qlo : K) : GS K :=
  let m1 := lo + g * (up - lo)
  let m2 := lo + (1 - g) * (up - lo)
  ⟨lo, up, m1, m2, qlo, qup, q m1, q m2, [m1, m2]⟩

/-- The body of the loop (IpQualityFunctionMuOracle.cpp:727-755). -/
def gsStep (q : K → K) (g : K) (s : GS K) : GS K :=
  if s.q2 < s.q1 then
    let m2 := s.mid1 + (1 - g) * (s.up - s.mid1)
    ⟨s.mid1, s.up, s.mid2, m2, s.q1, s.qup, s.q2, q m2, s.evals ++ [m2]⟩
  else
    let m1 := s.lo + g * (s.mid2 - s.lo)
    ⟨s.lo, s.mid2, m1, s.mid1, s.qlo, s.q2, q m1, s.q1, s.evals ++ [m1]⟩

/-- The loop (IpQualityFunctionMuOracle.cpp:720-756); the first argument is the number of sections still allowed. -/
def gsLoop (q : K → K) (g sigmaTol qfTol : K) : Nat → GS K → GS K
  | 0, s => s
  | n + 1, s => if s.wide sigmaTol ∧ s.steep qfTol then gsLoop q g sigmaTol qfTol n (gsStep q g s) else s

/-- The choice of the result (IpQualityFunctionMuOracle.cpp:758-838) and the points where the function was evaluated. -/
def gsSelect (q : K → K) (sigmaTol qfTol upIn loIn : K) (s : GS K) : K × List K :=
  if s.wide sigmaTol ∧ ¬ s.steep qfTol then
    (if s.qmin = s.qlo then s.lo else if s.qmin = s.q1 then s.mid1 else if s.qmin = s.q2 then s.mid2 else s.up, s.evals)
  else
    let (sigma, qb) := if s.q1 < s.q2 then (s.mid1, s.q1) else (s.mid2, s.q2)
    if s.up = upIn then
      let (qtmp, e) := if s.qup < 0 then (q s.up, s.evals ++ [s.up]) else (s.qup, s.evals)
      (if qtmp < qb then s.up else sigma, e)
    else if s.lo = loIn then
      let (qtmp, e) := if s.qlo < 0 then (q s.lo, s.evals ++ [s.lo]) else (s.qlo, s.evals)
      (if qtmp < qb then s.lo else sigma, e)
    else (sigma, s.evals)

/-- `PerformGoldenSection` (IpQualityFunctionMuOracle.cpp:669-842; `ScaleSigma` is the identity, 849-861). -/
def golden (q : K → K) (g sigmaTol qfTol : K) (maxSteps : Nat) (up qup lo qlo : K) : K × List K :=
  gsSelect q sigmaTol qfTol up lo (gsLoop q g sigmaTol qfTol maxSteps (gsInit q g up qup lo qlo))

/-- The choice of `sigma` (IpQualityFunctionMuOracle.cpp:326-394) for the quality function `q` and the list of evaluations. -/
def chooseSigma (p : Par K) (q : K → K) (avrg mu_min mu_max : K) : K × List K :=
  let qf_1 := q 1
  let s1m := 1 - max (1 / 10000) p.sigmaTol
  let qf_1m := q s1m
  if qf_1 < qf_1m then
    let up := min p.sigmaMax (mu_max / avrg)
    if up ≤ 1 then (up, [1, s1m])
    else
      let r := golden q p.gfac p.sigmaTol p.qfTol p.maxSteps up (-100) 1 qf_1
      (r.1, [1, s1m] ++ r.2)
  else
    let lo := max p.sigmaMin (mu_min / avrg)
    let up := min (max lo s1m) (mu_max / avrg)
    if up ≤ lo then (lo, [1, s1m])
    else
      let r := golden q p.gfac p.sigmaTol p.qfTol p.maxSteps up qf_1m lo (-100)
      (r.1, [1, s1m] ++ r.2)

/-- The right-hand side for the centering step (IpQualityFunctionMuOracle.cpp:228-240). -/
def rhsCen (it : Iter K) : Step K :=
  let a := avrgCompl it
  ⟨it.dampX.map (fun u => -a * u), it.dampS.map (fun u => -a * u), it.c.map (fun _ => 0), it.dMinusS.map (fun _ => 0),
   ⟨it.mult.xL.map (fun _ => a), it.mult.xU.map (fun _ => a), it.mult.sL.map (fun _ => a), it.mult.sU.map (fun _ => a)⟩⟩

/-- `AddTwoVectors(t, u, 1., v, 0.)` of iterates vectors. -/
def Step.comb (t : K) (u v : Step K) : Step K :=
  ⟨zip2 (fun a b => t * a + b) u.x v.x, zip2 (fun a b => t * a + b) u.s v.s, zip2 (fun a b => t * a + b) u.yc v.yc, zip2 (fun a b => t * a + b) u.yd v.yd,
   ⟨zip2 (fun a b => t * a + b) u.z.xL v.z.xL, zip2 (fun a b => t * a + b) u.z.xU v.z.xU, zip2 (fun a b => t * a + b) u.z.sL v.z.sL,
    zip2 (fun a b => t * a + b) u.z.sU v.z.sU⟩⟩

/-- `QualityFunctionMuOracle::CalculateMu` (IpQualityFunctionMuOracle.cpp:154-472). -/
def qfOracle (p : Par K) (it : Iter K) (solve : K → Step K → Option (Step K)) (mu_min mu_max : K) : Option (Answer K) :=
  match solve (-1) (rhsAff it) with
  | none => none
  | some aff =>
    match solve 1 (rhsCen it) with
    | none => none
    | some cen =>
      let sigma := (chooseSigma p (quality p it aff cen) (avrgCompl it) mu_min mu_max).1
      some ⟨sigma * avrgCompl it, sigma, aff, some (Step.comb sigma cen aff)⟩

/-- The right-hand side with which `PDSearchDirCalculator::ComputeSearchDirection` (IpPDSearchDirCalc.cpp:76-128, without Mehrotra's corrector)
computes the search direction for the barrier parameter `mu`: `curr_grad_lag_with_damping` (IpIpoptCalculatedQuantities.cpp:2192-2330) and
`curr_relaxed_compl` (slack times multiplier minus `mu`). -/
def rhsDir (it : Iter K) (mu : K) : Step K :=
  let c := compl it.slack it.mult
  ⟨zip2 (fun a b => a + mu * b) it.gradLagX it.dampX, zip2 (fun a b => a + mu * b) it.gradLagS it.dampS, it.c, it.dMinusS,
   ⟨c.xL.map (fun a => a - mu), c.xU.map (fun a => a - mu), c.sL.map (fun a => a - mu), c.sU.map (fun a => a - mu)⟩⟩

end Verif.MuOracle
