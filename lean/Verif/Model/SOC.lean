import Mathlib.Algebra.Order.Field.Basic
import Mathlib.Data.Matrix.Basic

/-! # Second order corrections and corrector steps

`TrySecondOrderCorrection` of src/Algorithm/IpFilterLSAcceptor.cpp (530-646) and src/Algorithm/IpPenaltyLSAcceptor.cpp (275-398), which are the same
code, and `TryCorrector` of src/Algorithm/IpFilterLSAcceptor.cpp (648-871).  The acceptance test, the linear solver, the step size rule and the functions of the problem are
parameters.  Exact arithmetic; vectors are functions on index sets: `X` variables, `C` equality, `D` inequality constraints (and slacks),
`L`, `U`, `A`, `B` the bounds `x_L`, `x_U`, `d_L`, `d_U`.  Printing and timing are left out. -/

namespace Verif.SOC
set_option linter.unusedSectionVars false

variable {K : Type} [Field K] [LinearOrder K] {X C D L U A B : Type}

/-- `IteratesVector`: x, s, y_c, y_d, z_L, z_U, v_L, v_U. -/
structure Iter (K X C D L U A B : Type) where
  x : X → K
  s : D → K
  yc : C → K
  yd : D → K
  zL : L → K
  zU : U → K
  vL : A → K
  vU : B → K

/-- `IpCq()` at the current iterate: gradient of the Lagrangian (with damping), relaxed complementarities, constraint values. -/
structure Cur (K X C D L U A B : Type) where
  gradX : X → K
  gradS : D → K
  c : C → K
  dms : D → K
  cxL : L → K
  cxU : U → K
  csL : A → K
  csU : B → K

/-- `IpCq()` at a trial point: constraint violation and constraint values. -/
structure Trial (K C D : Type) where
  theta : K
  c : C → K
  dms : D → K

/-- options `max_soc`, `kappa_soc`, `soc_method`. -/
structure Cfg (K : Type) where
  maxSoc : Nat
  kappa : K
  method : Fin 2

/-- the rest of the program; `σ` is the state of the acceptor. `solve` is `pd_solver_->Solve(-1, 0, rhs, ·, true)`, `frac` is `primal_frac_to_the_bound`, `trial d α` are the
values at the current point plus `α d`, `check` is `CheckAcceptabilityOfTrialPoint` at that point with a given test step size (`none`: `Eval_Error`). -/
structure Env (σ K X C D L U A B : Type) where
  solve : Iter K X C D L U A B → Option (Iter K X C D L U A B)
  frac : Iter K X C D L U A B → K
  trial : Iter K X C D L U A B → K → Trial K C D
  check : σ → K → Iter K X C D L U A B → K → Option Bool × σ

/-- the right-hand side (IpFilterLSAcceptor.cpp:572-604). -/
def rhs (cfg : Cfg K) (cur : Cur K X C D L U A B) (alpha : K) (c : C → K) (dms : D → K) : Iter K X C D L U A B :=
  if cfg.method = 0 then ⟨cur.gradX, cur.gradS, c, dms, cur.cxL, cur.cxU, cur.csL, cur.csU⟩
  else ⟨fun i => alpha * cur.gradX i, fun i => alpha * cur.gradS i, c, dms, cur.cxL, cur.cxU, cur.csL, cur.csU⟩

/-- result: accepted, `alpha_primal`, `actual_delta`, and direction and step size of the trial point left in `IpData`. -/
structure Res (K X C D L U A B : Type) where
  accept : Bool
  alpha : K
  delta : Iter K X C D L U A B
  point : Iter K X C D L U A B × K

/-- the loop (IpFilterLSAcceptor.cpp:553-645). `todo` is `max_soc_ - count_soc`, `first`: `count_soc == 0`, `pt` the trial point. -/
def loop {σ : Type} (cfg : Cfg K) (cur : Cur K X C D L U A B) (e : Env σ K X C D L U A B) (alphaTest alpha0 : K) (delta0 : Iter K X C D L U A B) :
    Nat → Bool → σ → K → K → K → (C → K) → (D → K) → Iter K X C D L U A B × K → Res K X C D L U A B × σ
  | 0, _, st, _, _, _, _, _, pt => (⟨false, alpha0, delta0, pt⟩, st)
  | todo + 1, first, st, old, theta, alpha, c, dms, pt =>
    if first = true ∨ theta ≤ cfg.kappa * old then
      let t := e.trial pt.1 pt.2
      let c := fun i => 1 * t.c i + alpha * c i
      let dms := fun i => 1 * t.dms i + alpha * dms i
      match e.solve (rhs cfg cur alpha c dms) with
      | none => (⟨false, alpha0, delta0, pt⟩, st)
      | some d =>
        let alpha := e.frac d
        let pt := (d, alpha)
        match e.check st alphaTest d alpha with
        | (none, st) => (⟨false, alpha0, delta0, pt⟩, st)
        | (some true, st) => (⟨true, alpha, d, pt⟩, st)
        | (some false, st) => loop cfg cur e alphaTest alpha0 delta0 todo false st theta (e.trial d alpha).theta alpha c dms pt
    else (⟨false, alpha0, delta0, pt⟩, st)

/-- `TrySecondOrderCorrection`; the trial point is the current point plus `alpha * delta`. -/
def soc {σ : Type} (cfg : Cfg K) (cur : Cur K X C D L U A B) (e : Env σ K X C D L U A B) (st : σ) (alphaTest alpha : K) (delta : Iter K X C D L U A B) :
    Res K X C D L U A B × σ :=
  if cfg.maxSoc = 0 then (⟨false, alpha, delta, (delta, alpha)⟩, st)
  else loop cfg cur e alphaTest alpha delta cfg.maxSoc true st 0 (e.trial delta alpha).theta alpha cur.c cur.dms (delta, alpha)

/-! ### `TryCorrector` -/

/-- `corrector_type`. -/
inductive CorrType where
  | none
  | affine
  | primalDual
deriving DecidableEq

/-- options of the corrector. -/
structure CCfg (K : Type) where
  type : CorrType
  skipNegCurv : Bool
  skipMonotone : Bool
  redFact : K

/-- what is used of the current iterate: the maps `P_L … ` choose the components with bounds; slacks, multipliers, barrier parameter, gradient of the Lagrangian without damping,
complementarities, constraint values, the regularization of the Hessian, mode of the barrier update, number of bounds. -/
structure CCur (K X C D L U A B : Type) where
  pL : L → X
  pU : U → X
  qL : A → D
  qU : B → D
  slXL : L → K
  slXU : U → K
  slSL : A → K
  slSU : B → K
  zL : L → K
  zU : U → K
  vL : A → K
  vU : B → K
  mu : K
  gradX : X → K
  gradS : D → K
  c : C → K
  dms : D → K
  reguX : K
  freeMu : Bool
  nBounds : Nat

/-- the rest of the program. `solve α β rhs d`: contents of the result vector after `Solve(α, β, rhs, d, allow_inexact)` whose return value is ignored; `none`: exception.
`frac`, `dualFrac`: step sizes; `avrg d α αd`: average complementarity at the trial point; `currAvrg` at the current one. -/
structure CEnv (σ K X C D L U A B : Type) where
  solve : K → K → Iter K X C D L U A B → Iter K X C D L U A B → Option (Iter K X C D L U A B)
  fresh : Iter K X C D L U A B
  frac : Iter K X C D L U A B → K
  dualFrac : Iter K X C D L U A B → K
  avrg : Iter K X C D L U A B → K → K → K
  currAvrg : K
  check : σ → K → Iter K X C D L U A B → K → Option Bool × σ

/-- right-hand side of the affine step (IpFilterLSAcceptor.cpp:692-701). -/
def affRhs (cur : CCur K X C D L U A B) : Iter K X C D L U A B :=
  ⟨cur.gradX, cur.gradS, cur.c, cur.dms, fun i => cur.slXL i * cur.zL i, fun i => cur.slXU i * cur.zU i, fun i => cur.slSL i * cur.vL i, fun i => cur.slSU i * cur.vU i⟩

/-- right-hand side of the affine corrector (IpFilterLSAcceptor.cpp:725-736); `d` is `delta_aff`. -/
def affCorrRhs (cur : CCur K X C D L U A B) (d : Iter K X C D L U A B) : Iter K X C D L U A B :=
  ⟨fun _ => 0, fun _ => 0, fun _ => 0, fun _ => 0,
   fun i => -1 * d.x (cur.pL i) * d.zL i, fun i => 1 * d.x (cur.pU i) * d.zU i, fun i => -1 * d.s (cur.qL i) * d.vL i, fun i => 1 * d.s (cur.qU i) * d.vU i⟩

/-- right-hand side of the primal-dual corrector (IpFilterLSAcceptor.cpp:754-797). -/
def pdCorrRhs (cur : CCur K X C D L U A B) (d : Iter K X C D L U A B) : Iter K X C D L U A B :=
  ⟨fun _ => 0, fun _ => 0, fun _ => 0, fun _ => 0,
   fun i => (-1 * d.x (cur.pL i) + -1 * cur.slXL i) * (1 * cur.zL i + 1 * d.zL i) + cur.mu,
   fun i => (1 * d.x (cur.pU i) + -1 * cur.slXU i) * (1 * cur.zU i + 1 * d.zU i) + cur.mu,
   fun i => (-1 * d.s (cur.qL i) + -1 * cur.slSL i) * (1 * cur.vL i + 1 * d.vL i) + cur.mu,
   fun i => (1 * d.s (cur.qU i) + -1 * cur.slSU i) * (1 * cur.vU i + 1 * d.vU i) + cur.mu⟩

/-- the corrected direction (IpFilterLSAcceptor.cpp:677-808); `aff` is the stored affine step, if there is one; also returns the affine step stored afterwards. -/
def corrDir {σ : Type} (cfg : CCfg K) (cur : CCur K X C D L U A B) (e : CEnv σ K X C D L U A B) (aff : Option (Iter K X C D L U A B)) (delta : Iter K X C D L U A B) :
    Option (Iter K X C D L U A B × Option (Iter K X C D L U A B)) :=
  match cfg.type with
  | .affine =>
    (match aff with
      | some a => some a
      | none => e.solve (-1) 0 (affRhs cur) e.fresh).bind fun a =>
    (e.solve 1 1 (affCorrRhs cur a) delta).map fun d => (d, some a)
  | .primalDual => (e.solve 1 1 (pdCorrRhs cur delta) delta).map fun d => (d, aff)
  | .none => some (e.fresh, aff)

/-- result of `TryCorrector`: accepted, `alpha_primal`, `actual_delta`, stored affine step. -/
structure CRes (K X C D L U A B : Type) where
  accept : Bool
  alpha : K
  delta : Iter K X C D L U A B
  aff : Option (Iter K X C D L U A B)

/-- `TryCorrector` (IpFilterLSAcceptor.cpp:648-871); `none`: exception of the solver. -/
def corrector {σ : Type} (cfg : CCfg K) (cur : CCur K X C D L U A B) (e : CEnv σ K X C D L U A B) (aff : Option (Iter K X C D L U A B)) (st : σ)
    (alphaTest alpha : K) (delta : Iter K X C D L U A B) : Option (CRes K X C D L U A B × σ) :=
  if cfg.type = .none ∨ (cfg.skipNegCurv = true ∧ cur.reguX ≠ 0) ∨ (cfg.skipMonotone = true ∧ cur.freeMu = false) then some (⟨false, alpha, delta, aff⟩, st)
  else if cur.nBounds = 0 then some (⟨false, alpha, delta, aff⟩, st)
  else
    (corrDir cfg cur e aff delta).map fun r =>
      let a := e.frac r.1
      if cfg.type = .affine ∧ cfg.redFact * e.currAvrg ≤ e.avrg r.1 a (e.dualFrac r.1) then (⟨false, alpha, delta, r.2⟩, st)
      else
        match e.check st alphaTest r.1 a with
        | (some true, st) => (⟨true, a, r.1, r.2⟩, st)
        | (_, st) => (⟨false, alpha, delta, r.2⟩, st)

end Verif.SOC
