import Mathlib.Algebra.Order.Field.Basic

/-!
# Model of `Ipopt::PDPerturbationHandler` and of the inertia-correction loop of `PDFullSpaceSolver::SolveOnce`

`/repo/src/Algorithm/IpPDPerturbationHandler.{hpp,cpp}`, `/repo/src/Algorithm/IpPDFullSpaceSolver.cpp:383-661`.

Numbers live in a linearly ordered field `K` (exact arithmetic, no NaN).  `delta_cd()` (`jacobian_regularization_value *
pow(mu, jacobian_regularization_exponent)`, line 467-470) depends only on the barrier parameter, which does not change while one
linear system is treated; it is an argument `dcd` of the calls.  Not modelled: output, info strings, `delta_s_last_`,
`delta_c_last_`, `delta_d_last_`, `get_deltas_for_wrong_inertia_called_` (written, never read).
-/

namespace Verif.Perturb

variable {K : Type} [Field K] [LinearOrder K]

/-- Options (`IpPDPerturbationHandler.cpp:109-117`) and constants of the constructor (`:17-21`). -/
structure Cfg (K : Type) where
  max : K
  min : K
  firstInc : K
  inc : K
  dec : K
  init : K
  alwaysCd : Bool
  resetLast : Bool
  degenItersMax : Nat

/-- `DegenType` (`IpPDPerturbationHandler.hpp`). -/
inductive Degen where
  | notYet
  | no
  | yes
deriving DecidableEq

/-- `TrialStatus`: which of `delta_c`, `delta_x` is (supposed to be) zero. -/
inductive Test where
  | noTest
  | c0x0
  | cPx0
  | c0xP
  | cPxP
deriving DecidableEq

/-- Mutable members. -/
structure St (K : Type) where
  xLast : K
  x : K
  s : K
  c : K
  d : K
  hess : Degen
  jac : Degen
  iters : Nat
  test : Test
deriving DecidableEq

/-- The caller's variables `delta_x`, `delta_s`, `delta_c`, `delta_d`; `none`: not assigned yet. -/
structure Vars (K : Type) where
  x : Option K
  s : Option K
  c : Option K
  d : Option K
deriving DecidableEq

/-- `InitializeImpl` (`IpPDPerturbationHandler.cpp:104-142`). -/
def initSt (cfg : Cfg K) : St K :=
  ⟨0, 0, 0, 0, 0, .notYet, if cfg.alwaysCd then .no else .notYet, 0, .noTest⟩

/-- `finalize_test` (`:472-538`). -/
def finalizeTest (cfg : Cfg K) (st : St K) : St K :=
  match st.test with
  | .noTest => st
  | .c0x0 =>
    if st.hess = .notYet ∧ st.jac = .notYet then { st with hess := .no, jac := .no }
    else if st.hess = .notYet then { st with hess := .no }
    else if st.jac = .notYet then { st with jac := .no }
    else st
  | .cPx0 =>
    let st1 := if st.hess = .notYet then { st with hess := .no } else st
    if st1.jac = .notYet then
      let st2 := { st1 with iters := st1.iters + 1 }
      if cfg.degenItersMax ≤ st2.iters then { st2 with jac := .yes } else st2
    else st1
  | .c0xP =>
    let st1 := if st.jac = .notYet then { st with jac := .no } else st
    if st1.hess = .notYet then
      let st2 := { st1 with iters := st1.iters + 1 }
      if cfg.degenItersMax ≤ st2.iters then { st2 with hess := .yes } else st2
    else st1
  | .cPxP =>
    let st1 := { st with iters := st.iters + 1 }
    if cfg.degenItersMax ≤ st1.iters then { st1 with hess := .yes, jac := .yes } else st1

/-- New trial value of `delta_x_curr_` (`:374-395`). -/
def nextX (cfg : Cfg K) (st : St K) : K :=
  if st.x = 0 then
    if st.xLast = 0 then cfg.init else Max.max cfg.min (st.xLast * cfg.dec)
  else if st.xLast = 0 ∨ 100000 * st.xLast < st.x then cfg.firstInc * st.x
  else cfg.inc * st.x

/-- `get_deltas_for_wrong_inertia` (`:368-419`). -/
def getDeltas (cfg : Cfg K) (st : St K) (v : Vars K) : Bool × St K × Vars K :=
  let nx := nextX cfg st
  if cfg.max < nx then (false, { st with x := nx, xLast := 0 }, v)
  else (true, { st with x := nx, s := nx }, ⟨some nx, some nx, some st.c, some st.d⟩)

/-- Storing the last perturbation (`:157-182`). -/
def storeLast (cfg : Cfg K) (st : St K) : St K :=
  if cfg.resetLast then { st with xLast := st.x } else if 0 < st.x then { st with xLast := st.x } else st

/-- `ConsiderNewSystem` (`:144-245`). -/
def considerNewSystem (cfg : Cfg K) (dcd : K) (st : St K) (v : Vars K) : Bool × St K × Vars K :=
  let st : St K := storeLast cfg (finalizeTest cfg st)
  let st : St K := { st with test :=
    if st.hess = .notYet ∨ st.jac = .notYet then (if cfg.alwaysCd then .cPx0 else .c0x0) else .noTest }
  let dc := if st.jac = .yes then dcd else if cfg.alwaysCd then dcd else 0
  let st : St K := { st with c := dc, d := dc }
  let v : Vars K := { v with c := some dc, d := some dc }
  if st.hess = .yes then
    getDeltas cfg { st with x := 0, s := 0 } v
  else (true, { st with x := 0, s := 0 }, { v with x := some 0, s := some 0 })

/-- Handing out the current values. -/
def current (st : St K) : Vars K := ⟨some st.x, some st.s, some st.c, some st.d⟩

/-- `PerturbForSingularity` (`:247-366`). -/
def perturbForSingularity (cfg : Cfg K) (dcd : K) (st : St K) (v : Vars K) : Bool × St K × Vars K :=
  if st.hess = .notYet ∨ st.jac = .notYet then
    match st.test with
    | .c0x0 =>
      if st.jac = .notYet then
        let st := { st with c := dcd, d := dcd, test := .cPx0 }
        (true, st, current st)
      else
        let r := getDeltas cfg st v
        if !r.1 then r else let st := { r.2.1 with test := .c0xP }; (true, st, current st)
    | .cPx0 =>
      if !cfg.alwaysCd then
        let r := getDeltas cfg { st with c := 0, d := 0 } v
        if !r.1 then r else let st := { r.2.1 with test := .c0xP }; (true, st, current st)
      else
        let r := getDeltas cfg st v
        if !r.1 then r else let st := { r.2.1 with test := .cPxP }; (true, st, current st)
    | .c0xP =>
      let r := getDeltas cfg { st with c := dcd, d := dcd } v
      if !r.1 then r else let st := { r.2.1 with test := .cPxP }; (true, st, current st)
    | .cPxP =>
      let r := getDeltas cfg st v
      if !r.1 then r else (true, r.2.1, current r.2.1)
    | .noTest => (true, st, current st)
  else if 0 < st.c then
    let r := getDeltas cfg st v
    if !r.1 then r else (true, r.2.1, current r.2.1)
  else
    let st := { st with c := dcd, d := dcd }
    (true, st, current st)

/-- The second attempt of `PerturbForWrongInertia` with regularised constraints (`:431-446`). -/
def fallback (dcd : K) (st : St K) : St K :=
  { st with c := dcd, d := dcd, x := 0, s := 0, test := .noTest, hess := if st.hess = .yes then .notYet else st.hess }

/-- `PerturbForWrongInertia` (`:421-452`). -/
def perturbForWrongInertia (cfg : Cfg K) (dcd : K) (st : St K) (v : Vars K) : Bool × St K × Vars K :=
  let r := getDeltas cfg (finalizeTest cfg st) v
  if !r.1 && decide (r.2.2.c = some 0) then
    getDeltas cfg (fallback dcd r.2.1) r.2.2
  else r

/-! ### The loop of `SolveOnce` -/

/-- `ESymSolverStatus` without `SYMSOLVER_CALL_AGAIN` (handled inside the linear solver interface). -/
inductive Status where
  | success
  | singular
  | wrongInertia
  | fatal
deriving DecidableEq

/-- What the linear solver says in one loop iteration: status of `Solve`, whether the number of negative eigenvalues is too
small, the result of `IncreaseQuality`, and whether the curvature test asks for another perturbation
(`IpPDFullSpaceSolver.cpp:592-638`, only with `neg_curv_test_tol > 0`). -/
structure Ans where
  status : Status
  tooFew : Bool
  improve : Bool
  negCurv : Bool

/-- State of the loop: handler, caller's variables, `augsys_improved_`, `pretend_singular`, and the perturbations with which the
linear system was solved (newest first). -/
structure Loop (K : Type) where
  st : St K
  v : Vars K
  improved : Bool
  pretend : Bool
  used : List (Vars K)

/-- How the loop stands. -/
inductive Outcome where
  | running
  | success
  | failure
deriving DecidableEq

/-- After a call of the handler: continue, or `return false`. -/
def afterCall (l : Loop K) (r : Bool × St K × Vars K) : Outcome × Loop K :=
  (if r.1 then .running else .failure, { l with st := r.2.1, v := r.2.2 })

/-- One iteration of `while( retval != SYMSOLVER_SUCCESS )` (`IpPDFullSpaceSolver.cpp:500-640`).  `ncon`: there are constraints;
`curvTest`: `neg_curv_test_tol > 0`. -/
def loopStep (cfg : Cfg K) (dcd : K) (ncon curvTest : Bool) (l : Loop K) (a : Ans) : Outcome × Loop K :=
  let retval := if l.pretend then .singular else a.status
  let l := if l.pretend then { l with pretend := false } else { l with used := l.v :: l.used }
  if retval = .fatal then (.failure, l)
  else if retval = .singular ∧ ncon then afterCall l (perturbForSingularity cfg dcd l.st l.v)
  else if retval = .wrongInertia ∧ a.tooFew then
    if !l.improved ∧ a.improve then (.running, { l with improved := true })
    else afterCall l (perturbForSingularity cfg dcd l.st l.v)
  else if retval = .wrongInertia ∨ retval = .singular then afterCall l (perturbForWrongInertia cfg dcd l.st l.v)
  else if curvTest ∧ a.negCurv then afterCall l (perturbForWrongInertia cfg dcd l.st l.v)
  else (.success, l)

/-- The loop for a given sequence of answers (stops when it is left or the answers are used up). -/
def loop (cfg : Cfg K) (dcd : K) (ncon curvTest : Bool) (l : Loop K) : List Ans → Outcome × Loop K
  | [] => (.running, l)
  | a :: as =>
    let r := loopStep cfg dcd ncon curvTest l a
    if r.1 = .running then loop cfg dcd ncon curvTest r.2 as else r

/-- `SolveOnce` for a system that has not been solved before, or with `pretend_singular` (`:480-648`): `ConsiderNewSystem` - its
return value is ignored - and the loop. -/
def solveNew (cfg : Cfg K) (dcd : K) (ncon curvTest pretend improved : Bool) (st : St K) (as : List Ans) : Outcome × Loop K :=
  let r := considerNewSystem cfg dcd st ⟨none, none, none, none⟩
  loop cfg dcd ncon curvTest ⟨r.2.1, r.2.2, improved, pretend, []⟩ as

end Verif.Perturb
