import Verif.Model.Perturb

/-! # Model of `CGPerturbationHandler` (`line_search_method=cg-penalty`)

`/repo/src/contrib/CGPenalty/IpCGPerturbationHandler.{hpp,cpp}`, derived from `PDPerturbationHandler` (model Perturb, whose
simplifications apply).  Quantities of the penalty method (`CGPenaltyData`, `CGPenaltyCq`) are arguments of the calls.  Not modelled:
`SetCurrPenaltyPert`, `Set_kkt_penalty` (except for its effect on `curr_cg_pert_fact`). -/

namespace Verif.CgPerturb
open Verif.Perturb

variable {K : Type} [Field K] [LinearOrder K]

/-- what the handler asks for in one call (IpCGPerturbationHandler.cpp): `delta_cd()`, `curr_cg_pert_fact()`, the latter after the penalty has
been raised (296-299), machine precision, `restor_iter() == iter_count()` (56), `NeverTryPureNewton()`, and whether the infeasibility is above
`mult_diverg_feasibility_tol` (290). -/
structure Env (K : Type) where
  dcd : K
  pert : K
  raised : K
  eps : K
  restored : Bool
  never : Bool
  infeas : Bool

/-- mutable members: those of the base class and `get_deltas_for_wrong_inertia_called_`. -/
structure CgSt (K : Type) where
  st : St K
  called : Bool

/-- `get_deltas_for_wrong_inertia` (IpPDPerturbationHandler.cpp:368-419) with the flag set at its end. -/
def deltas (cfg : Cfg K) (s : CgSt K) (v : Vars K) : Bool × CgSt K × Vars K :=
  let r := getDeltas cfg s.st v
  (r.1, ⟨r.2.1, s.called || r.1⟩, r.2.2)

/-- the call of `get_deltas_for_wrong_inertia` in `ConsiderNewSystem` (IpCGPerturbationHandler.cpp:142-151); the flag is reset at the end (165). -/
def deltasNew (cfg : Cfg K) (s : CgSt K) (v : Vars K) : Bool × CgSt K × Vars K :=
  let r := deltas cfg s v
  if !r.1 then r else (true, { r.2.1 with called := false }, r.2.2)

/-- the data of a restored iterate (IpCGPerturbationHandler.cpp:54-70). -/
def restore (E : Env K) (st : St K) : St K :=
  if E.restored then ⟨0, 0, 0, 0, 0, .no, .no, 0, .noTest⟩ else st

/-- `ConsiderNewSystem` (IpCGPerturbationHandler.cpp:42-168). -/
def consider (cfg : Cfg K) (E : Env K) (s : CgSt K) (v : Vars K) : Bool × CgSt K × Vars K :=
  let st : St K := storeLast cfg (restore E (finalizeTest cfg s.st))
  let st : St K := { st with test :=
    if st.hess = .notYet ∨ st.jac = .notYet then (if !cfg.alwaysCd ∨ E.pert < E.dcd ∨ !E.never then .c0x0 else .cPx0) else .noTest }
  let dc := if st.jac = .yes ∨ E.never ∨ cfg.alwaysCd then
      (if E.pert < 100 * E.eps ∧ st.jac = .yes then 100 * E.eps else E.pert)
    else 0
  let st : St K := { st with c := dc, d := dc }
  let v : Vars K := { v with c := some dc, d := some dc }
  if st.hess = .yes then deltasNew cfg ⟨{ st with x := 0, s := 0 }, s.called⟩ v
  else (true, ⟨{ st with x := 0, s := 0 }, false⟩, { v with x := some 0, s := some 0 })

/-- a call of `get_deltas_for_wrong_inertia` inside `PerturbForSingularity` with the test status set afterwards, and handing out. -/
def deltasThen (cfg : Cfg K) (t : Test) (s : CgSt K) (v : Vars K) : Bool × CgSt K × Vars K :=
  let r := deltas cfg s v
  if !r.1 then r else
    let st := { r.2.1.st with test := t }
    (true, ⟨st, r.2.1.called⟩, current st)

/-- `PerturbForSingularity` (IpCGPerturbationHandler.cpp:170-309). -/
def singular (cfg : Cfg K) (E : Env K) (s : CgSt K) (v : Vars K) : Bool × CgSt K × Vars K :=
  let st := s.st
  if st.hess = .notYet ∨ st.jac = .notYet then
    match st.test with
    | .c0x0 =>
      if st.jac = .notYet then
        let st := { st with c := E.dcd, d := E.dcd, test := .cPx0 }
        (true, ⟨st, s.called⟩, current st)
      else deltasThen cfg .c0xP s v
    | .cPx0 =>
      let c := max E.dcd E.pert
      deltasThen cfg .c0xP ⟨{ st with c := c, d := c, test := if c < E.dcd then .c0xP else .cPxP }, s.called⟩ v
    | .c0xP =>
      let c := max E.dcd E.pert
      deltasThen cfg .cPxP ⟨{ st with c := c, d := c }, s.called⟩ v
    | .cPxP => deltasThen cfg .cPxP s v
    | .noTest => (true, s, current st)
  else if 0 < st.c ∨ s.called then deltasThen cfg st.test s v
  else
    let c := if !E.never ∧ E.infeas then max (1000 * E.eps) (max E.raised E.dcd) else E.dcd
    let st := { st with c := c, d := c }
    (true, ⟨st, s.called⟩, current st)

/-- `PerturbForWrongInertia` of the base class. -/
def wrongInertia (cfg : Cfg K) (E : Env K) (s : CgSt K) (v : Vars K) : Bool × CgSt K × Vars K :=
  let r := perturbForWrongInertia cfg E.dcd s.st v
  (r.1, ⟨r.2.1, s.called || r.1⟩, r.2.2)

end Verif.CgPerturb
