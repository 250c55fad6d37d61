import Mathlib.Algebra.Order.Field.Basic
import Mathlib.Logic.Function.Basic

/-! # Model of the derivative checker

`src/Interfaces/IpTNLPAdapter.cpp:2983-3394` (`TNLPAdapter::CheckDerivatives`), called first thing by `GetSpaces` (`:333-340`).

Arrays are functions from positions to numbers; the sizes are kept separately and loops run over them.
Numbers are an ordered field.  The user's functions are arbitrary functions of the point (`none`: the function returned `false`).
The calls made to the user's functions are recorded with all their arguments, also on the paths that end with an exception.
The headings ("Starting derivative checker ..") are not modelled.  An index outside its range (only checked by `DBG_ASSERT`) is not modelled
as an access out of range: such an entry never matches. -/

namespace Verif.DerivCheck

variable (K : Type)

/-- A call of a function of the user's problem: point, `new_x`, and the further arguments. -/
inductive Call
  | info
  | start
  | bounds
  | f (x : Nat → K) (newX : Bool)
  | g (x : Nat → K) (newX : Bool)
  | gradF (x : Nat → K) (newX : Bool)
  | jacStruct
  | jac (x : Nat → K) (newX : Bool)
  | hessStruct
  | hess (x : Nat → K) (newX : Bool) (objf : K) (lam : Nat → K) (newY : Bool)

/-- answer of `get_nlp_info`: `n`, `m`, `nnz_jac_g`, `nnz_h_lag`, `index_style` (`IpTNLP.hpp:131-148`). -/
structure Info where
  n : Int
  m : Int
  nzJac : Int
  nzHess : Int
  fortran : Bool

/-- The user's problem (`TNLP`). -/
structure Prob where
  info : Option Info
  /-- the array after `get_starting_point`; its return value is not looked at (`:3019`). -/
  start : Nat → K
  /-- `get_bounds_info`. -/
  bounds : Option ((Nat → K) × (Nat → K))
  f : (Nat → K) → Option K
  g : (Nat → K) → Option (Nat → K)
  gradF : (Nat → K) → Option (Nat → K)
  jacStruct : Option (Nat → Int × Int)
  jac : (Nat → K) → Option (Nat → K)
  hessStruct : Option (Nat → Int × Int)
  hess : (Nat → K) → K → (Nat → K) → Option (Nat → K)

/-- `DerivativeTestEnum` (`IpTNLPAdapter.hpp:124-130`). -/
inductive Test
  | none
  | first
  | second
  | onlySecond

/-- Options of the checker and the random numbers of this run (`IpRandom01`, `:3035`). -/
structure Cfg where
  test : Test
  startIdx : Int
  pert : K
  tol : K
  printAll : Bool
  radius : K
  rnd : Nat → K
  jnlst : Bool

/-- Which derivative a line is about: indices as printed (with `index_correction`). -/
inductive What
  | gradF (j : Int)
  | jacG (i j : Int)
  | objHess (j k : Int)
  | conHess (i j k : Int)

/-- A line printed by the checker: `cflag`, the derivative, the user's value, `sflag`, the approximation, the relative error. -/
structure Line where
  star : Bool
  what : What
  exact : K
  found : Bool
  approx : K
  rel : K

/-- Final message (`:3384-3391`). -/
inductive Summary
  | noErrors
  | errors (n : Nat)

inductive Exc
  | invalidTNLP
  | derivTest

/-- Local variables that are changed in loops, and what has been observed from outside. -/
structure St where
  xpert : Nat → K
  newX : Bool
  lam : Nat → K
  nerr : Nat
  lines : List (Line K)
  calls : List (Call K)

/-- An exception also carries the calls made so far. -/
abbrev Res (α : Type) := Except (Exc × List (Call K)) α

variable {K} [Field K] [LinearOrder K]

def call (c : Call K) (st : St K) : St K := { st with calls := st.calls ++ [c] }

/-- `ASSERT_EXCEPTION(retval, ..)` after a call. -/
def need {α : Type} (o : Option α) (e : Exc) (st : St K) : Res K α :=
  match o with
  | some a => .ok a
  | none => .error (e, st.calls)

/-- The comparison of the user's value with the approximation and the printing of the line (`:3146-3159`, `:3181-3198`, `:3320-3355`). -/
def compare (cfg : Cfg K) (what : What) (exact : K) (found : Bool) (approx : K) (st : St K) : St K :=
  let rel := |approx - exact| / max |approx| cfg.tol
  let star := decide (cfg.tol ≤ rel)
  let st := if star then { st with nerr := st.nerr + 1 } else st
  if star || cfg.printAll then { st with lines := st.lines ++ [⟨star, what, exact, found, approx, rel⟩] } else st

/-- Sum of the values of all entries with the given test, and whether there is one (`:3169-3178`, `:3308-3317`). -/
def sumEntries (nz : Nat) (p : Nat → Bool) (v : Nat → K) : K × Bool :=
  (List.range nz).foldl (fun a i => if p i then (a.1 + v i, true) else a) (0, false)

/-- Row `icon` of the Jacobian collected in an array (`:3262-3270`, `:3296-3303`): `grad[g_jCol[i]] += jac[i]`. -/
def collectRow (nz : Nat) (S : Nat → Int × Int) (icon : Int) (v : Nat → K) (j : Nat) : K :=
  (List.range nz).foldl (fun (a : Int → K) i => if (S i).1 = icon then Function.update a (S i).2 (a (S i).2 + v i) else a) (fun _ => 0) j

/-- What is known at the reference point (`:2996-3110`). -/
structure Ref (K : Type) where
  nx : Nat
  ng : Nat
  nzJac : Nat
  nzHess : Nat
  corr : Int
  xref : Nat → K
  fref : K
  gref : Nat → K
  gradF : Nat → K
  jacS : Nat → Int × Int
  jac : Nat → K

/-- C-style indices (`:3080-3091`, `:3213-3224`). -/
def cStyle (corr : Int) (S : Nat → Int × Int) (i : Nat) : Int × Int := ((S i).1 - corr, (S i).2 - corr)

/-- `this_perturbation` (`:3136`, `:3281`). -/
def thisPert (cfg : Cfg K) (r : Ref K) (ivar : Nat) : K := cfg.pert * max 1 |r.xref ivar|

/-- The test of column `ivar` of the Jacobian (`:3161-3200`). -/
def firstG (cfg : Cfg K) (p : Prob K) (r : Ref K) (ivar : Nat) (h : K) (st : St K) : Res K (St K) :=
  if 0 < r.ng then do
    let st := call (.g st.xpert st.newX) st
    let gpert ← need (p.g st.xpert) .derivTest st
    pure ((List.range r.ng).foldl (fun (st : St K) (icon : Nat) =>
      let e := sumEntries r.nzJac (fun i => decide ((r.jacS i).1 = (icon : Int)) && decide ((r.jacS i).2 = (ivar : Int))) r.jac
      compare cfg (.jacG (icon + r.corr) (ivar + r.corr)) e.1 e.2 ((gpert icon - r.gref icon) / h) st) st)
  else pure st

/-- One pass of the loop over variables of the first-order test (`:3134-3202`). -/
def firstStep (cfg : Cfg K) (p : Prob K) (r : Ref K) (st : St K) (ivar : Nat) : Res K (St K) := do
  let h := thisPert cfg r ivar
  let st := { st with xpert := Function.update st.xpert ivar (r.xref ivar + h), newX := true }
  let st := call (.f st.xpert st.newX) st
  let fpert ← need (p.f st.xpert) .derivTest st
  let st := { st with newX := false }
  let st := compare cfg (.gradF (ivar + r.corr)) (r.gradF ivar) false ((fpert - r.fref) / h) st
  let st ← firstG cfg p r ivar h st
  pure { st with xpert := Function.update st.xpert ivar (r.xref ivar) }

/-- The first-order test (`:3128-3204`). -/
def firstOrder (cfg : Cfg K) (p : Prob K) (r : Ref K) (st : St K) : Res K (St K) :=
  let first := (max 0 cfg.startIdx).toNat
  (List.range' first (r.nx - first)).foldlM (firstStep cfg p r) st

/-- The gradients of function `icon` at the reference point and at the perturbed point (`:3284-3305`). -/
def gradients (p : Prob K) (r : Ref K) (icon : Int) (st : St K) : Res K (St K × (Nat → K) × (Nat → K)) :=
  if icon = -1 then do
    let st := call (.gradF st.xpert st.newX) st
    let gp ← need (p.gradF st.xpert) .derivTest st
    pure (st, r.gradF, gp)
  else do
    let st := call (.jac st.xpert st.newX) st
    let jp ← need (p.jac st.xpert) .derivTest st
    pure (st, collectRow r.nzJac r.jacS icon r.jac, collectRow r.nzJac r.jacS icon jp)

/-- One pass of the loop over variables for one Hessian (`:3279-3361`). -/
def hessStep (cfg : Cfg K) (p : Prob K) (r : Ref K) (hS : Nat → Int × Int) (hv : Nat → K) (icon : Int) (st : St K) (ivar : Nat) :
    Res K (St K) := do
  let h := thisPert cfg r ivar
  let st := { st with xpert := Function.update st.xpert ivar (r.xref ivar + h), newX := true }
  let (st, gradref, gradpert) ← gradients p r icon st
  let st := (List.range r.nx).foldl (fun (st : St K) (ivar2 : Nat) =>
    let e := sumEntries r.nzHess (fun i => (decide ((hS i).1 = (ivar : Int)) && decide ((hS i).2 = (ivar2 : Int))) ||
      (decide ((hS i).2 = (ivar : Int)) && decide ((hS i).1 = (ivar2 : Int)))) hv
    let what := if icon = -1 then What.objHess (ivar + r.corr) (ivar2 + r.corr) else What.conHess (icon + r.corr) (ivar + r.corr) (ivar2 + r.corr)
    compare cfg what e.1 e.2 (3 / 2 * (gradpert ivar2 - gradref ivar2) / h) st) st
  pure { st with xpert := Function.update st.xpert ivar (r.xref ivar) }

/-- One pass of the loop over the objective and the constraints (`:3250-3368`). -/
def conStep (cfg : Cfg K) (p : Prob K) (r : Ref K) (hS : Nat → Int × Int) (st : St K) (icon : Int) : Res K (St K) := do
  let objf : K := if icon = -1 then 3 / 2 else 0
  let st := if icon = -1 then st else { st with lam := Function.update st.lam icon.toNat (3 / 2) }
  let st := { st with newX := true }
  let st := call (.hess r.xref st.newX objf st.lam true) st
  let hv ← need (p.hess r.xref objf st.lam) .derivTest st
  let st ← (List.range r.nx).foldlM (hessStep cfg p r hS hv icon) st
  pure (if 0 ≤ icon then { st with lam := Function.update st.lam icon.toNat 0 } else st)

/-- The second-order test (`:3206-3377`). -/
def secondOrder (cfg : Cfg K) (p : Prob K) (r : Ref K) (st : St K) : Res K (St K) := do
  let st := call .hessStruct st
  let hS ← need p.hessStruct .derivTest st
  let st := { st with lam := fun _ => 0 }
  let first : Int := max (-1) cfg.startIdx
  ((List.range ((r.ng : Int) - first).toNat).map fun (k : Nat) => first + (k : Int)).foldlM (conStep cfg p r (cStyle r.corr hS)) st

/-- The reference point (`:3031-3037`). -/
def refPoint (cfg : Cfg K) (x0 xl xu : Nat → K) (i : Nat) : K :=
  let lower := max (xl i) (x0 i - cfg.radius)
  let upper := min (xu i) (x0 i + cfg.radius)
  lower + cfg.rnd i * (upper - lower)

/-- Constraint values at the reference point (`:3055-3060`). -/
def refG (p : Prob K) (inf : Info) (xref : Nat → K) (st : St K) : Res K (St K × (Nat → K)) :=
  if 0 < inf.m then do
    let st := call (.g xref st.newX) st
    let gr ← need (p.g xref) .derivTest st
    pure (st, gr)
  else pure (st, fun _ => 0)

/-- Constraint Jacobian at the reference point (`:3068-3110`). -/
def refJac (p : Prob K) (inf : Info) (corr : Int) (xref : Nat → K) (st : St K) : Res K (St K × (Nat → Int × Int) × (Nat → K)) :=
  if 0 < inf.m then do
    let st := call .jacStruct st
    let S ← need p.jacStruct .derivTest st
    let st := call (.jac xref st.newX) st
    let v ← need (p.jac xref) .derivTest st
    pure (st, cStyle corr S, v)
  else pure (st, (fun _ => (0, 0)), fun _ => 0)

/-- Sizes, reference point, function values and derivatives there (`:2996-3124`). -/
def reference (cfg : Cfg K) (p : Prob K) (st : St K) : Res K (Ref K × St K) := do
  let st := call .info st
  let inf ← need p.info .invalidTNLP st
  if inf.n < 0 ∨ inf.m < 0 ∨ inf.nzJac < 0 ∨ inf.nzHess < 0 then throw (.invalidTNLP, st.calls) else
  let st := call .start st
  let st := call .bounds st
  let (xl, xu) ← need p.bounds .invalidTNLP st
  let xref := refPoint cfg p.start xl xu
  let st := { st with newX := true }
  let st := call (.f xref st.newX) st
  let fref ← need (p.f xref) .derivTest st
  let st := { st with newX := false }
  let (st, gref) ← refG p inf xref st
  let st := call (.gradF xref true) st
  let gradF ← need (p.gradF xref) .derivTest st
  let corr : Int := if inf.fortran then 1 else 0
  let (st, jacS, jac) ← refJac p inf corr xref st
  pure (⟨inf.n.toNat, inf.m.toNat, inf.nzJac.toNat, inf.nzHess.toNat, corr, xref, fref, gref, gradF, jacS, jac⟩, { st with xpert := xref })

/-- What can be seen of a run that ended without exception. -/
structure Out (K : Type) where
  retval : Bool
  lines : List (Line K)
  calls : List (Call K)
  summary : Option Summary

/-- `CheckDerivatives` (`:2983-3394`). -/
def checkDerivatives (cfg : Cfg K) (p : Prob K) : Res K (Out K) :=
  match cfg.test with
  | .none => .ok ⟨true, [], [], none⟩
  | t =>
    if !cfg.jnlst then .error (.derivTest, []) else do
    let st : St K := ⟨fun _ => 0, true, fun _ => 0, 0, [], []⟩
    let (r, st) ← reference cfg p st
    let st ← match t with
      | .first => firstOrder cfg p r st
      | .second => firstOrder cfg p r st
      | _ => pure st
    let st ← match t with
      | .second => secondOrder cfg p r st
      | .onlySecond => secondOrder cfg p r st
      | _ => pure st
    pure ⟨true, st.lines, st.calls, some (if st.nerr = 0 then .noErrors else .errors st.nerr)⟩

end Verif.DerivCheck
