import Verif.Model.Num
import Mathlib.Algebra.Order.Field.Basic

/-!
# Model of `Ipopt::TNLPAdapter`: numbering of variables and constraints

`/repo/src/Interfaces/IpTNLPAdapter.cpp`.  Vectors are functions from positions to values: whether a dense vector stores one repeated scalar
or an array does not matter here (property C26).  Meta data, derivative checking and the approximation spaces are not modelled.
-/

namespace Verif.Adapter

open Verif

/-- `FixedVariableTreatmentEnum` (`IpTNLPAdapter.hpp:240-246`). -/
inductive Fixed where
  | makeParameter
  | makeParameterNodual
  | makeConstraint
  | relaxBounds
  deriving DecidableEq

/-- `fixed_variable_treatment_ == MAKE_PARAMETER || ... == MAKE_PARAMETER_NODUAL` (`cpp:714`, `914`, ...). -/
def Fixed.isParam : Fixed → Bool
  | .makeParameter => true
  | .makeParameterNodual => true
  | _ => false

/-- Results of the loop over the variables (`cpp:466-537`): `n_x_var`, `x_not_fixed_map` (`none`: not written, `RELAX_BOUNDS`), `x_l_map`,
`x_u_map`, `x_fixed_map_tmp`. -/
structure VarMaps where
  nVar : Nat
  notFixed : List (Option Nat)
  xl : List Nat
  xu : List Nat
  fixed : List Nat

/-- One variable (`cpp:473-541`); `none` is the exception `INCONSISTENT_BOUNDS`. -/
def varStep (t : Fixed) (loInf upInf : Num) (s : VarMaps) (i : Nat) (l u : Num) : Option VarMaps :=
  if Num.eqB l u then
    match t with
    | .makeParameter => some { s with fixed := s.fixed ++ [i] }
    | .makeParameterNodual => some { s with fixed := s.fixed ++ [i] }
    | .makeConstraint => some { s with fixed := s.fixed ++ [i], notFixed := s.notFixed ++ [some i], nVar := s.nVar + 1 }
    | .relaxBounds =>
      some { s with xl := s.xl ++ [s.nVar], xu := s.xu ++ [s.nVar], notFixed := s.notFixed ++ [none], nVar := s.nVar + 1 }
  else if u < l then none
  else
    let xl := if loInf < l then s.xl ++ [s.nVar] else s.xl
    let xu := if u < upInf then s.xu ++ [s.nVar] else s.xu
    some { s with notFixed := s.notFixed ++ [some i], xl := xl, xu := xu, nVar := s.nVar + 1 }

/-- The loop over the variables (`cpp:471-541`). -/
def varLoop (t : Fixed) (loInf upInf : Num) : List (Num × Num) → Nat → VarMaps → Option VarMaps
  | [], _, s => some s
  | (l, u) :: b, i, s => match varStep t loInf upInf s i l u with
    | none => none
    | some s' => varLoop t loInf upInf b (i + 1) s'

/-- Results of the loop over the constraints (`cpp:575-619`): `c_map`, `d_map`, `d_l_map`, `d_u_map`. -/
structure ConMaps where
  c : List Nat
  d : List Nat
  dl : List Nat
  du : List Nat

/-- The loop over the constraints (`cpp:577-620`). -/
def conLoop (loInf upInf : Num) : List (Num × Num) → Nat → ConMaps → Option ConMaps
  | [], _, s => some s
  | (l, u) :: b, i, s =>
    if Num.eqB l u then conLoop loInf upInf b (i + 1) { s with c := s.c ++ [i] }
    else if u < l then none
    else
      let dl := if loInf < l then s.dl ++ [s.d.length] else s.dl
      let du := if u < upInf then s.du ++ [s.d.length] else s.du
      conLoop loInf upInf b (i + 1) { s with d := s.d ++ [i], dl := dl, du := du }

/-- The maps built by `GetSpaces`, with the treatment finally used. -/
structure Maps where
  treat : Fixed
  vars : VarMaps
  cons : ConMaps

/-- One pass of the `while( !done )` loop. -/
def onePass (t : Fixed) (loInf upInf : Num) (xb gb : List (Num × Num)) : Option Maps :=
  match varLoop t loInf upInf xb 0 ⟨0, [], [], [], []⟩ with
  | none => none
  | some v => match conLoop loInf upInf gb 0 ⟨[], [], [], []⟩ with
    | none => none
    | some c => some ⟨t, v, c⟩

/-- The `while( !done )` loop (`cpp:463-635`): a second pass with `RELAX_BOUNDS` if there are fixed variables and too few free ones. -/
def buildMaps (t : Fixed) (loInf upInf : Num) (xb gb : List (Num × Num)) : Option Maps :=
  match onePass t loInf upInf xb gb with
  | none => none
  | some m =>
    if t = .relaxBounds ∨ m.vars.fixed.length = 0 ∨ m.cons.c.length ≤ m.vars.nVar ∨ m.vars.nVar = 0 then some m
    else onePass .relaxBounds loInf upInf xb gb

/-- Taking the dependent constraints out of `c_map` (`cpp:668-694`); `deps` is the sorted list of positions.  (The code works in place;
here the entries kept are collected.) -/
def takeOutFrom : Nat → List Nat → List Nat → List Nat
  | _, rest, [] => rest
  | _, [], _ :: _ => []
  | i, x :: rest, d :: ds => if i = d then takeOutFrom (i + 1) rest ds else x :: takeOutFrom (i + 1) rest (d :: ds)

/-- `cpp:668-694`. -/
def takeOut (c : List Nat) (deps : List Nat) : List Nat :=
  match deps with
  | [] => c
  | d :: _ => c.take d ++ takeOutFrom d (c.drop d) deps

/-- Writing an array element. -/
def upd {α : Type} (f : Nat → α) (i : Nat) (x : α) : Nat → α := fun j => if j = i then x else f j

/-- `CompressedPosIndices` of an expansion matrix with the given expanded positions (`IpExpansionMatrix.cpp:433-465`); `none` is `-1`. -/
def compressed (pos : List Nat) : Nat → Option Nat :=
  pos.zipIdx.foldl (fun f p => upd f p.1 (some p.2)) fun _ => none

/-- The adapter after `GetSpaces`: `n_full_x_`, `n_full_g_`, treatment, `x_fixed_map_`, the expansion matrices `P_x_full_x_` (`none`: no such
matrix), `P_x_x_L_`, `P_x_x_U_`, `P_c_g_`, `P_d_g_`, `P_d_l`, `P_d_u` by their expanded positions, and the number of variables. -/
structure Spaces where
  nFull : Nat
  mFull : Nat
  treat : Fixed
  nVar : Nat
  fixed : List Nat
  pFull : Option (List Nat)
  pxl : List Nat
  pxu : List Nat
  pc : List Nat
  pd : List Nat
  pdl : List Nat
  pdu : List Nat

/-- `GetSpaces` (`cpp:313-1390`), numbering part; `deps` is the result of the dependency detector. -/
def getSpaces (t : Fixed) (loInf upInf : Num) (xb gb : List (Num × Num)) (deps : List Nat) : Option Spaces :=
  match buildMaps t loInf upInf xb gb with
  | none => none
  | some m => some
    { nFull := xb.length, mFull := gb.length, treat := m.treat, nVar := m.vars.nVar, fixed := m.vars.fixed
      pFull := if 0 < m.vars.fixed.length ∧ m.treat.isParam then some (m.vars.notFixed.map (·.getD 0)) else none
      pxl := m.vars.xl, pxu := m.vars.xu, pc := takeOut m.cons.c deps, pd := m.cons.d, pdl := m.cons.dl, pdu := m.cons.du }

/-- User index of internal variable `j` (`P_x_full_x_->ExpandedPosIndices()[j]`, or `j` itself). -/
def Spaces.user (s : Spaces) (j : Nat) : Nat := match s.pFull with
  | none => j
  | some pos => pos.getD j 0

/-- Internal index of user variable `i` (`P_x_full_x_->CompressedPosIndices()[i]`, or `i` itself). -/
def Spaces.inner (s : Spaces) (i : Nat) : Option Nat := match s.pFull with
  | none => some i
  | some pos => compressed pos i

variable {α : Type}

/-- `ResortX` (`cpp:2400-2466`). -/
def resortX [Zero α] (s : Spaces) (fullX : Nat → α) (x : Nat → α) (useFixed : Bool) : Nat → α := fun i =>
  match s.inner i with
  | some k => x k
  | none => if useFixed then fullX i else 0

/-- `ResortG` (`cpp:2468-2524`); the loop over `c` runs over `P_c_g_->NCols()`, the loop over `d` over `d.Dim()`. -/
def resortG [Add α] (s : Spaces) (rhs : Nat → α) (correctRhs : Bool) (c d : Nat → α) (g0 : Nat → α) : Nat → α :=
  let g := s.pc.zipIdx.foldl (fun g p => upd g p.1 (if correctRhs then c p.2 + rhs p.2 else c p.2)) g0
  s.pd.zipIdx.foldl (fun g p => upd g p.1 (d p.2)) g

/-- One half of `ResortBounds` (`cpp:2533-2592` and `2594-2650`): `memset` to zero unless every variable has such a bound. -/
def resortBound [Zero α] (s : Spaces) (pos : List Nat) (z : Nat → α) (z0 : Nat → α) : Nat → α :=
  let init := if pos.length < s.nFull then fun _ => 0 else z0
  pos.zipIdx.foldl (fun g p => upd g (s.user p.1) (z p.2)) init

/-- Setting `full_x_` for the fixed variables in `GetBoundsInformation` (`cpp:1411-1419`); `xl` are the user's lower bounds. -/
def setFixed (s : Spaces) (xl : Nat → α) (fullX : Nat → α) : Nat → α :=
  if s.treat.isParam then s.fixed.foldl (fun f i => upd f i (xl i)) fullX else fullX

/-- Internal lower or upper bounds of the variables (`cpp:1433-1477`). -/
def boundValues (s : Spaces) (pos : List Nat) (b : Nat → α) : Nat → α := fun k => b (s.user (pos.getD k 0))

/-- `c_rhs_` (`cpp:1482-1501`); `gl`, `xl` are the user's lower bounds. -/
def cRhs (s : Spaces) (gl xl : Nat → α) : Nat → α := fun k =>
  if k < s.pc.length then gl (s.pc.getD k 0) else xl (s.fixed.getD (k - s.pc.length) 0)

/-- Bounds of the inequality constraints (`cpp:1503-1530`). -/
def dBoundValues (s : Spaces) (pos : List Nat) (b : Nat → α) : Nat → α := fun k => b (s.pd.getD (pos.getD k 0) 0)

/-- `GetBoundsInformation`, relaxing fixed variables (`cpp:1420-1431`): the loop runs over `n_x_fixed_` variables — a counter that is not
increased for this treatment (`cpp:492-498`). -/
def relaxFixed {K : Type} [Field K] [LinearOrder K] (s : Spaces) (relax : K) (b : Nat → K × K) : Nat → K × K :=
  if s.treat = .relaxBounds then
    (List.range s.fixed.length).foldl (fun b i =>
      if (b i).1 = (b i).2 then upd b i ((b i).1 - relax * max 1 |(b i).1|, (b i).2 + relax * max 1 |(b i).2|) else b) b
  else b

/-- `GetStartingPoint`, primal part (`cpp:1588-1606`). -/
def startX (s : Spaces) (fullX : Nat → α) : Nat → α := fun j => fullX (s.user j)

/-- `GetStartingPoint`, multipliers of the equality constraints (`cpp:1608-1625`). -/
def startYc [Sub α] (s : Spaces) (lam zl zu : Nat → α) : Nat → α := fun k =>
  if k < s.pc.length then lam (s.pc.getD k 0) else zu (s.fixed.getD (k - s.pc.length) 0) - zl (s.fixed.getD (k - s.pc.length) 0)

/-- `GetStartingPoint`, multipliers of the inequality constraints (`cpp:1627-1637`). -/
def startYd (s : Spaces) (lam : Nat → α) : Nat → α := fun k => lam (s.pd.getD k 0)

/-- `Eval_c` from the user's constraint values (`cpp:1823-1842`). -/
def evalC [Sub α] (s : Spaces) (rhs : Nat → α) (fullX fullG : Nat → α) : Nat → α := fun k =>
  if k < s.pc.length then fullG (s.pc.getD k 0) - rhs k else fullX (s.fixed.getD (k - s.pc.length) 0) - rhs k

/-- `Eval_d` (`cpp:1893-1901`). -/
def evalD (s : Spaces) (fullG : Nat → α) : Nat → α := fun k => fullG (s.pd.getD k 0)

/-! ### Jacobian and Hessian structure -/

/-- Jacobian of the equality constraints (`cpp:1148-1211`): pairs of a triplet (row, column counted from 0) and the position of its value in
the user's array.  (The extra entries for `MAKE_CONSTRAINT` are in `jacCExtra`; for `RELAX_BOUNDS` there are none because `n_x_fixed_` is 0.) -/
def jacC (s : Spaces) (jac : List (Nat × Nat)) : List ((Nat × Nat) × Nat) :=
  jac.zipIdx.filterMap fun p => match s.inner p.1.2, compressed s.pc p.1.1 with
    | some col, some row => some ((row, col), p.2)
    | _, _ => none

/-- Rows added for fixed variables (`cpp:1199-1207`): value one. -/
def jacCExtra (s : Spaces) : List (Nat × Nat) :=
  if s.treat.isParam then [] else s.fixed.zipIdx.map fun p => (s.pc.length + p.2, p.1)

/-- Jacobian of the inequality constraints (`cpp:1219-1262`). -/
def jacD (s : Spaces) (jac : List (Nat × Nat)) : List ((Nat × Nat) × Nat) :=
  jac.zipIdx.filterMap fun p => match s.inner p.1.2, compressed s.pd p.1.1 with
    | some col, some row => some ((row, col), p.2)
    | _, _ => none

/-- Hessian of the Lagrangian (`cpp:1313-1345`). -/
def hess (s : Spaces) (h : List (Nat × Nat)) : List ((Nat × Nat) × Nat) :=
  h.zipIdx.filterMap fun p => match s.inner p.1.1, s.inner p.1.2 with
    | some row, some col => some ((row, col), p.2)
    | _, _ => none

/-- Jacobian entries in columns of fixed variables (`cpp:1166-1174`, only for `MAKE_PARAMETER`): triplet and value position. -/
def jacFixed (s : Spaces) (jac : List (Nat × Nat)) : List ((Nat × Nat) × Nat) :=
  if s.treat = .makeParameter ∧ s.pFull.isSome then
    jac.zipIdx.filterMap fun p => match s.inner p.1.2 with
      | none => some (p.1, p.2)
      | some _ => none
  else []

section
variable {K : Type} [Field K] [LinearOrder K]

/-- Multiplier of constraint `row` used in `ResortBoundMultipliers` (`cpp:2745-2768`). -/
def rowMult (s : Spaces) (yc yd : Nat → K) (row : Nat) : K :=
  match compressed s.pc row with
  | some k => yc k
  | none => match compressed s.pd row with
    | some k => yd k
    | none => 0

/-- `ResortBoundMultipliers` (`cpp:2653-2796`): lower and upper bound multipliers for the user; `gradF`, `jacVal` are the user's gradient and
Jacobian values at the solution (both evaluations succeed). -/
def resortBoundMult (s : Spaces) (jac : List (Nat × Nat)) (gradF jacVal : Nat → K) (yc yd zL zU zL0 zU0 : Nat → K) :
    (Nat → K) × (Nat → K) :=
  let l := resortBound s s.pxl zL zL0
  let u := resortBound s s.pxu zU zU0
  if s.fixed.length = 0 then (l, u)
  else match s.treat with
    | .makeConstraint =>
      (s.fixed.zipIdx.foldl (fun f p => upd f p.1 (max 0 (-(yc (s.pc.length + p.2))))) l,
        s.fixed.zipIdx.foldl (fun f p => upd f p.1 (max 0 (yc (s.pc.length + p.2)))) u)
    | .makeParameter =>
      let mult := (jacFixed s jac).foldl (fun f e => upd f e.1.2 (f e.1.2 + rowMult s yc yd e.1.1 * jacVal e.2)) gradF
      (s.fixed.foldl (fun f i => upd f i (max 0 (mult i))) l, s.fixed.foldl (fun f i => upd f i (max 0 (-(mult i)))) u)
    | _ => (l, u)

end

end Verif.Adapter
