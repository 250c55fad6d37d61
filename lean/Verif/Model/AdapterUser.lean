import Verif.Model.Adapter

/-! # Model of the user's scaling factors and lists of nonlinear variables in `TNLPAdapter`

`src/Interfaces/IpTNLPAdapter.cpp:1997-2092` (`GetScalingParameters`, called by `UserScaling::DetermineScalingParametersImpl`,
`src/Algorithm/IpUserScaling.cpp:12-31`) and `:2291-2391` (`GetQuasiNewtonApproximationSpaces`). -/

namespace Verif.Adapter

variable {α : Type}

/-- Answer of the user's `get_scaling_parameters`. -/
structure UserScaling (α : Type) where
  ret : Bool
  obj : α
  useX : Bool
  x : Nat → α
  useG : Bool
  g : Nat → α

/-- Result: objective factor and the vectors for x, c, d (`none`: `NULL`, no scaling). -/
structure InnerScaling (α : Type) where
  obj : α
  x : Option (Nat → α)
  c : Option (Nat → α)
  d : Option (Nat → α)

/-- The factors of the variables (`:2025-2060`); `none`: exception. -/
def scalingX (s : Spaces) (u : UserScaling α) : Option (Nat → α) := match s.pFull with
  | some pos => if u.ret then some (fun i => u.x (pos.getD i 0)) else none
  | none => if u.ret then some u.x else none

/-- `GetScalingParameters` (`:1997-2092`); `none`: exception `OPTION_INVALID`. -/
def getScaling [One α] (s : Spaces) (u : UserScaling α) : Option (InnerScaling α) :=
  match scalingX s u with
  | none => none
  | some dx => some
    { obj := u.obj
      x := if u.useX then some dx else none
      c := if u.useG then some (fun i => if i < s.pc.length then u.g (s.pc.getD i 0) else 1) else none
      d := if u.useG then some (fun i => u.g (s.pd.getD i 0)) else none }

/-- Answers of `get_number_of_nonlinear_variables` and `get_list_of_nonlinear_variables` (`none`: it returned `false`). -/
structure UserNonlin where
  num : Int
  list : Option (List Int)

/-- Result of `GetQuasiNewtonApproximationSpaces`: the whole space (`NULL`), an expansion matrix by its positions, the exception
`INVALID_TNLP`, or an allocation with a negative size. -/
inductive ApproxSpace
  | whole
  | sub (pos : List Nat)
  | exception
  | negativeSize
  deriving DecidableEq

/-- The second part (`:2345-2390`), with the user's positions of nonlinear variables. -/
def approxOf (s : Spaces) (pos : List Nat) : ApproxSpace :=
  match s.pFull with
  | none => if pos.length = s.nFull then .whole else .sub pos
  | some p =>
    let inner := pos.filterMap (compressed p)
    if inner.length = s.nFull - s.fixed.length then .whole else .sub inner

/-- `GetQuasiNewtonApproximationSpaces` (`:2291-2391`); `lin` is the option `num_linear_variables`. -/
def approxSpaces (s : Spaces) (fortran : Bool) (lin : Nat) (u : UserNonlin) : ApproxSpace :=
  if u.num < 0 ∧ lin = 0 then .whole
  else if u.num < 0 then
    if s.nFull < lin then .negativeSize else approxOf s (List.range' lin (s.nFull - lin))
  else if 0 < u.num then
    match u.list with
    | none => .exception
    | some l => approxOf s (l.map fun i => (if fortran then i - 1 else i).toNat)
  else approxOf s []

end Verif.Adapter
