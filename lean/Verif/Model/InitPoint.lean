import Verif.Model.VecOps

/-! # Model of `DefaultIterateInitializer::push_variables` (src/Algorithm/IpDefaultIterateInitializer.cpp)

The expansion matrices `Px_L`, `Px_U` are represented by the presence of the bound: a variable carries an optional lower and an optional
upper bound.  `Px_U^T Px_L x_L` at a variable with an upper but no lower bound is then 0, and so on. Exact arithmetic. -/

namespace Verif.InitPoint

open Verif.VecOps

variable {K : Type} [Field K] [LinearOrder K] [IsStrictOrderedRing K]

/-- One variable: starting value and bounds. -/
structure Var (K : Type) where
  x : K
  lo : Option K
  up : Option K
deriving DecidableEq, Repr

/-- `bound_frac * Px_L^T Px_U (x_U - Px_U^T Px_L x_L) - tiny` at a variable with a lower bound (IpDefaultIterateInitializer.cpp:530-535). -/
def qL (frac tiny l : K) (u : Option K) : K :=
  match u with
  | some u => (-1) * tiny + frac * (u - l)
  | none => (-1) * tiny + frac * 0

/-- `bound_frac * Px_U^T Px_L (Px_L^T Px_U x_U - x_L) - tiny` at a variable with an upper bound (IpDefaultIterateInitializer.cpp:567-572). -/
def qU (frac tiny : K) (l : Option K) (u : K) : K :=
  match l with
  | some l => (-1) * tiny + frac * (u - l)
  | none => (-1) * tiny + frac * 0

/-- The margin to a bound before adding `tiny`: `1/max(1/max(|push*b|, push), 1/q)` (IpDefaultIterateInitializer.cpp:542-551, 576-585). -/
def margin (push b q : K) : K := 1 / max (1 / max |push * b| push) (1 / q)

/-- The element of `tmp_l` of a variable, zero without lower bound: the amount by which the value must be increased
(IpDefaultIterateInitializer.cpp:595-599 and :611-615). -/
def tmpL (push frac tiny : K) (v : Var K) : K :=
  match v.lo with
  | none => 0
  | some l =>
    if 0 < frac then max (-v.x + (l + margin push l (qL frac tiny l v.up))) 0
    else max (l - v.x) 0

/-- The element of `tmp_u` of a variable: the amount by which the value must be decreased (IpDefaultIterateInitializer.cpp:603-605, 618-620).
Unlike the lower margin the upper one is increased by `tiny` (:586). -/
def tmpU (push frac tiny : K) (v : Var K) : K :=
  match v.up with
  | none => 0
  | some u =>
    if 0 < frac then max (v.x + (-u + (margin push u (qU frac tiny v.lo u) + tiny))) 0
    else max (v.x - u) 0

/-- The body after the optional first projection (IpDefaultIterateInitializer.cpp:504-668). -/
def pushOnce (push frac tiny : K) (vs : List (Var K)) : List K :=
  let tl := vs.map (tmpL push frac tiny)
  let tu := vs.map (tmpU push frac tiny)
  let nl := amax tl
  let nu := amax tu
  let d0 := if 0 < nl then tl else vs.map (fun _ => 0)
  let d1 := if 0 < nu then List.zipWith (fun d t => d + (-1) * t) d0 tu else d0
  if 0 < nl ∨ 0 < nu then List.zipWith (fun d (v : Var K) => d + v.x) d1 vs else vs.map (·.x)

/-- `push_variables` (IpDefaultIterateInitializer.cpp:473-668): the values are moved to the bounds first, by the recursive call with zero
margins. -/
def pushVariables (push frac tiny : K) (vs : List (Var K)) : List K :=
  if 0 < push ∨ 0 < frac then
    pushOnce push frac tiny (List.zipWith (fun y (v : Var K) => { v with x := y }) (pushOnce 0 0 tiny vs) vs)
  else pushOnce push frac tiny vs

end Verif.InitPoint
