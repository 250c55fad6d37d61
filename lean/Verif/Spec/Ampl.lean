import Verif.Model.Ampl

/-! # Specification of the AMPL interface -/

namespace Verif.Ampl

variable {X K : Type} [Field K] [LinearOrder K] [IsStrictOrderedRing K]

/-- The objective to be minimized when objective `i` of the model is selected: the negative one if it is to be maximized, zero if
the model has none; `none`: it cannot be evaluated. -/
def minObj (P : Nl X K) (i : Nat) (x : X) : Option K :=
  if P.nObj = 0 then some 0 else (P.objval i x).map fun v => if P.isMax i then -v else v

/-- Its gradient. -/
def minGrad (P : Nl X K) (i : Nat) (x : X) : Option (Nat → K) :=
  if P.nObj = 0 then some (fun _ => 0)
  else if (P.objval i x).isSome then (P.objgrd i x).map fun v k => if P.isMax i then -v k else v k else none

/-- The values of the constraint derivatives. -/
def conJac (P : Nl X K) (x : X) : Option (Nat → K) := if (P.conval x).isSome then P.jacval x else none

/-- The Hessian of `objFactor * (objective to be minimized) + lambda^T g`. -/
def lagHess (P : Nl X K) (i : Nat) (x : X) (objFactor : K) (lam : Nat → K) (k : Nat) : K :=
  (if P.nObj = 0 then 0 else objFactor * (if P.isMax i then -P.hObj i x k else P.hObj i x k)) + P.hCon x lam k

/-- The answer of an evaluation at `x`: with several objectives one must have been chosen; errors of the library are reported by
`false` or end the process. -/
def answer {β : Type} (P : Nl X K) (halt : Bool) (chosen : Option Nat) (x : X) (new : Bool) (value : Option β) : Res β :=
  if 1 < P.nObj ∧ chosen = none then .exc
  else if new = true ∧ P.xErr x = true then aslError halt
  else match value with
    | some v => .val v
    | none => aslError halt

/-- A call is legal: an active objective exists, and `new_x` is false only if the point is that of the preceding evaluation. -/
def Legal (P : Nl X K) (last : Option X) : Op X K → Prop
  | .setActive i => i < P.nObj
  | .info => True
  | .f x new => new = true ∨ last = some x
  | .grad x new => new = true ∨ last = some x
  | .g x new => new = true ∨ last = some x
  | .jac x new => new = true ∨ last = some x
  | .h x new _ _ => new = true ∨ last = some x

/-- The objective chosen by the user after a call. -/
def chosenAfter (chosen : Option Nat) (k : Kind) : Op X K → Option Nat
  | .setActive i => if k = .ok then some i else chosen
  | _ => chosen

/-- The point of the preceding evaluation after a call. -/
def lastAfter (last : Option X) (k : Kind) (op : Op X K) : Option X :=
  if k = .exc then last else match op.point with
    | some (x, _) => some x
    | none => last

/-- Histories of legal calls in a process that has not ended: state, objective chosen, point of the last evaluation. -/
inductive Hist (P : Nl X K) (halt : Bool) : St X K → Option Nat → Option X → Prop
  | new : Hist P halt St.new none none
  | call {s chosen last} (h : Hist P halt s chosen last) (op : Op X K) (legal : Legal P last op)
      (alive : (step P halt s op).1 ≠ .halt) :
      Hist P halt (step P halt s op).2 (chosenAfter chosen (step P halt s op).1 op) (lastAfter last (step P halt s op).1 op)

/-- First order conditions of the internal problem: minimize `sigma f` (`sigma = 1` or `-1`), gradient `df`, constraint Jacobian
`J` (`m` rows), multipliers `lam`, bound multipliers `zL, zU`. -/
def InternalStationary (n m : Nat) (sigma : K) (df : Nat → K) (J : Nat → Nat → K) (lam zL zU : Nat → K) : Prop :=
  (∀ i < n, sigma * df i + ∑ j ∈ Finset.range m, J j i * lam j - zL i + zU i = 0) ∧ (∀ i < n, 0 ≤ zL i ∧ 0 ≤ zU i)

/-- First order conditions in the convention of AMPL: the gradient of the objective is the combination of the constraint
gradients with the dual values plus the two reduced costs; for minimization the one of the lower bound is nonnegative, the one of
the upper bound nonpositive, for maximization the other way round. -/
def AmplStationary (n m : Nat) (isMax : Bool) (df : Nat → K) (J : Nat → Nat → K) (dual rcL rcU : Nat → K) : Prop :=
  (∀ i < n, df i = ∑ j ∈ Finset.range m, J j i * dual j + rcL i + rcU i) ∧
  (∀ i < n, if isMax then rcL i ≤ 0 ∧ 0 ≤ rcU i else 0 ≤ rcL i ∧ rcU i ≤ 0)

/-- Entry `(r, c)` of the sparse matrix given by the arrays of 1-based positions and values with `nnz` entries. -/
def tripletEntry (nnz : Nat) (pos : Nat → Nat × Nat) (values : Nat → K) (r c : Nat) : K :=
  ∑ k ∈ Finset.range nnz, if pos k = (r + 1, c + 1) then values k else 0

/-- Meaning of the ASL's rows: the entry `(r, c)` is the sum of the values at the positions the elements of row `r` for variable
`c` refer to. -/
def cgradEntry (cgrad : List (List CGrad)) (values : Nat → K) (r c : Nat) : K :=
  (((cgrad.getD r []).filter fun e => e.varno = c).map fun e => values e.goff).sum

/-- The classes of `solve_result_num` in AMPL's documentation. -/
inductive ResultClass
  | solved | infeasible | unbounded | limit | failure
  deriving DecidableEq

/-- Class of a number. -/
def resultClass (k : Nat) : Option ResultClass :=
  if k < 100 then some .solved
  else if k < 200 then none
  else if k < 300 then some .infeasible
  else if k < 400 then some .unbounded
  else if k < 500 then some .limit
  else if k < 600 then some .failure
  else none

/-- The class a status should have. -/
def expectedClass : Status → ResultClass
  | .success | .acceptable | .feasiblePoint => .solved
  | .localInfeas => .infeasible
  | .diverging => .unbounded
  | .maxiter | .cputime | .walltime | .userStop => .limit
  | _ => .failure

end Verif.Ampl
