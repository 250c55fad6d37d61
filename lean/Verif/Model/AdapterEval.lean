import Verif.Model.CSR
import Mathlib.Algebra.Order.Field.Basic

/-!
# Model of `Ipopt::TNLPAdapter`: evaluating the user's functions

`/repo/src/Interfaces/IpTNLPAdapter.cpp`.  The adapter keeps the user's vectors `full_x_`, `full_g_`, `full_lambda_`, `jac_g_` and the tags of
the internal vectors they belong to.  The rearrangement of `x` (`ResortX`) is left out: `X` stands for the user's vectors.
-/

namespace Verif.AdapterEval

/-- An internal vector: tag and contents (`IpTaggedObject.hpp`). -/
structure Vec (X : Type) where
  tag : Nat
  val : X

/-- The user's functions; `none` is a return value `false`.  `junk…` is what a failing function leaves in the output array. -/
structure User (X Y K G J H D : Type) where
  f : X → Option K
  grad : X → Option D
  g : X → Option G
  jac : X → Option J
  h : X → K → Y → Option H
  junkG : X → G → G
  junkJ : X → J → J
  /-- `full_lambda_` from `y_c` and `y_d` (`ResortG`). -/
  lam : Y → Y → Y
  /-- `obj_factor == 0. && yc.Asum() == 0. && yd.Asum() == 0.` -/
  zeroWeights : K → Y → Y → Bool
  zeroH : H

/-- The cached data: `x_tag_for_iterates_`, `x_tag_for_g_`, `x_tag_for_jac_g_`, `y_c_tag_for_iterates_`, `y_d_tag_for_iterates_`, `full_x_`,
`full_g_`, `jac_g_`, `full_lambda_`; `log` (not in the code) lists the calls of the user's functions, newest first: point and `new_x`. -/
structure St (X Y G J : Type) where
  iterTag : Nat
  gTag : Nat
  jacTag : Nat
  ycTag : Nat
  ydTag : Nat
  x : X
  g : G
  jac : J
  y : Y
  log : List (X × Bool)

variable {X Y K G J H D : Type}

/-- The tags after construction (`cpp:53-57`). -/
def init (x : X) (g : G) (jac : J) (y : Y) : St X Y G J := ⟨0, 0, 0, 0, 0, x, g, jac, y, []⟩

/-- `update_local_x` (`cpp:2798-2812`): new state and `new_x`. -/
def updateX (s : St X Y G J) (v : Vec X) : St X Y G J × Bool :=
  if v.tag = s.iterTag then (s, false) else ({ s with x := v.val, iterTag := v.tag }, true)

/-- `update_local_lambda` (`cpp:2814-2830`). -/
def updateY (U : User X Y K G J H D) (s : St X Y G J) (yc yd : Vec Y) : St X Y G J :=
  if yc.tag = s.ycTag ∧ yd.tag = s.ydTag then s else { s with y := U.lam yc.val yd.val, ycTag := yc.tag, ydTag := yd.tag }

/-- `internal_eval_g` (`cpp:2832-2852`), with the tag that is reset on failure. -/
def evalG (U : User X Y K G J H D) (s : St X Y G J) (newX : Bool) : St X Y G J × Bool :=
  if s.gTag = s.iterTag then (s, true)
  else
    let s := { s with gTag := s.iterTag, log := (s.x, newX) :: s.log }
    match U.g s.x with
    | some g => ({ s with g := g }, true)
    | none => ({ s with g := U.junkG s.x s.g, jacTag := 0 }, false)

/-- `internal_eval_jac_g` with exact derivatives (`cpp:2854-2870`, `2913-2919`). -/
def evalJac (U : User X Y K G J H D) (s : St X Y G J) (newX : Bool) : St X Y G J × Bool :=
  if s.jacTag = s.iterTag then (s, true)
  else
    let s := { s with jacTag := s.iterTag, log := (s.x, newX) :: s.log }
    match U.jac s.x with
    | some j => ({ s with jac := j }, true)
    | none => ({ s with jac := U.junkJ s.x s.jac, jacTag := 0 }, false)

/-- Evaluating the constraints at perturbed points (`cpp:2879-2907`): every perturbed point is a new one; stops at the first failure. -/
def evalPert (U : User X Y K G J H D) : List X → List (X × Bool) → Option (List G) × List (X × Bool)
  | [], log => (some [], log)
  | p :: ps, log => match U.g p with
    | none => (none, (p, true) :: log)
    | some g => match evalPert U ps ((p, true) :: log) with
      | (none, log') => (none, log')
      | (some gs, log') => (some (g :: gs), log')

/-- `internal_eval_jac_g` with finite differences (`cpp:2854-2919`): `pts` are the perturbed points, `combine` computes the differences. -/
def evalJacFD (U : User X Y K G J H D) (pts : X → List X) (combine : X → G → List G → J → J) (s : St X Y G J) (newX : Bool) :
    St X Y G J × Bool :=
  if s.jacTag = s.iterTag then (s, true)
  else
    let s := { s with jacTag := s.iterTag }
    match evalG U s newX with
    | (s, false) => ({ s with jacTag := 0 }, false)
    | (s, true) => match evalPert U (pts s.x) s.log with
      | (none, log) => ({ s with log := log, jac := U.junkJ s.x s.jac, jacTag := 0 }, false)
      | (some gs, log) => ({ s with log := log, jac := combine s.x s.g gs s.jac }, true)

/-- How the Jacobian is obtained (`jacobian_approximation`). -/
inductive JacMode (X G J : Type) where
  | exact
  | findiff (pts : X → List X) (combine : X → G → List G → J → J)

/-- Requests of the algorithm. -/
inductive Op (X Y K : Type) where
  | f (v : Vec X)
  | grad (v : Vec X)
  | g (v : Vec X)
  | jac (v : Vec X)
  | h (v : Vec X) (obj : K) (yc yd : Vec Y)

/-- Answers: `none` for failure. -/
inductive Res (K G J H D : Type) where
  | f (r : Option K)
  | grad (r : Option D)
  | g (r : Option G)
  | jac (r : Option J)
  | h (r : Option H)

/-- `Eval_f` (`cpp:1711-1722`), `Eval_grad_f` with exact derivatives (`1724-1763`), `Eval_c`/`Eval_d` (`1811-1845`, `1879-1904`),
`Eval_jac_c`/`Eval_jac_d` (`1847-1877`, `1906-1931`), `Eval_h` (`1933-1996`).  (Extracting the parts for equality and inequality constraints
and free variables is in `Model/Adapter`.) -/
def step (U : User X Y K G J H D) (mode : JacMode X G J) (s : St X Y G J) : Op X Y K → St X Y G J × Res K G J H D
  | .f v =>
    let (s, newX) := updateX s v
    ({ s with log := (s.x, newX) :: s.log }, .f (U.f s.x))
  | .grad v =>
    let (s, newX) := updateX s v
    ({ s with log := (s.x, newX) :: s.log }, .grad (U.grad s.x))
  | .g v =>
    let (s, newX) := updateX s v
    match evalG U s newX with
    | (s, true) => (s, .g (some s.g))
    | (s, false) => (s, .g none)
  | .jac v =>
    let (s, newX) := updateX s v
    match (match mode with
      | .exact => evalJac U s newX
      | .findiff pts combine => evalJacFD U pts combine s newX) with
    | (s, true) => (s, .jac (some s.jac))
    | (s, false) => (s, .jac none)
  | .h v obj yc yd =>
    if U.zeroWeights obj yc.val yd.val then (s, .h (some U.zeroH))
    else
      let (s, newX) := updateX s v
      let s := updateY U s yc yd
      ({ s with log := (s.x, newX) :: s.log }, .h (U.h s.x obj s.y))

/-- A sequence of requests. -/
def run (U : User X Y K G J H D) (mode : JacMode X G J) (s : St X Y G J) (ops : List (Op X Y K)) : St X Y G J :=
  ops.foldl (fun s op => (step U mode s op).1) s

/-! ### Finite differences -/

section
variable {F : Type} [Field F] [LinearOrder F]

/-- The perturbation of variable with value `x`, upper bound `u` (`cpp:2885-2893`; the same for the gradient, `1782-1790`); `eps` is
`findiff_perturbation_`. -/
def pertOf (eps x u : F) : F := let p := eps * max 1 |x|; if u < x + p then -p else p

/-- The point at which the functions are evaluated for variable `j`. -/
def pertPoint (eps : F) (x u : Nat → F) (j : Nat) : Nat → F := fun i => if i = j then x j + pertOf eps (x j) (u j) else x i

/-- The triplets given to the converter (`cpp:2934-2938`): row is the variable, column the constraint behind the variables (counted from 1). -/
def fdTriplets (n : Nat) (jac : List (Nat × Nat)) : List (Nat × Nat) := jac.map fun e => (e.2 + 1, e.1 + 1 + n)

/-- Finite difference Jacobian (`cpp:2879-2907`) from the converter data (`cpp:2957-2979`): `findiff_jac_ia_`, `findiff_jac_ja_`,
`findiff_jac_postriplet_`.  `free i`: `findiff_x_l_ < findiff_x_u_`; `g` is the user's function, `x` the point. -/
def fdJac (c : CSR.Conv) (n : Nat) (free : Nat → Bool) (eps : F) (g : (Nat → F) → Nat → F) (x u : Nat → F) (jac0 : Nat → F) : Nat → F :=
  (List.range n).foldl (fun jac j =>
    if free j then
      (List.range' (c.ia j) (c.ia (j + 1) - c.ia j)).foldl (fun jac p =>
        CSR.upd jac (c.first p) ((g (pertPoint eps x u j) (c.ja p - n) - g x (c.ja p - n)) / pertOf eps (x j) (u j))) jac
    else jac) jac0

end

end Verif.AdapterEval
