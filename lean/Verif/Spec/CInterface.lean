import Verif.Model.CInterface
import Verif.Spec.AdapterEval

/-! # What a user of the C interface expects -/

namespace Verif.CInterface

variable {K : Type}

/-- The first `n` elements of an array at a certain time (`none` for the `NULL` pointer). -/
def snapshot (h : Nat → List K) (n : Int) (p : Option Nat) : Option (List K) := p.map fun a => (h a).take n.toNat

/-- The documented conditions on the arguments of `CreateIpoptProblem`, as far as the function checks them. -/
def Acceptable (a : CreateArgs) : Prop :=
  1 ≤ a.n ∧ 0 ≤ a.m ∧ a.xL ≠ none ∧ a.xU ≠ none ∧ 0 ≤ a.neleHess ∧ a.evalF ≠ none ∧ a.evalGradF ≠ none ∧
    (a.m = 0 → a.neleJac = 0) ∧
    (0 < a.m → a.gL ≠ none ∧ a.gU ≠ none ∧ 1 ≤ a.neleJac ∧ a.evalG ≠ none ∧ a.evalJacG ≠ none)

/-- What solving needs in addition: all callbacks, a known index style. -/
def Solvable (a : CreateArgs) : Prop :=
  a.evalG ≠ none ∧ a.evalJacG ≠ none ∧ a.evalH ≠ none ∧ (a.indexStyle = 0 ∨ a.indexStyle = 1)

/-- The point and the flag `new_x` of an evaluation request. -/
def Req.point : Req K → Option (Option (List K) × Bool)
  | .evalF x b => some (x, b)
  | .evalGradF x b => some (x, b)
  | .evalG x b => some (x, b)
  | .evalJacG x b => some (x, b)
  | .evalH x b _ _ _ => some (x, b)
  | _ => none

/-- The points at which the solver has requested values, with the flag `new_x` (calls for the sparsity structure have no point). -/
def points (qa : List (Req K × Ans K)) : List (List K × Bool) :=
  qa.filterMap fun p => match p.1.point with
    | some (some x, b) => some (x, b)
    | _ => none

/-- The last point that was announced with `new_x = true`. -/
def lastNew : List (Req K) → Option (List K)
  | [] => none
  | q :: qs => match q.point with
    | some (x, true) => x
    | _ => lastNew qs

/-- Calls for the sparsity structure are not flagged as new (`IpTNLPAdapter.cpp:1093, 1273`), and points have `n` components. -/
def Sane (n : Int) (q : Req K) : Prop := ∀ x b, q.point = some (x, b) → (x = none → b = false) ∧ ∀ v, x = some v → v.length = n.toNat

/-- A user whose callback functions do not write to the array `x` they are given. -/
def Polite (user : User K) : Prop := ∀ c cs h v, c.x = some v → (user (c :: cs) h).1.buf = v

/-- The call `c` is the right reaction to an evaluation request: the right function, the right multipliers, the caller's data pointer. -/
def RightFunction (a : CreateArgs) (interm : Option Nat) (c : Call K) : Prop :=
  match c.req with
  | .evalF _ b => a.evalF = some c.fn ∧ c.newX = b
  | .evalGradF _ b => a.evalGradF = some c.fn ∧ c.newX = b
  | .evalG _ b => a.evalG = some c.fn ∧ c.newX = b
  | .evalJacG _ b => a.evalJacG = some c.fn ∧ c.newX = b
  | .evalH _ b _ lam _ => a.evalH = some c.fn ∧ c.newX = b ∧ c.lambda = lam.map (·.take a.m.toNat)
  | .interm _ _ _ _ => interm = some c.fn
  | _ => False

/-- The call answers an evaluation request (not the intermediate callback). -/
def Req.isInterm : Req K → Bool
  | .interm _ _ _ _ => true
  | _ => false

/-- The option calls made by the solver while solving, given the option list at that time; whether it gets that far depends on the other
arguments, so this is stated as a choice: nothing but `Initialize`, or both. -/
inductive OptHistory (W : World K) : Opt.Store → List (Op K) → List Opt.Op → Prop
  | nil (m) : OptHistory W m [] []
  | opt (m o q ops qs) : optOp o = some q → OptHistory W (Opt.step W.optEnv m q).2 ops qs → OptHistory W m (o :: ops) (q :: qs)
  | init (m a ops qs) : OptHistory W (Opt.run W.optEnv m (W.initApp m).2) ops qs →
      OptHistory W m (.solve a :: ops) ((W.initApp m).2 ++ qs)
  | solve (m a ops qs) : OptHistory W (Opt.run W.optEnv (Opt.run W.optEnv m (W.initApp m).2) (W.solver (Opt.run W.optEnv m (W.initApp m).2)).2) ops qs →
      OptHistory W m (.solve a :: ops) ((W.initApp m).2 ++ ((W.solver (Opt.run W.optEnv m (W.initApp m).2)).2 ++ qs))
  | other (m o ops qs) : optOp o = none → (∀ a, o ≠ .solve a) → OptHistory W m ops qs → OptHistory W m (o :: ops) qs

end Verif.CInterface
