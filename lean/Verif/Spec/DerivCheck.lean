import Verif.Model.DerivCheck
import Mathlib.Algebra.BigOperators.Group.Finset.Basic

/-! # C74: what the derivative checker should do

Only the types of the model's interface (problem, options, calls, lines) are used. -/

namespace Verif.DerivCheck.Spec
open Verif.DerivCheck
open scoped BigOperators

variable {K : Type} [Field K] [LinearOrder K]

/-- The tested problem: sizes, number of entries, first index, reference point. -/
structure Data (K : Type) where
  n : Nat
  m : Nat
  nzJ : Nat
  nzH : Nat
  /-- first index of the numbering (0 in C, 1 in FORTRAN style). -/
  base : Int
  x : Nat → K

/-- size of the change of variable `j`. -/
def step (pert : K) (x : Nat → K) (j : Nat) : K := pert * max 1 |x j|

/-- the reference point with variable `j` changed. -/
def moved (pert : K) (x : Nat → K) (j : Nat) : Nat → K := fun i => if i = j then x j + step pert x j else x i

/-- `x + t e_j`. -/
def shift (x : Nat → K) (j : Nat) (t : K) : Nat → K := fun i => if i = j then x j + t else x i

/-- a call is answered: the user's function returns `true`. -/
def answered (p : Prob K) : Call K → Bool
  | .info => p.info.isSome
  | .start => true
  | .bounds => p.bounds.isSome
  | .f x _ => (p.f x).isSome
  | .g x _ => (p.g x).isSome
  | .gradF x _ => (p.gradF x).isSome
  | .jacStruct => p.jacStruct.isSome
  | .jac x _ => (p.jac x).isSome
  | .hessStruct => p.hessStruct.isSome
  | .hess x _ s l _ => (p.hess x s l).isSome

/-- values of the user's functions. -/
def F (p : Prob K) (x : Nat → K) : K := (p.f x).getD 0
def G (p : Prob K) (x : Nat → K) : Nat → K := (p.g x).getD 0
def DF (p : Prob K) (x : Nat → K) : Nat → K := (p.gradF x).getD 0
def JS (p : Prob K) : Nat → Int × Int := p.jacStruct.getD 0
def HS (p : Prob K) : Nat → Int × Int := p.hessStruct.getD 0
def J (p : Prob K) (x : Nat → K) : Nat → K := (p.jac x).getD 0
def H (p : Prob K) (x : Nat → K) (s : K) (l : Nat → K) : Nat → K := (p.hess x s l).getD 0

/-- entry (i, j), counted from 0, of the Jacobian that the user's triplets describe at `x`: duplicates are added. -/
def jacEntry (p : Prob K) (d : Data K) (x : Nat → K) (i j : Nat) : K :=
  ∑ k ∈ (Finset.range d.nzJ).filter (fun k => JS p k = ((i : Int) + d.base, (j : Int) + d.base)), J p x k

/-- entry (j, k) of the symmetric matrix of which the user's triplets describe one triangle. -/
def hessEntry (p : Prob K) (d : Data K) (v : Nat → K) (j k : Nat) : K :=
  ∑ t ∈ (Finset.range d.nzH).filter (fun t => HS p t = ((j : Int) + d.base, (k : Int) + d.base) ∨ HS p t = ((k : Int) + d.base, (j : Int) + d.base)), v t

/-- is there a triplet at (i, j)? -/
def inJac (p : Prob K) (d : Data K) (i j : Nat) : Bool := decide (∃ k < d.nzJ, JS p k = ((i : Int) + d.base, (j : Int) + d.base))
def inHess (p : Prob K) (d : Data K) (j k : Nat) : Bool :=
  decide (∃ t < d.nzH, HS p t = ((j : Int) + d.base, (k : Int) + d.base) ∨ HS p t = ((k : Int) + d.base, (j : Int) + d.base))

/-- A tested derivative: what it is, the user's value, whether it is in the sparsity structure, the finite difference. -/
structure Entry (K : Type) where
  what : What
  exact : K
  found : Bool
  approx : K

/-- the relative deviation. -/
def rel (tol : K) (e : Entry K) : K := |e.approx - e.exact| / max |e.approx| tol

/-- marked as wrong. -/
def wrong (tol : K) (e : Entry K) : Bool := decide (tol ≤ rel tol e)

def line (tol : K) (e : Entry K) : Line K := ⟨wrong tol e, e.what, e.exact, e.found, e.approx, rel tol e⟩

/-- the partial derivative of the objective by variable `j`. -/
def gradEntry (pert : K) (p : Prob K) (d : Data K) (j : Nat) : Entry K :=
  ⟨.gradF (j + d.base), DF p d.x j, false, (F p (moved pert d.x j) - F p d.x) / step pert d.x j⟩

/-- the partial derivative of constraint `i` by variable `j`. -/
def conEntry (pert : K) (p : Prob K) (d : Data K) (i j : Nat) : Entry K :=
  ⟨.jacG (i + d.base) (j + d.base), jacEntry p d d.x i j, inJac p d i j, (G p (moved pert d.x j) i - G p d.x i) / step pert d.x j⟩

/-- the multipliers used for the Hessian of function number `c` (`none`: objective). -/
def lamOf (c : Option Nat) : Nat → K := fun i => if c = some i then 3 / 2 else 0
def objOf (c : Option Nat) : K := if c = none then 3 / 2 else 0

/-- the gradient of function number `c` as described by the user. -/
def gradOf (p : Prob K) (d : Data K) (c : Option Nat) (x : Nat → K) (k : Nat) : K :=
  match c with
  | none => DF p x k
  | some i => jacEntry p d x i k

def hessWhat (d : Data K) (c : Option Nat) (j k : Nat) : What :=
  match c with
  | none => .objHess (j + d.base) (k + d.base)
  | some i => .conHess (i + d.base) (j + d.base) (k + d.base)

/-- the second derivative of 1.5 times function number `c` by variables `j` and `k`. -/
def secEntry (pert : K) (p : Prob K) (d : Data K) (c : Option Nat) (j k : Nat) : Entry K :=
  ⟨hessWhat d c j k, hessEntry p d (H p d.x (objOf c) (lamOf c)) j k, inHess p d j k,
    3 / 2 * (gradOf p d c (moved pert d.x j) k - gradOf p d c d.x k) / step pert d.x j⟩

/-- the variables of the first-order test: those from number `start` on. -/
def vars (start : Int) (n : Nat) : List Nat := (List.range n).filter fun (j : Nat) => decide (start ≤ (j : Int))

/-- the functions of the second-order test: the objective has number -1. -/
def funs (start : Int) (m : Nat) : List (Option Nat) :=
  (if start ≤ -1 then [none] else []) ++ ((List.range m).filter fun (i : Nat) => decide (start ≤ (i : Int))).map some

def isFirst : Test → Bool
  | .first | .second => true
  | _ => false
def isSecond : Test → Bool
  | .second | .onlySecond => true
  | _ => false

/-- all tested derivatives. -/
def entries (cfg : Cfg K) (p : Prob K) (d : Data K) : List (Entry K) :=
  (if isFirst cfg.test then (vars cfg.startIdx d.n).flatMap fun j => gradEntry cfg.pert p d j :: (List.range d.m).map fun i => conEntry cfg.pert p d i j else []) ++
  (if isSecond cfg.test then (funs cfg.startIdx d.m).flatMap fun c => (List.range d.n).flatMap fun j => (List.range d.n).map fun k => secEntry cfg.pert p d c j k else [])

/-- calls for the reference point. -/
def refCalls (d : Data K) : List (Call K) :=
  [.info, .start, .bounds, .f d.x true] ++ (if 0 < d.m then [.g d.x false] else []) ++ [.gradF d.x true] ++ (if 0 < d.m then [.jacStruct, .jac d.x false] else [])

def firstCalls (cfg : Cfg K) (d : Data K) : List (Call K) :=
  (vars cfg.startIdx d.n).flatMap fun j => .f (moved cfg.pert d.x j) true :: if 0 < d.m then [.g (moved cfg.pert d.x j) false] else []

def secCalls (cfg : Cfg K) (d : Data K) : List (Call K) :=
  .hessStruct :: (funs cfg.startIdx d.m).flatMap fun c => .hess d.x true (objOf c) (lamOf c) true ::
    (List.range d.n).map fun j => if c = none then .gradF (moved cfg.pert d.x j) true else .jac (moved cfg.pert d.x j) true

/-- all calls of a complete run. -/
def plan (cfg : Cfg K) (d : Data K) : List (Call K) :=
  refCalls d ++ (if isFirst cfg.test then firstCalls cfg d else []) ++ (if isSecond cfg.test then secCalls cfg d else [])

/-- the calls up to and including the first one that is not answered. -/
def upTo (p : Prob K) : List (Call K) → List (Call K)
  | [] => []
  | c :: l => if answered p c then c :: upTo p l else [c]

/-- the point of a call. -/
def point : Call K → Option (Nat → K)
  | .f x _ | .g x _ | .gradF x _ | .jac x _ | .hess x _ _ _ _ => some x
  | _ => none

def newX : Call K → Bool
  | .f _ b | .g _ b | .gradF _ b | .jac _ b | .hess _ b _ _ _ => b
  | _ => true

/-- The contract of `new_x`: where it is `false`, the point is the point of the last call that had one. -/
def Honest : Option (Nat → K) → List (Call K) → Prop
  | _, [] => True
  | o, c :: l => (newX c = false → point c = o) ∧ Honest ((point c).or o) l

/-- the data of the problem: sizes from `get_nlp_info`, reference point between the bounds close to the starting point. -/
def IsData (cfg : Cfg K) (p : Prob K) (d : Data K) : Prop :=
  ∃ xl xu, p.info = some ⟨d.n, d.m, d.nzJ, d.nzH, decide (d.base = 1)⟩ ∧ (d.base = 0 ∨ d.base = 1) ∧ p.bounds = some (xl, xu) ∧
    d.x = fun i => max (xl i) (p.start i - cfg.radius) + cfg.rnd i * (min (xu i) (p.start i + cfg.radius) - max (xl i) (p.start i - cfg.radius))

end Verif.DerivCheck.Spec
