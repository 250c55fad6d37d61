import Verif.Model.Sens
import Mathlib.Algebra.BigOperators.Group.Finset.Basic

/-! # Specification for sIPOPT

Vectors with several blocks are seen as one long vector (`elt`); `M` is the matrix of the primal-dual system. -/

namespace Verif.Sens
open Finset

section
variable {K : Type} [Field K]

/-- component `i` of the long vector. -/
def elt (v : Blocks K) (i : Nat) : K := v.flatten.getD i 0

/-- `(M v)_i` for a vector of length `n`. -/
def mulVec (n : Nat) (M : Nat → Nat → K) (v : Nat → K) (i : Nat) : K := ∑ j ∈ range n, M i j * v j

/-- the blocks have the given dimensions. -/
def Shape (dims : List Nat) (v : Blocks K) : Prop := v.map List.length = dims

/-- the backsolver solves every system with the matrix `M` exactly. -/
def Exact (E : Env K) (dims : List Nat) (M : Nat → Nat → K) : Prop :=
  ∀ rhs, Shape dims rhs → Shape dims (E.solve rhs).2 ∧ ∀ i, i < dims.sum → mulVec dims.sum M (elt (E.solve rhs).2) i = elt rhs i

/-- a system with the square matrix has at most one solution. -/
def Unique (n : Nat) (M : Nat → Nat → K) : Prop := ∀ v : Nat → K, (∀ i, i < n → mulVec n M v i = 0) → ∀ j, j < n → v j = 0

/-- a system in which the components `F` are given and the equations `F` are dropped has at most one solution. -/
def Fixable (n : Nat) (M : Nat → Nat → K) (F : List Nat) : Prop :=
  ∀ v : Nat → K, (∀ i, i ∈ F → v i = 0) → (∀ i, i < n → i ∉ F → mulVec n M v i = 0) → ∀ j, j < n → v j = 0

/-- LAPACK solves systems with nonsingular matrices (stored by columns) exactly. -/
def LUExact (E : Env K) : Prop :=
  ∀ n S b, b.length = n → Unique n (fun i j => S (i + j * n)) →
    (E.lu n S b).length = n ∧ ∀ i, i < n → mulVec n (fun i j => S (i + j * n)) (fun j => (E.lu n S b).getD j 0) i = b.getD i 0
end

section
variable {K : Type} [Field K] [LinearOrder K]

/-- the data belong together: eight blocks, bounds at distinct variables, lower bounds below upper bounds, positive tolerance. -/
structure Prob.OK (P : Prob K) : Prop where
  curr : Shape P.dims P.curr
  resid : Shape P.dims P.resid
  eight : P.dims.length = 8
  lenL : P.pL.length = P.xL.length
  lenU : P.pU.length = P.xU.length
  nodupL : P.pL.Nodup
  nodupU : P.pU.Nodup
  order : ∀ k l, k < P.pL.length → l < P.pU.length → P.pL.getD k 0 = P.pU.getD l 0 → P.xL.getD k 0 ≤ P.xU.getD l 0
  eps : 0 ≤ P.eps

/-- number of the component `i` of block `k` in the long vector. -/
def Prob.pos (P : Prob K) (k i : Nat) : Nat := (P.dims.take k).sum + i

/-- a point satisfies the bounds, and its bound multipliers (blocks 4 and 5) are nonnegative, up to the tolerance. -/
structure Prob.Within (P : Prob K) (w : Nat → K) : Prop where
  lower : ∀ k, k < P.pL.length → P.pL.getD k 0 < P.dims.getD 0 0 → P.xL.getD k 0 - P.eps ≤ w (P.pL.getD k 0)
  upper : ∀ k, k < P.pU.length → P.pU.getD k 0 < P.dims.getD 0 0 → w (P.pU.getD k 0) ≤ P.xU.getD k 0 + P.eps
  zL : ∀ i, i < P.dims.getD 4 0 → -P.eps ≤ w (P.pos 4 i)
  zU : ∀ i, i < P.dims.getD 5 0 → -P.eps ≤ w (P.pos 5 i)

/-- component `c` of `w` is a variable at one of its bounds, or a bound multiplier that is zero. -/
inductive Prob.Active (P : Prob K) (w : Nat → K) (c : Nat) : Prop where
  | lower (k : Nat) (hk : k < P.pL.length) (hx : P.pL.getD k 0 < P.dims.getD 0 0) (hc : c = P.pL.getD k 0) (h : w c = P.xL.getD k 0)
  | upper (k : Nat) (hk : k < P.pU.length) (hx : P.pU.getD k 0 < P.dims.getD 0 0) (hc : c = P.pU.getD k 0) (h : w c = P.xU.getD k 0)
  | zL (i : Nat) (hi : i < P.dims.getD 4 0) (hc : c = P.pos 4 i) (h : w c = 0)
  | zU (i : Nat) (hi : i < P.dims.getD 5 0) (hc : c = P.pos 5 i) (h : w c = 0)

/-- the labels are used as intended: `sens_init_constr` has a value for every equality constraint, `n` of them are flagged (not 0); in every step every
label 1, …, `n` is used for exactly one variable, no other labels are used, and every variable has a value. -/
structure Prob.Labels (P : Prob K) (n : Nat) (flags : List Nat) (states : List (List Nat × List K)) : Prop where
  rows : flags.length = P.dims.getD 2 0
  count : flags.countP (fun l => l ≠ 0) = n
  pos : 0 < n
  used : ∀ s ∈ states, ∀ k, 0 < k → k ≤ n → k ∈ s.1
  once : ∀ s ∈ states, ∀ i j, i < s.1.length → j < s.1.length → 0 < s.1.getD i 0 → s.1.getD i 0 = s.1.getD j 0 → i = j
  le : ∀ s ∈ states, ∀ i, s.1.getD i 0 ≤ n
  vals : ∀ s ∈ states, s.1.length = s.2.length

/-- number (from 1) of the constraint `j` among the flagged constraints; 0 if it is not flagged. -/
def number (flags : List Nat) (j : Nat) : Nat := if flags.getD j 0 = 0 then 0 else (flags.take (j + 1)).countP fun l => l ≠ 0

/-- the change of the right-hand side of equation `i` of the primal-dual system: the flagged equality constraint with number `k` changes by the
difference between the new and the current value of the variable with label `k`; the residuals are subtracted on demand. -/
def Prob.change (P : Prob K) (flags : List Nat) (s : List Nat × List K) (i : Nat) : K :=
  (if P.dims.getD 0 0 + P.dims.getD 1 0 ≤ i ∧ 0 < number flags (i - (P.dims.getD 0 0 + P.dims.getD 1 0)) then
    let v := s.1.idxOf (number flags (i - (P.dims.getD 0 0 + P.dims.getD 1 0)))
    s.2.getD v 0 - (P.curr.getD 0 []).getD v 0
  else 0) - if P.kkt then elt P.resid i else 0

/-- the result of a step for the change `r` of the right-hand sides: `step` is a direction with `M step = r`, except that the components `F` are
fixed and their equations dropped; `sol = curr + step`; if the bound check is on, then `sol` satisfies the bounds, and the fixed components are variables
at a bound or multipliers that are zero; otherwise no component is fixed. -/
structure Prob.Result (P : Prob K) (M : Nat → Nat → K) (r : Nat → K) (sol step : Nat → K) (F : List Nat) : Prop where
  sum : ∀ i, i < P.dims.sum → sol i = elt P.curr i + step i
  eqs : ∀ i, i < P.dims.sum → i ∉ F → mulVec P.dims.sum M step i = r i
  active : ∀ c ∈ F, P.Active sol c
  within : P.check = true → P.Within sol
  off : P.check = false → F = []
end

end Verif.Sens

namespace Verif.Sens
open Finset

/-- the positive numbers of a suffix are 1, …, `n`, each used once. -/
structure Numbered (n : Nat) (suffix : List Nat) : Prop where
  used : ∀ k, 0 < k → k ≤ n → k ∈ suffix
  le : ∀ k ∈ suffix, k ≤ n
  once : ∀ i j, i < suffix.length → j < suffix.length → 0 < suffix.getD i 0 → suffix.getD i 0 = suffix.getD j 0 → i = j

/-- the primal-dual matrix of a problem with `n` variables and `m` equality constraints only: Hessian `W` of the Lagrangian, Jacobian `J`. -/
def kktMatrix {K : Type} [Zero K] (n m : Nat) (W J : Nat → Nat → K) (i j : Nat) : K :=
  if i < n then (if j < n then W i j else if j < n + m then J (j - n) i else 0)
  else if i < n + m then (if j < n then J (i - n) j else 0) else 0

/-- `z 0, …, z (d-1)` is the basis of the null space of the Jacobian that belongs to the free variables `pos 0, …, pos (d-1)`: a vector in the null
space is the combination of them with its values at these positions. -/
structure NullBasis {K : Type} [Field K] (n m : Nat) (J : Nat → Nat → K) (d : Nat) (pos : Nat → Nat) (z : Nat → Nat → K) : Prop where
  free : ∀ k, k < d → pos k < n
  unit : ∀ k l, k < d → l < d → z k (pos l) = if k = l then 1 else 0
  null : ∀ k, k < d → ∀ r, r < m → ∑ j ∈ range n, J r j * z k j = 0
  span : ∀ v : Nat → K, (∀ r, r < m → ∑ j ∈ range n, J r j * v j = 0) → ∀ j, j < n → v j = ∑ l ∈ range d, v (pos l) * z l j

end Verif.Sens
