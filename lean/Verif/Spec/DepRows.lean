import Verif.Model.DepRows
import Verif.Spec.Mumps
import Verif.Spec.Adapter

/-! # Specification: rows that form a basis -/

namespace Verif.DepRows
open Finset
open Verif.AugSolve (Structure denote)

variable {K P M : Type} [Field K]

/-- the rows `i < m` with `keep i` of a matrix with `n` columns are linearly independent and every other row is a linear combination of
them. -/
structure RowBasis (m n : Nat) (A : Nat → Nat → K) (keep : Nat → Prop) : Prop where
  indep : ∀ b : Nat → K, (∀ r, ¬keep r → b r = 0) → (∀ c < n, ∑ r ∈ range m, b r * A r c = 0) → ∀ r < m, b r = 0
  comb : ∀ t < m, ¬keep t → ∃ b : Nat → K, (∀ r, ¬keep r → b r = 0) ∧ ∀ c < n, A t c = ∑ r ∈ range m, b r * A r c

/-- what a list of null pivots (counted from 1) should be: the other rows of the matrix are a basis. -/
def NullPivots (S : Structure) (v : Nat → K) (R : List Int) : Prop :=
  R.Nodup ∧ (∀ i ∈ R, 1 ≤ i ∧ i ≤ S.dim) ∧ RowBasis S.dim S.dim (denote .triplet S.nnz S.ia S.ja v) (fun r => ((r : Int) + 1) ∉ R)

/-- the documented behaviour of MUMPS with null pivot detection, in exact arithmetic. -/
def NullOK (L : Mumps.Lib K P M) (SymOf : M → Structure → Prop) : Prop :=
  ∀ c (S : Structure) v m, SymOf m S → c.nul = true → 0 ≤ (L.factor c S.dim S.nnz S.ia S.ja v m).info →
    NullPivots S v (L.factor c S.dim S.nnz S.ia S.ja v m).nulList

/-- element of a matrix given by triplets counted from 1. -/
def tripElem (t : List ((Nat × Nat) × K)) (i j : Nat) : K := (t.map fun e => if e.1 = (i + 1, j + 1) then e.2 else 0).sum

/-- what a detector should find for a matrix given by triplets. -/
structure Found (nRows nCols : Nat) (t : List ((Nat × Nat) × K)) (R : List Int) : Prop where
  nodup : R.Nodup
  range : ∀ i ∈ R, 0 ≤ i ∧ i < nRows
  basis : RowBasis nRows nCols (tripElem t) (fun i => (i : Int) ∉ R)

/-- the constraints `i < m` with `kept i` are linearly independent with respect to the given columns (values for all constraints), and every
other constraint with `eq i` is a linear combination of them. -/
structure UserBasis (m : Nat) (eq kept : Nat → Prop) (Col : (Nat → K) → Prop) : Prop where
  indep : ∀ b : Nat → K, (∀ i, ¬kept i → b i = 0) → (∀ col, Col col → ∑ i ∈ range m, b i * col i = 0) → ∀ i < m, b i = 0
  comb : ∀ t < m, eq t → ¬kept t → ∃ b : Nat → K, (∀ i, ¬kept i → b i = 0) ∧ ∀ col, Col col → col t = ∑ i ∈ range m, b i * col i

/-- the columns: partial derivatives with respect to the variables that are not removed, and, if wanted, the residuals. -/
def Columns (t : Adapter.Fixed) (xb : List (Num × Num)) (S : List (Nat × Nat)) (jv : Nat → K) (res : Option (Nat → K)) (col : Nat → K) : Prop :=
  (∃ j < xb.length, ¬Adapter.Removed t (Adapter.bnd xb j) ∧ col = fun i => Adapter.userElem S jv i j) ∨ ∃ r, res = some r ∧ col = r

/-- a detector that does what it should: if it reports success, the rows it does not list are a basis; otherwise its list is empty. -/
structure DetOK (det : Nat → Nat → List ((Nat × Nat) × K) → Option Bool × List Int) : Prop where
  found : ∀ nRows nCols t, (∀ e ∈ t, (1 ≤ e.1.1 ∧ e.1.1 ≤ nRows) ∧ 1 ≤ e.1.2 ∧ e.1.2 ≤ nCols) →
    (det nRows nCols t).1 = some true → Found nRows nCols t (det nRows nCols t).2
  empty : ∀ nRows nCols t, (det nRows nCols t).1 ≠ some true → (det nRows nCols t).2 = []

/-- the user's structure with indices counted from 0. -/
def cStyle (fortran : Bool) (S : List (Nat × Nat)) : List (Nat × Nat) := if fortran then S.map fun e => (e.1 - 1, e.2 - 1) else S

/-- every value `new_x = false` is given for the point of the call before; `last`: the point of the call before. -/
def NewXOK : Option (Nat → K) → List (DerivCheck.Call K) → Prop
  | _, [] => True
  | last, .g x nx :: r => (nx = false → last = some x) ∧ NewXOK (some x) r
  | last, .jac x nx :: r => (nx = false → last = some x) ∧ NewXOK (some x) r
  | last, .jacStruct :: r => NewXOK last r
  | last, .start :: r => NewXOK last r
  | _, _ :: _ => False

end Verif.DepRows
