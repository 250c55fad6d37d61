import Verif.Model.Reducer
import Mathlib.Algebra.BigOperators.Group.List.Basic

/-! # Specification of the reduced problem -/

namespace Verif.Reducer

/-- a list of indices given by the user (in the index style of the problem) is meaningful: no index twice, all in range. -/
def IdxOK (off : Int) (size : Nat) (l : List Int) : Prop := l.Nodup ∧ ∀ a ∈ l, off ≤ a ∧ a < off + size

/-- the constraints that are not excluded, in order (numbered from 0). -/
def kept (off : Int) (m : Nat) (skip : List Int) : List Nat := (List.range m).filter (fun i => decide ((i : Int) + off ∉ skip))

/-- `b` is the restriction of `a` to the constraints `k`. -/
def IsRestr {A : Type} (d : A) (k : List Nat) (a b : List A) : Prop := b = k.map (fun i => a.getD i d)

/-- `b` is `a` extended by 0 for the excluded constraints: b at the j-th kept constraint is a_j, and 0 elsewhere. -/
def IsExt {N : Type} [Zero N] (k : List Nat) (m : Nat) (a b : List N) : Prop :=
  b.length = m ∧ (∀ j i, k[j]? = some i → b.getD i 0 = a.getD j 0) ∧ ∀ i, i ∉ k → b.getD i 0 = 0

/-- the entry at (row, col) of a matrix in triplet format: duplicates are added. -/
def trip {N : Type} [AddMonoid N] (idx : List (Int × Int)) (vals : List N) (row col : Int) : N :=
  (((idx.zip vals).filter (fun e => decide (e.1 = (row, col)))).map (fun e => e.2)).sum

/-- the wrapped problem answers consistently: the arrays have the announced lengths and row indices are in range. -/
structure InnerOK {N : Type} (p : Inner N) : Prop where
  rows : ∀ t, p.jacStruct = some t → t.length = p.nnzJ ∧ ∀ e ∈ t, p.style.off ≤ e.1 ∧ e.1 < p.style.off + p.m
  vals : ∀ x v, p.jacVals x = some v → v.length = p.nnzJ
  bounds : ∀ a b c d, p.bounds = some (a, b, c, d) → a.length = p.n ∧ b.length = p.n

end Verif.Reducer
