import Verif.Model.CSR
import Mathlib.Algebra.BigOperators.Group.List.Basic

/-! # Symmetric matrices in triplet and compressed row format -/

namespace Verif.CSR

variable {K : Type} [Field K]

/-- Element `(r, c)` (rows and columns counted from 0) of the symmetric matrix given by triplets (counted from 1) with values `a`: the sum
over all triplets at `(r, c)` or `(c, r)`. -/
def tripletElem (trip : List (Nat × Nat)) (a : Nat → K) (r c : Nat) : K :=
  (trip.zipIdx.map fun p => if (p.1 = (r + 1, c + 1) ∨ p.1 = (c + 1, r + 1)) then a p.2 else 0).sum

/-- Element `(r, c)` of a matrix in compressed row format: the sum over the positions of row `r` with column `c`. -/
def csrElem (offset : Nat) (ia ja : Nat → Nat) (val : Nat → K) (r c : Nat) : K :=
  ((List.range' (ia r - offset) (ia (r + 1) - ia r)).map fun p => if ja p = c + offset then val p else 0).sum

/-- The structure is valid: row pointers start at the first position, do not decrease and end behind the last position; the columns of
every row are in range and strictly increasing. -/
def ValidCSR (offset dim nnz : Nat) (ia ja : Nat → Nat) : Prop :=
  ia 0 = offset ∧ ia dim = nnz + offset ∧ (∀ r < dim, ia r ≤ ia (r + 1)) ∧
    (∀ r < dim, ∀ p, ia r ≤ p + offset → p + offset < ia (r + 1) → offset ≤ ja p ∧ ja p < dim + offset) ∧
    ∀ r < dim, ∀ p q, ia r ≤ p + offset → p < q → q + offset < ia (r + 1) → ja p < ja q

/-- Triplets in range. -/
def InRange (dim : Nat) (trip : List (Nat × Nat)) : Prop := ∀ p ∈ trip, 1 ≤ p.1 ∧ p.1 ≤ dim ∧ 1 ≤ p.2 ∧ p.2 ≤ dim

/-- No empty row of the upper triangle between two non-empty ones. -/
def NoGaps (trip : List (Nat × Nat)) : Prop :=
  ∀ p ∈ trip, ∀ q ∈ trip, ∀ r, min p.1 p.2 ≤ r → r ≤ min q.1 q.2 → ∃ s ∈ trip, min s.1 s.2 = r

/-- A result of `std::sort`: the same entries, no entry followed by a smaller one. -/
def SortedEntries (trip : List (Nat × Nat)) (l : List Entry) : Prop :=
  l.Perm (entries trip) ∧ l.Pairwise fun a b => ¬Entry.lt b a

end Verif.CSR
