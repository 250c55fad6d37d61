import Verif.Model.Adapter
import Mathlib.Algebra.Order.Field.Basic
import Mathlib.Algebra.BigOperators.Group.List.Basic

/-! # What a user of the problem interface expects of the numbering -/

namespace Verif.Adapter

open Verif

/-- A pair of bounds fixes the value: equal and not NaN. -/
def IsFixed (b : Num × Num) : Prop := b.1 = b.2 ∧ b.1 ≠ Num.nan

instance (b : Num × Num) : Decidable (IsFixed b) := inferInstanceAs (Decidable (_ ∧ _))

/-- Bounds of position `i` (the default is never used for positions in range). -/
def bnd (B : List (Num × Num)) (i : Nat) : Num × Num := B.getD i (.ninf, .pinf)

/-- `f` enumerates the positions `i < n` with `P i` in increasing order, `k` of them. -/
def Enumerates (f : Nat → Nat) (k n : Nat) (P : Nat → Prop) : Prop :=
  (∀ a b, a < b → b < k → f a < f b) ∧ (∀ a < k, f a < n ∧ P (f a)) ∧ ∀ i < n, P i → ∃ a < k, f a = i

/-- A list contains exactly the positions `i < n` with `P i`, in increasing order. -/
def Lists (l : List Nat) (n : Nat) (P : Nat → Prop) : Prop := l.Pairwise (· < ·) ∧ ∀ i, i ∈ l ↔ i < n ∧ P i

/-- Variables that are not handed to the algorithm: fixed ones, if they are treated as parameters. -/
def Removed (t : Fixed) (b : Num × Num) : Prop := (t = .makeParameter ∨ t = .makeParameterNodual) ∧ IsFixed b

instance (t : Fixed) (b : Num × Num) : Decidable (Removed t b) := inferInstanceAs (Decidable (_ ∧ _))

/-- The algorithm is told about a lower bound: a bound above the value representing minus infinity, and for fixed variables only if they
are kept as bounded variables. -/
def HasLower (t : Fixed) (loInf : Num) (b : Num × Num) : Prop := (¬IsFixed b ∧ loInf < b.1) ∨ (IsFixed b ∧ t = .relaxBounds)

/-- The same for upper bounds. -/
def HasUpper (t : Fixed) (upInf : Num) (b : Num × Num) : Prop := (¬IsFixed b ∧ b.2 < upInf) ∨ (IsFixed b ∧ t = .relaxBounds)

/-- Number of positions `i < n` with `P i`. -/
def count (n : Nat) (P : Nat → Prop) [DecidablePred P] : Nat := (List.range n).countP fun i => decide (P i)

/-- Element of a matrix given by triplets (with positions of the values). -/
def elem {K : Type} [AddCommMonoid K] (L : List ((Nat × Nat) × Nat)) (val : Nat → K) (r c : Nat) : K :=
  (L.map fun e => if e.1 = (r, c) then val e.2 else 0).sum

/-- Element of the matrix given by the user's triplets: value `i` belongs to triplet `i`. -/
def userElem {K : Type} [AddCommMonoid K] (jac : List (Nat × Nat)) (val : Nat → K) (r c : Nat) : K := elem jac.zipIdx val r c

end Verif.Adapter
