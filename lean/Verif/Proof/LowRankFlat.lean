import Mathlib.Data.Fintype.BigOperators
import Mathlib.Tactic.Ring
import Mathlib.Tactic.LinearCombination
import Verif.Spec.LowRank
import Verif.Proof.LowRankAlg

/-! # The augmented system as one matrix -/

set_option linter.unusedSectionVars false
set_option linter.unusedSimpArgs false
set_option linter.unusedVariables false

namespace Verif.LowRank
open _root_.Matrix Finset
open Verif.AugSolve (Status)

variable {K X C D L B : Type} [Field K] [Fintype X] [Fintype C] [Fintype D] [Fintype L]

def flat (q : Quad K X C D) : Ix X C D → K := Sum.elim (Sum.elim q.x q.s) (Sum.elim q.c q.d)

theorem flat_inj {p q : Quad K X C D} (h : flat p = flat q) : p = q := by
  obtain ⟨a, b, c, d⟩ := p; obtain ⟨a', b', c', d'⟩ := q
  simp only [Quad.mk.injEq]
  refine ⟨funext fun i => ?_, funext fun i => ?_, funext fun i => ?_, funext fun i => ?_⟩
  · exact congrFun h (.inl (.inl i))
  · exact congrFun h (.inl (.inr i))
  · exact congrFun h (.inr (.inl i))
  · exact congrFun h (.inr (.inr i))

variable [DecidableEq X] [DecidableEq C] [DecidableEq D]

theorem solves_iff (a : Sys K X C D) (y r : Quad K X C D) : Solves a y r ↔ kmat a *ᵥ flat y = flat r := by
  constructor
  · intro h
    funext i
    rcases i with (i | i) | (i | i)
    · rw [show flat r (.inl (.inl i)) = r.x i from rfl, ← h.x i]
      simp [Matrix.mulVec, dotProduct, Fintype.sum_sum_type, kmat, flat, add_mul, Finset.sum_add_distrib, Finset.mul_sum, mul_assoc]
      ring
    · rw [show flat r (.inl (.inr i)) = r.s i from rfl, ← h.s i]
      simp [Matrix.mulVec, dotProduct, Fintype.sum_sum_type, kmat, flat, add_mul, Finset.sum_add_distrib, Finset.mul_sum, mul_assoc]
      ring
    · rw [show flat r (.inr (.inl i)) = r.c i from rfl, ← h.c i]
      simp [Matrix.mulVec, dotProduct, Fintype.sum_sum_type, kmat, flat, add_mul, Finset.sum_add_distrib, Finset.mul_sum, mul_assoc]
    · rw [show flat r (.inr (.inr i)) = r.d i from rfl, ← h.d i]
      simp [Matrix.mulVec, dotProduct, Fintype.sum_sum_type, kmat, flat, add_mul, Finset.sum_add_distrib, Finset.mul_sum, mul_assoc]
      ring
  · intro h
    refine ⟨fun i => ?_, fun i => ?_, fun i => ?_, fun i => ?_⟩
    · have := congrFun h (.inl (.inl i))
      simp [Matrix.mulVec, dotProduct, Fintype.sum_sum_type, kmat, flat, add_mul, Finset.sum_add_distrib, Finset.mul_sum, mul_assoc] at this
      simp [add_mul, Finset.mul_sum]
      linear_combination this
    · have := congrFun h (.inl (.inr i))
      simp [Matrix.mulVec, dotProduct, Fintype.sum_sum_type, kmat, flat, add_mul, Finset.sum_add_distrib, Finset.mul_sum, mul_assoc] at this
      linear_combination this
    · have := congrFun h (.inr (.inl i))
      simp [Matrix.mulVec, dotProduct, Fintype.sum_sum_type, kmat, flat, add_mul, Finset.sum_add_distrib, Finset.mul_sum, mul_assoc] at this
      linear_combination this
    · have := congrFun h (.inr (.inr i))
      simp [Matrix.mulVec, dotProduct, Fintype.sum_sum_type, kmat, flat, add_mul, Finset.sum_add_distrib, Finset.mul_sum, mul_assoc] at this
      linear_combination this

theorem kmat_symm (a : Sys K X C D) (h : ∀ i j, a.W i j = a.W j i) : (kmat a).IsSymm := by
  ext i j
  rcases i with (i | i) | (i | i) <;> rcases j with (j | j) | (j | j) <;> simp only [Matrix.transpose_apply, kmat]
  · rw [h j i]; by_cases e : i = j
    · subst e; rfl
    · rw [if_neg e, if_neg (Ne.symm e)]
  all_goals
    by_cases e : i = j
    · subst e; simp
    · simp [e, Ne.symm e]

/-- the columns of a multi vector as a matrix. -/
def colsM (M : MV (Quad K X C D)) (n : Nat) : Matrix (Ix X C D) (Fin n) K := fun i k => flat (M.col k) i

/-- the columns of V as a matrix, zero in the other blocks. -/
def xcolsM (V : MV (X → K)) (n : Nat) : Matrix (Ix X C D) (Fin n) K := fun i k => flat (Quad.ofX (V.col k) : Quad K X C D) i

theorem flat_addCols (a : K) (M : MV (Quad K X C D)) (b : Nat → K) (y : Quad K X C D) :
    flat (addCols a M b y) = flat y + a • (colsM M M.n *ᵥ fun k => b k) := by
  funext i
  rcases i with (i | i) | (i | i) <;>
  · simp only [flat, addCols, Pi.add_apply, Pi.smul_apply, Matrix.mulVec, dotProduct, colsM, Sum.elim_inl, Sum.elim_inr, Finset.sum_range,
      smul_eq_mul, Finset.mul_sum]
    congr 1
    refine Finset.sum_congr rfl fun k _ => ?_
    ring

theorem dot_flat (v w : Quad K X C D) : v.dot w = flat v ⬝ᵥ flat w := by
  simp [Quad.dot, LowRank.dot, dotProduct, flat, Fintype.sum_sum_type]
  ring

theorem dot_ofX (v : Quad K X C D) (w : X → K) : flat v ⬝ᵥ flat (Quad.ofX w : Quad K X C D) = LowRank.dot v.x w := by
  simp [Quad.ofX, LowRank.dot, dotProduct, flat, Fintype.sum_sum_type]
end Verif.LowRank
