import Mathlib.Data.Matrix.Mul
import Mathlib.Algebra.Order.BigOperators.Ring.Finset
import Mathlib.LinearAlgebra.Matrix.Symmetric
import Mathlib.LinearAlgebra.Matrix.DotProduct
import Mathlib.Tactic.Abel
import Mathlib.Tactic.Linarith
import Mathlib.Tactic.NoncommRing

/-! # The Sherman-Morrison-Woodbury formula in the form used by `LowRankAugSystemSolver` -/

set_option linter.unusedSectionVars false
namespace Verif.LowRank
open Matrix

variable {K ι n m : Type} [Field K] [Fintype ι] [Fintype n] [Fintype m] [DecidableEq n] [DecidableEq m]

/-- one positive update: if `A s = r`, `A Ṽ = V`, `(1 + Ṽᵀ V) b = Ṽᵀ r` then `(A + V Vᵀ)(s - Ṽ b) = r`. -/
theorem smw_pos {A : Matrix ι ι K} (hA : A.IsSymm) {V Vt : Matrix ι n K} (hV : A * Vt = V) {s r : ι → K} (hs : A *ᵥ s = r)
    {b : n → K} (hb : (1 + Vtᵀ * V) *ᵥ b = Vtᵀ *ᵥ r) : (A + V * Vᵀ) *ᵥ (s - Vt *ᵥ b) = r := by
  have h1 : Vtᵀ *ᵥ r = Vᵀ *ᵥ s := by
    rw [← hs, ← hV, Matrix.transpose_mul, hA.eq, mulVec_mulVec]
  have h2 : Vtᵀ * V = Vᵀ * Vt := by
    rw [← hV, Matrix.transpose_mul, hA.eq, Matrix.mul_assoc]
  rw [h1, h2, add_mulVec, one_mulVec] at hb
  rw [mulVec_sub, add_mulVec, add_mulVec, hs, mulVec_mulVec, hV, ← mulVec_mulVec, ← hb, mulVec_add]
  simp only [mulVec_mulVec, Matrix.mul_assoc]
  abel

theorem smw_neg {A : Matrix ι ι K} (hA : A.IsSymm) {U Ut : Matrix ι n K} (hU : A * Ut = U) {s r : ι → K} (hs : A *ᵥ s = r)
    {b : n → K} (hb : (1 - Utᵀ * U) *ᵥ b = Utᵀ *ᵥ r) : (A - U * Uᵀ) *ᵥ (s + Ut *ᵥ b) = r := by
  have h1 : Utᵀ *ᵥ r = Uᵀ *ᵥ s := by
    rw [← hs, ← hU, Matrix.transpose_mul, hA.eq, mulVec_mulVec]
  have h2 : Utᵀ * U = Uᵀ * Ut := by
    rw [← hU, Matrix.transpose_mul, hA.eq, Matrix.mul_assoc]
  rw [h1, h2, sub_mulVec, one_mulVec] at hb
  rw [mulVec_add, sub_mulVec, sub_mulVec, hs, mulVec_mulVec, hU, ← mulVec_mulVec, ← hb, mulVec_sub]
  simp only [mulVec_mulVec, Matrix.mul_assoc]
  abel

/-- columns of `Ũ2`: solutions with the positive update. -/
theorem smw_cols {A : Matrix ι ι K} (hA : A.IsSymm) {V Vt : Matrix ι n K} (hV : A * Vt = V) {U Ut1 : Matrix ι m K} (hU : A * Ut1 = U)
    {Cm : Matrix n m K} (hC : (1 + Vtᵀ * V) * Cm = Vtᵀ * U) : (A + V * Vᵀ) * (Ut1 - Vt * Cm) = U := by
  have h1 : Vtᵀ * U = Vᵀ * Ut1 := by rw [← hU, ← hV, Matrix.transpose_mul, hA.eq, Matrix.mul_assoc]
  have h2 : Vtᵀ * V = Vᵀ * Vt := by
    rw [← hV, Matrix.transpose_mul, hA.eq, Matrix.mul_assoc]
  rw [h1, h2, Matrix.add_mul, Matrix.one_mul] at hC
  rw [Matrix.mul_sub, Matrix.add_mul, Matrix.add_mul, hU, ← Matrix.mul_assoc A, hV, Matrix.mul_assoc V, ← hC, Matrix.mul_add]
  simp only [Matrix.mul_assoc]
  abel

theorem symm_add {A : Matrix ι ι K} (hA : A.IsSymm) (V : Matrix ι n K) : (A + V * Vᵀ).IsSymm := by
  rw [Matrix.IsSymm, Matrix.transpose_add, hA.eq, Matrix.transpose_mul, Matrix.transpose_transpose]

/-- both updates. -/
theorem smw {A : Matrix ι ι K} (hA : A.IsSymm) {V Vt : Matrix ι n K} (hV : A * Vt = V) {U Ut1 : Matrix ι m K} (hU : A * Ut1 = U)
    {Cm : Matrix n m K} (hC : (1 + Vtᵀ * V) * Cm = Vtᵀ * U) {s r : ι → K} (hs : A *ᵥ s = r)
    {b : n → K} (hb : (1 + Vtᵀ * V) *ᵥ b = Vtᵀ *ᵥ r) {d : m → K} (hd : (1 - (Ut1 - Vt * Cm)ᵀ * U) *ᵥ d = (Ut1 - Vt * Cm)ᵀ *ᵥ r) :
    (A + V * Vᵀ - U * Uᵀ) *ᵥ (s + (Ut1 - Vt * Cm) *ᵥ d - Vt *ᵥ b) = r := by
  have := smw_neg (symm_add hA V) (smw_cols hA hV hU hC) (smw_pos hA hV hs hb) hd
  rw [show s + (Ut1 - Vt * Cm) *ᵥ d - Vt *ᵥ b = s - Vt *ᵥ b + (Ut1 - Vt * Cm) *ᵥ d by abel]
  exact this

section Ordered
variable [LinearOrder K] [IsStrictOrderedRing K]

theorem dot_self_nonneg (w : ι → K) : 0 ≤ w ⬝ᵥ w := Finset.sum_nonneg fun i _ => mul_self_nonneg _

theorem dot_self_pos {w : ι → K} (h : w ≠ 0) : 0 < w ⬝ᵥ w := by
  obtain ⟨i, hi⟩ := Function.ne_iff.1 h
  exact Finset.sum_pos' (fun i _ => mul_self_nonneg _) ⟨i, Finset.mem_univ _, mul_self_pos.2 hi⟩

/-- a negative update keeps the form positive on the set `T`. -/
theorem curv_neg {A : Matrix ι ι K} (hA : A.IsSymm) {U Ut : Matrix ι n K} (hU : A * Ut = U)
    (hM : ∀ w : n → K, w ≠ 0 → 0 < w ⬝ᵥ ((1 - Utᵀ * U) *ᵥ w)) {v : ι → K} (hv : 0 < v ⬝ᵥ (A *ᵥ v))
    (hT : ∀ w : n → K, 0 ≤ (Ut *ᵥ w - v) ⬝ᵥ (A *ᵥ (Ut *ᵥ w - v))) : 0 < v ⬝ᵥ ((A - U * Uᵀ) *ᵥ v) := by
  have e1 : v ⬝ᵥ ((A - U * Uᵀ) *ᵥ v) = v ⬝ᵥ (A *ᵥ v) - (Uᵀ *ᵥ v) ⬝ᵥ (Uᵀ *ᵥ v) := by
    rw [sub_mulVec, dotProduct_sub, ← mulVec_mulVec]
    congr 1
    rw [dotProduct_mulVec, ← mulVec_transpose]
  by_cases h : Uᵀ *ᵥ v = 0
  · rw [e1, h, dotProduct_zero, sub_zero]; exact hv
  · have h1 := hM _ h
    have h2 := hT (Uᵀ *ᵥ v)
    set w := Uᵀ *ᵥ v with hw
    have e2 : (Ut *ᵥ w) ⬝ᵥ (A *ᵥ v) = w ⬝ᵥ w := by
      rw [dotProduct_comm, dotProduct_mulVec, ← mulVec_transpose, ← dotProduct_comm]
      have : Utᵀ *ᵥ (A *ᵥ v) = w := by
        rw [mulVec_mulVec, hw]
        congr 1
        rw [← hU, Matrix.transpose_mul, hA.eq]
      rw [this]
    have e3 : v ⬝ᵥ (A *ᵥ (Ut *ᵥ w)) = w ⬝ᵥ w := by
      rw [mulVec_mulVec, hU, dotProduct_mulVec, ← mulVec_transpose]
    have e4 : (Ut *ᵥ w) ⬝ᵥ (A *ᵥ (Ut *ᵥ w)) = w ⬝ᵥ ((Utᵀ * U) *ᵥ w) := by
      rw [mulVec_mulVec w A Ut, hU, ← mulVec_mulVec w Utᵀ U, dotProduct_comm, dotProduct_mulVec, ← mulVec_transpose, dotProduct_comm]
    rw [mulVec_sub, dotProduct_sub, sub_dotProduct, sub_dotProduct, e2, e3, e4] at h2
    rw [sub_mulVec, one_mulVec, dotProduct_sub] at h1
    rw [e1]
    linarith

theorem curv_pos {A : Matrix ι ι K} (V : Matrix ι n K) (v : ι → K) : v ⬝ᵥ (A *ᵥ v) ≤ v ⬝ᵥ ((A + V * Vᵀ) *ᵥ v) := by
  rw [add_mulVec, dotProduct_add, ← mulVec_mulVec, dotProduct_mulVec v V, ← mulVec_transpose]
  linarith [dot_self_nonneg (Vᵀ *ᵥ v)]
end Ordered
end Verif.LowRank
