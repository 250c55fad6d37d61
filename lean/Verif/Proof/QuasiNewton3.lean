import Mathlib.LinearAlgebra.Matrix.NonsingularInverse
import Mathlib.Tactic.Linarith
import Mathlib.Tactic.Ring
import Mathlib.Tactic.LinearCombination
import Mathlib.Algebra.Order.BigOperators.Ring.Finset

/-! # Algebra of the compact BFGS and SR1 matrices -/

namespace Verif.QuasiNewton
open Matrix
section
variable {K : Type} [Field K] {n m : Nat}

/-- C Cᵀ = (J Jᵀ)⁻¹ -/
theorem inv_of_chol (J C M : Matrix (Fin m) (Fin m) K) (hJ : J * Jᵀ = M) (hC : Jᵀ * C = 1) : C * Cᵀ * M = 1 := by
  have h1 : C * Jᵀ = 1 := mul_eq_one_comm.1 hC
  have h2 : Cᵀ * J = 1 := by
    have := congrArg Matrix.transpose hC
    rwa [transpose_mul, transpose_transpose, transpose_one] at this
  calc C * Cᵀ * M = C * (Cᵀ * J) * Jᵀ := by rw [← hJ]; simp only [Matrix.mul_assoc]
    _ = 1 := by rw [h2, Matrix.mul_one, h1]

/-- secant equation from Φᵀ s = M e -/
theorem secant (B0 : Matrix (Fin n) (Fin n) K) (Φ V : Matrix (Fin n) (Fin m) K) (C M : Matrix (Fin m) (Fin m) K) (s y : Fin n → K)
    (e : Fin m → K) (hCM : C * Cᵀ * M = 1) (h1 : Φᵀ *ᵥ s = M *ᵥ e) (h2 : B0 *ᵥ s + V *ᵥ (Vᵀ *ᵥ s) = y + Φ *ᵥ e) :
    (B0 + V * Vᵀ - (Φ * C) * (Φ * C)ᵀ) *ᵥ s = y := by
  rw [Matrix.sub_mulVec, Matrix.add_mulVec, transpose_mul]
  have : (Φ * C * (Cᵀ * Φᵀ)) *ᵥ s = Φ *ᵥ e := by
    rw [show Φ * C * (Cᵀ * Φᵀ) = Φ * (C * Cᵀ) * Φᵀ by simp only [Matrix.mul_assoc], ← Matrix.mulVec_mulVec, h1, Matrix.mulVec_mulVec,
      Matrix.mul_assoc, hCM, Matrix.mul_one]
  rw [this, ← Matrix.mulVec_mulVec, h2]
  simp

/-- the matrices of a BFGS update, with diagonal B0 = σ I; `r` = D^{-1/2}. -/
structure BFGS (n m : Nat) (σ : K) (S Y : Matrix (Fin n) (Fin m) K) (d r : Fin m → K) (L Lt C : Matrix (Fin m) (Fin m) K)
    (V U : Matrix (Fin n) (Fin m) K) : Prop where
  hd : ∀ j, d j = (Sᵀ * Y) j j
  hr : ∀ j, r j * r j * d j = 1
  hL : ∀ i j, L i j = if j < i then (Sᵀ * Y) i j else 0
  hLt : Lt = L * diagonal r
  hV : V = Y * diagonal r
  hC : C * Cᵀ * (Lt * Ltᵀ + σ • (Sᵀ * S)) = 1
  hU : U = (σ • S + V * Ltᵀ) * C

theorem BFGS.secant {σ : K} {S Y : Matrix (Fin n) (Fin m) K} {d r : Fin m → K} {L Lt C : Matrix (Fin m) (Fin m) K}
    {V U : Matrix (Fin n) (Fin m) K} (h : BFGS n m σ S Y d r L Lt C V U) (k : Fin m) (hk : ∀ j, j ≤ k) :
    (σ • (1 : Matrix (Fin n) (Fin n) K) + V * Vᵀ - U * Uᵀ) *ᵥ (fun i => S i k) = fun i => Y i k := by
  set e : Fin m → K := Pi.single k 1 with he
  have hs : (fun i => S i k) = S *ᵥ e := by rw [he, Matrix.mulVec_single_one]; rfl
  have hy : (fun i => Y i k) = Y *ᵥ e := by rw [he, Matrix.mulVec_single_one]; rfl
  -- K1
  have k1 : Vᵀ *ᵥ (S *ᵥ e) = Ltᵀ *ᵥ e + (r k * d k) • e := by
    funext j
    rw [h.hV, h.hLt, transpose_mul, transpose_mul, Matrix.mulVec_mulVec, he, Matrix.mulVec_single_one, Matrix.mulVec_single_one]
    simp only [diagonal_transpose, Matrix.mul_assoc, Matrix.diagonal_mul, Pi.add_apply, Matrix.col_apply, Pi.smul_apply, smul_eq_mul,
      Matrix.transpose_apply]
    have e1 : (Yᵀ * S) j k = (Sᵀ * Y) k j := by
      simp only [Matrix.mul_apply, Matrix.transpose_apply]; exact Finset.sum_congr rfl (fun i _ => mul_comm _ _)
    rw [e1, h.hL k j]
    by_cases hj : j = k
    · subst hj; simp [h.hd]
    · rw [if_pos (lt_of_le_of_ne (hk j) hj)]; simp [hj]
  have k2 : Lt *ᵥ e = 0 := by
    funext i
    rw [h.hLt, he, Matrix.mulVec_single_one]
    simp only [Matrix.col_apply, Matrix.mul_diagonal, Pi.zero_apply]
    rw [h.hL i k, if_neg (not_lt.2 (hk i)), zero_mul]
  have k3 : V *ᵥ e = r k • (Y *ᵥ e) := by
    funext i
    rw [h.hV, he, Matrix.mulVec_single_one, Matrix.mulVec_single_one]
    simp only [Matrix.col_apply, Matrix.mul_diagonal, Pi.smul_apply, smul_eq_mul]; ring
  rw [h.hU, hs, hy]
  refine Verif.QuasiNewton.secant _ _ V C _ _ _ e h.hC ?_ ?_
  · rw [transpose_add, transpose_smul, transpose_mul, transpose_transpose, Matrix.add_mulVec, Matrix.add_mulVec, ← Matrix.mulVec_mulVec, k1,
      Matrix.mulVec_add, Matrix.mulVec_smul, k2, smul_zero, add_zero, Matrix.smul_mulVec, Matrix.smul_mulVec]
    simp only [Matrix.mulVec_mulVec]
    rw [add_comm]
  · rw [k1, Matrix.mulVec_add, Matrix.mulVec_smul, k3, Matrix.add_mulVec, Matrix.smul_mulVec, Matrix.smul_mulVec,
      Matrix.one_mulVec, smul_smul]
    simp only [Matrix.mulVec_mulVec]
    have : r k * d k * r k = 1 := by rw [← h.hr k]; ring
    rw [this, one_smul]
    abel

/-- secant equation of the SR1 update: `N` is the inverse of Z, Ψ = Y − B0 S, and Ψᵀ s = Z e for the last pair. -/
theorem sr1_secant (σ : K) (Ψ : Matrix (Fin n) (Fin m) K) (N Z : Matrix (Fin m) (Fin m) K) (A : Matrix (Fin n) (Fin n) K) (s y : Fin n → K)
    (e : Fin m → K) (hN : N * Z = 1) (hA : A = Ψ * N * Ψᵀ) (h1 : Ψᵀ *ᵥ s = Z *ᵥ e) (h2 : Ψ *ᵥ e = y - σ • s) :
    (σ • (1 : Matrix (Fin n) (Fin n) K) + A) *ᵥ s = y := by
  rw [Matrix.add_mulVec, hA, ← Matrix.mulVec_mulVec, h1, Matrix.mulVec_mulVec, Matrix.mul_assoc, hN, Matrix.mul_one, h2, Matrix.smul_mulVec,
    Matrix.one_mulVec]
  abel
end

section
variable {K : Type} [Field K] [LinearOrder K] [IsStrictOrderedRing K] {n m : Nat}

theorem BFGS.posdef {σ : K} (hσ : 0 < σ) {S Y : Matrix (Fin n) (Fin m) K} {d r : Fin m → K} {L Lt C : Matrix (Fin m) (Fin m) K}
    {V U : Matrix (Fin n) (Fin m) K} (h : BFGS n m σ S Y d r L Lt C V U) (x : Fin n → K) (hx : x ≠ 0) :
    0 < x ⬝ᵥ ((σ • (1 : Matrix (Fin n) (Fin n) K) + V * Vᵀ - U * Uᵀ) *ᵥ x) := by
  set M := Lt * Ltᵀ + σ • (Sᵀ * S) with hM
  set Φ := σ • S + V * Ltᵀ with hΦ
  set t := (C * Cᵀ) *ᵥ (Φᵀ *ᵥ x) with ht
  have hMt : M *ᵥ t = Φᵀ *ᵥ x := by
    rw [ht, Matrix.mulVec_mulVec, mul_eq_one_comm.1 h.hC, Matrix.one_mulVec]
  -- dot product adjoint
  have adj : ∀ {a b : Nat} (A : Matrix (Fin a) (Fin b) K) (u : Fin b → K) (w : Fin a → K), w ⬝ᵥ (A *ᵥ u) = (Aᵀ *ᵥ w) ⬝ᵥ u := by
    intro a b A u w
    rw [Matrix.dotProduct_mulVec, Matrix.mulVec_transpose]
  have hq : x ⬝ᵥ ((σ • (1 : Matrix (Fin n) (Fin n) K) + V * Vᵀ - U * Uᵀ) *ᵥ x) =
      σ * ((x - S *ᵥ t) ⬝ᵥ (x - S *ᵥ t)) + (Vᵀ *ᵥ x - Ltᵀ *ᵥ t) ⬝ᵥ (Vᵀ *ᵥ x - Ltᵀ *ᵥ t) := by
    have e1 : x ⬝ᵥ ((U * Uᵀ) *ᵥ x) = (Φᵀ *ᵥ x) ⬝ᵥ t := by
      rw [h.hU, transpose_mul, show Φ * C * (Cᵀ * Φᵀ) = Φ * ((C * Cᵀ) * Φᵀ) by simp only [Matrix.mul_assoc], ← Matrix.mulVec_mulVec, adj,
        ← Matrix.mulVec_mulVec, ← ht]
    have e2 : (Φᵀ *ᵥ x) ⬝ᵥ t = σ * ((S *ᵥ t) ⬝ᵥ (S *ᵥ t)) + (Ltᵀ *ᵥ t) ⬝ᵥ (Ltᵀ *ᵥ t) := by
      have a1 : (Lt *ᵥ (Ltᵀ *ᵥ t)) ⬝ᵥ t = (Ltᵀ *ᵥ t) ⬝ᵥ (Ltᵀ *ᵥ t) := by rw [dotProduct_comm, adj]
      have a2 : (Sᵀ *ᵥ (S *ᵥ t)) ⬝ᵥ t = (S *ᵥ t) ⬝ᵥ (S *ᵥ t) := by rw [dotProduct_comm, adj, transpose_transpose]
      rw [← hMt, hM, Matrix.add_mulVec, add_dotProduct, Matrix.smul_mulVec, smul_dotProduct, ← Matrix.mulVec_mulVec, ← Matrix.mulVec_mulVec,
        a1, a2, smul_eq_mul, add_comm]
    have e3 : (Φᵀ *ᵥ x) ⬝ᵥ t = σ * (x ⬝ᵥ (S *ᵥ t)) + (Vᵀ *ᵥ x) ⬝ᵥ (Ltᵀ *ᵥ t) := by
      rw [← adj, hΦ, Matrix.add_mulVec, dotProduct_add, Matrix.smul_mulVec, dotProduct_smul, ← Matrix.mulVec_mulVec, adj V, smul_eq_mul]
    have e4 : x ⬝ᵥ ((V * Vᵀ) *ᵥ x) = (Vᵀ *ᵥ x) ⬝ᵥ (Vᵀ *ᵥ x) := by rw [← Matrix.mulVec_mulVec, adj]
    rw [Matrix.sub_mulVec, Matrix.add_mulVec, dotProduct_sub, dotProduct_add, e1, e4, Matrix.smul_mulVec, Matrix.one_mulVec, dotProduct_smul,
      smul_eq_mul]
    simp only [sub_dotProduct, dotProduct_sub]
    rw [dotProduct_comm (S *ᵥ t) x, dotProduct_comm (Ltᵀ *ᵥ t) (Vᵀ *ᵥ x)]
    linear_combination (-2) * e3 + e2
  have sq : ∀ {a : Nat} (u : Fin a → K), 0 ≤ u ⬝ᵥ u := fun u => Finset.sum_nonneg (fun i _ => mul_self_nonneg _)
  have sq0 : ∀ {a : Nat} (u : Fin a → K), u ⬝ᵥ u = 0 → u = 0 := by
    intro a u hu
    funext i
    have := (Finset.sum_eq_zero_iff_of_nonneg (fun i _ => mul_self_nonneg (u i))).1 hu i (Finset.mem_univ i)
    simpa using this
  rw [hq]
  have n1 := sq (x - S *ᵥ t)
  have n2 := sq (Vᵀ *ᵥ x - Ltᵀ *ᵥ t)
  have n3 : 0 ≤ σ * ((x - S *ᵥ t) ⬝ᵥ (x - S *ᵥ t)) := mul_nonneg hσ.le n1
  rcases lt_or_eq_of_le (add_nonneg n3 n2) with hlt | heq
  · exact hlt
  · exfalso
    have z1 : (x - S *ᵥ t) ⬝ᵥ (x - S *ᵥ t) = 0 := by
      have : σ * ((x - S *ᵥ t) ⬝ᵥ (x - S *ᵥ t)) = 0 := by linarith
      exact (mul_eq_zero.1 this).resolve_left hσ.ne'
    have z2 : (Vᵀ *ᵥ x - Ltᵀ *ᵥ t) ⬝ᵥ (Vᵀ *ᵥ x - Ltᵀ *ᵥ t) = 0 := by linarith
    have w1 : x = S *ᵥ t := sub_eq_zero.1 (sq0 _ z1)
    have w2 := sub_eq_zero.1 (sq0 _ z2)
    have hr : ∀ j, r j ≠ 0 := fun j hj => by have := h.hr j; rw [hj] at this; simp at this
    have hd : ∀ j, d j ≠ 0 := fun j hj => by have := h.hr j; rw [hj] at this; simp at this
    have w3 : (Yᵀ * S) *ᵥ t = Lᵀ *ᵥ t := by
      funext j
      have := congrFun w2 j
      rw [h.hV, h.hLt, transpose_mul, transpose_mul, w1, diagonal_transpose, Matrix.mulVec_mulVec, Matrix.mul_assoc] at this
      have g : ∀ (A : Matrix (Fin m) (Fin m) K), ((diagonal r * A) *ᵥ t) j = r j * (A *ᵥ t) j := by
        intro A; rw [← Matrix.mulVec_mulVec, Matrix.mulVec_diagonal]
      rw [g, g] at this
      exact mul_left_cancel₀ (hr j) this
    have t0 : ∀ (a : Nat) (j : Fin m), j.val = a → t j = 0 := by
      intro a
      induction a using Nat.strong_induction_on with
      | _ a ih =>
        intro j hj
        have := congrFun w3 j
        simp only [Matrix.mulVec, dotProduct] at this
        have h0 : ∑ i, ((Yᵀ * S) j i - Lᵀ j i) * t i = 0 := by
          simp only [sub_mul, Finset.sum_sub_distrib]; rw [this, sub_self]
        rw [Finset.sum_eq_single j] at h0
        · rw [Matrix.transpose_apply, h.hL j j, if_neg (lt_irrefl j), sub_zero] at h0
          have e1 : (Yᵀ * S) j j = d j := by
            rw [h.hd]; simp only [Matrix.mul_apply, Matrix.transpose_apply]; exact Finset.sum_congr rfl (fun i _ => mul_comm _ _)
          rw [e1] at h0
          exact (mul_eq_zero.1 h0).resolve_left (hd j)
        · intro i _ hij
          rcases lt_or_gt_of_ne hij with hlt | hgt
          · rw [ih i.val (by rw [← hj]; exact hlt) i rfl, mul_zero]
          · rw [Matrix.transpose_apply, h.hL i j, if_pos hgt]
            have e1 : (Yᵀ * S) j i = (Sᵀ * Y) i j := by
              simp only [Matrix.mul_apply, Matrix.transpose_apply]; exact Finset.sum_congr rfl (fun i _ => mul_comm _ _)
            rw [e1, sub_self, zero_mul]
        · intro hn; exact absurd (Finset.mem_univ j) hn
    apply hx
    rw [w1, show t = 0 from funext (fun j => t0 _ j rfl), Matrix.mulVec_zero]
end
end Verif.QuasiNewton
