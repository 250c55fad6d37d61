import Mathlib.LinearAlgebra.QuadraticForm.IsometryEquiv
import Mathlib.LinearAlgebra.Matrix.BilinearForm
import Verif.Proof.Inertia
import Verif.Proof.LowRankAlg

/-! # Number of negative eigenvalues of matrices: block matrices -/

set_option linter.unusedSectionVars false
namespace Verif.LowRank
open _root_.Matrix Module

variable {K : Type} [Field K] [LinearOrder K] [IsStrictOrderedRing K]
variable {ι κ : Type} [Fintype ι] [Fintype κ]

/-- the quadratic form of a matrix. -/
def qf (M : Matrix ι ι K) (v : ι → K) : K := v ⬝ᵥ M *ᵥ v

theorem qf_zero (M : Matrix ι ι K) : qf M 0 = 0 := by simp [qf]

theorem exists_negIdx [DecidableEq ι] {M : Matrix ι ι K} (h : M.IsSymm) : ∃ n, NegIdx (qf M) n := by
  have : Invertible (2 : K) := invertibleOfNonzero two_ne_zero
  let B : LinearMap.BilinForm K (ι → K) := Matrix.toBilin' M
  have hB : LinearMap.IsSymm B := by
    refine ⟨fun x y => ?_⟩
    rw [RingHom.id_apply, Matrix.toBilin'_apply', Matrix.toBilin'_apply', dotProduct_mulVec, ← mulVec_transpose, h.eq, dotProduct_comm]
  obtain ⟨v, hv⟩ := LinearMap.BilinForm.exists_orthogonal_basis hB
  have := negIdx_basis v B (fun i j hij => hv hij)
  refine ⟨_, this.congr fun w => ?_⟩
  rw [qf]
  exact (Matrix.toBilin'_apply' M w w).symm

/-- `(v, z) ↦ (v + G z, z)`. -/
def shear (G : Matrix ι κ K) : ((ι → K) × (κ → K)) ≃ₗ[K] ((ι → K) × (κ → K)) where
  toFun := fun p => (p.1 + G *ᵥ p.2, p.2)
  invFun := fun p => (p.1 - G *ᵥ p.2, p.2)
  map_add' := fun p q => by
    ext i <;> simp [mulVec_add]; ring
  map_smul' := fun a p => by
    ext i <;> simp [mulVec_smul]
  left_inv := fun p => by simp
  right_inv := fun p => by simp

/-- the quadratic form of a block matrix. -/
def qblock (A : Matrix ι ι K) (G : Matrix ι κ K) (D : Matrix κ κ K) (p : (ι → K) × (κ → K)) : K :=
  qf A p.1 + 2 * (p.1 ⬝ᵥ G *ᵥ p.2) + qf D p.2

theorem dot_symm {A : Matrix ι ι K} (hA : A.IsSymm) (v w : ι → K) : v ⬝ᵥ A *ᵥ w = w ⬝ᵥ A *ᵥ v := by
  rw [dotProduct_mulVec, ← mulVec_transpose, hA.eq, dotProduct_comm]

theorem qf_add {A : Matrix ι ι K} (hA : A.IsSymm) (v w : ι → K) : qf A (v + w) = qf A v + 2 * (v ⬝ᵥ A *ᵥ w) + qf A w := by
  unfold qf
  rw [mulVec_add, add_dotProduct, dotProduct_add, dotProduct_add, dot_symm hA w v]
  ring

theorem qblock_left {A : Matrix ι ι K} (hA : A.IsSymm) {G Gt : Matrix ι κ K} (hG : A * Gt = G) (D : Matrix κ κ K)
    (p : (ι → K) × (κ → K)) : qblock A G D p = qf A (p.1 + Gt *ᵥ p.2) + qf (D - Gᵀ * Gt) p.2 := by
  unfold qblock
  rw [qf_add hA, mulVec_mulVec, hG]
  have : qf (D - Gᵀ * Gt) p.2 = qf D p.2 - qf A (Gt *ᵥ p.2) := by
    unfold qf
    rw [sub_mulVec, dotProduct_sub]
    congr 1
    rw [← mulVec_mulVec p.2 Gᵀ Gt, dotProduct_mulVec p.2 Gᵀ, vecMul_transpose, ← hG, ← mulVec_mulVec, dotProduct_comm]
  rw [this]; ring

theorem qblock_swap (A : Matrix ι ι K) (G : Matrix ι κ K) (D : Matrix κ κ K) (p : (ι → K) × (κ → K)) :
    qblock A G D p = qblock D Gᵀ A p.swap := by
  unfold qblock
  simp only [Prod.fst_swap, Prod.snd_swap]
  have : p.2 ⬝ᵥ Gᵀ *ᵥ p.1 = p.1 ⬝ᵥ G *ᵥ p.2 := by
    rw [dotProduct_mulVec, vecMul_transpose, dotProduct_comm]
  rw [this]; ring

theorem negIdx_left {A : Matrix ι ι K} (hA : A.IsSymm) {G Gt : Matrix ι κ K} (hG : A * Gt = G) (D : Matrix κ κ K) {k m : Nat}
    (h1 : NegIdx (qf A) k) (h2 : NegIdx (qf (D - Gᵀ * Gt)) m) : NegIdx (qblock A G D) (k + m) := by
  have h := h1.prod (qf_zero _) (qf_zero _) h2
  refine NegIdx.equiv (shear Gt).symm (fun v => ?_) h
  rw [qblock_left hA hG]
  have : (shear Gt) ((shear Gt).symm v) = v := LinearEquiv.apply_symm_apply _ _
  have h1 := congrArg Prod.fst this
  have h2 := congrArg Prod.snd this
  change ((shear Gt).symm v).1 + Gt *ᵥ ((shear Gt).symm v).2 = v.1 at h1
  change ((shear Gt).symm v).2 = v.2 at h2
  rw [h1, h2]

theorem negIdx_right (A : Matrix ι ι K) {G : Matrix ι κ K} {D : Matrix κ κ K} (hD : D.IsSymm) {Dt : Matrix κ ι K} (hG : D * Dt = Gᵀ) {k m : Nat}
    (h1 : NegIdx (qf (A - G * Dt)) k) (h2 : NegIdx (qf D) m) : NegIdx (qblock A G D) (k + m) := by
  have h2 : NegIdx (qblock D Gᵀ A) (m + k) := negIdx_left hD hG A h2 (by rw [transpose_transpose]; exact h1)
  rw [add_comm]
  refine NegIdx.equiv (LinearEquiv.prodComm K (κ → K) (ι → K)) (fun v => ?_) h2
  rw [qblock_swap]
  rfl

/-- positive definite: no negative eigenvalue. -/
theorem negIdx_pos {D : Matrix ι ι K} (h : ∀ w, w ≠ 0 → 0 < qf D w) : NegIdx (qf D) 0 := by
  refine ⟨⊥, ⊤, isCompl_bot_top, finrank_bot _ _, ?_, ?_⟩
  · intro v hv h0
    exact absurd (Submodule.mem_bot K |>.1 hv) h0
  · intro v _
    by_cases e : v = 0
    · rw [e, qf_zero]
    · exact (h v e).le

/-- negative definite. -/
theorem negIdx_neg {D : Matrix ι ι K} (h : ∀ w, w ≠ 0 → qf D w < 0) : NegIdx (qf D) (Fintype.card ι) := by
  refine ⟨⊤, ⊥, isCompl_top_bot, ?_, ?_, ?_⟩
  · rw [finrank_top, Module.finrank_pi]
  · intro v _ h0
    exact h v h0
  · intro v hv
    rw [(Submodule.mem_bot K).1 hv, qf_zero]

/-- a diagonal matrix has as many negative eigenvalues as negative elements. -/
theorem negIdx_diag [DecidableEq ι] (d : ι → K) : NegIdx (qf (Matrix.diagonal d)) (Finset.univ.filter fun i => d i < 0).card := by
  classical
  let B : LinearMap.BilinForm K (ι → K) := Matrix.toBilin' (Matrix.diagonal d)
  have hb : ∀ i j, B (Pi.basisFun K ι i) (Pi.basisFun K ι j) = Matrix.diagonal d i j := by
    intro i j
    rw [Pi.basisFun_apply, Pi.basisFun_apply]
    exact Matrix.toBilin'_single _ _ _
  have := negIdx_basis (Pi.basisFun K ι) B (fun i j hij => by rw [hb, Matrix.diagonal_apply_ne _ hij])
  simp only [hb, Matrix.diagonal_apply_eq] at this
  refine this.congr fun w => ?_
  rw [qf]
  exact (Matrix.toBilin'_apply' _ w w).symm

/-- `A + V Vᵀ` has as many negative eigenvalues as `A` if `1 + Vᵀ A⁻¹ V` is positive definite. -/
theorem negIdx_add [DecidableEq ι] [DecidableEq κ] {A : Matrix ι ι K} (hA : A.IsSymm) {V Vt : Matrix ι κ K} (hV : A * Vt = V)
    (hM : ∀ w, w ≠ 0 → 0 < qf (1 + Vtᵀ * V) w) {k : Nat} (h : NegIdx (qf A) k) : NegIdx (qf (A + V * Vᵀ)) k := by
  obtain ⟨j, hj⟩ := exists_negIdx (symm_add hA V)
  have hs : Vtᵀ * V = Vᵀ * Vt := by rw [← hV, Matrix.transpose_mul, hA.eq, Matrix.mul_assoc]
  have e1 : NegIdx (qblock A V (-1)) (k + Fintype.card κ) := by
    refine negIdx_left hA hV _ h (negIdx_neg fun w hw => ?_)
    have := hM w hw
    rw [hs] at this
    unfold qf at this ⊢
    rw [sub_mulVec, dotProduct_sub, neg_mulVec, dotProduct_neg]
    rw [add_mulVec, dotProduct_add] at this
    linarith
  have e2 : NegIdx (qblock A V (-1)) (j + Fintype.card κ) := by
    refine negIdx_right A (D := -1) (Dt := -Vᵀ) ?_ (by simp) ?_ (negIdx_neg fun w hw => ?_)
    · simp [Matrix.IsSymm]
    · rw [Matrix.mul_neg, sub_neg_eq_add]; exact hj
    · unfold qf
      rw [neg_mulVec, one_mulVec, dotProduct_neg]
      linarith [dot_self_pos hw]
  have := e1.unique e2
  have : k = j := by omega
  rw [this]; exact hj

theorem symm_sub {A : Matrix ι ι K} (hA : A.IsSymm) (V : Matrix ι κ K) : (A - V * Vᵀ).IsSymm := by
  rw [Matrix.IsSymm, Matrix.transpose_sub, hA.eq, Matrix.transpose_mul, Matrix.transpose_transpose]

/-- `A - U Uᵀ` has as many negative eigenvalues as `A` if `1 - Uᵀ A⁻¹ U` is positive definite. -/
theorem negIdx_sub [DecidableEq ι] [DecidableEq κ] {A : Matrix ι ι K} (hA : A.IsSymm) {U Ut : Matrix ι κ K} (hU : A * Ut = U)
    (hM : ∀ w, w ≠ 0 → 0 < qf (1 - Utᵀ * U) w) {k : Nat} (h : NegIdx (qf A) k) : NegIdx (qf (A - U * Uᵀ)) k := by
  obtain ⟨j, hj⟩ := exists_negIdx (symm_sub hA U)
  have hs : Utᵀ * U = Uᵀ * Ut := by rw [← hU, Matrix.transpose_mul, hA.eq, Matrix.mul_assoc]
  have e1 : NegIdx (qblock A U 1) (k + 0) := by
    refine negIdx_left hA hU _ h (negIdx_pos fun w hw => ?_)
    have := hM w hw
    rw [hs] at this
    exact this
  have e2 : NegIdx (qblock A U 1) (j + 0) := by
    refine negIdx_right A (D := 1) (Dt := Uᵀ) ?_ (by simp) hj (negIdx_pos fun w hw => ?_)
    · simp [Matrix.IsSymm]
    · unfold qf
      rw [one_mulVec]
      exact dot_self_pos hw
  have := e1.unique e2
  have : k = j := by omega
  rw [this]; exact hj
end Verif.LowRank
