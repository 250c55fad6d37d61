import Verif.Proof.LowRankSS

/-! # The number of negative eigenvalues reported by `LowRankSSAugSystemSolver` -/

set_option linter.unusedSectionVars false
set_option linter.unusedSimpArgs false
set_option linter.unusedVariables false

namespace Verif.LowRank
open _root_.Matrix Finset
open Verif.AugSolve (Status)

variable {K X C D L B : Type} {r : Nat} [Field K] [LinearOrder K] [IsStrictOrderedRing K] [Fintype X] [Fintype C] [Fintype D] [Fintype L]
variable [DecidableEq X] [DecidableEq C] [DecidableEq D] [DecidableEq L]

/-- the unknowns of the extended system in another order. -/
def ixEquiv (X C D : Type) (r : Nat) : Ix X C D ⊕ Fin r ≃ Ix X (C ⊕ Fin r) D where
  toFun := Sum.elim (Sum.elim Sum.inl (Sum.elim (fun k => .inr (.inl (.inl k))) (fun k => .inr (.inr k)))) (fun k => .inr (.inl (.inr k)))
  invFun := Sum.elim (fun i => .inl (.inl i)) (Sum.elim (Sum.elim (fun k => .inl (.inr (.inl k))) (fun k => .inr k)) (fun k => .inl (.inr (.inr k))))
  left_inv := by
    rintro (((i | i) | (i | i)) | i) <;> rfl
  right_inv := by
    rintro ((i | i) | ((i | i) | i)) <;> rfl

/-- the additional rows as a matrix. -/
def rowsM (rows : Fin r → Option (X → K)) : Matrix (Ix X C D) (Fin r) K := fun i k => flat (Quad.ofX (rv (rows k)) : Quad K X C D) i

theorem kmat_ext {E : Env K X (C ⊕ Fin r) D B} {H : Heap K X C D L} {c : Call K} {st : SSt K X C L r} (hg : GoodSS H c st) {w : X → K}
    (hw : st.wdiag = some w) :
    (kmat (st.extSys E H c)).submatrix (ixEquiv X C D r) (ixEquiv X C D r) =
      fromBlocks (kmat (innerSys H c w c.Wfac)) (rowsM st.rows) (rowsM st.rows)ᵀ (diagonal fun i => st.drank i - c.δc) := by
  ext a b
  rw [submatrix_apply]
  rcases a with ((a | a) | (a | a)) | a <;> rcases b with ((b | b) | (b | b)) | b <;>
    simp [ixEquiv, kmat, SSt.extSys, innerSys, rowsM, flat, Quad.ofX, hw, hg.jc, hg.dc, val, diagonal_apply]

theorem qf_submatrix {ι κ : Type} [Fintype ι] [Fintype κ] (e : ι ≃ κ) (M : Matrix κ κ K) (v : ι → K) :
    qf M (v ∘ e.symm) = qf (M.submatrix e e) v := by
  unfold qf
  simp only [dotProduct, Matrix.mulVec, submatrix_apply, Function.comp_apply]
  rw [← Equiv.sum_comp e]
  refine Finset.sum_congr rfl fun i _ => ?_
  rw [Equiv.symm_apply_apply]
  congr 1
  rw [← Equiv.sum_comp e]
  refine Finset.sum_congr rfl fun j _ => ?_
  rw [Equiv.symm_apply_apply]

theorem qf_blocks {ι κ : Type} [Fintype ι] [Fintype κ] (A : Matrix ι ι K) (G : Matrix ι κ K) (Dm : Matrix κ κ K) (p : (ι → K) × (κ → K)) :
    qf (fromBlocks A G Gᵀ Dm) (Sum.elim p.1 p.2) = qblock A G Dm p := by
  unfold qblock qf
  rw [fromBlocks_mulVec]
  simp only [Sum.elim_comp_inl, Sum.elim_comp_inr, dotProduct, Fintype.sum_sum_type, Sum.elim_inl, Sum.elim_inr, Pi.add_apply, mul_add,
    Finset.sum_add_distrib]
  have : ∑ x, p.2 x * (Gᵀ *ᵥ p.1) x = ∑ x, p.1 x * (G *ᵥ p.2) x := by
    have := (dotProduct_mulVec p.2 Gᵀ p.1)
    rw [vecMul_transpose, dotProduct_comm (G *ᵥ p.2)] at this
    exact this
  rw [this]; ring

/-- `(v, y)` as a vector of unknowns of the extended system. -/
def joinEquiv (K X C D : Type) [Field K] (r : Nat) : ((Ix X C D → K) × (Fin r → K)) ≃ₗ[K] (Ix X (C ⊕ Fin r) D → K) where
  toFun := fun p => Sum.elim p.1 p.2 ∘ (ixEquiv X C D r).symm
  invFun := fun z => (fun i => z (ixEquiv X C D r (.inl i)), fun i => z (ixEquiv X C D r (.inr i)))
  map_add' := by
    intro p q; funext i
    simp only [Function.comp_apply, Pi.add_apply]
    cases (ixEquiv X C D r).symm i <;> rfl
  map_smul' := by
    intro a p; funext i
    simp only [Function.comp_apply, Pi.smul_apply, RingHom.id_apply]
    cases (ixEquiv X C D r).symm i <;> rfl
  left_inv := by intro p; simp
  right_inv := by
    intro z; funext i
    simp only [Function.comp_apply]
    obtain ⟨j, rfl⟩ := (ixEquiv X C D r).surjective i
    rw [Equiv.symm_apply_apply]
    cases j <;> rfl

theorem qf_ext {E : Env K X (C ⊕ Fin r) D B} {H : Heap K X C D L} {c : Call K} {st : SSt K X C L r} (hg : GoodSS H c st) {w : X → K}
    (hw : st.wdiag = some w) (p : (Ix X C D → K) × (Fin r → K)) :
    qf (kmat (st.extSys E H c)) (joinEquiv K X C D r p) =
      qblock (kmat (innerSys H c w c.Wfac)) (rowsM st.rows) (diagonal fun i => st.drank i - c.δc) p := by
  rw [← qf_blocks, ← kmat_ext (E := E) hg hw, ← qf_submatrix]
  rfl

theorem dne {δ : K} (h1 : -1 < δ) (h2 : δ < 1) (V : Option (MV (X → K))) (i : Nat) : drankAt V i - δ ≠ 0 := by
  unfold drankAt
  split_ifs
  · intro h; linarith
  · intro h; linarith

theorem schur_eq {H : Heap K X C D L} {c : Call K} {st : SSt K X C L r} (hg : GoodSS H c st)
    (hS : (H.lrw c.W).Selects) (hf : c.Wfac = 0 ∨ c.Wfac = 1) {w : X → K} (hw : st.wdiag = some w) :
    kmat (innerSys H c w c.Wfac) - rowsM st.rows * ((diagonal fun i : Fin r => 1 / (st.drank i - c.δc)) * (rowsM st.rows)ᵀ) =
      kmat (c.sysDelta H) := by
  obtain ⟨w', hd, hw'⟩ := hg.diag
  rw [hw] at hw'
  cases hw'
  ext a b
  rw [Matrix.sub_apply, Matrix.mul_apply]
  simp only [diagonal_mul, transpose_apply]
  rcases a with (a | a) | (a | a) <;> rcases b with (b | b) | (b | b) <;>
    simp only [rowsM, flat, Quad.ofX, Sum.elim_inl, Sum.elim_inr, mul_zero, zero_mul, Finset.sum_const_zero, sub_zero] <;> try rfl
  have hsum : ∑ k : Fin r, rv (st.rows k) a * (1 / (st.drank k - c.δc) * rv (st.rows k) b) =
      -(1 / (1 + c.δc)) * gram (vOf (H.lrw c.W) c.Wfac) a b + 1 / (1 - c.δc) * gram (uOf (H.lrw c.W) c.Wfac) a b := by
    rw [hg.rows, hg.drank]
    have := rows_sum _ _ hg.le (fun v => v a * v b) (by simp) (fun d => 1 / (d - c.δc))
    refine (Finset.sum_congr rfl fun k _ => ?_).trans (this.trans ?_)
    · simp only; ring
    have e : ∀ (V : Option (MV (X → K))) (t : K), sumCols V (fun v => v a * v b * t) = t * gram V a b := by
      intro V t
      cases V with
      | none => simp [sumCols, gram]
      | some V => simp only [sumCols, gram, ← Finset.sum_mul]; ring
    rw [e, e, show (1 : K) / (-1 - c.δc) = -(1 / (1 + c.δc)) by
      rw [show (-1 - c.δc : K) = -(1 + c.δc) by ring, div_neg]]
  rw [hsum]
  simp only [kmat, Call.sysDelta, Call.sys, innerSys]
  rcases hf with hf | hf
  · have e1 : vOf (H.lrw c.W) c.Wfac = none := by simp [vOf, hf]
    have e2 : uOf (H.lrw c.W) c.Wfac = none := by simp [uOf, hf]
    rw [e1, e2, hf]
    simp [gram]
  · rw [hf] at hd ⊢
    rw [elem2_eq _ _ _ hS hd]
    ring

theorem card_neg {δ : K} (h1 : -1 < δ) (h2 : δ < 1) (V : Option (MV (X → K))) (h : ncols V ≤ r) :
    (Finset.univ.filter fun i : Fin r => drankAt V i - δ < 0).card = ncols V := by
  have : ∀ i : Fin r, drankAt V (i : Nat) - δ < 0 ↔ (i : Nat) < ncols V := by
    intro i
    unfold drankAt
    split_ifs with hi
    · exact ⟨fun _ => hi, fun _ => by linarith⟩
    · exact ⟨fun h => absurd h (by simp; linarith), fun h => absurd h hi⟩
  simp only [this]
  rw [Fin.card_filter_val_lt, min_eq_right h]

theorem sys_symm (H : Heap K X C D L) (c : Call K) {st : SSt K X C L r} (hg : GoodSS H c st)
    (hS : (H.lrw c.W).Selects) (hf : c.Wfac = 0 ∨ c.Wfac = 1) : (kmat (c.sysDelta H)).IsSymm := by
  obtain ⟨w, hd, hw⟩ := hg.diag
  rw [← schur_eq hg hS hf hw, Matrix.IsSymm, transpose_sub, (inner_symm H c w c.Wfac).eq, transpose_mul, transpose_mul, transpose_transpose,
    diagonal_transpose, Matrix.mul_assoc]

theorem ext_count {E : Env K X (C ⊕ Fin r) D B} {H : Heap K X C D L} {c : Call K} {st : SSt K X C L r} (hg : GoodSS H c st)
    (hS : (H.lrw c.W).Selects) (hf : c.Wfac = 0 ∨ c.Wfac = 1) (h1 : -1 < c.δc) (h2 : c.δc < 1) {n : Nat}
    (h : NegCount (kmat (st.extSys E H c)) n) : ∃ j : Nat, NegCount (kmat (c.sysDelta H)) j ∧ (n : Int) - st.corr = j := by
  obtain ⟨w, hd, hw⟩ := hg.diag
  obtain ⟨j, hj⟩ := exists_negIdx (sys_symm H c hg hS hf)
  refine ⟨j, hj, ?_⟩
  have hD : (diagonal fun i : Fin r => st.drank i - c.δc).IsSymm := by
    rw [Matrix.IsSymm, diagonal_transpose]
  have hdd : (diagonal fun i : Fin r => st.drank i - c.δc) * ((diagonal fun i : Fin r => 1 / (st.drank i - c.δc)) * (rowsM st.rows)ᵀ) =
      (rowsM st.rows : Matrix (Ix X C D) (Fin r) K)ᵀ := by
    rw [← Matrix.mul_assoc, diagonal_mul_diagonal]
    have : (fun i : Fin r => (st.drank i - c.δc) * (1 / (st.drank i - c.δc))) = fun _ => 1 := by
      funext i
      rw [hg.drank]
      exact mul_one_div_cancel (dne h1 h2 _ _)
    rw [this, diagonal_one, Matrix.one_mul]
  have hb := negIdx_right (kmat (innerSys H c w c.Wfac)) hD hdd (by rw [schur_eq hg hS hf hw]; exact hj) (negIdx_diag _)
  have hq := NegIdx.equiv (joinEquiv K X C D r) (q' := qf (kmat (st.extSys E H c))) (qf_ext hg hw) hb
  have := hq.unique ((negCount_iff _ _).1 h)
  rw [hg.drank] at this
  rw [card_neg h1 h2 _ (by have := hg.le; omega)] at this
  rw [hg.corr, ← this]
  push_cast
  ring
end Verif.LowRank
