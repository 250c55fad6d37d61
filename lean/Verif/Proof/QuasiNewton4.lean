import Verif.Proof.QuasiNewton2
import Verif.Proof.QuasiNewton3

/-! # The matrix of an accepted BFGS or SR1 update -/

namespace Verif.QuasiNewton
open Finset Verif.Matrix

set_option linter.unusedSectionVars false
set_option linter.unusedVariables false
set_option linter.unusedSimpArgs false

section
variable {K : Type} [Field K] [LinearOrder K]

/-- the matrix with the given entries. -/
def Mx (n m : Nat) (f : Nat → Nat → K) : _root_.Matrix (Fin n) (Fin m) K := fun i j => f i j

/-- entry (i, k) of the matrix with the given columns. -/
def ce (c : List (List K)) (i k : Nat) : K := (c.getD k []).getD i 0

theorem gram_eq (vs : List (List K)) (i j : Nat) : gram (some vs) i j = ∑ k ∈ range vs.length, ce vs i k * ce vs j k := by
  unfold gram
  simp only
  have : vs.map (fun v => v.getD i 0 * v.getD j 0) = (List.range vs.length).map (fun k => ce vs i k * ce vs j k) := by
    apply List.ext_getElem
    · simp
    · intro k h1 h2
      simp only [List.length_map] at h1
      simp [ce, List.getD_eq_getElem?_getD, h1]
  rw [this, sum_map_range]

theorem cols_get (M : DM K) (j k : Nat) (hj : j < M.n) (hk : k < M.n) : ce M.cols k j = M.at k j := by
  unfold ce DM.cols
  simp [List.getD_eq_getElem?_getD, hj, hk]

theorem cols_len (M : DM K) : M.cols.length = M.n := by simp [DM.cols]

theorem cols_mem (M : DM K) (c : List K) (h : c ∈ M.cols) : c.length = M.n := by
  unfold DM.cols at h
  obtain ⟨j, -, rfl⟩ := List.mem_map.1 h
  simp

theorem cols_getlen (M : DM K) (j : Nat) (hj : j < M.n) : (M.cols.getD j []).length = M.n := by
  apply cols_mem
  rw [List.getD_eq_getElem?_getD, List.getElem?_eq_getElem (by rw [cols_len]; exact hj)]
  exact List.getElem_mem _

/-- U of the regular BFGS update, entry by entry. -/
theorem bfgsU_get {hom : List K → Option K} (hh : HomOK hom) (n m : Nat) (σ : K) (S V : List (List K)) (hS : S.length = m) (hV : V.length = m)
    (hSn : ∀ v ∈ S, v.length = n) (hVn : ∀ v ∈ V, v.length = n) (B C : DM K) (hB : B.n = m) (hC : C.n = m) :
    let U := rightMult1 hom 1 V B.cols (rightMult0 hom n σ S C.cols)
    U.length = m ∧ (∀ v ∈ U, v.length = n) ∧
      ∀ i j, i < n → j < m → ce U i j = σ * ∑ k ∈ range m, ce S i k * C.at k j + ∑ k ∈ range m, ce V i k * B.at k j := by
  intro U
  have hlen : U.length = m := by simp [U, rightMult1, rightMult0, cols_len, hB, hC]
  have hcol : ∀ j, j < m → (U.getD j []).length = n ∧ ∀ i, i < n → (U.getD j []).getD i 0 =
      σ * ∑ k ∈ range m, ce S i k * C.at k j + ∑ k ∈ range m, ce V i k * B.at k j := by
    intro j hj
    have e : U.getD j [] = mvMult hom V 1 (B.cols.getD j []) 1 (mvMult hom S σ (C.cols.getD j []) 0 (List.replicate n 0)) := by
      simp only [U, rightMult1, rightMult0]
      rw [List.getD_eq_getElem?_getD, List.getElem?_zipWith, List.getElem?_map]
      have h1 : j < B.cols.length := by rw [cols_len, hB]; exact hj
      have h2 : j < C.cols.length := by rw [cols_len, hC]; exact hj
      simp [List.getD_eq_getElem?_getD, h1, h2]
    have p1 := mvMult_ok hh n S hSn σ (C.cols.getD j []) 0 (List.replicate n 0) (by rw [cols_getlen C j (by omega), hC, hS]) (by simp)
    have p2 := mvMult_ok hh n V hVn 1 (B.cols.getD j []) 1 _ (by rw [cols_getlen B j (by omega), hB, hV]) p1.1
    rw [e]
    refine ⟨p2.1, fun i hi => ?_⟩
    rw [p2.2 i hi, p1.2 i hi, hS, hV]
    simp only [zero_mul, zero_add, one_mul]
    congr 1
    · congr 1
      refine Finset.sum_congr rfl (fun k hk => ?_)
      have hk' : k < C.n := by rw [hC]; exact Finset.mem_range.1 hk
      rw [← cols_get C j k (by omega) hk']; rfl
    · refine Finset.sum_congr rfl (fun k hk => ?_)
      have hk' : k < B.n := by rw [hB]; exact Finset.mem_range.1 hk
      rw [← cols_get B j k (by omega) hk']; rfl
  refine ⟨hlen, fun v hv => ?_, fun i j hi hj => (hcol j hj).2 i hi⟩
  obtain ⟨j, hj, rfl⟩ := List.getElem_of_mem hv
  have := (hcol j (by rw [← hlen]; exact hj)).1
  rwa [List.getD_eq_getElem?_getD, List.getElem?_eq_getElem hj] at this

theorem vdot_ce (A B : List (List K)) (n : Nat) (i j : Nat) (hi : i < A.length) (hj : j < B.length) (hA : ∀ v ∈ A, v.length = n)
    (hB : ∀ v ∈ B, v.length = n) : vdot (A.getD i []) (B.getD j []) = ∑ k ∈ range n, ce A k i * ce B k j := by
  have h1 : (A.getD i []).length = n := by
    rw [List.getD_eq_getElem?_getD, List.getElem?_eq_getElem hi]; exact hA _ (List.getElem_mem _)
  have h2 : (B.getD j []).length = n := by
    rw [List.getD_eq_getElem?_getD, List.getElem?_eq_getElem hj]; exact hB _ (List.getElem_mem _)
  rw [vdot_eq _ _ n h1 h2]; rfl

open _root_.Matrix in
/-- the stored members and the matrices of a regular BFGS update satisfy the hypotheses of the algebraic theorems. -/
theorem bfgs_struct (env : Env K) (hh : HomOK env.hom) (hch : CholOK env) (hbk : BackOK env) (n m : Nat) (σ : K) (S Y V : List (List K))
    (hS : S.length = m) (hY : Y.length = m) (hV : V.length = m)
    (hSn : ∀ v ∈ S, v.length = n) (hYn : ∀ v ∈ Y, v.length = n) (hVn : ∀ v ∈ V, v.length = n)
    (D : List K) (hD : D.length = m) (hDv : ∀ j, j < m → D.getD j 0 = vdot (S.getD j []) (Y.getD j []))
    (hsq : ∀ j, j < m → 1 / env.sqrt (D.getD j 0) * (1 / env.sqrt (D.getD j 0)) * D.getD j 0 = 1)
    (hVv : ∀ i j, i < n → j < m → ce V i j = ce Y i j * (1 / env.sqrt (D.getD j 0)))
    (L : DM K) (hL : L.n = m) (hLv : ∀ i j, i < m → j < m → L.at i j = if j < i then vdot (S.getD i []) (Y.getD j []) else 0)
    (A : DM K) (hA : A.n = m) (hAv : ∀ i j, i < m → j ≤ i → A.at i j = vdot (S.getD i []) (S.getD j []))
    (J : DM K) (hJ : env.chol (addMat σ A 1 (syrk env.junk (ltilde env D L))) = some J) :
    let U := rightMult1 env.hom 1 V (mulT (ltilde env D L) (env.back J)).cols (rightMult0 env.hom n σ S (env.back J).cols)
    U.length = m ∧ (∀ v ∈ U, v.length = n) ∧
    BFGS n m σ (Mx n m (ce S)) (Mx n m (ce Y)) (fun j => D.getD j 0) (fun j => 1 / env.sqrt (D.getD j 0))
      (Mx m m L.at) (Mx m m (ltilde env D L).at) (Mx m m (env.back J).at) (Mx n m (ce V)) (Mx n m (ce U)) := by
  intro U
  have hLt : (ltilde env D L).n = m := hL
  have hLtv : ∀ i j, i < m → j < m → (ltilde env D L).at i j = L.at i j * (1 / env.sqrt (D.getD j 0)) := by
    intro i j hi hj
    unfold ltilde scaleCols
    rw [at_build _ _ _ _ (by omega) (by omega), getD_map' _ _ _ 0 (by omega), mul_comm]
  have hMn : (addMat σ A 1 (syrk env.junk (ltilde env D L))).n = m := by
    unfold addMat; split
    · exact hLt
    · exact hLt
  have hMv : ∀ i j, i < m → j ≤ i → (addMat σ A 1 (syrk env.junk (ltilde env D L))).at i j =
      ∑ k ∈ range m, (ltilde env D L).at i k * (ltilde env D L).at j k + σ * vdot (S.getD i []) (S.getD j []) := by
    intro i j hi hj
    have hs : (syrk env.junk (ltilde env D L)).at i j = ∑ k ∈ range m, (ltilde env D L).at i k * (ltilde env D L).at j k := by
      unfold syrk
      rw [at_build _ _ _ _ (by omega) (by omega), if_pos hj, sumTo_eq, hLt]
    unfold addMat
    split
    · next h => rw [hs, h]; ring
    · rw [at_build _ _ _ _ (by show i < (ltilde env D L).n; omega) (by show j < (ltilde env D L).n; omega), if_pos hj, if_neg one_ne_zero, hs,
        hAv i j hi hj]; ring
  obtain ⟨hJn, hJt, hJd, hJv⟩ := hch _ _ hJ
  rw [hMn] at hJn hJt hJd hJv
  obtain ⟨hCn, hCv⟩ := hbk J (by rw [hJn]; exact hJd) (by rw [hJn]; exact hJt)
  rw [hJn] at hCn hCv
  obtain ⟨u1, u2, u3⟩ := bfgsU_get hh n m σ S V hS hV hSn hVn (mulT (ltilde env D L) (env.back J)) (env.back J) hLt hCn
  refine ⟨u1, u2, ?_, ?_, ?_, ?_, ?_, ?_, ?_⟩
  · intro j
    show D.getD j 0 = _
    rw [hDv j j.2, vdot_ce S Y n j j (by omega) (by omega) hSn hYn, _root_.Matrix.mul_apply, Finset.sum_range]
    rfl
  · intro j; exact hsq j j.2
  · intro i j
    show L.at i j = _
    rw [hLv i j i.2 j.2, vdot_ce S Y n i j (by omega) (by omega) hSn hYn, _root_.Matrix.mul_apply, Finset.sum_range]
    rfl
  · ext i j
    rw [_root_.Matrix.mul_diagonal]
    exact hLtv i j i.2 j.2
  · ext i j
    rw [_root_.Matrix.mul_diagonal]
    exact hVv i j i.2 j.2
  · refine inv_of_chol (Mx m m J.at) _ _ ?_ ?_
    · ext i j
      rw [_root_.Matrix.mul_apply, _root_.Matrix.add_apply, _root_.Matrix.smul_apply, _root_.Matrix.mul_apply, _root_.Matrix.mul_apply]
      have key : ∀ i j : Fin m, j ≤ i → ∑ k : Fin m, J.at i k * J.at j k =
          ∑ k : Fin m, (ltilde env D L).at i k * (ltilde env D L).at j k + σ * ∑ k : Fin n, ce S k i * ce S k j := by
        intro i j hij
        have h1 := hJv i j hij i.2
        rw [hMv i j i.2 hij, vdot_ce S S n i j (by omega) (by omega) hSn hSn, Finset.sum_range, Finset.sum_range, Finset.sum_range] at h1
        exact h1
      show ∑ k : Fin m, J.at i k * J.at j k =
          ∑ k : Fin m, (ltilde env D L).at i k * (ltilde env D L).at j k + σ * ∑ k : Fin n, ce S k i * ce S k j
      rcases le_total j i with h | h
      · exact key i j h
      · have := key j i h
        simp only [mul_comm] at this ⊢
        exact this
    · ext i j
      rw [_root_.Matrix.mul_apply, _root_.Matrix.one_apply]
      have := hCv i j i.2 j.2
      rw [Finset.sum_range] at this
      simp only [Fin.ext_iff]
      exact this
  · ext i j
    show ce U i j = _
    rw [u3 i j i.2 j.2, _root_.Matrix.add_mul, _root_.Matrix.smul_mul, _root_.Matrix.add_apply, _root_.Matrix.smul_apply, _root_.Matrix.mul_assoc, _root_.Matrix.mul_apply,
      _root_.Matrix.mul_apply, Finset.sum_range, Finset.sum_range, smul_eq_mul]
    congr 1
    refine Finset.sum_congr rfl (fun k _ => ?_)
    rw [_root_.Matrix.mul_apply]
    show ce V i k * _ = ce V i k * _
    congr 1
    unfold mulT
    rw [at_build _ _ _ _ (by omega) (by omega), sumTo_eq, hLt, Finset.sum_range]
    rfl

open _root_.Matrix in
/-- entries of σ I + V Vᵀ − U Uᵀ. -/
theorem ent_lowRank (n m : Nat) (σ : K) (V U : List (List K)) (hV : V.length = m) (hU : U.length = m) (i j : Fin n) :
    ent (.lowRank (List.replicate n σ) (some V) (some U)) i j =
      (σ • (1 : _root_.Matrix (Fin n) (Fin n) K) + Mx n m (ce V) * (Mx n m (ce V))ᵀ - Mx n m (ce U) * (Mx n m (ce U))ᵀ) i j := by
  rw [_root_.Matrix.sub_apply, _root_.Matrix.add_apply, _root_.Matrix.smul_apply, _root_.Matrix.mul_apply, _root_.Matrix.mul_apply, _root_.Matrix.one_apply]
  simp only [ent]
  rw [gram_eq, gram_eq, hV, hU, Finset.sum_range, Finset.sum_range]
  have : (List.replicate n σ).getD i 0 = σ := by simp [List.getD_eq_getElem?_getD]
  rw [this]
  simp only [Fin.ext_iff]
  congr 1
  congr 1
  by_cases h : (i : Nat) = j <;> simp [h]

end
end Verif.QuasiNewton
