import Verif.Proof.QuasiNewton7

/-! # The SR1 matrix -/

namespace Verif.QuasiNewton
open Finset Verif.Matrix

set_option linter.unusedSectionVars false
set_option linter.unusedVariables false
set_option linter.unusedSimpArgs false

section
variable {K : Type} [Field K] [LinearOrder K] [IsStrictOrderedRing K]

/-- the number of negative elements of an ascending list is where the sign changes. -/
theorem neg_count (E : List K) (h : ∀ i j, i < j → j < E.length → E.getD i 0 ≤ E.getD j 0) (j : Nat) (hj : j < E.length) :
    E.getD j 0 < 0 ↔ j < (E.filter (fun e => decide (e < 0))).length := by
  induction E generalizing j with
  | nil => simp at hj
  | cons e E ih =>
    have ih' := ih (fun i j hij hj => by
      have := h (i + 1) (j + 1) (by omega) (by simp; omega)
      simpa using this)
    by_cases he : e < 0
    · rw [List.filter_cons_of_pos (by simpa using he)]
      cases j with
      | zero => simp [he]
      | succ j =>
        have := ih' j (by simpa using hj)
        simp only [List.getD_cons_succ, List.length_cons, Nat.add_lt_add_iff_right]
        exact this
    · have all : ∀ a ∈ E, ¬ a < 0 := by
        intro a ha
        obtain ⟨i, hi, rfl⟩ := List.getElem_of_mem ha
        have := h 0 (i + 1) (by omega) (by simp; omega)
        simp only [List.getD_cons_zero, List.getD_cons_succ] at this
        rw [List.getD_eq_getElem?_getD, List.getElem?_eq_getElem hi] at this
        push Not at he
        exact not_lt.2 (le_trans he this)
      have e0 : (e :: E).filter (fun e => decide (e < 0)) = [] := by
        rw [List.filter_eq_nil_iff]
        intro a ha
        rcases List.mem_cons.1 ha with rfl | ha
        · simpa using he
        · simpa using all a ha
      rw [e0]
      simp only [List.length_nil, Nat.not_lt_zero, iff_false]
      cases j with
      | zero => simpa using he
      | succ j =>
        simp only [List.getD_cons_succ]
        rw [List.getD_eq_getElem?_getD, List.getElem?_eq_getElem (by simpa using hj)]
        exact all _ (List.getElem_mem _)

/-- one block of columns: (Ψ Q_{lo..hi} F^{-1/2}) (Ψ Q_{lo..hi} F^{-1/2})ᵀ. -/
theorem gram_block (env : Env K) (hh : HomOK env.hom) (hq : SqrtOK env) (n m : Nat) (Vt : List (List K)) (hVt : Vt.length = m)
    (hVn : ∀ v ∈ Vt, v.length = n) (Q : DM K) (hQ : Q.n = m) (E : List K) (f : K → K) (lo hi : Nat)
    (hf : ∀ j, lo ≤ j → j < hi → 0 < f (E.getD j 0)) (i i' : Nat) (hi1 : i < n) (hi2 : i' < n) :
    gram (some (rightMult0 env.hom n 1 Vt (scaledCols env f Q E lo hi))) i i' =
      ∑ j ∈ range (hi - lo), (∑ k ∈ range m, ce Vt i k * Q.at k (lo + j)) * (∑ k ∈ range m, ce Vt i' k * Q.at k (lo + j)) / f (E.getD (lo + j) 0) := by
  have hlen : (rightMult0 env.hom n 1 Vt (scaledCols env f Q E lo hi)).length = hi - lo := by simp [rightMult0, scaledCols]
  rw [gram_eq, hlen]
  refine Finset.sum_congr rfl (fun j hj => ?_)
  have hj' := Finset.mem_range.1 hj
  have key : ∀ i, i < n → ce (rightMult0 env.hom n 1 Vt (scaledCols env f Q E lo hi)) i j =
      (∑ k ∈ range m, ce Vt i k * Q.at k (lo + j)) / env.sqrt (f (E.getD (lo + j) 0)) := by
    intro i hi1
    unfold ce rightMult0
    have e : (List.map (fun c => mvMult env.hom Vt 1 c 0 (List.replicate n 0)) (scaledCols env f Q E lo hi)).getD j [] =
        mvMult env.hom Vt 1 ((List.range Q.n).map (fun i => Q.at i (lo + j) / env.sqrt (f (E.getD (lo + j) 0)))) 0 (List.replicate n 0) := by
      simp [scaledCols, List.getD_eq_getElem?_getD, hj']
    rw [e]
    have p1 := mvMult_ok hh n Vt hVn 1 ((List.range Q.n).map (fun i => Q.at i (lo + j) / env.sqrt (f (E.getD (lo + j) 0)))) 0 (List.replicate n 0)
      (by simp [hQ, hVt]) (by simp)
    rw [p1.2 i hi1, hVt, zero_mul, zero_add, one_mul, div_eq_mul_inv, Finset.sum_mul]
    refine Finset.sum_congr rfl (fun k hk => ?_)
    have hk' := Finset.mem_range.1 hk
    rw [getD_map' _ _ _ 0 (by simp [hQ]; exact hk')]
    simp only [ent, List.getD_eq_getElem?_getD, List.getElem?_range (show k < Q.n by rw [hQ]; exact hk'), Option.getD_some]
    rw [mul_assoc, div_eq_mul_inv]
  rw [key i hi1, key i' hi2, div_mul_div_comm, (hq _ (hf (lo + j) (by omega) (by omega)).le).2]

theorem nabs_nonneg (a : K) : 0 ≤ nabs a := by
  unfold nabs; split
  · next h => linarith
  · next h => push Not at h; exact h

/-- V Vᵀ − U Uᵀ = Ψ Q E⁻¹ Qᵀ Ψᵀ, and E has no zero. -/
theorem split_ok (env : Env K) (hh : HomOK env.hom) (hq : SqrtOK env) (hte : 0 < env.eigTol) (n m : Nat) (hm : 0 < m) (Vt : List (List K)) (hVt : Vt.length = m)
    (hVn : ∀ v ∈ Vt, v.length = n) (Q : DM K) (hQ : Q.n = m) (E : List K) (hE : E.length = m)
    (hasc : ∀ i j, i < j → j < m → E.getD i 0 ≤ E.getD j 0) (Qm Qp : Option (List (List K)))
    (hs : splitEig env Q E = some (Qm, Qp)) :
    (∀ j, j < m → E.getD j 0 ≠ 0) ∧
    ∀ i i', i < n → i' < n → gram (Qp.map (fun q => rightMult0 env.hom n 1 Vt q)) i i' - gram (Qm.map (fun q => rightMult0 env.hom n 1 Vt q)) i i' =
      ∑ j ∈ range m, (∑ k ∈ range m, ce Vt i k * Q.at k j) * (∑ k ∈ range m, ce Vt i' k * Q.at k j) / E.getD j 0 := by
  have hasc' : ∀ i j, i ≤ j → j < m → E.getD i 0 ≤ E.getD j 0 := by
    intro i j hij hj
    rcases Nat.lt_or_eq_of_le hij with h | h
    · exact hasc i j h hj
    · rw [h]
  have hcnt := neg_count E (fun i j hij hj => hasc i j hij (by omega))
  unfold splitEig at hs
  simp only [hE] at hs
  set nneg := (E.filter (fun e => decide (e < 0))).length with hnn
  generalize hem : (if nneg = 0 then E.getD 0 0 else if nneg = m then -E.getD (m - 1) 0 else min (-E.getD (nneg - 1) 0) (E.getD nneg 0)) = emin at hs
  split at hs
  · cases hs
  · next hmax =>
    have hmp : 0 < max (nabs (E.getD 0 0)) (nabs (E.getD (m - 1) 0)) :=
      lt_of_le_of_ne (le_trans (nabs_nonneg _) (le_max_left _ _)) (Ne.symm hmax)
    split at hs
    · cases hs
    · next htol =>
      have hmin : 0 < (if nneg = 0 then E.getD 0 0 else if nneg = m then -E.getD (m - 1) 0 else min (-E.getD (nneg - 1) 0) (E.getD nneg 0)) := by
        push Not at htol
        rw [hem]
        exact (div_pos_iff_of_pos_right hmp).1 (lt_of_lt_of_le hte htol)
      split at hs
      · next h0 =>
        rw [if_pos h0] at hmin
        cases hs
        have hp : ∀ j, j < m → 0 < E.getD j 0 := fun j hj => lt_of_lt_of_le hmin (hasc' 0 j (by omega) hj)
        refine ⟨fun j hj => (hp j hj).ne', fun i i' h1 h2 => ?_⟩
        simp only [Option.map_some, Option.map_none]
        rw [gram_block env hh hq n m Vt hVt hVn Q hQ E _ 0 m (fun j _ hj => hp j hj) i i' h1 h2]
        simp [gram]
      · next h0 =>
        rw [if_neg h0] at hmin
        split at hs
        · next h1 =>
          rw [if_pos h1] at hmin
          cases hs
          have hp : ∀ j, j < m → E.getD j 0 < 0 := fun j hj => lt_of_le_of_lt (hasc' j (m - 1) (by omega) (by omega)) (by linarith)
          refine ⟨fun j hj => (hp j hj).ne, fun i i' h2 h3 => ?_⟩
          simp only [Option.map_some, Option.map_none]
          rw [gram_block env hh hq n m Vt hVt hVn Q hQ E _ 0 m (fun j _ hj => by have := hp j hj; linarith) i i' h2 h3]
          simp only [gram, zero_sub, Nat.sub_zero, zero_add, div_neg, Finset.sum_neg_distrib, neg_neg]
        · next h1 =>
          rw [if_neg h1] at hmin
          cases hs
          obtain ⟨g1, g2⟩ := lt_min_iff.1 hmin
          have hle : nneg ≤ m := by rw [hnn, ← hE]; exact List.length_filter_le _ _
          have hlt : nneg < m := by omega
          have hneg : ∀ j, j < nneg → E.getD j 0 < 0 := fun j hj => (hcnt j (by omega)).2 hj
          have hpos : ∀ j, nneg ≤ j → j < m → 0 < E.getD j 0 := fun j hj hjm => lt_of_lt_of_le g2 (hasc' nneg j hj hjm)
          refine ⟨fun j hj => ?_, fun i i' h2 h3 => ?_⟩
          · by_cases hj' : j < nneg
            · exact (hneg j hj').ne
            · exact (hpos j (by omega) hj).ne'
          · simp only [Option.map_some]
            rw [gram_block env hh hq n m Vt hVt hVn Q hQ E _ nneg m (fun j h hj => hpos j h hj) i i' h2 h3,
              gram_block env hh hq n m Vt hVt hVn Q hQ E _ 0 nneg (fun j h hj => by have := hneg j hj; linarith) i i' h2 h3]
            simp only [Nat.sub_zero, zero_add, div_neg, Finset.sum_neg_distrib, sub_neg_eq_add]
            conv_rhs => rw [show m = nneg + (m - nneg) by omega, Finset.sum_range_add]
            rw [add_comm]
            have e : nneg + (m - nneg) = m := by omega
            simp only [e]

open _root_.Matrix in
/-- the SR1 matrix satisfies the secant equation for the last pair. -/
theorem sr1_secant_ent (env : Env K) (hh : HomOK env.hom) (hq : SqrtOK env) (hei : EigOK env) (hte : 0 < env.eigTol) (n m : Nat) (hm : 0 < m) (σ : K) (hσ : σ ≠ 0)
    (S Y : List (List K)) (hS : S.length = m) (hY : Y.length = m) (hSn : ∀ v ∈ S, v.length = n) (hYn : ∀ v ∈ Y, v.length = n)
    (D : List K) (hDv : ∀ j, j < m → D.getD j 0 = vdot (S.getD j []) (Y.getD j []))
    (L : DM K) (hLv : ∀ i j, i < m → j < m → L.at i j = if j < i then vdot (S.getD i []) (Y.getD j []) else 0)
    (A : DM K) (hA : A.n = m) (hAv : ∀ i j, i < m → j ≤ i → A.at i j = vdot (S.getD i []) (S.getD j []))
    (Q : DM K) (E : List K) (heig : env.eig (specialAdd D L (addMat (-σ) A 0 (DM.build A.n (fun _ _ => env.junk)))) = some (Q, E))
    (Qm Qp : Option (List (List K))) (hs : splitEig env Q E = some (Qm, Qp)) (i : Nat) (hi : i < n) :
    let Vt := List.zipWith (fun y t => List.zipWith (fun a b => a - σ * b) y t) Y S
    ∑ j ∈ range n, Bof σ (Qp.map (fun q => rightMult0 env.hom n 1 Vt q)) (Qm.map (fun q => rightMult0 env.hom n 1 Vt q)) i j * ce S j (m - 1) =
      ce Y i (m - 1) := by
  intro Vt
  have hVt : Vt.length = m := by simp [Vt, hS, hY]
  have gl : ∀ (X : List (List K)) (hX : X.length = m) (hXn : ∀ v ∈ X, v.length = n) (j : Nat), j < m → (X.getD j []).length = n := by
    intro X hX hXn j hj
    rw [List.getD_eq_getElem?_getD, List.getElem?_eq_getElem (by omega)]; exact hXn _ (List.getElem_mem _)
  have hcol : ∀ j, j < m → Vt.getD j [] = List.zipWith (fun a b => a - σ * b) (Y.getD j []) (S.getD j []) := by
    intro j hj
    simp only [Vt]
    rw [List.getD_eq_getElem?_getD, List.getElem?_zipWith, List.getElem?_eq_getElem (show j < Y.length by omega),
      List.getElem?_eq_getElem (show j < S.length by omega)]
    simp [List.getD_eq_getElem?_getD, show j < Y.length by omega, show j < S.length by omega]
  have hVn : ∀ v ∈ Vt, v.length = n := by
    intro v hv
    obtain ⟨j, hj, rfl⟩ := List.getElem_of_mem hv
    have := hcol j (by omega)
    rw [List.getD_eq_getElem?_getD, List.getElem?_eq_getElem hj, Option.getD_some] at this
    rw [this, List.length_zipWith, gl S hS hSn j (by omega), gl Y hY hYn j (by omega), min_self]
  have hVe : ∀ i j, i < n → j < m → ce Vt i j = ce Y i j - σ * ce S i j := by
    intro i j hi hj
    unfold ce
    rw [hcol j hj, getD_zipWith _ _ _ _ 0 0 (by rw [gl Y hY hYn j hj]; exact hi) (by rw [gl S hS hSn j hj]; exact hi)]
  -- Z
  have hadd : ∀ i j, i < m → j ≤ i → (addMat (-σ) A 0 (DM.build A.n (fun _ _ => env.junk))).at i j = -σ * vdot (S.getD i []) (S.getD j []) := by
    intro i j hi hj
    unfold addMat
    rw [if_neg (neg_ne_zero.2 hσ), at_build _ _ _ _ (by show i < A.n; omega) (by show j < A.n; omega), if_pos hj, if_pos rfl, hAv i j hi hj]
  have haddn : (addMat (-σ) A 0 (DM.build A.n (fun _ _ => env.junk))).n = m := by
    unfold addMat; rw [if_neg (neg_ne_zero.2 hσ)]; exact hA
  set Z := specialAdd D L (addMat (-σ) A 0 (DM.build A.n (fun _ _ => env.junk))) with hZ
  have hZn : Z.n = m := haddn
  have hZv : ∀ i j, i < m → j ≤ i → Z.at i j = vdot (S.getD i []) (Y.getD j []) - σ * vdot (S.getD i []) (S.getD j []) := by
    intro i j hi hj
    rw [hZ]
    unfold specialAdd
    rw [at_build _ _ _ _ (by rw [haddn]; exact hi) (by rw [haddn]; omega), hadd i j hi hj]
    rcases Nat.lt_or_eq_of_le hj with h | h
    · rw [if_pos h, hLv i j hi (by omega), if_pos h]; ring
    · subst h; rw [if_neg (lt_irrefl _), if_pos rfl, hDv j hi]; ring
  obtain ⟨hQn, hEl, hasc, horth, hrec⟩ := hei Z Q E heig
  rw [hZn] at hQn hEl hasc horth hrec
  obtain ⟨hE0, hg⟩ := split_ok env hh hq hte n m hm Vt hVt hVn Q hQn E hEl hasc Qm Qp hs
  -- matrices
  let Ψ : _root_.Matrix (Fin n) (Fin m) K := Mx n m (ce Vt)
  let q : _root_.Matrix (Fin m) (Fin m) K := Mx m m Q.at
  let Zm : _root_.Matrix (Fin m) (Fin m) K := fun i j => if j ≤ i then Z.at i j else Z.at j i
  let N : _root_.Matrix (Fin m) (Fin m) K := q * diagonal (fun j : Fin m => (E.getD j 0)⁻¹) * qᵀ
  have hqq : q * qᵀ = 1 := by
    ext i j
    rw [_root_.Matrix.mul_apply, _root_.Matrix.one_apply]
    have := horth i j i.2 j.2
    rw [Finset.sum_range] at this
    simp only [Fin.ext_iff]
    exact this
  have hqq' : qᵀ * q = 1 := mul_eq_one_comm.1 hqq
  have hZq : Zm = q * diagonal (fun j : Fin m => E.getD j 0) * qᵀ := by
    ext i j
    rw [_root_.Matrix.mul_apply]
    simp only [_root_.Matrix.mul_diagonal, _root_.Matrix.transpose_apply]
    have key : ∀ i j : Fin m, j ≤ i → Z.at i j = ∑ k : Fin m, q i k * E.getD k 0 * q j k := by
      intro i j hij
      have := hrec i j hij i.2
      rw [Finset.sum_range] at this
      exact this.symm
    show (if j ≤ i then Z.at i j else Z.at j i) = _
    split
    · next h => exact key i j h
    · next h =>
      rw [key j i (le_of_lt (not_le.1 h))]
      exact Finset.sum_congr rfl (fun k _ => by ring)
  have hNZ : N * Zm = 1 := by
    rw [hZq]
    calc q * diagonal (fun j : Fin m => (E.getD j 0)⁻¹) * qᵀ * (q * diagonal (fun j : Fin m => E.getD j 0) * qᵀ)
        = q * (diagonal (fun j : Fin m => (E.getD j 0)⁻¹) * ((qᵀ * q) * diagonal (fun j : Fin m => E.getD j 0))) * qᵀ := by simp only [_root_.Matrix.mul_assoc]
      _ = 1 := by
        rw [hqq', _root_.Matrix.one_mul, _root_.Matrix.diagonal_mul_diagonal]
        have : (fun i : Fin m => (E.getD i 0)⁻¹ * E.getD i 0) = fun _ => 1 := by
          funext j; exact inv_mul_cancel₀ (hE0 j j.2)
        rw [this, _root_.Matrix.diagonal_one, _root_.Matrix.mul_one, hqq]
  let k : Fin m := ⟨m - 1, by omega⟩
  have hk : ∀ j : Fin m, j ≤ k := fun j => by rw [Fin.le_def]; have := j.2; simp only [k]; omega
  let e : Fin m → K := Pi.single k 1
  let s : Fin n → K := fun i => ce S i k
  let y : Fin n → K := fun i => ce Y i k
  have h1 : Ψᵀ *ᵥ s = Zm *ᵥ e := by
    funext j
    rw [_root_.Matrix.mulVec_single_one]
    simp only [_root_.Matrix.col_apply, _root_.Matrix.mulVec, dotProduct, _root_.Matrix.transpose_apply]
    have hz : Zm j k = Z.at k j := by
      show (if k ≤ j then Z.at j k else Z.at k j) = _
      split
      · next h => have : j = k := le_antisymm (hk j) h; rw [this]
      · rfl
    rw [hz, hZv k j k.2 (hk j), vdot_ce S Y n k j (by rw [hS]; exact k.2) (by rw [hY]; exact j.2) hSn hYn,
      vdot_ce S S n k j (by rw [hS]; exact k.2) (by rw [hS]; exact j.2) hSn hSn, Finset.sum_range, Finset.sum_range, Finset.mul_sum,
      ← Finset.sum_sub_distrib]
    refine Finset.sum_congr rfl (fun i _ => ?_)
    show ce Vt i j * ce S i k = _
    rw [hVe i j i.2 j.2]; ring
  have h2 : Ψ *ᵥ e = y - σ • s := by
    funext i
    rw [_root_.Matrix.mulVec_single_one]
    show ce Vt i k = ce Y i k - σ * ce S i k
    exact hVe i k i.2 k.2
  have hsec := congrFun (Verif.QuasiNewton.sr1_secant σ Ψ N Zm (Ψ * N * Ψᵀ) s y e hNZ rfl h1 h2) ⟨i, hi⟩
  simp only [_root_.Matrix.mulVec, dotProduct] at hsec
  show _ = y ⟨i, hi⟩
  rw [← hsec, Finset.sum_range]
  refine Finset.sum_congr rfl (fun j _ => ?_)
  congr 1
  unfold Bof
  rw [_root_.Matrix.add_apply, _root_.Matrix.smul_apply, _root_.Matrix.one_apply, add_sub_assoc, hg i j hi j.2]
  congr 1
  · simp only [Fin.ext_iff, smul_eq_mul]
    by_cases h : i = j <;> simp [h]
  · have : Ψ * N * Ψᵀ = (Ψ * q) * diagonal (fun j : Fin m => (E.getD j 0)⁻¹) * (Ψ * q)ᵀ := by
      rw [_root_.Matrix.transpose_mul]; simp only [N, _root_.Matrix.mul_assoc]
    rw [this, _root_.Matrix.mul_apply, Finset.sum_range]
    refine Finset.sum_congr rfl (fun l _ => ?_)
    rw [_root_.Matrix.mul_diagonal, _root_.Matrix.transpose_apply, _root_.Matrix.mul_apply, _root_.Matrix.mul_apply, Finset.sum_range, Finset.sum_range,
      div_eq_mul_inv]
    show (∑ k : Fin m, ce Vt i k * Q.at k l) * (∑ k : Fin m, ce Vt j k * Q.at k l) * (E.getD l 0)⁻¹ =
      (∑ k : Fin m, ce Vt i k * Q.at k l) * (E.getD l 0)⁻¹ * (∑ k : Fin m, ce Vt j k * Q.at k l)
    ring

end
end Verif.QuasiNewton
