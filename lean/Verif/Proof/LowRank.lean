import Verif.Proof.LowRankFlat

/-! # Correctness of `LowRankAugSystemSolver` -/

set_option linter.unusedSectionVars false
set_option linter.unusedSimpArgs false
set_option linter.unusedVariables false

namespace Verif.LowRank
open _root_.Matrix Finset
open Verif.AugSolve (Status)

variable {K X C D L B : Type} [Field K] [Fintype X] [Fintype C] [Fintype D] [Fintype L]
variable [DecidableEq K] [DecidableEq X] [DecidableEq C] [DecidableEq D] [DecidableEq L]

/-! ## The Hessian -/

/-- the low-rank matrix in the first block. -/
def gramM (V : Option (MV (X → K))) : Matrix (Ix X C D) (Ix X C D) K
  | .inl (.inl i), .inl (.inl j) => gram V i j
  | _, _ => 0

theorem xcols_gram (V : MV (X → K)) : (xcolsM V V.n : Matrix (Ix X C D) _ K) * (xcolsM V V.n)ᵀ = gramM (some V) := by
  ext i j
  rw [Matrix.mul_apply]
  rcases i with (i | i) | (i | i) <;> rcases j with (j | j) | (j | j) <;>
    simp [xcolsM, flat, Quad.ofX, gramM, gram, Finset.sum_range, Matrix.transpose_apply]

theorem gramM_none : (gramM none : Matrix (Ix X C D) (Ix X C D) K) = 0 := by
  ext i j
  rcases i with (i | i) | (i | i) <;> rcases j with (j | j) | (j | j) <;> rfl

theorem gram_proj (P : X → L → K) (V : Option (MV (L → K))) (i j : X) :
    gram (V.map fun V => (⟨V.n, fun k => mulVec P (V.col k)⟩ : MV (X → K))) i j = ∑ a, ∑ b, P i a * gram V a b * P j b := by
  cases V with
  | none => simp [gram]
  | some V =>
    simp only [gram, Option.map_some, mulVec, Finset.sum_mul_sum]
    simp only [Finset.mul_sum, Finset.sum_mul]
    rw [Finset.sum_comm]
    refine Finset.sum_congr rfl fun a _ => ?_
    rw [Finset.sum_comm]
    refine Finset.sum_congr rfl fun b _ => ?_
    refine Finset.sum_congr rfl fun k _ => ?_
    ring

theorem elem_eq (W : LRW K X L) (hS : W.Selects) {w : X → K} (hw : diagOf W 1 = some w) (i j : X) :
    W.elem i j = (if i = j then w i else 0) + gram (vOf W 1) i j - gram (uOf W 1) i j := by
  cases W with
  | plain B0 V U =>
    simp only [diagOf, if_true, Option.some.injEq] at hw
    subst hw
    simp only [LRW.elem, vOf, uOf, if_true, diagElem]
    cases B0 <;> rfl
  | reduced P B0 V U =>
    simp only [diagOf, if_true, Option.some.injEq] at hw
    subst hw
    obtain ⟨e, he, hP⟩ := hS
    simp only [LRW.elem, vOf, uOf, if_true, gram_proj]
    simp only [mul_add, mul_sub, add_mul, sub_mul, Finset.sum_add_distrib, Finset.sum_sub_distrib]
    congr 2
    have : ∀ a b, diagElem B0 a b = if a = b then (B0.getD fun _ => 0) a else 0 := by
      intro a b; cases B0 <;> rfl
    simp only [mulVec, hP, this]
    by_cases hij : i = j
    · subst hij
      rw [if_pos rfl]
      refine Finset.sum_congr rfl fun a _ => ?_
      rw [Finset.sum_eq_single a]
      · by_cases h : i = e a <;> simp [h]
      · intro b _ hb
        rw [if_neg (Ne.symm hb)]; simp
      · simp
    · rw [if_neg hij]
      refine Finset.sum_eq_zero fun a _ => Finset.sum_eq_zero fun b _ => ?_
      by_cases hab : a = b
      · subst hab
        by_cases h : i = e a
        · have h' : j ≠ e a := fun h' => hij (h.trans h'.symm)
          simp [h']
        · simp [h]
      · simp [hab]
  | projected P B0 V U =>
    simp only [diagOf, if_true] at hw
    subst hw
    simp only [LRW.elem, vOf, uOf, if_true, gram_proj]
    simp only [mul_sub, sub_mul, Finset.sum_sub_distrib, diagElem]
    ring

theorem kmat_one (H : Heap K X C D L) (c : Call K) (hS : (H.lrw c.W).Selects) (hf : c.Wfac = 1) {w : X → K}
    (hw : diagOf (H.lrw c.W) c.Wfac = some w) :
    kmat (c.sys H) = kmat (innerSys H c w 1) + gramM (vOf (H.lrw c.W) c.Wfac) - gramM (uOf (H.lrw c.W) c.Wfac) := by
  rw [hf] at hw ⊢
  ext i j
  rcases i with (i | i) | (i | i) <;> rcases j with (j | j) | (j | j) <;>
    simp only [kmat, gramM, Call.sys, innerSys, Matrix.add_apply, Matrix.sub_apply, add_zero, sub_zero]
  rw [hf, one_mul, one_mul, elem_eq _ hS hw]
  ring

theorem kmat_zero (H : Heap K X C D L) (c : Call K) (hf : c.Wfac = 0) (w : X → K) :
    kmat (c.sys H) = kmat (innerSys H c w c.Wfac) := by
  ext i j
  rcases i with (i | i) | (i | i) <;> rcases j with (j | j) | (j | j) <;>
    simp [kmat, Call.sys, innerSys, hf]

theorem inner_symm (H : Heap K X C D L) (c : Call K) (w : X → K) (f : K) : (kmat (innerSys H c w f)).IsSymm := by
  refine kmat_symm _ fun i j => ?_
  simp only [innerSys]
  by_cases h : i = j
  · subst h; rfl
  · rw [if_neg h, if_neg (Ne.symm h)]

/-! ## Stored data -/

/-- the data for V are those of call `c`. -/
def GoodV (E : Env K X C D B) (H : Heap K X C D L) (c : Call K) (w : X → K) (st : St K X C D) : Prop :=
  match vOf (H.lrw c.W) c.Wfac with
  | none => st.v1 = none
  | some V => ∃ V1, st.v1 = some V1 ∧ V1.n = V.n ∧ (∀ k, k < V.n → Solves (innerSys H c w 1) (V1.col k) (Quad.ofX (V.col k))) ∧
      Lower V.n st.j1 ∧
      ∀ i j, i < V.n → j < V.n → ∑ k ∈ range V.n, st.j1 i k * st.j1 j k = highRank 1 (fun i => (V1.col i).x) V.col i j

/-- the data for U are those of call `c`. -/
def GoodU (E : Env K X C D B) (H : Heap K X C D L) (c : Call K) (w : X → K) (st : St K X C D) : Prop :=
  match uOf (H.lrw c.W) c.Wfac with
  | none => st.u2 = none
  | some U => ∃ U1 : MV (Quad K X C D), U1.n = U.n ∧
      (∀ k, k < U.n → Solves (innerSys H c w 1) (U1.col k) (Quad.ofX (U.col k))) ∧ st.u2 = some (utilde2 E st U U1) ∧
      Lower U.n st.j2 ∧
      ∀ i j, i < U.n → j < U.n → ∑ k ∈ range U.n, st.j2 i k * st.j2 j k =
        highRank (-1) (fun i => ((utilde2 E st U U1).col i).x) U.col i j

/-- all data are those of call `c`. -/
def Good (E : Env K X C D B) (H : Heap K X C D L) (c : Call K) (st : St K X C D) : Prop :=
  ∃ w, st.wdiag = some w ∧ diagOf (H.lrw c.W) c.Wfac = some w ∧ GoodV E H c w st ∧ GoodU E H c w st

/-- `M` is the matrix `1 + a Vtᵀ V` if that is symmetric. -/
theorem highRank_eq (a : K) (V1 : MV (Quad K X C D)) (V : MV (X → K)) (n : Nat)
    (hs : ((colsM V1 n)ᵀ * xcolsM V n).IsSymm) (i j : Fin n) :
    highRank a (fun i => (V1.col i).x) V.col i j = (1 + a • ((colsM V1 n)ᵀ * xcolsM V n) : Matrix (Fin n) (Fin n) K) i j := by
  have e : ∀ i j : Fin n, ((colsM V1 n)ᵀ * xcolsM V n : Matrix (Fin n) (Fin n) K) i j = LowRank.dot (V1.col i).x (V.col j) := by
    intro i j
    rw [Matrix.mul_apply, ← dot_ofX (V1.col i) (V.col j)]
    rfl
  rw [Matrix.add_apply, Matrix.smul_apply, e, smul_eq_mul, highRank]
  by_cases h : (j : Nat) ≤ i
  · rw [if_pos h]
    by_cases hij : i = j
    · subst hij; rw [if_pos rfl, Matrix.one_apply_eq]; ring
    · rw [if_neg (fun h => hij (Fin.ext h)), Matrix.one_apply_ne hij]; ring
  · have hij : i ≠ j := fun h' => h (h' ▸ le_rfl)
    rw [if_neg h, Matrix.one_apply_ne hij, ← e j i, ← Matrix.transpose_apply ((colsM V1 n)ᵀ * xcolsM V n), hs.eq, e]
    ring

theorem cols_solve {a : Sys K X C D} {V1 : MV (Quad K X C D)} {V : MV (X → K)} {n : Nat}
    (h : ∀ k, k < n → Solves a (V1.col k) (Quad.ofX (V.col k))) : kmat a * colsM V1 n = xcolsM V n := by
  ext i k
  have := congrFun ((solves_iff _ _ _).1 (h k k.2)) i
  rw [Matrix.mul_apply]
  exact this

theorem gram_isSymm {A : Matrix (Ix X C D) (Ix X C D) K} (hA : A.IsSymm) {n : Nat} {V Vt : Matrix (Ix X C D) (Fin n) K}
    (h : A * Vt = V) : (Vtᵀ * V).IsSymm := by
  rw [Matrix.IsSymm, Matrix.transpose_mul, Matrix.transpose_transpose, ← h, Matrix.transpose_mul, hA.eq, Matrix.mul_assoc]

theorem potrs_solves {E : Env K X C D B} (hE : Contract E) {n : Nat} {J : Nat → Nat → K} (hJ : Lower n J) {M : Matrix (Fin n) (Fin n) K}
    (hM : ∀ i j : Fin n, ∑ k ∈ range n, J i k * J j k = M i j) (v : Nat → K) :
    (M *ᵥ fun k : Fin n => E.potrs n J v k) = fun k : Fin n => v k := by
  funext i
  have := hE.potrs n J v hJ i i.2
  rw [Finset.sum_range] at this
  rw [← this, Matrix.mulVec, dotProduct]
  refine Finset.sum_congr rfl fun j _ => ?_
  rw [hM]

/-- a function that reads a function on `Fin n` at natural numbers. -/
def extend {n : Nat} (f : Fin n → K) (k : Nat) : K := if h : k < n then f ⟨k, h⟩ else 0

/-- what the data for V mean. -/
theorem goodV_pack {E : Env K X C D B} (hE : Contract E) {H : Heap K X C D L} {c : Call K} {w : X → K} {st : St K X C D}
    (h : GoodV E H c w st) :
    ∃ (n : Nat) (V Vt : Matrix (Ix X C D) (Fin n) K), kmat (innerSys H c w 1) * Vt = V ∧ V * Vᵀ = gramM (vOf (H.lrw c.W) c.Wfac) ∧
      (∃ J : Nat → Nat → K, Lower n J ∧ ∀ i j : Fin n, ∑ k ∈ range n, J i k * J j k = (1 + Vtᵀ * V : Matrix (Fin n) (Fin n) K) i j) ∧
      (∀ rhs sol, ∃ b : Fin n → K, (1 + Vtᵀ * V) *ᵥ b = Vtᵀ *ᵥ flat rhs ∧
        flat (match st.v1 with
          | some V1 => addCols (-1) V1 (E.potrs V1.n st.j1 fun i => (V1.col i).dot rhs) sol
          | none => sol) = flat sol - Vt *ᵥ b) ∧
      (∀ (U : MV (X → K)) (U1 : MV (Quad K X C D)), (utilde2 E st U U1).n = U1.n ∧
        ∃ Cm : Matrix (Fin n) (Fin U.n) K, (1 + Vtᵀ * V) * Cm = Vtᵀ * xcolsM U U.n ∧
          colsM (utilde2 E st U U1) U.n = colsM U1 U.n - Vt * Cm) := by
  unfold GoodV at h
  cases hv : vOf (H.lrw c.W) c.Wfac with
  | none =>
    rw [hv] at h
    simp only at h
    refine ⟨0, 0, 0, by simp, by rw [gramM_none]; simp,
      ⟨fun _ _ => 0, ⟨fun i j hi => by omega, fun i hi => by omega⟩, fun i => i.elim0⟩, ?_, ?_⟩
    · intro rhs sol
      exact ⟨0, by simp, by rw [h]; simp⟩
    · intro U U1
      refine ⟨by simp only [utilde2, h], 0, by simp, ?_⟩
      simp only [utilde2, h]
      simp
  | some V =>
    rw [hv] at h
    obtain ⟨V1, e1, en, hs, hJ, hM⟩ := h
    have hA := inner_symm H c w 1
    have hVt := cols_solve hs
    have hsym := gram_isSymm hA hVt
    have hM' : ∀ i j : Fin V.n, ∑ k ∈ range V.n, st.j1 i k * st.j1 j k = (1 + (colsM V1 V.n)ᵀ * xcolsM V V.n : Matrix (Fin V.n) (Fin V.n) K) i j := by
      intro i j
      rw [hM i j i.2 j.2, highRank_eq 1 V1 V V.n hsym, one_smul]
    refine ⟨V.n, xcolsM V V.n, colsM V1 V.n, hVt, xcols_gram V, ⟨st.j1, hJ, hM'⟩, ?_, ?_⟩
    · intro rhs sol
      refine ⟨fun k => E.potrs V.n st.j1 (fun i => (V1.col i).dot rhs) k, ?_, ?_⟩
      · rw [potrs_solves hE hJ hM']
        funext k
        rw [dot_flat]; rfl
      · rw [e1]
        simp only
        rw [flat_addCols, en, neg_one_smul, sub_eq_add_neg]
    · intro U U1
      refine ⟨by simp only [utilde2, e1],
        fun i j => E.potrs V.n st.j1 (fun i => LowRank.dot (V1.col i).x (U.col j)) i, ?_, ?_⟩
      · ext i j
        have := congrFun (potrs_solves hE hJ hM' (fun i => LowRank.dot (V1.col i).x (U.col j))) i
        rw [Matrix.mul_apply]
        refine Eq.trans this ?_
        rw [← dot_ofX]
        rfl
      · ext i j
        simp only [utilde2, e1, Matrix.sub_apply, Matrix.mul_apply]
        have := congrFun (flat_addCols (-1) V1 (E.potrs V1.n st.j1 fun i => LowRank.dot (V1.col i).x (U.col j)) (U1.col j)) i
        refine Eq.trans this ?_
        rw [en, neg_one_smul, Pi.add_apply, Pi.neg_apply, sub_eq_add_neg]
        rfl

theorem lower_pos {K : Type} [Field K] [LinearOrder K] [IsStrictOrderedRing K] {n : Nat} {J : Nat → Nat → K} (hJ : Lower n J)
    {M : Matrix (Fin n) (Fin n) K} (hM : ∀ i j : Fin n, ∑ k ∈ range n, J i k * J j k = M i j) (w : Fin n → K) (hw : w ≠ 0) :
    0 < w ⬝ᵥ (M *ᵥ w) := by
  let Jm : Matrix (Fin n) (Fin n) K := fun i j => J i j
  have e : M = Jm * Jmᵀ := by
    ext i j
    rw [← hM, Finset.sum_range, Matrix.mul_apply]
    rfl
  rw [e, ← mulVec_mulVec, dotProduct_mulVec, ← mulVec_transpose]
  refine dot_self_pos fun h0 => hw ?_
  -- `Jᵀ w = 0` with `J` lower triangular: `w = 0`, from the last component on
  have key : ∀ m, m ≤ n → ∀ i : Fin n, n - m ≤ i → w i = 0 := by
    intro m
    induction m with
    | zero => intro _ i hi; omega
    | succ m ih =>
      intro hm i hi
      by_cases hi' : n - m ≤ (i : Nat)
      · exact ih (by omega) i hi'
      · have hi2 : (i : Nat) = n - (m + 1) := by omega
        have h1 := congrFun h0 i
        rw [Matrix.mulVec, dotProduct, Finset.sum_eq_single i] at h1
        · rcases mul_eq_zero.1 h1 with h | h
          · exact absurd h (hJ.2 i i.2)
          · exact h
        · intro j _ hj
          by_cases hlt : (j : Nat) < i
          · have : Jmᵀ i j = 0 := hJ.1 j i j.2 i.2 hlt
            rw [this, zero_mul]
          · have hne : (j : Nat) ≠ i := fun h => hj (Fin.ext h)
            rw [ih (by omega) j (by omega), mul_zero]
        · intro h; exact absurd (Finset.mem_univ _) h
  funext i
  exact key n le_rfl i (by omega)
end Verif.LowRank
