import Mathlib.LinearAlgebra.QuadraticForm.Basic
import Mathlib.LinearAlgebra.Matrix.SesquilinearForm
import Mathlib.LinearAlgebra.Matrix.BilinearForm
import Mathlib.LinearAlgebra.FiniteDimensional.Lemmas
import Mathlib.LinearAlgebra.Matrix.Symmetric
import Mathlib.LinearAlgebra.Matrix.DotProduct
import Mathlib.LinearAlgebra.Basis.Submodule
import Mathlib.Tactic.Linarith
import Mathlib.Tactic.Ring
import Mathlib.Tactic.LinearCombination

/-! # Counting negative eigenvalues without eigenvalues -/

set_option linter.unusedSectionVars false
namespace Verif.LowRank
open Module

variable {K : Type} [Field K] [LinearOrder K] [IsStrictOrderedRing K]

/-- like `NegCount`, for a function on a vector space. -/
def NegIdx {E : Type} [AddCommGroup E] [Module K E] (q : E → K) (n : Nat) : Prop :=
  ∃ N P : Submodule K E, IsCompl N P ∧ finrank K N = n ∧ (∀ v ∈ N, v ≠ 0 → q v < 0) ∧ ∀ v ∈ P, 0 ≤ q v

variable {E F : Type} [AddCommGroup E] [Module K E] [AddCommGroup F] [Module K F]

theorem NegIdx.le [FiniteDimensional K E] {q : E → K} {n m : Nat} (h : NegIdx q n) (h' : NegIdx q m) : n ≤ m := by
  obtain ⟨N, P, c, rfl, hN, _⟩ := h
  obtain ⟨N', P', c', rfl, _, hP'⟩ := h'
  have hd : Disjoint N P' := by
    rw [Submodule.disjoint_def]
    intro v h1 h2
    by_contra h0
    exact absurd (hP' v h2) (not_le.2 (hN v h1 h0))
  have h1 := Submodule.finrank_add_finrank_le_of_disjoint hd
  have h2 := Submodule.finrank_add_eq_of_isCompl c'
  omega

theorem NegIdx.unique [FiniteDimensional K E] {q : E → K} {n m : Nat} (h : NegIdx q n) (h' : NegIdx q m) : n = m :=
  le_antisymm (h.le h') (h'.le h)

theorem NegIdx.congr {q q' : E → K} {n : Nat} (h : NegIdx q n) (e : ∀ v, q' v = q v) : NegIdx q' n := by
  have : q' = q := funext e
  rw [this]; exact h

theorem NegIdx.equiv (e : E ≃ₗ[K] F) {q : E → K} {q' : F → K} (h : ∀ v, q' (e v) = q v) {n : Nat} (hq : NegIdx q n) : NegIdx q' n := by
  obtain ⟨N, P, c, rfl, hN, hP⟩ := hq
  refine ⟨N.map e.toLinearMap, P.map e.toLinearMap, ?_, LinearEquiv.finrank_map_eq e N, ?_, ?_⟩
  · exact (OrderIso.isCompl_iff (Submodule.orderIsoMapComap e)).1 c
  · rintro _ ⟨v, hv, rfl⟩ h0
    rw [LinearEquiv.coe_coe, h]
    exact hN v hv (fun h1 => h0 (by rw [h1]; simp))
  · rintro _ ⟨v, hv, rfl⟩
    rw [LinearEquiv.coe_coe, h]
    exact hP v hv

/-- a product of subspaces. -/
def subProd (N : Submodule K E) (N' : Submodule K F) : ↥(N.prod N') ≃ₗ[K] N × N' where
  toFun := fun p => (⟨p.1.1, p.2.1⟩, ⟨p.1.2, p.2.2⟩)
  invFun := fun p => ⟨(p.1, p.2), p.1.2, p.2.2⟩
  map_add' := fun _ _ => rfl
  map_smul' := fun _ _ => rfl
  left_inv := fun _ => rfl
  right_inv := fun _ => rfl

theorem NegIdx.prod [FiniteDimensional K E] [FiniteDimensional K F] {q : E → K} {q' : F → K} (h0 : q 0 = 0) (h0' : q' 0 = 0) {n m : Nat}
    (h : NegIdx q n) (h' : NegIdx q' m) : NegIdx (fun p : E × F => q p.1 + q' p.2) (n + m) := by
  obtain ⟨N, P, c, rfl, hN, hP⟩ := h
  obtain ⟨N', P', c', rfl, hN', hP'⟩ := h'
  refine ⟨N.prod N', P.prod P', ?_, ?_, ?_, ?_⟩
  · constructor
    · rw [disjoint_iff, Submodule.prod_inf_prod, c.inf_eq_bot, c'.inf_eq_bot, Submodule.prod_bot]
    · rw [codisjoint_iff, Submodule.prod_sup_prod, c.sup_eq_top, c'.sup_eq_top, Submodule.prod_top]
  · rw [(subProd N N').finrank_eq]
    exact Module.finrank_prod
  · rintro ⟨v, w⟩ ⟨hv, hw⟩ hne
    have hv' : q v ≤ 0 := by
      by_cases e : v = 0
      · rw [e, h0]
      · exact (hN v hv e).le
    have hw' : q' w ≤ 0 := by
      by_cases e : w = 0
      · rw [e, h0']
      · exact (hN' w hw e).le
    by_cases e : v = 0
    · have : w ≠ 0 := fun e' => hne (by rw [e, e']; rfl)
      have := hN' w hw this
      simp only; linarith
    · have := hN v hv e
      simp only; linarith
  · rintro ⟨v, w⟩ ⟨hv, hw⟩
    exact add_nonneg (hP v hv) (hP' w hw)

theorem form_basis {ι : Type} [Fintype ι] (b : Basis ι K E) (B : LinearMap.BilinForm K E) (ho : ∀ i j, i ≠ j → B (b i) (b j) = 0) (v : E) :
    B v v = ∑ i, b.repr v i * b.repr v i * B (b i) (b i) := by
  classical
  conv_lhs => rw [← b.sum_repr v]
  simp only [map_sum, LinearMap.sum_apply, map_smul, LinearMap.smul_apply, smul_eq_mul]
  refine Finset.sum_congr rfl fun i _ => ?_
  rw [Finset.sum_eq_single i]
  · ring
  · intro j _ hj
    rw [ho j i hj]; ring
  · intro h; exact absurd (Finset.mem_univ _) h

theorem negIdx_basis {ι : Type} [Fintype ι] (b : Basis ι K E) (B : LinearMap.BilinForm K E) (ho : ∀ i j, i ≠ j → B (b i) (b j) = 0) :
    NegIdx (fun v => B v v) (Finset.univ.filter fun i => B (b i) (b i) < 0).card := by
  classical
  let s : Set ι := {i | B (b i) (b i) < 0}
  have hc : IsCompl s sᶜ := isCompl_compl
  refine ⟨Submodule.span K (b '' s), Submodule.span K (b '' sᶜ), ?_, ?_, ?_, ?_⟩
  · exact b.linearIndependent.isCompl_span_image b.span_eq hc
  · have hli : LinearIndependent K (fun i : s => b i) := b.linearIndependent.comp _ Subtype.val_injective
    have := finrank_span_eq_card hli
    rw [show Set.range (fun i : s => b i) = b '' s by rw [Set.image_eq_range]] at this
    rw [this, Fintype.card_subtype]
    rfl
  · intro v hv h0
    rw [Basis.mem_span_image] at hv
    show B v v < 0
    rw [form_basis b B ho]
    have hz : ∀ i, i ∉ s → b.repr v i = 0 := by
      intro i hi
      by_contra h
      exact hi (hv (Finsupp.mem_support_iff.2 h))
    obtain ⟨i, hi⟩ : ∃ i, b.repr v i ≠ 0 := by
      by_contra h
      push Not at h
      refine h0 (b.repr.injective ?_)
      ext i; rw [h i]; simp
    have his : i ∈ s := by
      by_contra h; exact hi (hz i h)
    refine Finset.sum_neg' (fun j _ => ?_) ⟨i, Finset.mem_univ _, mul_neg_of_pos_of_neg (mul_self_pos.2 hi) his⟩
    by_cases hj : j ∈ s
    · exact mul_nonpos_of_nonneg_of_nonpos (mul_self_nonneg _) (le_of_lt hj)
    · rw [hz j hj]; simp
  · intro v hv
    rw [Basis.mem_span_image] at hv
    show 0 ≤ B v v
    rw [form_basis b B ho]
    refine Finset.sum_nonneg fun i _ => ?_
    by_cases hi : i ∈ s
    · have : b.repr v i = 0 := by
        by_contra h
        exact hv (Finsupp.mem_support_iff.2 h) hi
      rw [this]; simp
    · exact mul_nonneg (mul_self_nonneg _) (not_lt.1 hi)
end Verif.LowRank
