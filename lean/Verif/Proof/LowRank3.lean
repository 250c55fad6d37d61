import Verif.Proof.LowRank2

/-! # `LowRankAugSystemSolver`: positive curvature -/

set_option linter.unusedSectionVars false
set_option linter.unusedSimpArgs false
set_option linter.unusedVariables false

namespace Verif.LowRank
open _root_.Matrix Finset
open Verif.AugSolve (Status)

variable {K X C D L B : Type} [Field K] [LinearOrder K] [IsStrictOrderedRing K] [Fintype X] [Fintype C] [Fintype D] [Fintype L]
variable [DecidableEq X] [DecidableEq C] [DecidableEq D] [DecidableEq L]

/-- the quadratic form of `Curv`. -/
def form (a : Sys K X C D) (v : Quad K X C D) : K :=
  a.Wfac * ∑ i, ∑ j, v.x i * a.W i j * v.x j + ∑ i, (val a.Dx i + a.δx) * (v.x i * v.x i)
      + ∑ i, (val a.Ds i + a.δs) * (v.s i * v.s i) - ∑ k, (val a.Dc k - a.δc) * (v.c k * v.c k)
      - ∑ k, (val a.Dd k - a.δd) * (v.d k * v.d k)

/-- the constraint rows vanish. -/
def Tan (a : Sys K X C D) (v : Quad K X C D) : Prop :=
  (∀ k, ∑ j, a.Jc k j * v.x j + (val a.Dc k - a.δc) * v.c k = 0) ∧
    ∀ k, ∑ j, a.Jd k j * v.x j - v.s k + (val a.Dd k - a.δd) * v.d k = 0

theorem form_eq {a : Sys K X C D} {v : Quad K X C D} (h : Tan a v) : flat v ⬝ᵥ (kmat a *ᵥ flat v) = form a v := by
  let r : Quad K X C D := ⟨fun i => a.Wfac * ∑ j, a.W i j * v.x j + (val a.Dx i + a.δx) * v.x i + ∑ k, a.Jc k i * v.c k + ∑ k, a.Jd k i * v.d k,
    fun i => (val a.Ds i + a.δs) * v.s i - v.d i, fun _ => 0, fun _ => 0⟩
  have hr : Solves a v r := ⟨fun _ => rfl, fun _ => rfl, h.1, h.2⟩
  rw [(solves_iff _ _ _).1 hr, ← dot_flat]
  have hc : ∑ k, v.c k * (∑ j, a.Jc k j * v.x j + (val a.Dc k - a.δc) * v.c k) = 0 :=
    Finset.sum_eq_zero fun k _ => by rw [h.1 k, mul_zero]
  have hd : ∑ k, v.d k * (∑ j, a.Jd k j * v.x j - v.s k + (val a.Dd k - a.δd) * v.d k) = 0 :=
    Finset.sum_eq_zero fun k _ => by rw [h.2 k, mul_zero]
  have sc : ∑ i, v.x i * ∑ k, a.Jc k i * v.c k = ∑ k, v.c k * ∑ j, a.Jc k j * v.x j := by
    simp only [Finset.mul_sum]
    rw [Finset.sum_comm]
    refine Finset.sum_congr rfl fun k _ => Finset.sum_congr rfl fun j _ => by ring
  have sd : ∑ i, v.x i * ∑ k, a.Jd k i * v.d k = ∑ k, v.d k * ∑ j, a.Jd k j * v.x j := by
    simp only [Finset.mul_sum]
    rw [Finset.sum_comm]
    refine Finset.sum_congr rfl fun k _ => Finset.sum_congr rfl fun j _ => by ring
  have sw : ∑ i, v.x i * (a.Wfac * ∑ j, a.W i j * v.x j) = a.Wfac * ∑ i, ∑ j, v.x i * a.W i j * v.x j := by
    simp only [Finset.mul_sum]
    refine Finset.sum_congr rfl fun k _ => Finset.sum_congr rfl fun j _ => by ring
  simp only [Quad.dot, LowRank.dot, r, form]
  simp only [mul_add, mul_sub, Finset.sum_add_distrib, Finset.sum_sub_distrib] at hc hd ⊢
  rw [sc, sd, sw]
  simp only [mul_zero, Finset.sum_const_zero, add_zero, add_mul, sub_mul, Finset.sum_add_distrib, Finset.sum_sub_distrib]
  have ex : ∀ (I : Type) [Fintype I] (f g : I → K), ∑ i, f i * (g i * f i) = ∑ i, g i * (f i * f i) := by
    intro I _ f g; exact Finset.sum_congr rfl fun i _ => by ring
  have ex2 : ∀ (I : Type) [Fintype I] (f : I → K) (g : K), ∑ i, f i * (g * f i) = ∑ i, g * (f i * f i) := by
    intro I _ f g; exact Finset.sum_congr rfl fun i _ => by ring
  have es : ∑ i, v.d i * v.s i = ∑ i, v.s i * v.d i := Finset.sum_congr rfl fun i _ => by ring
  simp only [sub_mul, mul_sub, mul_add, Finset.sum_add_distrib, Finset.sum_sub_distrib, ex, ex2, es] at hc hd ⊢
  linear_combination hc + hd

theorem form_zero {a : Sys K X C D} {v : Quad K X C D} (h : Tan a v) (hx : v.x = 0) (hs : v.s = 0) : form a v = 0 := by
  have hc : ∀ k, (val a.Dc k - a.δc) * (v.c k * v.c k) = 0 := by
    intro k
    have := h.1 k
    simp only [hx, Pi.zero_apply, mul_zero, Finset.sum_const_zero, zero_add] at this
    rw [← mul_assoc, this, zero_mul]
  have hd : ∀ k, (val a.Dd k - a.δd) * (v.d k * v.d k) = 0 := by
    intro k
    have := h.2 k
    simp only [hx, hs, Pi.zero_apply, mul_zero, Finset.sum_const_zero, zero_add, sub_zero] at this
    rw [← mul_assoc, this, zero_mul]
  simp [form, hx, hs, hc, hd]

theorem curv_nonneg {a : Sys K X C D} (hc : Curv a) {v : Quad K X C D} (h : Tan a v) : 0 ≤ form a v := by
  by_cases hx : v.x = 0
  · by_cases hs : v.s = 0
    · exact (form_zero h hx hs).ge
    · exact (hc v h.1 h.2 (Or.inr hs)).le
  · exact (hc v h.1 h.2 (Or.inl hx)).le

theorem tan_iff {a : Sys K X C D} {v : Quad K X C D} : Tan a v ↔ ∀ k, (kmat a *ᵥ flat v) (.inr k) = 0 := by
  let r : Quad K X C D := ⟨fun i => a.Wfac * ∑ j, a.W i j * v.x j + (val a.Dx i + a.δx) * v.x i + ∑ k, a.Jc k i * v.c k + ∑ k, a.Jd k i * v.d k,
    fun i => (val a.Ds i + a.δs) * v.s i - v.d i, fun k => ∑ j, a.Jc k j * v.x j + (val a.Dc k - a.δc) * v.c k,
    fun k => ∑ j, a.Jd k j * v.x j - v.s k + (val a.Dd k - a.δd) * v.d k⟩
  have hr : Solves a v r := ⟨fun _ => rfl, fun _ => rfl, fun _ => rfl, fun _ => rfl⟩
  rw [(solves_iff _ _ _).1 hr]
  constructor
  · rintro h (k | k)
    · exact h.1 k
    · exact h.2 k
  · intro h
    exact ⟨fun k => h (.inl k), fun k => h (.inr k)⟩

def unflat (v : Ix X C D → K) : Quad K X C D :=
  ⟨fun i => v (.inl (.inl i)), fun i => v (.inl (.inr i)), fun i => v (.inr (.inl i)), fun i => v (.inr (.inr i))⟩

theorem flat_unflat (v : Ix X C D → K) : flat (unflat v) = v := by
  funext i
  rcases i with (i | i) | (i | i) <;> rfl

theorem good_curv {E : Env K X C D B} (hE : Contract E) {H : Heap K X C D L} {c : Call K} {st : St K X C D}
    (hS : (H.lrw c.W).Selects) (hf : c.Wfac = 0 ∨ c.Wfac = 1) (hg : Good E H c st) {w : X → K} (hw : st.wdiag = some w)
    (hc : Curv (innerSys H c w c.Wfac)) : Curv (c.sys H) := by
  obtain ⟨w', e1, e2, hV, hU⟩ := hg
  rw [e1] at hw
  cases hw
  intro v h1 h2 h3
  have hT : Tan (c.sys H) v := ⟨h1, h2⟩
  have hT' : ∀ f, Tan (innerSys H c w f) v := fun f => ⟨h1, h2⟩
  change 0 < form (c.sys H) v
  rcases hf with hf | hf
  · rw [← form_eq hT, kmat_zero H c hf w, form_eq (hT' _)]
    exact hc v h1 h2 h3
  · obtain ⟨n, m, V, Vt, U, Ut, Cm, k1, k2, _, k3, k4, hC, k5, ⟨J, hJ, hM⟩, _⟩ := good_pack hE hV hU
    rw [hf] at hc
    have hA := inner_symm H c w 1
    rw [← form_eq hT, kmat_one H c hS hf e2, ← k2, ← k4]
    have hB := smw_cols hA k1 k3 hC
    have hv : 0 < flat v ⬝ᵥ (kmat (innerSys H c w 1) *ᵥ flat v) := by
      rw [form_eq (hT' 1)]; exact hc v h1 h2 h3
    refine curv_neg (symm_add hA V) hB (lower_pos hJ hM) (lt_of_lt_of_le hv (curv_pos V _)) fun z => ?_
    refine le_trans ?_ (curv_pos V _)
    rw [← flat_unflat ((Ut - Vt * Cm) *ᵥ z - flat v)]
    have hTu : Tan (innerSys H c w 1) (unflat ((Ut - Vt * Cm) *ᵥ z - flat v)) := by
      rw [tan_iff, flat_unflat]
      intro k
      have q1 : (kmat (innerSys H c w 1) *ᵥ flat v) (.inr k) = 0 := tan_iff.1 (hT' 1) k
      have q2 : ((kmat (innerSys H c w 1) + V * Vᵀ) *ᵥ ((Ut - Vt * Cm) *ᵥ z)) (.inr k) = 0 := by
        rw [mulVec_mulVec, hB, Matrix.mulVec, dotProduct]
        refine Finset.sum_eq_zero fun l _ => ?_
        obtain ⟨q, hq⟩ := k5 l
        have := congrFun hq (.inr k)
        rw [this]
        rcases k with k | k <;> simp [flat, Quad.ofX]
      have q3 : ((V * Vᵀ) *ᵥ ((Ut - Vt * Cm) *ᵥ z)) (.inr k) = 0 := by
        rw [k2, Matrix.mulVec, dotProduct]
        refine Finset.sum_eq_zero fun l _ => ?_
        simp [gramM]
      rw [mulVec_sub, Pi.sub_apply, q1, sub_zero]
      rw [add_mulVec, Pi.add_apply, q3, add_zero] at q2
      exact q2
    rw [form_eq hTu]
    exact curv_nonneg hc hTu
end Verif.LowRank
