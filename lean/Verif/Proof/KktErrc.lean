import Verif.Proof.KktErrb

/-! # The error measures in the user's units -/

namespace Verif.KktErr
open Verif.Matrix Verif.Scaling Finset
set_option linter.unusedSectionVars false
set_option linter.unusedSimpArgs false
set_option linter.unusedVariables false

variable {K : Type} [Field K] [LinearOrder K] [IsStrictOrderedRing K] {p : Prob K} {of df : K} {dx dc dd : Option (List K)} {hom : List K → Option K}
  {sqrt : K → K} {i u : It K} {b ub : Bnd K}

local notation "SC" => determine of df dx dc dd

theorem fac_cancel {F d : K} (hF : F ≠ 0) (hd : d ≠ 0) (a : K) : F / d * (d / F * a) = a := by
  rw [← mul_assoc, div_mul_div_cancel₀ hd, div_self hF, one_mul]

theorem dual_norm (hO : Ok p (df * of) dx dc dd hom) (hC : Corr p (df * of) dx dc dd i u) {t : NormType} (hs : SqrtOk t sqrt) :
    NormOf t ((List.range p.nx).map (lagX p u) ++ (List.range p.nd).map (lagS p u)) (unscaledDualInf p (SC) hom sqrt i t) := by
  unfold unscaledDualInf
  dsimp only
  rw [lagS_user hO hC, unapplyGrad_user hO hC]
  exact norm2_ok sqrt hs _ _

theorem dual_norm_scaled (hO : Ok p (df * of) dx dc dd hom) (hC : Corr p (df * of) dx dc dd i u) {t : NormType} (hs : SqrtOk t sqrt) :
    NormOf t ((List.range p.nx).map (fun j => df * of / optFac dx j * lagX p u j) ++ (List.range p.nd).map (fun j => df * of / optFac dd j * lagS p u j))
      (dualInf p (SC) hom sqrt i t) := by
  have h1 : gradLagX p (SC) hom i = (List.range p.nx).map (fun j => df * of / optFac dx j * lagX p u j) := by
    apply eq_range (gradLagX_get hO hC).1
    intro j hj
    rw [gradLagX_user hO hC j hj]
    exact (fac_cancel hO.fac (optFac_ne hO.facX hj) _).symm
  have h2 : gradLagS p hom i = (List.range p.nd).map (fun j => df * of / optFac dd j * lagS p u j) := by
    have h := gradLagS_get hO hC
    apply eq_range h.1
    intro j hj
    rw [h.2 j hj]
    exact (fac_cancel hO.fac (optFac_ne hO.facD hj) _).symm
  unfold dualInf
  rw [h1, h2]
  exact norm2_ok sqrt hs _ _

theorem abs_min_neg (a : K) : |min a 0| = |max (-a) 0| := by
  rcases le_total a 0 with h | h
  · rw [min_eq_left h, max_eq_left (by linarith), abs_neg]
  · rw [min_eq_right h, max_eq_right (by linarith)]

theorem viol_norm (hO : Ok p (df * of) dx dc dd hom) (hC : Corr p (df * of) dx dc dd i u) (hB : BndCorr p dx dd b ub) {t : NormType} (hs : SqrtOk t sqrt) :
    NormOf t (viols p ub u) (unscaledViolation p (SC) hom sqrt b i t) := by
  have hx : u.pt.x = (SC).unapplyX i.pt.x := (isScaled_unapply hO.facX hC.x).symm
  have hc : (SC).unapplyC (evalC p (SC) i.pt.x) = (List.range p.nc).map (fun k => (p.c u.pt.x).getD k 0) := by
    unfold evalC Scal.unapplyC Scal.applyC
    rw [det_rowC, optDiv_optMul hO.facC (hO.prob.c _), ← hx]
    exact eq_range (hO.prob.c _) (fun _ _ => rfl)
  have hL : (if 0 < b.dL.length then (unscaledSide (SC) hom p.PdL (evalD p (SC) i.pt.x) b.dL).map (fun v => max v 0) else []) =
      (List.range p.posDL.length).map (fun k => max (ub.dL.getD k 0 - (p.d u.pt.x).getD (p.posDL.getD k 0) 0) 0) := by
    by_cases h : 0 < b.dL.length
    · rw [if_pos h]
      unfold Prob.PdL
      rw [side_user hO hC p.posDL hO.prob.dl hO.prob.dlN b.dL ub.dL hB.dL, List.map_map]; rfl
    · rw [if_neg h]
      have : p.posDL.length = 0 := by rw [← hB.dL.2.1]; omega
      rw [this]; rfl
  have hU : (if 0 < b.dU.length then (unscaledSide (SC) hom p.PdU (evalD p (SC) i.pt.x) b.dU).map (fun v => min v 0) else []) =
      (List.range p.posDU.length).map (fun k => min (ub.dU.getD k 0 - (p.d u.pt.x).getD (p.posDU.getD k 0) 0) 0) := by
    by_cases h : 0 < b.dU.length
    · rw [if_pos h]
      unfold Prob.PdU
      rw [side_user hO hC p.posDU hO.prob.du hO.prob.duN b.dU ub.dU hB.dU, List.map_map]; rfl
    · rw [if_neg h]
      have : p.posDU.length = 0 := by rw [← hB.dU.2.1]; omega
      rw [this]; rfl
  unfold unscaledViolation
  dsimp only
  rw [hc, hL, hU]
  refine (normL_ok sqrt hs _).congr ?_
  unfold viols
  simp only [List.flatten_cons, List.flatten_nil, List.append_nil, List.map_append, List.append_assoc]
  congr 2
  rw [List.map_map, List.map_map]
  apply List.map_congr_left
  intro k _
  show |min _ 0| = |max _ 0|
  rw [abs_min_neg, neg_sub]

/-- the violations of the scaled problem. -/
theorem viol_norm_scaled (hO : Ok p (df * of) dx dc dd hom) (hC : Corr p (df * of) dx dc dd i u) (hB : BndCorr p dx dd b ub)
    {t : NormType} (hs : SqrtOk t sqrt) :
    NormOf t ((List.range p.nc).map (fun k => optFac dc k * (p.c u.pt.x).getD k 0) ++
      (List.range p.posDL.length).map (fun k => max (optFac dd (p.posDL.getD k 0) * (ub.dL.getD k 0 - (p.d u.pt.x).getD (p.posDL.getD k 0) 0)) 0) ++
      (List.range p.posDU.length).map (fun k => max (optFac dd (p.posDU.getD k 0) * ((p.d u.pt.x).getD (p.posDU.getD k 0) 0 - ub.dU.getD k 0)) 0))
      (violation p (SC) hom sqrt b i t) := by
  have hx : u.pt.x = (SC).unapplyX i.pt.x := (isScaled_unapply hO.facX hC.x).symm
  have hc : evalC p (SC) i.pt.x = (List.range p.nc).map (fun k => optFac dc k * (p.c u.pt.x).getD k 0) := by
    unfold evalC
    rw [← hx]
    exact eq_range (applyC_length hO.facC (hO.prob.c _)) (fun k hk => applyC_get hO.facC (hO.prob.c _) k hk)
  have ld : (evalD p (SC) i.pt.x).length = p.nd := applyD_length hO.facD (hO.prob.d _)
  have side : ∀ (pos : List Nat) (bd ubd : List K), (∀ q ∈ pos, q < p.nd) → IsScaledLU dd pos ubd bd →
      (Mat.expansion p.nd pos).transMult hom (-1) (evalD p (SC) i.pt.x) 1 bd =
      (List.range pos.length).map (fun k => optFac dd (pos.getD k 0) * (ubd.getD k 0 - (p.d u.pt.x).getD (pos.getD k 0) 0)) := by
    intro pos bd ubd hw hb
    have tt := exp_trans_get hO.hom hw (-1) _ 1 bd ld hb.2.1
    apply eq_range tt.1
    intro k hk
    have hlt := hw _ (getD_mem hk)
    have e2 : (evalD p (SC) i.pt.x).getD (pos.getD k 0) 0 = optFac dd (pos.getD k 0) * (p.d u.pt.x).getD (pos.getD k 0) 0 := by
      unfold evalD; rw [hx]; exact applyD_get hO.facD (hO.prob.d _) _ hlt
    rw [tt.2 k hk, e2, hb.2.2 k hk]; ring
  unfold violation Prob.PdL Prob.PdU
  dsimp only
  rw [hc, side p.posDL b.dL ub.dL hO.prob.dl hB.dL, side p.posDU b.dU ub.dU hO.prob.du hB.dU]
  refine (normL_ok sqrt hs _).congr ?_
  simp only [List.flatten_cons, List.flatten_nil, List.append_nil, List.map_append, List.append_assoc, List.map_map]
  congr 2
  apply List.map_congr_left
  intro k _
  show |min _ 0| = |max _ 0|
  rw [abs_min_neg]
  congr 2
  ring

/-- one of the four vectors of products. -/
theorem prod_side (hO : Ok p (df * of) dx dc dd hom) (n : Nat) (d : Option (List K)) (hd : FacOK n d) (pos : List Nat) (hw : ∀ q ∈ pos, q < n)
    (x ux z uz bd ubd : List K) (hX : IsScaled d n ux x) (hb : IsScaledLU d pos ubd bd) (lz : z.length = pos.length)
    (hz : ∀ k, k < pos.length → df * of * uz.getD k 0 = optFac d (pos.getD k 0) * z.getD k 0) :
    emul (CurrIter.slackL hom (.expansion n pos) x bd) z = (List.range pos.length).map (fun k => df * of * (uz.getD k 0 * (ux.getD (pos.getD k 0) 0 - ubd.getD k 0))) ∧
    emul (CurrIter.slackU hom (.expansion n pos) x bd) z = (List.range pos.length).map (fun k => df * of * (uz.getD k 0 * (ubd.getD k 0 - ux.getD (pos.getD k 0) 0))) := by
  constructor
  · unfold CurrIter.slackL
    have tt := exp_trans_get hO.hom hw 1 x (-1) bd hX.2.1 hb.2.1
    apply eq_range
    · rw [emul_length _ _ (by rw [tt.1, lz]), tt.1]
    · intro k hk
      rw [emul_get _ _ _ (by rw [tt.1, lz]) (by rw [tt.1]; exact hk), tt.2 k hk, hX.2.2 _ (hw _ (getD_mem hk)), hb.2.2 k hk]
      linear_combination -(ux.getD (pos.getD k 0) 0 - ubd.getD k 0) * hz k hk
  · unfold CurrIter.slackU
    have tt := exp_trans_get hO.hom hw (-1) x 1 bd hX.2.1 hb.2.1
    apply eq_range
    · rw [emul_length _ _ (by rw [tt.1, lz]), tt.1]
    · intro k hk
      rw [emul_get _ _ _ (by rw [tt.1, lz]) (by rw [tt.1]; exact hk), tt.2 k hk, hX.2.2 _ (hw _ (getD_mem hk)), hb.2.2 k hk]
      linear_combination -(ubd.getD k 0 - ux.getD (pos.getD k 0) 0) * hz k hk

theorem compl_norm_scaled (hO : Ok p (df * of) dx dc dd hom) (hC : Corr p (df * of) dx dc dd i u) (hB : BndCorr p dx dd b ub) (mu : K) {t : NormType} (hs : SqrtOk t sqrt) :
    NormOf t ((products p ub u (mu / (df * of))).map (fun a => df * of * a)) (complementarity p hom sqrt b i mu t) := by
  have hF := hO.fac
  have h1 := (prod_side hO p.nx dx hO.facX p.posXL hO.prob.xl _ _ _ _ _ _ hC.x hB.xL hC.zL.2.1 hC.zL.2.2).1
  have h2 := (prod_side hO p.nx dx hO.facX p.posXU hO.prob.xu _ _ _ _ _ _ hC.x hB.xU hC.zU.2.1 hC.zU.2.2).2
  have h3 := (prod_side hO p.nd dd hO.facD p.posDL hO.prob.dl _ _ _ _ _ _ hC.s hB.dL hC.vL.2.1 hC.vL.2.2).1
  have h4 := (prod_side hO p.nd dd hO.facD p.posDU hO.prob.du _ _ _ _ _ _ hC.s hB.dU hC.vU.2.1 hC.vU.2.2).2
  have key : (if mu = 0 then compls p hom b i else (compls p hom b i).map fun v => v.map fun a => a + -mu) = (compls p hom b i).map fun v => v.map fun a => a + -mu := by
    by_cases h : mu = 0
    · rw [if_pos h, h]; simp
    · rw [if_neg h]
  unfold complementarity
  rw [key]
  have e : ((compls p hom b i).map fun v => v.map fun a => a + -mu).flatten = (products p ub u (mu / (df * of))).map (fun a => df * of * a) := by
    unfold compls Prob.PxL Prob.PxU Prob.PdL Prob.PdU
    rw [h1, h2, h3, h4]
    unfold products
    simp only [List.map_cons, List.map_nil, List.flatten_cons, List.flatten_nil, List.append_nil, List.map_append, List.append_assoc, List.map_map]
    have hh : ∀ a : K, df * of * a + -mu = df * of * (a - mu / (df * of)) := by intro a; rw [mul_sub, mul_div_cancel₀ _ hF]; ring
    congr 1
    · apply List.map_congr_left; intro k _; exact hh _
    congr 1
    · apply List.map_congr_left; intro k _; exact hh _
    congr 1
    · apply List.map_congr_left; intro k _; exact hh _
    · apply List.map_congr_left; intro k _; exact hh _
  have := normL_ok sqrt hs ((compls p hom b i).map fun v => v.map fun a => a + -mu)
  rw [e] at this
  exact this

theorem compl_norm (hO : Ok p (df * of) dx dc dd hom) (hC : Corr p (df * of) dx dc dd i u) (hB : BndCorr p dx dd b ub) (mu : K) {t : NormType} (hs : SqrtOk t sqrt) :
    NormOf t (products p ub u (mu / (df * of))) (unscaledComplementarity p (SC) hom sqrt b i mu t) := by
  have hF := hO.fac
  have h := compl_norm_scaled hO hC hB mu hs
  have h2 := h.scale (df * of)⁻¹
  have e : (((products p ub u (mu / (df * of))).map (fun a => df * of * a)).map fun a => (df * of)⁻¹ * a) = products p ub u (mu / (df * of)) := by
    rw [List.map_map]
    conv_rhs => rw [← List.map_id (products p ub u (mu / (df * of)))]
    apply List.map_congr_left
    intro a _
    show (df * of)⁻¹ * (df * of * a) = a
    rw [← mul_assoc, inv_mul_cancel₀ hF, one_mul]
  rw [e] at h2
  have e2 : unscaledComplementarity p (SC) hom sqrt b i mu t = |(df * of)⁻¹| * complementarity p hom sqrt b i mu t := by
    unfold unscaledComplementarity
    rw [nabs_eq]
    have : (SC).unapplyObj (complementarity p hom sqrt b i mu t) = (df * of)⁻¹ * complementarity p hom sqrt b i mu t := by
      simp only [determine, Scal.unapplyObj]; rw [div_eq_inv_mul]
    rw [this, abs_mul, abs_of_nonneg h.nonneg]
  rw [e2]; exact h2

/-- violation of the original bounds. -/
theorem origSide (hO : Ok p (df * of) dx dc dd hom) (pos : List Nat) (hw : ∀ q ∈ pos, q < p.nx) (sgn : K) (x bd : List K) (hx : x.length = p.nx) (hb : bd.length = pos.length) :
    CurrIter.origViol hom (.expansion p.nx pos) sgn x bd = (List.range pos.length).map (fun k => max (sgn * (x.getD (pos.getD k 0) 0 - bd.getD k 0)) 0) := by
  unfold CurrIter.origViol
  have hd : (Mat.expansion (N := K) p.nx pos).dims.2 = pos.length := rfl
  rw [hd]
  by_cases h0 : pos.length = 0
  · rw [if_pos h0, h0]; rfl
  · rw [if_neg h0]
    have e := exp_trans_get hO.hom hw sgn x 0 bd hx hb
    have l : (axpy (-sgn) bd ((Mat.expansion p.nx pos).transMult hom sgn x 0 bd)).length = pos.length := by
      rw [axpy_length _ _ _ (by rw [e.1, hb]), e.1]
    apply eq_range (by rw [List.length_map]; exact l)
    intro k hk
    rw [getD_map' _ _ _ 0 (by rw [l]; exact hk), axpy_get _ _ _ _ (by rw [e.1, hb]) (by rw [e.1]; exact hk), e.2 k hk]
    congr 1
    ring

theorem bound_norm (hO : Ok p (df * of) dx dc dd hom) (hC : Corr p (df * of) dx dc dd i u) {oL oU : List K} (ho : b.orig = some (oL, oU))
    (hl : oL.length = p.posXL.length) (hu : oU.length = p.posXU.length) {t : NormType} (hs : SqrtOk t sqrt) :
    NormOf t (boundViols p oL oU u) (unscaledBoundViolation p (SC) hom sqrt b i t) := by
  have hx : u.pt.x = (SC).unapplyX i.pt.x := (isScaled_unapply hO.facX hC.x).symm
  unfold unscaledBoundViolation Prob.PxL Prob.PxU
  rw [ho]
  dsimp only
  rw [← hx, origSide hO p.posXL hO.prob.xl (-1) _ oL hC.x.1 hl, origSide hO p.posXU hO.prob.xu 1 _ oU hC.x.1 hu]
  have h := norm2_ok sqrt hs ((List.range p.posXL.length).map (fun k => max ((-1) * (u.pt.x.getD (p.posXL.getD k 0) 0 - oL.getD k 0)) 0))
    ((List.range p.posXU.length).map (fun k => max (1 * (u.pt.x.getD (p.posXU.getD k 0) 0 - oU.getD k 0)) 0))
  unfold boundViols
  simpa only [one_mul, neg_mul, neg_sub] using h

theorem norm_zeros {t : NormType} {L : List K} {r : K} (h : NormOf t L r) (hz : ∀ a ∈ L, a = 0) : r = 0 := by
  cases t with
  | one =>
    have h' : r = (L.map fun a => |a|).sum := h
    rw [h']
    apply List.sum_eq_zero
    intro a ha
    obtain ⟨b, hb, rfl⟩ := List.mem_map.1 ha
    rw [hz b hb, abs_zero]
  | two =>
    have : (L.map fun a => a * a).sum = 0 := by
      apply List.sum_eq_zero
      intro a ha
      obtain ⟨b, hb, rfl⟩ := List.mem_map.1 ha
      rw [hz b hb, mul_zero]
    have h2 := h.2
    rw [this] at h2
    exact mul_self_eq_zero.1 h2
  | max =>
    rcases h.2 with ⟨-, h3⟩ | ⟨a, ha, e⟩
    · exact h3
    · rw [← e, hz a ha, abs_zero]

/-- the factors of the error. -/
theorem errScale_ge {sMax : K} (h : 0 < sMax) (vs : List (List K)) : 1 ≤ errScale sMax vs := by
  unfold errScale
  dsimp only
  split
  · exact le_refl _
  · rw [le_div_iff₀ h, one_mul]; exact le_max_left _ _

end Verif.KktErr
