import Verif.Proof.KktErr

/-! # The residual vectors in the user's units -/

namespace Verif.KktErr
open Verif.Matrix Verif.Scaling Finset
set_option linter.unusedSectionVars false
set_option linter.unusedSimpArgs false
set_option linter.unusedVariables false

variable {K : Type} [Field K] [LinearOrder K] [IsStrictOrderedRing K] {p : Prob K} {of df : K} {dx dc dd : Option (List K)} {hom : List K → Option K}
  {sqrt : K → K} {i u : It K} {b ub : Bnd K}

local notation "SC" => determine of df dx dc dd

theorem eq_range {l : List K} {n : Nat} {f : Nat → K} (hl : l.length = n) (h : ∀ k, k < n → l.getD k 0 = f k) : l = (List.range n).map f := by
  apply list_ext hl (by simp)
  intro k hk
  rw [h k hk, getD_map_range n f k hk]

theorem unObj : (SC).unapplyObj 1 = (df * of)⁻¹ := by simp [determine, Scal.unapplyObj]

/-- the delivered point is the one in the user's units. -/
theorem corr_point (hO : Ok p (df * of) dx dc dd hom) (hC : Corr p (df * of) dx dc dd i u) : u.pt = unscalePoint p (SC) hom i.pt := by
  have hF := hO.fac
  have hx : u.pt.x = (SC).unapplyX i.pt.x := (isScaled_unapply hO.facX hC.x).symm
  have mult : ∀ (n : Nat) (d : Option (List K)) (a w : List K), FacOK n d → a.length = n → w.length = n →
      (∀ k, k < n → df * of * a.getD k 0 = optFac d k * w.getD k 0) → a = scalIf ((SC).unapplyObj 1) (optMul d w) := by
    intro n d a w hd ha hw he
    apply list_ext ha (by rw [scalIf_length]; exact optMul_length hd hw)
    intro k hk
    rw [scalIf_get, unObj, optMul_get hd hw hk, ← he k hk, ← mul_assoc, inv_mul_cancel₀ hF, one_mul]
  have hyc : u.pt.yc = scalIf ((SC).unapplyObj 1) ((SC).applyC i.pt.yc) := by
    unfold Scal.applyC
    rw [det_rowC]
    exact mult p.nc dc _ _ hO.facC hC.yc.1 hC.yc.2.1 hC.yc.2.2
  have hyd : u.pt.yd = scalIf ((SC).unapplyObj 1) ((SC).applyD i.pt.yd) := by
    unfold Scal.applyD
    rw [det_rowD]
    exact mult p.nd dd _ _ hO.facD hC.yd.1 hC.yd.2.1 hC.yd.2.2
  have bm : ∀ (pos : List Nat) (a w : List K), (∀ q ∈ pos, q < p.nx) → pos.Nodup → a.length = pos.length → w.length = pos.length →
      (∀ k, k < pos.length → df * of * a.getD k 0 = optFac dx (pos.getD k 0) * w.getD k 0) →
      a = scalIf ((SC).unapplyObj 1) ((SC).applyXLU hom (.expansion p.nx pos) w) := by
    intro pos a w h1 h2 ha hw he
    have h := applyXLU_ok (of := of) (df := df) (dc := dc) (dd := dd) hO.hom hO.facX h1 h2 w hw
    apply list_ext ha (by rw [scalIf_length]; exact h.2.1)
    intro k hk
    rw [scalIf_get, unObj, h.2.2 k hk, ← he k hk, ← mul_assoc, inv_mul_cancel₀ hF, one_mul]
  have hzL := bm p.posXL _ _ hO.prob.xl hO.prob.xlN hC.zL.1 hC.zL.2.1 hC.zL.2.2
  have hzU := bm p.posXU _ _ hO.prob.xu hO.prob.xuN hC.zU.1 hC.zU.2.1 hC.zU.2.2
  unfold unscalePoint
  obtain ⟨⟨ux, uyc, uyd, uzL, uzU⟩, us, uvL, uvU⟩ := u
  simp only [Point.mk.injEq]
  exact ⟨hx, hyc, hyd, hzL, hzU⟩

/-- the gradient of the Lagrangian of the scaled problem. -/
theorem gradLagX_get (hO : Ok p (df * of) dx dc dd hom) (hC : Corr p (df * of) dx dc dd i u) :
    (gradLagX p (SC) hom i).length = p.nx ∧ ∀ j, j < p.nx → (gradLagX p (SC) hom i).getD j 0 =
      dualRes (evalGradF p (SC) i.pt.x) (ent (evalJacC p (SC) i.pt.x)) (ent (evalJacD p (SC) i.pt.x)) p.nc p.nd p.posXL p.posXU i.pt.yc i.pt.yd i.pt.zL i.pt.zU j := by
  have hp := hO.prob
  unfold gradLagX
  have scale_wf : ∀ (dr : Option (List K)) (J : Mat K) (m : Nat), WF J → J.dims = (m, p.nx) → FacOK m dr →
      WF (scaleJac (if dx.isSome || dr.isSome then some (mkSpace dr false dx true) else none) J) ∧
        (scaleJac (if dx.isSome || dr.isSome then some (mkSpace dr false dx true) else none) J).dims = (m, p.nx) := by
    intro dr J m hw hd hf
    by_cases hb : (dx.isSome || dr.isSome) = true
    · rw [if_pos hb]
      simp only [scaleJac, mkSpace, map_recip_false, WF, Mat.dims]
      refine ⟨⟨hw, ?_, ?_⟩, hd⟩
      · rw [hd]
        cases dr with
        | none => trivial
        | some v => exact (hf v rfl).1
      · rw [hd]
        cases h : dx with
        | none => trivial
        | some v =>
          have := (hO.facX v h).1
          simpa [scaleOK, recipIf] using this
    · rw [if_neg hb]
      exact ⟨hw, hd⟩
  obtain ⟨wC, dC⟩ := scale_wf dc _ _ (hO.jc ((SC).unapplyX i.pt.x)) (hp.jc _) hO.facC
  obtain ⟨wD, dD⟩ := scale_wf dd _ _ (hO.jd ((SC).unapplyX i.pt.x)) (hp.jd _) hO.facD
  have pC := (products_ok hO.hom _ wC).2 1 i.pt.yc 0 (List.replicate p.nx 0) (by rw [dC]; exact hC.yc.2.1) (by rw [dC]; simp)
  have pD := (products_ok hO.hom _ wD).2 1 i.pt.yd 0 (List.replicate p.nx 0) (by rw [dD]; exact hC.yd.2.1) (by rw [dD]; simp)
  rw [dC] at pC
  rw [dD] at pD
  change IsProd _ p.nx p.nc _ _ _ _ _ at pC
  change IsProd _ p.nx p.nd _ _ _ _ _ at pD
  have lg : (evalGradF p (SC) i.pt.x).length = p.nx := by
    unfold evalGradF Scal.applyGrad
    rw [scalIf_length]
    exact optDiv_length hO.facX (hp.g _)
  have eC : evalJacC p (SC) i.pt.x = scaleJac (if dx.isSome || dc.isSome then some (mkSpace dc false dx true) else none) (p.jacC ((SC).unapplyX i.pt.x)) := rfl
  have eD : evalJacD p (SC) i.pt.x = scaleJac (if dx.isSome || dd.isSome then some (mkSpace dd false dx true) else none) (p.jacD ((SC).unapplyX i.pt.x)) := rfl
  rw [eC, eD]
  generalize scaleJac (if dx.isSome || dc.isSome then some (mkSpace dc false dx true) else none) (p.jacC ((SC).unapplyX i.pt.x)) = JC at *
  generalize scaleJac (if dx.isSome || dd.isSome then some (mkSpace dd false dx true) else none) (p.jacD ((SC).unapplyX i.pt.x)) = JD at *
  generalize evalGradF p (SC) i.pt.x = g at *
  have l1 : (axpy 1 (JC.transMult hom 1 i.pt.yc 0 (List.replicate p.nx 0)) g).length = p.nx := by
    rw [axpy_length _ _ _ (by rw [pC.1, lg]), lg]
  have l2 : (axpy 1 (JD.transMult hom 1 i.pt.yd 0 (List.replicate p.nx 0)) (axpy 1 (JC.transMult hom 1 i.pt.yc 0 (List.replicate p.nx 0)) g)).length = p.nx := by
    rw [axpy_length _ _ _ (by rw [pD.1, l1]), l1]
  have mL := exp_mult_get hO.hom hp.xl (-1) i.pt.zL 1 _ hC.zL.2.1 l2
  have mU := exp_mult_get hO.hom hp.xu 1 i.pt.zU 1 _ hC.zU.2.1 mL.1
  refine ⟨mU.1, fun c hc => ?_⟩
  refine (mU.2 c hc).trans ?_
  rw [mL.2 c hc]
  have a2 := axpy_get 1 (JD.transMult hom 1 i.pt.yd 0 (List.replicate p.nx 0))
    (axpy 1 (JC.transMult hom 1 i.pt.yc 0 (List.replicate p.nx 0)) g) c (by rw [pD.1, l1]) (by rw [l1]; exact hc)
  have a1 := axpy_get 1 (JC.transMult hom 1 i.pt.yc 0 (List.replicate p.nx 0)) g c (by rw [pC.1, lg]) (by rw [lg]; exact hc)
  rw [a2, a1, pC.2 c hc, pD.2 c hc, replicate_get]
  unfold dualRes
  ring

theorem gradLagX_user (hO : Ok p (df * of) dx dc dd hom) (hC : Corr p (df * of) dx dc dd i u) (j : Nat) (hj : j < p.nx) :
    lagX p u j = optFac dx j / (df * of) * (gradLagX p (SC) hom i).getD j 0 := by
  rw [(gradLagX_get hO hC).2 j hj]
  unfold lagX
  rw [corr_point hO hC]
  exact dualRes_core hO.prob hO.hom hO.fac hO.facX hO.facC hO.facD i.pt hC.yc.2.1 hC.yd.2.1 hC.zL.2.1 hC.zU.2.1 j hj

theorem unapplyGrad_user (hO : Ok p (df * of) dx dc dd hom) (hC : Corr p (df * of) dx dc dd i u) :
    (SC).unapplyGrad (gradLagX p (SC) hom i) = (List.range p.nx).map (lagX p u) := by
  have h := gradLagX_get hO hC
  unfold Scal.unapplyGrad
  apply eq_range
  · rw [scalIf_length]; exact optMul_length hO.facX h.1
  · intro j hj
    rw [scalIf_get, unObj]
    have : ((SC).applyX (gradLagX p (SC) hom i)).getD j 0 = optFac dx j * (gradLagX p (SC) hom i).getD j 0 := optMul_get hO.facX h.1 hj
    rw [this, gradLagX_user hO hC j hj]
    rw [div_eq_mul_inv]; ring

theorem gradLagS_get (hO : Ok p (df * of) dx dc dd hom) (hC : Corr p (df * of) dx dc dd i u) :
    (gradLagS p hom i).length = p.nd ∧ ∀ j, j < p.nd → lagS p u j = optFac dd j / (df * of) * (gradLagS p hom i).getD j 0 := by
  have hp := hO.prob
  have mU := exp_mult_get hO.hom hp.du 1 i.vU 0 (List.replicate p.nd 0) hC.vU.2.1 (by simp)
  have mL := exp_mult_get hO.hom hp.dl (-1) i.vL 1 _ hC.vL.2.1 mU.1
  have lz : i.pt.yd.length = ((Mat.expansion p.nd p.posDL).mult hom (-1) i.vL 1 ((Mat.expansion p.nd p.posDU).mult hom 1 i.vU 0 (List.replicate p.nd 0))).length := by
    rw [mL.1]; exact hC.yd.2.1
  unfold gradLagS Prob.PdL Prob.PdU
  refine ⟨by rw [axpy_length _ _ _ lz, mL.1], fun j hj => ?_⟩
  rw [axpy_get _ _ _ _ lz (by rw [mL.1]; exact hj), mL.2 j hj, mU.2 j hj, replicate_get]
  have hF := hO.fac
  have ey := hC.yd.2.2 j hj
  have att : ∀ (pos : List Nat) (a w : List K), (∀ k, k < pos.length → df * of * a.getD k 0 = optFac dd (pos.getD k 0) * w.getD k 0) →
      df * of * attached pos a j = optFac dd j * ∑ k ∈ range pos.length, (if pos.getD k 0 = j then w.getD k 0 else 0) := by
    intro pos a w he
    unfold attached
    rw [Finset.mul_sum, Finset.mul_sum]
    apply Finset.sum_congr rfl
    intro k hk
    by_cases h : pos.getD k 0 = j
    · rw [if_pos h, if_pos h, he k (Finset.mem_range.1 hk), h]
    · rw [if_neg h, if_neg h, mul_zero, mul_zero]
  have e1 := att p.posDL u.vL i.vL hC.vL.2.2
  have e2 := att p.posDU u.vU i.vU hC.vU.2.2
  unfold lagS
  rw [div_mul_eq_mul_div, eq_div_iff hF]
  linear_combination -ey - e1 + e2

theorem lagS_user (hO : Ok p (df * of) dx dc dd hom) (hC : Corr p (df * of) dx dc dd i u) :
    (if (SC).unapplyObj 1 ≠ 1 then ((SC).applyD (gradLagS p hom i)).map (fun v => (SC).unapplyObj 1 * v) else (SC).applyD (gradLagS p hom i)) =
      (List.range p.nd).map (lagS p u) := by
  have h := gradLagS_get hO hC
  have e : (if (SC).unapplyObj 1 ≠ 1 then ((SC).applyD (gradLagS p hom i)).map (fun v => (SC).unapplyObj 1 * v) else (SC).applyD (gradLagS p hom i)) =
      scalIf ((SC).unapplyObj 1) ((SC).applyD (gradLagS p hom i)) := by
    unfold scalIf
    by_cases ho : (SC).unapplyObj 1 = 1
    · simp [ho]
    · simp [ho]
  rw [e]
  apply eq_range
  · rw [scalIf_length]; exact applyD_length hO.facD h.1
  · intro j hj
    rw [scalIf_get, unObj, applyD_get hO.facD h.1 j hj, h.2 j hj]
    rw [div_eq_mul_inv]; ring

/-- one side of the violations of the inequality constraints. -/
theorem side_user (hO : Ok p (df * of) dx dc dd hom) (hC : Corr p (df * of) dx dc dd i u) (pos : List Nat) (hw : ∀ q ∈ pos, q < p.nd) (hn : pos.Nodup)
    (bd ubd : List K) (hb : IsScaledLU dd pos ubd bd) :
    unscaledSide (SC) hom (.expansion p.nd pos) (evalD p (SC) i.pt.x) bd =
      (List.range pos.length).map (fun k => ubd.getD k 0 - (p.d u.pt.x).getD (pos.getD k 0) 0) := by
  have hx : u.pt.x = (SC).unapplyX i.pt.x := (isScaled_unapply hO.facX hC.x).symm
  have ld : (evalD p (SC) i.pt.x).length = p.nd := applyD_length hO.facD (hO.prob.d _)
  have m := exp_mult_get hO.hom hw 1 bd (-1) _ hb.2.1 ld
  have lu : ((SC).unapplyD ((Mat.expansion p.nd pos).mult hom 1 bd (-1) (evalD p (SC) i.pt.x))).length = p.nd := by
    unfold Scal.unapplyD; rw [det_rowD]; exact optDiv_length hO.facD m.1
  have tt := exp_trans_get hO.hom hw 1 _ 0 (List.replicate bd.length 0) lu (by simp [hb.2.1])
  unfold unscaledSide
  apply eq_range tt.1
  intro k hk
  have hlt := hw _ (getD_mem hk)
  rw [tt.2 k hk, replicate_get]
  have e1 : ((SC).unapplyD ((Mat.expansion p.nd pos).mult hom 1 bd (-1) (evalD p (SC) i.pt.x))).getD (pos.getD k 0) 0 =
      ((Mat.expansion p.nd pos).mult hom 1 bd (-1) (evalD p (SC) i.pt.x)).getD (pos.getD k 0) 0 / optFac dd (pos.getD k 0) := by
    unfold Scal.unapplyD; rw [det_rowD]; exact optDiv_get hO.facD m.1 hlt
  have e2 : (evalD p (SC) i.pt.x).getD (pos.getD k 0) 0 = optFac dd (pos.getD k 0) * (p.d u.pt.x).getD (pos.getD k 0) 0 := by
    unfold evalD; rw [hx]; exact applyD_get hO.facD (hO.prob.d _) _ hlt
  rw [e1, m.2 _ hlt, sum_pick hn hk, e2, hb.2.2 k hk]
  have hne := optFac_ne hO.facD hlt
  field_simp
  ring

end Verif.KktErr
