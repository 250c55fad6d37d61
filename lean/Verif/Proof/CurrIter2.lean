import Verif.Proof.CurrIter

/-! # The vectors `curr_*` of IpTNLP.cpp in the user's units -/

set_option linter.unusedSectionVars false
set_option linter.unusedVariables false
set_option linter.unusedSimpArgs false

namespace Verif.CurrIter
open Verif Verif.Adapter Verif.Matrix Finset
open Verif.Scaling hiding evalC evalD

section sit
variable {K : Type} [Field K] [LinearOrder K] {t : Fixed} {loInf upInf : Num} {xb gb : List (Num × Num)} {deps : List Nat} {s : Spaces}
  {U : User K} {of df : K} {dx dc dd : Option (List K)} {hom : List K → Option K} {q : Curr K}

variable (H : Sit t loInf upInf xb gb deps s U of df dx dc dd hom q)

local notation "SC" => determine of df dx dc dd

theorem unapplyObj_eq : (SC).unapplyObj 1 = (df * of)⁻¹ := by simp [determine, Scal.unapplyObj]

theorem currX_false : currX (SC) q false = (SC).unapplyX q.pt.x := by
  unfold currX
  cases dx with
  | none => simp [determine, Scal.unapplyX, optDiv]
  | some v => simp [determine]

theorem currYc_false (p : Prob K) : currYc (SC) q false = (unscalePoint p (SC) hom q.pt).yc := by
  unfold currYc
  rw [det_rowC]
  show _ = scalIf _ (optMul (rowOf _) _)
  rw [det_rowC]
  cases dc with
  | none => simp [optMul]
  | some v => simp [scalIf_map, Scal.applyC, det_rowC]

theorem currYd_false (p : Prob K) : currYd (SC) q false = (unscalePoint p (SC) hom q.pt).yd := by
  unfold currYd
  rw [det_rowD]
  show _ = scalIf _ (optMul (rowOf _) _)
  rw [det_rowD]
  cases dd with
  | none => simp [optMul]
  | some v => simp [scalIf_map, Scal.applyD, det_rowD]

theorem currZ_false (P : Mat K) (z : List K) :
    currZ (SC) hom P z false = scalIf ((SC).unapplyObj 1) ((SC).applyXLU hom P z) := by
  unfold currZ
  cases dx with
  | none => simp [determine, Scal.applyXLU]
  | some v => simp [scalIf_map, determine]

include H

theorem vec_currX {k : Nat} (hk : k < s.nVar) : vec (currX (SC) q false) k = vec q.pt.x k / optFac dx k := by
  rw [currX_false]
  exact optDiv_get H.facX H.lx hk

theorem len_currX : ((SC).unapplyX q.pt.x).length = s.nVar := optDiv_length H.facX H.lx

theorem len_currYc : (currYc (SC) q false).length = s.pc.length + nFix s := by
  rw [currYc_false (hom := hom) (innerProb U s)]
  show (scalIf _ _).length = _
  rw [scalIf_length]
  exact applyC_length H.facC H.lyc

theorem len_currYd : (currYd (SC) q false).length = s.pd.length := by
  rw [currYd_false (hom := hom) (innerProb U s)]
  show (scalIf _ _).length = _
  rw [scalIf_length]
  exact applyD_length H.facD H.lyd

theorem vec_currYc {k : Nat} (hk : k < s.pc.length + nFix s) :
    vec (currYc (SC) q false) k = (df * of)⁻¹ * (optFac dc k * vec q.pt.yc k) := by
  rw [currYc_false (hom := hom) (innerProb U s)]
  show (scalIf _ _).getD k 0 = _
  rw [scalIf_get, applyC_get H.facC H.lyc k hk, unapplyObj_eq]
  rfl

theorem vec_currYd {k : Nat} (hk : k < s.pd.length) :
    vec (currYd (SC) q false) k = (df * of)⁻¹ * (optFac dd k * vec q.pt.yd k) := by
  rw [currYd_false (hom := hom) (innerProb U s)]
  show (scalIf _ _).getD k 0 = _
  rw [scalIf_get, applyD_get H.facD H.lyd k hk, unapplyObj_eq]
  rfl

theorem vec_currZL {k : Nat} (hk : k < s.pxl.length) :
    vec (currZ (SC) hom (innerProb U s).PxL q.pt.zL false) k = (df * of)⁻¹ * (optFac dx (s.pxl.getD k 0) * vec q.pt.zL k) := by
  rw [currZ_false]
  show (scalIf _ _).getD k 0 = _
  rw [scalIf_get, unapplyObj_eq]
  exact congrArg _ ((applyXLU_ok (of := of) (df := df) (dc := dc) (dd := dd) H.hom H.facX (prob_ok H).xl (prob_ok H).xlN q.pt.zL H.lzL).2.2 k hk)

theorem vec_currZU {k : Nat} (hk : k < s.pxu.length) :
    vec (currZ (SC) hom (innerProb U s).PxU q.pt.zU false) k = (df * of)⁻¹ * (optFac dx (s.pxu.getD k 0) * vec q.pt.zU k) := by
  rw [currZ_false]
  show (scalIf _ _).getD k 0 = _
  rw [scalIf_get, unapplyObj_eq]
  exact congrArg _ ((applyXLU_ok (of := of) (df := df) (dc := dc) (dd := dd) H.hom H.facX (prob_ok H).xu (prob_ok H).xuN q.pt.zU H.lzU).2.2 k hk)

/-- the constraints are those of the original problem in both modes. -/
theorem currC_true : currC (innerProb U s) (SC) q true = (SC).applyC ((innerProb U s).c ((SC).unapplyX q.pt.x)) := by
  unfold currC
  cases hr : q.resto with
  | none => rfl
  | some r =>
    obtain ⟨h1, h2, -, -⟩ := H.lR r hr
    simp only [if_true]
    have hl : (Scaling.evalC (innerProb U s) (SC) q.pt.x).length = s.pc.length + nFix s := applyC_length H.facC ((prob_ok H).c _)
    rw [undo_resto _ _ _ (by rw [hl, h1]) (by rw [hl, h2])]
    rfl

theorem currD_true : currD (innerProb U s) (SC) q true = (SC).applyD ((innerProb U s).d ((SC).unapplyX q.pt.x)) := by
  unfold currD
  cases hr : q.resto with
  | none => rfl
  | some r =>
    obtain ⟨-, -, h1, h2⟩ := H.lR r hr
    simp only [if_true]
    have hl : (Scaling.evalD (innerProb U s) (SC) q.pt.x).length = s.pd.length := applyD_length H.facD ((prob_ok H).d _)
    rw [undo_resto _ _ _ (by rw [hl, h1]) (by rw [hl, h2])]
    rfl

theorem currC_false : currC (innerProb U s) (SC) q false = (innerProb U s).c ((SC).unapplyX q.pt.x) := by
  have h : currC (innerProb U s) (SC) q false = (SC).unapplyC (currC (innerProb U s) (SC) q true) := by
    unfold currC; simp
  rw [h, currC_true H]
  unfold Scal.unapplyC Scal.applyC
  rw [det_rowC]
  exact optDiv_optMul H.facC ((prob_ok H).c _)

theorem currD_false : currD (innerProb U s) (SC) q false = (innerProb U s).d ((SC).unapplyX q.pt.x) := by
  have h : currD (innerProb U s) (SC) q false = (SC).unapplyD (currD (innerProb U s) (SC) q true) := by
    unfold currD; simp
  rw [h, currD_true H]
  unfold Scal.unapplyD Scal.applyD
  rw [det_rowD]
  exact optDiv_optMul H.facD ((prob_ok H).d _)

theorem len_currC (b : Bool) : (currC (innerProb U s) (SC) q b).length = s.pc.length + nFix s := by
  cases b
  · rw [currC_false H]; exact (prob_ok H).c _
  · rw [currC_true H]; exact applyC_length H.facC ((prob_ok H).c _)

theorem len_currD (b : Bool) : (currD (innerProb U s) (SC) q b).length = s.pd.length := by
  cases b
  · rw [currD_false H]; exact (prob_ok H).d _
  · rw [currD_true H]; exact applyD_length H.facD ((prob_ok H).d _)

set_option quotPrecheck false in
local notation "XX" => User.full U s ((SC).unapplyX q.pt.x)

theorem vec_currC {k : Nat} (hk : k < s.pc.length + nFix s) :
    vec (currC (innerProb U s) (SC) q false) k = Adapter.evalC s (U.rhs s) (XX) (U.g (XX)) k := by
  rw [currC_false H]
  exact vec_range _ _ _ hk

theorem vec_currD {k : Nat} (hk : k < s.pd.length) :
    vec (currD (innerProb U s) (SC) q false) k = U.g (XX) (s.pd.getD k 0) := by
  rw [currD_false H]
  exact vec_range _ _ _ hk

theorem vec_currC_true {k : Nat} (hk : k < s.pc.length + nFix s) :
    vec (currC (innerProb U s) (SC) q true) k = optFac dc k * Adapter.evalC s (U.rhs s) (XX) (U.g (XX)) k := by
  rw [currC_true H]
  show List.getD _ k 0 = _
  rw [applyC_get H.facC ((prob_ok H).c _) k hk]
  congr 1
  exact vec_range _ _ _ hk

theorem vec_currD_true {k : Nat} (hk : k < s.pd.length) :
    vec (currD (innerProb U s) (SC) q true) k = optFac dd k * U.g (XX) (s.pd.getD k 0) := by
  rw [currD_true H]
  show List.getD _ k 0 = _
  rw [applyD_get H.facD ((prob_ok H).d _) k hk]
  congr 1
  exact vec_range _ _ _ hk

/-- the gradient of the Lagrangian before scaling is undone. -/
theorem lag_scaled {c : Nat} (hc : c < s.nVar) :
    vec (currGradLag (innerProb U s) (SC) hom q true) c =
      dualRes (evalGradF (innerProb U s) (SC) q.pt.x) (ent (evalJacC (innerProb U s) (SC) q.pt.x))
        (ent (evalJacD (innerProb U s) (SC) q.pt.x)) (s.pc.length + nFix s) s.pd.length s.pxl s.pxu q.pt.yc q.pt.yd q.pt.zL q.pt.zU c ∧
    (currGradLag (innerProb U s) (SC) hom q true).length = s.nVar := by
  have hp := prob_ok H
  unfold currGradLag
  simp only [if_true]
  have scale_wf : ∀ (dr : Option (List K)) (J : Mat K) (m : Nat), WF J → J.dims = (m, s.nVar) → FacOK m dr →
      WF (scaleJac (if dx.isSome || dr.isSome then some (mkSpace dr false dx true) else none) J) ∧
        (scaleJac (if dx.isSome || dr.isSome then some (mkSpace dr false dx true) else none) J).dims = (m, s.nVar) := by
    intro dr J m hw hd hf
    by_cases hb : (dx.isSome || dr.isSome) = true
    · rw [if_pos hb]
      simp only [scaleJac, mkSpace, map_recip_false, WF, Mat.dims]
      refine ⟨⟨hw, ?_, ?_⟩, hd⟩
      · rw [hd]
        cases dr with
        | none => trivial
        | some v => exact (hf v rfl).1
      · rw [hd]
        cases h : dx with
        | none => trivial
        | some v =>
          have := (H.facX v h).1
          simpa [scaleOK, recipIf] using this
    · rw [if_neg hb]
      exact ⟨hw, hd⟩
  obtain ⟨wC, dC⟩ := scale_wf dc _ _ (wf_jacC H ((SC).unapplyX q.pt.x)) (hp.jc _) H.facC
  obtain ⟨wD, dD⟩ := scale_wf dd _ _ (wf_jacD H ((SC).unapplyX q.pt.x)) (hp.jd _) H.facD
  have pC := (products_ok H.hom _ wC).2 1 q.pt.yc 0 (List.replicate s.nVar 0) (by rw [dC]; exact H.lyc) (by rw [dC]; simp)
  have pD := (products_ok H.hom _ wD).2 1 q.pt.yd 0 (List.replicate s.nVar 0) (by rw [dD]; exact H.lyd) (by rw [dD]; simp)
  rw [dC] at pC
  rw [dD] at pD
  change IsProd _ s.nVar (s.pc.length + nFix s) _ _ _ _ _ at pC
  change IsProd _ s.nVar s.pd.length _ _ _ _ _ at pD
  have lg : (evalGradF (innerProb U s) (SC) q.pt.x).length = s.nVar := by
    unfold evalGradF Scal.applyGrad
    rw [scalIf_length]
    exact optDiv_length H.facX (hp.g _)
  have eC : evalJacC (innerProb U s) (SC) q.pt.x = scaleJac (if dx.isSome || dc.isSome then some (mkSpace dc false dx true) else none)
      ((innerProb U s).jacC ((SC).unapplyX q.pt.x)) := rfl
  have eD : evalJacD (innerProb U s) (SC) q.pt.x = scaleJac (if dx.isSome || dd.isSome then some (mkSpace dd false dx true) else none)
      ((innerProb U s).jacD ((SC).unapplyX q.pt.x)) := rfl
  rw [eC, eD]
  have nx : (innerProb U s).nx = s.nVar := rfl
  rw [nx]
  generalize scaleJac (if dx.isSome || dc.isSome then some (mkSpace dc false dx true) else none)
      ((innerProb U s).jacC ((SC).unapplyX q.pt.x)) = JC at *
  generalize scaleJac (if dx.isSome || dd.isSome then some (mkSpace dd false dx true) else none)
      ((innerProb U s).jacD ((SC).unapplyX q.pt.x)) = JD at *
  generalize evalGradF (innerProb U s) (SC) q.pt.x = g at *
  have l1 : (axpy 1 (JC.transMult hom 1 q.pt.yc 0 (List.replicate s.nVar 0)) g).length = s.nVar := by
    rw [axpy_len _ _ _ (by rw [pC.1, lg]), lg]
  have l2 : (axpy 1 (JD.transMult hom 1 q.pt.yd 0 (List.replicate s.nVar 0))
      (axpy 1 (JC.transMult hom 1 q.pt.yc 0 (List.replicate s.nVar 0)) g)).length = s.nVar := by
    rw [axpy_len _ _ _ (by rw [pD.1, l1]), l1]
  have mL := exp_mult_get H.hom hp.xl (-1) q.pt.zL 1 _ H.lzL l2
  have mU := exp_mult_get H.hom hp.xu 1 q.pt.zU 1 _ H.lzU mL.1
  refine ⟨?_, mU.1⟩
  refine (mU.2 c hc).trans ?_
  rw [mL.2 c hc]
  have a2 := vec_axpy 1 (JD.transMult hom 1 q.pt.yd 0 (List.replicate s.nVar 0))
    (axpy 1 (JC.transMult hom 1 q.pt.yc 0 (List.replicate s.nVar 0)) g) (by rw [pD.1, l1]) c (by rw [l1]; exact hc)
  have a1 := vec_axpy 1 (JC.transMult hom 1 q.pt.yc 0 (List.replicate s.nVar 0)) g (by rw [pC.1, lg]) c (by rw [lg]; exact hc)
  have b1 := pC.2 c hc
  have b2 := pD.2 c hc
  unfold vec at a1 a2
  rw [a2, a1, b1, b2]
  unfold dualRes
  have r0 : (List.replicate s.nVar (0 : K)).getD c 0 = 0 := by simp [List.getD_eq_getElem?_getD, hc]
  rw [r0]
  have e1 : (innerProb U s).posXL = s.pxl := rfl
  have e2 : (innerProb U s).posXU = s.pxu := rfl
  rw [e1, e2]
  ring

/-- ... and after. -/
theorem lag_unscaled {c : Nat} (hc : c < s.nVar) :
    let u := unscalePoint (innerProb U s) (SC) hom q.pt
    vec (currGradLag (innerProb U s) (SC) hom q false) c =
      dualRes ((innerProb U s).gradF u.x) (ent ((innerProb U s).jacC u.x)) (ent ((innerProb U s).jacD u.x)) (s.pc.length + nFix s) s.pd.length
        s.pxl s.pxu u.yc u.yd u.zL u.zU c := by
  intro u
  have h1 := lag_scaled H hc
  have h2 := dualRes_core (prob_ok H) H.hom H.fac H.facX H.facC H.facD q.pt H.lyc H.lyd H.lzL H.lzU c hc
  refine Eq.trans ?_ h2.symm
  have h3 : currGradLag (innerProb U s) (SC) hom q false = (SC).unapplyGrad (currGradLag (innerProb U s) (SC) hom q true) := by
    unfold currGradLag; simp
  rw [h3]
  show (scalIf _ _).getD c 0 = _
  rw [scalIf_get, unapplyObj_eq]
  have h4 : ((SC).applyX (currGradLag (innerProb U s) (SC) hom q true)).getD c 0 = optFac dx c * vec (currGradLag (innerProb U s) (SC) hom q true) c :=
    optMul_get H.facX h1.2 hc
  rw [h4, h1.1]
  have e : (innerProb U s).nc = s.pc.length + nFix s := rfl
  have e' : (innerProb U s).nd = s.pd.length := rfl
  rw [e, e']
  have e1 : (innerProb U s).posXL = s.pxl := rfl
  have e2 : (innerProb U s).posXU = s.pxu := rfl
  rw [e1, e2]
  have e3 : ∀ a b c : K, a⁻¹ * (b * c) = b / a * c := by intro a b c; rw [div_eq_mul_inv]; ring
  exact e3 _ _ _

end sit
end Verif.CurrIter
