import Verif.Proof.FinalTnlp
import Verif.Spec.FinalTnlp
import Verif.Props.CurrIter2
import Verif.Props.CurrIter3

/-! # From the residuals of the internal problem to those of the user's -/

set_option linter.unusedSectionVars false
set_option linter.unusedVariables false
set_option linter.unusedSimpArgs false

namespace Verif.FinalTnlp
open Verif Verif.Matrix Verif.Adapter Verif.CurrIter Finset
open Verif.Scaling hiding evalC evalD

section
variable {t : Fixed} {loInf upInf : Num} {xb gb : List (Num × Num)} {deps : List Nat} {s : Spaces}
  {U : User ℚ} {of df : ℚ} {dx dc dd : Option (List ℚ)} {hom : List ℚ → Option ℚ} {q : Curr ℚ} {sl vL vU : List ℚ}
variable (H : Sit t loInf upInf xb gb deps s U of df dx dc dd hom q)
include H

theorem ok : KktErr.Ok (innerProb U s) (df * of) dx dc dd hom :=
  ⟨prob_ok H, wf_jacC H, wf_jacD H, H.hom, H.fac, H.facX, H.facC, H.facD⟩

/-- the bounds of the algorithm in the user's units. -/
def userBnd (s : Spaces) (dx dd : Option (List ℚ)) (q : Curr ℚ) : KktErr.Bnd ℚ where
  xL := (List.range s.pxl.length).map fun k => q.xL.getD k 0 / optFac dx (s.pxl.getD k 0)
  xU := (List.range s.pxu.length).map fun k => q.xU.getD k 0 / optFac dx (s.pxu.getD k 0)
  dL := (List.range s.pdl.length).map fun k => q.dL.getD k 0 / optFac dd (s.pdl.getD k 0)
  dU := (List.range s.pdu.length).map fun k => q.dU.getD k 0 / optFac dd (s.pdu.getD k 0)
  orig := none

theorem bcorr (hD : Dims s q sl vL vU) (orig : Option (List ℚ × List ℚ)) :
    KktErr.BndCorr (innerProb U s) dx dd ⟨q.xL, q.xU, q.dL, q.dU, orig⟩ (userBnd s dx dd q) := by
  have hp := prob_ok H
  have key : ∀ (d : Option (List ℚ)) (n : Nat) (pos : List Nat) (v : List ℚ), FacOK n d → (∀ i ∈ pos, i < n) → v.length = pos.length →
      IsScaledLU d pos ((List.range pos.length).map fun k => v.getD k 0 / optFac d (pos.getD k 0)) v := by
    intro d n pos v hf hpos hl
    refine ⟨by simp, hl, fun k hk => ?_⟩
    rw [getD_map_range _ _ _ hk, mul_div_cancel₀ _ (optFac_ne hf (hpos _ (getD_mem hk)))]
  exact ⟨key dx s.nVar s.pxl _ H.facX hp.xl H.lxL, key dx s.nVar s.pxu _ H.facX hp.xu H.lxU, key dd s.pd.length s.pdl _ H.facD hp.dl hD.dL,
    key dd s.pd.length s.pdu _ H.facD hp.du hD.dU⟩

theorem corr (hD : Dims s q sl vL vU) : ∃ u, KktErr.Corr (innerProb U s) (df * of) dx dc dd ⟨q.pt, sl, vL, vU⟩ u :=
  (KktErr.delivered (i := ⟨q.pt, sl, vL, vU⟩) (ok H) H.lx hD.lS H.lyc H.lyd H.lzL H.lzU hD.lL hD.lU).1

/-- stationarity with respect to all variables. -/
theorem stationary {u : KktErr.It ℚ} (hC : KktErr.Corr (innerProb U s) (df * of) dx dc dd ⟨q.pt, sl, vL, vU⟩ u) {tD : ℚ} (h0 : 0 ≤ tD)
    (h : ∀ j, j < s.nVar → |KktErr.lagX (innerProb U s) u j| ≤ tD) (lam0 zL0 zU0 : Nat → ℚ) {i : Nat} (hi : i < xb.length)
    (hfix : IsFixed (bnd xb i) → s.treat ≠ .makeParameterNodual) :
    |gradLag U gb deps (User.full U s (Scal.unapplyX (determine of df dx dc dd) q.pt.x))
      (resortG s (U.rhs s) false (vec (currYc (determine of df dx dc dd) q false)) (vec (currYd (determine of df dx dc dd) q false)) lam0)
      (iterZ s U (determine of df dx dc dd) hom q true true false zL0 zU0).1 (iterZ s U (determine of df dx dc dd) hom q true true false zL0 zU0).2 i| ≤ tD := by
  obtain ⟨hE, hII, hN, hF⟩ := spaces_variables H.spaces
  by_cases hr : Removed s.treat (bnd xb i)
  · have ht : s.treat = .makeParameter := by
      obtain ⟨h1 | h1, h2⟩ := hr
      · exact h1
      · exact absurd h1 (hfix h2)
    rw [iterZ_eq H]
    have hd := (fixed_multipliers_dual_feasible H.sorted H.spaces ht U.jacPos (fun e he => (H.jac e he).2)
      (U.gradF (User.full U s (Scal.unapplyX (determine of df dx dc dd) q.pt.x))) (U.jac (User.full U s (Scal.unapplyX (determine of df dx dc dd) q.pt.x)))
      (vec (currYc (determine of df dx dc dd) q false)) (vec (currYd (determine of df dx dc dd) q false))
      (vec (currZ (determine of df dx dc dd) hom (innerProb U s).PxL q.pt.zL false))
      (vec (currZ (determine of df dx dc dd) hom (innerProb U s).PxU q.pt.zU false)) zL0 zU0 (U.rhs s) i hi hr.2).1
    unfold gradLag
    rw [← jac_sum H]
    have e : ∀ a b : ℚ, a = 0 → a = b → |b| ≤ tD := by intro a b h1 h2; rw [← h2, h1, abs_zero]; exact h0
    refine e _ _ hd ?_
    congr 3
    refine congrArg List.sum (List.map_congr_left fun e _ => ?_)
    by_cases he : e.1.2 = i
    · simp only [if_pos he]; rw [rowMult_eq H.sorted H.spaces _ _ (U.rhs s)]
    · simp only [if_neg he]
  · obtain ⟨c, hc, rfl⟩ := hE.2.2 i hi hr
    rw [← grad_user H lam0 zL0 zU0 hc, lag_unscaled H hc]
    have hpt := KktErr.corr_point (ok H) hC
    have := h c hc
    unfold KktErr.lagX at this
    rw [hpt] at this
    exact this
end

end Verif.FinalTnlp
