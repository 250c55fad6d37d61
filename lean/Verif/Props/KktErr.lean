import Verif.Proof.KktErrc
import Verif.Props.Scaling

/-! # C83: the optimality errors that are tested and reported are those of the user's problem -/

namespace Verif.KktErr
open Verif Verif.Matrix Verif.Scaling Finset
set_option linter.unusedSectionVars false
set_option linter.unusedSimpArgs false
set_option linter.unusedVariables false

section
variable {K : Type} [Field K] [LinearOrder K] [IsStrictOrderedRing K] {p : Prob K} {of df : K} {dx dc dd : Option (List K)} {hom : List K → Option K}
  {sqrt : K → K} {i u : It K} {b ub : Bnd K}

/-- Every internal iterate belongs to exactly one point with multipliers in the user's units, and that is what `finalize_solution` delivers
(`x` moved into the original bounds with `honor_original_bounds`). -/
theorem delivered (hO : Ok p (df * of) dx dc dd hom) (lx : i.pt.x.length = p.nx) (ls : i.s.length = p.nd) (lyc : i.pt.yc.length = p.nc) (lyd : i.pt.yd.length = p.nd)
    (lzL : i.pt.zL.length = p.posXL.length) (lzU : i.pt.zU.length = p.posXU.length) (lvL : i.vL.length = p.posDL.length) (lvU : i.vU.length = p.posDU.length) :
    (∃ u, Corr p (df * of) dx dc dd i u) ∧ ∀ u, Corr p (df * of) dx dc dd i u → ∀ honor relaxed oL oU cv dv obj,
      let fin := finalize p (determine of df dx dc dd) hom honor relaxed oL oU i.pt cv dv obj
      (honor = false → fin.pt = u.pt) ∧ fin.pt.yc = u.pt.yc ∧ fin.pt.yd = u.pt.yd ∧ fin.pt.zL = u.pt.zL ∧ fin.pt.zU = u.pt.zU := by
  have hF := hO.fac
  constructor
  · refine ⟨⟨⟨(List.range p.nx).map fun k => i.pt.x.getD k 0 / optFac dx k, (List.range p.nc).map fun k => optFac dc k * i.pt.yc.getD k 0 / (df * of),
      (List.range p.nd).map fun k => optFac dd k * i.pt.yd.getD k 0 / (df * of), (List.range p.posXL.length).map fun k => optFac dx (p.posXL.getD k 0) * i.pt.zL.getD k 0 / (df * of),
      (List.range p.posXU.length).map fun k => optFac dx (p.posXU.getD k 0) * i.pt.zU.getD k 0 / (df * of)⟩, (List.range p.nd).map fun k => i.s.getD k 0 / optFac dd k,
      (List.range p.posDL.length).map fun k => optFac dd (p.posDL.getD k 0) * i.vL.getD k 0 / (df * of), (List.range p.posDU.length).map fun k => optFac dd (p.posDU.getD k 0) * i.vU.getD k 0 / (df * of)⟩,
      ⟨by simp, lx, fun k hk => ?_⟩, ⟨by simp, ls, fun k hk => ?_⟩, ⟨by simp, lyc, fun k hk => ?_⟩, ⟨by simp, lyd, fun k hk => ?_⟩, ⟨by simp, lzL, fun k hk => ?_⟩, ⟨by simp, lzU, fun k hk => ?_⟩,
      ⟨by simp, lvL, fun k hk => ?_⟩, ⟨by simp, lvU, fun k hk => ?_⟩⟩
    · dsimp only; rw [getD_map_range _ _ _ hk, mul_div_cancel₀ _ (optFac_ne hO.facX hk)]
    · dsimp only; rw [getD_map_range _ _ _ hk, mul_div_cancel₀ _ (optFac_ne hO.facD hk)]
    all_goals dsimp only; rw [getD_map_range _ _ _ hk, mul_div_cancel₀ _ hF]
  · intro u hC honor relaxed oL oU cv dv obj fin
    have h := corr_point hO hC
    have e : fin.pt = { unscalePoint p (determine of df dx dc dd) hom i.pt with x := clipX hom honor relaxed p.PxL p.PxU oL oU (unscalePoint p (determine of df dx dc dd) hom i.pt).x } := rfl
    rw [e, ← h]
    refine ⟨fun hh => ?_, rfl, rfl, rfl, rfl⟩
    rw [hh]
    simp [clipX]

/-- The unscaled dual infeasibility is the norm of the gradient of the Lagrangian of the user's problem at the delivered point. -/
theorem dual_infeasibility_user (hO : Ok p (df * of) dx dc dd hom) (hC : Corr p (df * of) dx dc dd i u) {t : NormType} (hs : SqrtOk t sqrt) :
    NormOf t ((List.range p.nx).map (lagX p u) ++ (List.range p.nd).map (lagS p u)) (unscaledDualInf p (determine of df dx dc dd) hom sqrt i t) :=
  dual_norm hO hC hs

/-- The unscaled constraint violation is the norm of the violations of the user's constraints. -/
theorem violation_user (hO : Ok p (df * of) dx dc dd hom) (hC : Corr p (df * of) dx dc dd i u) (hB : BndCorr p dx dd b ub) {t : NormType} (hs : SqrtOk t sqrt) :
    NormOf t (viols p ub u) (unscaledViolation p (determine of df dx dc dd) hom sqrt b i t) :=
  viol_norm hO hC hB hs

/-- The unscaled complementarity is the norm of the products of multipliers and distances to the bounds in the user's units, minus `mu` divided by the
objective factor. -/
theorem complementarity_user (hO : Ok p (df * of) dx dc dd hom) (hC : Corr p (df * of) dx dc dd i u) (hB : BndCorr p dx dd b ub) (mu : K) {t : NormType} (hs : SqrtOk t sqrt) :
    NormOf t (products p ub u (mu / (df * of))) (unscaledComplementarity p (determine of df dx dc dd) hom sqrt b i mu t) :=
  compl_norm hO hC hB mu hs

/-- The violation of the variable bounds is measured against the bounds given by the user; it is zero if they were not relaxed. -/
theorem bound_violation_user (hO : Ok p (df * of) dx dc dd hom) (hC : Corr p (df * of) dx dc dd i u) {t : NormType} (hs : SqrtOk t sqrt) :
    (b.orig = none → unscaledBoundViolation p (determine of df dx dc dd) hom sqrt b i t = 0) ∧
    (∀ oL oU, b.orig = some (oL, oU) → oL.length = p.posXL.length → oU.length = p.posXU.length →
      NormOf t (boundViols p oL oU u) (unscaledBoundViolation p (determine of df dx dc dd) hom sqrt b i t)) := by
  refine ⟨fun h => ?_, fun oL oU ho hl hu => bound_norm hO hC ho hl hu hs⟩
  unfold unscaledBoundViolation
  rw [h]
  exact norm_zeros (norm2_ok sqrt hs _ _) (by intro a ha; simp at ha; exact ha.2)

/-- The scaled measures are norms of the same numbers times the scaling factors. -/
theorem scaled_measures (hO : Ok p (df * of) dx dc dd hom) (hC : Corr p (df * of) dx dc dd i u) (hB : BndCorr p dx dd b ub) (mu : K) {t : NormType} (hs : SqrtOk t sqrt) :
    NormOf t ((List.range p.nx).map (fun j => df * of / optFac dx j * lagX p u j) ++ (List.range p.nd).map (fun j => df * of / optFac dd j * lagS p u j))
      (dualInf p (determine of df dx dc dd) hom sqrt i t) ∧
    NormOf t ((List.range p.nc).map (fun k => optFac dc k * (p.c u.pt.x).getD k 0) ++
      (List.range p.posDL.length).map (fun k => max (optFac dd (p.posDL.getD k 0) * (ub.dL.getD k 0 - (p.d u.pt.x).getD (p.posDL.getD k 0) 0)) 0) ++
      (List.range p.posDU.length).map (fun k => max (optFac dd (p.posDU.getD k 0) * ((p.d u.pt.x).getD (p.posDU.getD k 0) 0 - ub.dU.getD k 0)) 0))
      (violation p (determine of df dx dc dd) hom sqrt b i t) ∧
    NormOf t ((products p ub u (mu / (df * of))).map (fun a => df * of * a)) (complementarity p hom sqrt b i mu t) :=
  ⟨dual_norm_scaled hO hC hs, viol_norm_scaled hO hC hB hs, compl_norm_scaled hO hC hB mu hs⟩

theorem noTwo (sqrt : K → K) : SqrtOk .max sqrt := fun h => by cases h

/-- The reported KKT error is at most `tol` exactly if all residuals of the user's problem are. -/
theorem kkt_error_le (hO : Ok p (df * of) dx dc dd hom) (hC : Corr p (df * of) dx dc dd i u) (hB : BndCorr p dx dd b ub) (muTarget : K) {tol : K} (h0 : 0 ≤ tol) :
    unscaledNlpError p (determine of df dx dc dd) hom sqrt b i muTarget ≤ tol ↔
      (∀ j, j < p.nx → |lagX p u j| ≤ tol) ∧ (∀ j, j < p.nd → |lagS p u j| ≤ tol) ∧ (∀ a ∈ viols p ub u, |a| ≤ tol) ∧
      ∀ a ∈ products p ub u (muTarget / (df * of)), |a| ≤ tol := by
  have h1 := (dual_norm (sqrt := sqrt) hO hC (noTwo sqrt)).max_le h0
  have h2 := (viol_norm (sqrt := sqrt) hO hC hB (noTwo sqrt)).max_le h0
  have h3 := (compl_norm (sqrt := sqrt) hO hC hB muTarget (noTwo sqrt)).max_le h0
  unfold unscaledNlpError
  rw [max_le_iff, max_le_iff, h1, h2, h3]
  constructor
  · rintro ⟨⟨a1, a2⟩, a3⟩
    refine ⟨fun j hj => a1 _ (List.mem_append_left _ (List.mem_map.2 ⟨j, List.mem_range.2 hj, rfl⟩)),
      fun j hj => a1 _ (List.mem_append_right _ (List.mem_map.2 ⟨j, List.mem_range.2 hj, rfl⟩)), a2, a3⟩
  · rintro ⟨a1, a2, a3, a4⟩
    refine ⟨⟨fun a ha => ?_, a3⟩, a4⟩
    rcases List.mem_append.1 ha with h | h
    · obtain ⟨j, hj, rfl⟩ := List.mem_map.1 h; exact a1 j (List.mem_range.1 hj)
    · obtain ⟨j, hj, rfl⟩ := List.mem_map.1 h; exact a2 j (List.mem_range.1 hj)

/-- The factors dividing dual infeasibility and complementarity in the overall error are at least 1, and exactly 1 as long as the average absolute value of
the multipliers is at most `s_max`, otherwise that average over `s_max`. -/
theorem error_factor {sMax : K} (h : 0 < sMax) (vs : List (List K)) :
    let n : K := (((vs.map List.length).sum : Nat) : K)
    let total := (vs.flatten.map fun a => |a|).sum
    1 ≤ errScale sMax vs ∧ (total ≤ sMax * n → errScale sMax vs = 1) ∧ (sMax * n < total → errScale sMax vs * sMax * n = total) := by
  intro n total
  have ht : (vs.map asum).sum = total := by
    show _ = (vs.flatten.map fun a => |a|).sum
    clear n total
    induction vs with
    | nil => simp
    | cons v vs ih => rw [List.map_cons, List.sum_cons, ih, List.flatten_cons, List.map_append, List.sum_append, asum_eq]
  refine ⟨errScale_ge h vs, fun hle => ?_, fun hlt => ?_⟩
  · unfold errScale
    dsimp only
    split
    · rfl
    · rename_i hn
      have hn' : (0 : K) < n := Nat.cast_pos.2 (Nat.pos_of_ne_zero hn)
      rw [ht, max_eq_left (by rw [div_le_iff₀ hn']; exact hle), div_self h.ne']
  · have hn : (vs.map List.length).sum ≠ 0 := by
      intro hn
      have : vs.flatten = [] := by
        rw [← List.length_eq_zero_iff, List.length_flatten]; exact hn
      have ht0 : total = 0 := by show (vs.flatten.map fun a => |a|).sum = 0; rw [this]; rfl
      have hn0 : n = 0 := by show (((vs.map List.length).sum : Nat) : K) = 0; rw [hn]; exact Nat.cast_zero
      rw [ht0, hn0] at hlt
      simp at hlt
    have hn' : (0 : K) < n := Nat.cast_pos.2 (Nat.pos_of_ne_zero hn)
    unfold errScale
    dsimp only
    rw [if_neg hn, ht, max_eq_right (by rw [le_div_iff₀ hn']; exact hlt.le)]
    show total / n / sMax * sMax * n = total
    rw [div_mul_cancel₀ _ h.ne', div_mul_cancel₀ _ hn'.ne']

/-- What a bound on the overall (scaled) error says about the user's problem. -/
theorem scaled_error_le (hO : Ok p (df * of) dx dc dd hom) (hC : Corr p (df * of) dx dc dd i u) (hB : BndCorr p dx dd b ub) {sMax muTarget tol : K} (hm : 0 < sMax)
    (h : nlpError p (determine of df dx dc dd) hom sqrt b i sMax muTarget ≤ tol) :
    (∀ j, j < p.nx → |df * of / optFac dx j * lagX p u j| ≤ tol * sD i sMax) ∧ (∀ j, j < p.nd → |df * of / optFac dd j * lagS p u j| ≤ tol * sD i sMax) ∧
    (∀ k, k < p.nc → |optFac dc k * (p.c u.pt.x).getD k 0| ≤ tol) ∧
    (∀ k, k < p.posDL.length → optFac dd (p.posDL.getD k 0) * (ub.dL.getD k 0 - (p.d u.pt.x).getD (p.posDL.getD k 0) 0) ≤ tol) ∧
    (∀ k, k < p.posDU.length → optFac dd (p.posDU.getD k 0) * ((p.d u.pt.x).getD (p.posDU.getD k 0) 0 - ub.dU.getD k 0) ≤ tol) ∧
    ∀ a ∈ products p ub u (muTarget / (df * of)), |df * of * a| ≤ tol * sC i sMax := by
  have hd : 0 < sD i sMax := lt_of_lt_of_le one_pos (errScale_ge hm _)
  have hc : 0 < sC i sMax := lt_of_lt_of_le one_pos (errScale_ge hm _)
  unfold nlpError at h
  rw [max_le_iff, max_le_iff] at h
  obtain ⟨⟨h1, h2⟩, h3⟩ := h
  rw [div_le_iff₀ hd] at h1
  rw [div_le_iff₀ hc] at h3
  have n1 := (dual_norm_scaled (sqrt := sqrt) hO hC (noTwo sqrt)).1
  have n2 := (viol_norm_scaled (sqrt := sqrt) hO hC hB (noTwo sqrt)).1
  have n3 := (compl_norm_scaled (sqrt := sqrt) hO hC hB muTarget (noTwo sqrt)).1
  refine ⟨fun j hj => le_trans (n1 _ (List.mem_append_left _ (List.mem_map.2 ⟨j, List.mem_range.2 hj, rfl⟩))) h1,
    fun j hj => le_trans (n1 _ (List.mem_append_right _ (List.mem_map.2 ⟨j, List.mem_range.2 hj, rfl⟩))) h1,
    fun k hk => le_trans (n2 _ (List.mem_append_left _ (List.mem_append_left _ (List.mem_map.2 ⟨k, List.mem_range.2 hk, rfl⟩)))) h2,
    fun k hk => ?_, fun k hk => ?_, fun a ha => le_trans (n3 _ (List.mem_map.2 ⟨a, ha, rfl⟩)) h3⟩
  · exact le_trans (le_trans (le_max_left _ _) (le_abs_self _)) (le_trans (n2 _ (List.mem_append_left _ (List.mem_append_right _ (List.mem_map.2 ⟨k, List.mem_range.2 hk, rfl⟩)))) h2)
  · exact le_trans (le_trans (le_max_left _ _) (le_abs_self _)) (le_trans (n2 _ (List.mem_append_right _ (List.mem_map.2 ⟨k, List.mem_range.2 hk, rfl⟩))) h2)

/-- The statistics object: objective of the user at the delivered point and the error measures; the complementarity is measured with `mu = 0` also if a target
value of the barrier parameter was given, the KKT errors with the target. -/
theorem statistics (hO : Ok p (df * of) dx dc dd hom) (hC : Corr p (df * of) dx dc dd i u) (hB : BndCorr p dx dd b ub) (sMax muTarget : K) :
    let st := stats p (determine of df dx dc dd) hom sqrt b i sMax muTarget
    st.obj = p.f u.pt.x ∧ st.scaledObj = df * of * p.f u.pt.x ∧
    NormOf .max ((List.range p.nx).map (lagX p u) ++ (List.range p.nd).map (lagS p u)) st.dual ∧ NormOf .max (viols p ub u) st.viol ∧
    NormOf .max (products p ub u 0) st.compl ∧
    (∀ tol, 0 ≤ tol → (st.kkt ≤ tol ↔ (∀ j, j < p.nx → |lagX p u j| ≤ tol) ∧ (∀ j, j < p.nd → |lagS p u j| ≤ tol) ∧ (∀ a ∈ viols p ub u, |a| ≤ tol) ∧
      ∀ a ∈ products p ub u (muTarget / (df * of)), |a| ≤ tol)) ∧
    st.scaledKkt = max (max (st.scaledDual / sD i sMax) st.scaledViol) (complementarity p hom sqrt b i muTarget .max / sC i sMax) ∧
    st.scaledCompl = complementarity p hom sqrt b i 0 .max ∧ st.scaledDual = dualInf p (determine of df dx dc dd) hom sqrt i .max ∧
    st.scaledViol = violation p (determine of df dx dc dd) hom sqrt b i .max ∧
    st.bound = unscaledBoundViolation p (determine of df dx dc dd) hom sqrt b i .max ∧ st.scaledBound = boundViolation p (determine of df dx dc dd) hom sqrt b i .max := by
  intro st
  have hx : u.pt.x = (determine of df dx dc dd).unapplyX i.pt.x := (isScaled_unapply hO.facX hC.x).symm
  have hz : NormOf .max (products p ub u 0) st.compl := by
    have := compl_norm (sqrt := sqrt) hO hC hB 0 (noTwo sqrt)
    rwa [zero_div] at this
  refine ⟨?_, ?_, dual_norm hO hC (noTwo sqrt), viol_norm hO hC hB (noTwo sqrt), hz, fun tol h0 => kkt_error_le hO hC hB muTarget h0, rfl, rfl, rfl, rfl, rfl, rfl⟩
  · show (determine of df dx dc dd).unapplyObj (evalF p (determine of df dx dc dd) i.pt.x) = _
    unfold evalF
    rw [← hx]
    simp only [determine, Scal.unapplyObj, Scal.applyObj]
    exact mul_div_cancel_left₀ _ hO.fac
  · show evalF p (determine of df dx dc dd) i.pt.x = _
    unfold evalF
    rw [← hx]
    rfl

/-- The scaled violation of the original variable bounds. -/
theorem scaled_bound_violation (hO : Ok p (df * of) dx dc dd hom) (hC : Corr p (df * of) dx dc dd i u) {t : NormType} (hs : SqrtOk t sqrt) {oL oU : List K}
    (ho : b.orig = some (oL, oU)) (hl : oL.length = p.posXL.length) (hu : oU.length = p.posXU.length) :
    NormOf t ((List.range p.posXL.length).map (fun k => max (optFac dx (p.posXL.getD k 0) * (oL.getD k 0 - u.pt.x.getD (p.posXL.getD k 0) 0)) 0) ++
      (List.range p.posXU.length).map (fun k => max (optFac dx (p.posXU.getD k 0) * (u.pt.x.getD (p.posXU.getD k 0) 0 - oU.getD k 0)) 0))
      (boundViolation p (determine of df dx dc dd) hom sqrt b i t) := by
  unfold boundViolation
  by_cases hn : (determine of df dx dc dd).dx.isNone = true
  · rw [if_pos hn]
    have hdx : dx = none := by simpa [determine] using hn
    have := bound_norm (sqrt := sqrt) hO hC ho hl hu hs
    unfold boundViols at this
    subst hdx
    simpa only [optFac, one_mul] using this
  · rw [if_neg hn, ho]
    dsimp only
    have e1 := applyXLU_ok (of := of) (df := df) (dc := dc) (dd := dd) hO.hom hO.facX hO.prob.xl hO.prob.xlN oL hl
    have e2 := applyXLU_ok (of := of) (df := df) (dc := dc) (dd := dd) hO.hom hO.facX hO.prob.xu hO.prob.xuN oU hu
    unfold Prob.PxL Prob.PxU
    rw [origSide hO p.posXL hO.prob.xl (-1) _ _ hC.x.2.1 e1.2.1, origSide hO p.posXU hO.prob.xu 1 _ _ hC.x.2.1 e2.2.1]
    have h := norm2_ok sqrt hs ((List.range p.posXL.length).map (fun k => max (-1 * (i.pt.x.getD (p.posXL.getD k 0) 0 - ((determine of df dx dc dd).applyXLU hom (.expansion p.nx p.posXL) oL).getD k 0)) 0))
      ((List.range p.posXU.length).map (fun k => max (1 * (i.pt.x.getD (p.posXU.getD k 0) 0 - ((determine of df dx dc dd).applyXLU hom (.expansion p.nx p.posXU) oU).getD k 0)) 0))
    refine h.congr ?_
    congr 2
    · apply List.map_congr_left
      intro k hk
      have hk' := List.mem_range.1 hk
      rw [e1.2.2 k hk', hC.x.2.2 _ (hO.prob.xl _ (getD_mem hk'))]
      congr 1; ring
    · apply List.map_congr_left
      intro k hk
      have hk' := List.mem_range.1 hk
      rw [e2.2.2 k hk', hC.x.2.2 _ (hO.prob.xu _ (getD_mem hk'))]
      congr 1; ring
end

end Verif.KktErr
