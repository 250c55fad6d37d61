import Verif.Proof.FinalTnlpb
import Verif.Props.CurrIter4

/-! # C84: what `finalize_solution` receives -/

set_option linter.unusedSectionVars false
set_option linter.unusedVariables false
set_option linter.unusedSimpArgs false

namespace Verif.FinalTnlp
open Verif Verif.Matrix Verif.Adapter Verif.CurrIter Finset
open Verif.Scaling hiding evalC evalD

section
variable {K : Type} [Field K] [LinearOrder K] [IsStrictOrderedRing K] {t : Fixed} {loInf upInf : Num} {xb gb : List (Num × Num)} {deps : List Nat} {s : Spaces}
  {U : User K} {of df : K} {dx dc dd : Option (List K)} {hom : List K → Option K} {q : Curr K}

/-- **C84** Unless `honor_original_bounds` is set, `finalize_solution` receives exactly what `get_curr_iterate` reports at the last iterate, for all status codes in
`iterateCodes`; the array for g is zeroed before if the internal problem has fewer constraints than the user's. -/
theorem final_is_current (H : Sit t loInf upInf xb gb deps s U of df dx dc dd hom q) {st : Alg.SolverReturn} (hst : st ∈ iterateCodes) (relaxed : Bool) (oL oU : List K)
    (gOk jOk : Bool) (mem : Arr K) (x0 : Nat → K) :
    let D := deliver s U (determine of df dx dc dd) hom st false relaxed oL oU gOk jOk q.pt mem
    getCurrIterate s U (determine of df dx dc dd) hom q .ready gOk jOk false s.nFull s.mFull
      ⟨some x0, some mem.zL, some mem.zU, some (if s.pc.length + nFix s + s.pd.length < s.mFull then fun _ => 0 else mem.g), some mem.lam⟩ =
      .yes ⟨some D.x, some D.zL, some D.zU, some D.g, some D.lam⟩ := deliver_eq H ((resorts_iff _).2 hst) relaxed oL oU gOk jOk mem x0
end

section
variable {t : Fixed} {loInf upInf : Num} {xb gb : List (Num × Num)} {deps : List Nat} {s : Spaces}
  {U : User ℚ} {of df : ℚ} {dx dc dd : Option (List ℚ)} {hom : List ℚ → Option ℚ} {q : Curr ℚ} {sl vL vU : List ℚ}

theorem approx_kkt (H : Sit t loInf upInf xb gb deps s U of df dx dc dd hom q) (hD : Dims s q sl vL vU) {delta : ℚ} (hN : Near s U dx dd q delta)
    {u : KktErr.It ℚ} (hC : KktErr.Corr (innerProb U s) (df * of) dx dc dd ⟨q.pt, sl, vL, vU⟩ u) {target tD tV tC : ℚ} (h0 : 0 ≤ tD)
    (hK : KktErr.Kkt (innerProb U s) (userBnd s dx dd q) u target tD tV tC)
    {st : Alg.SolverReturn} (hst : st ∈ iterateCodes) (relaxed : Bool) (oL oU : List ℚ) (mem : Arr ℚ) :
    ApproxKkt U s.treat loInf upInf xb gb deps (deliver s U (determine of df dx dc dd) hom st false relaxed oL oU true true q.pt mem) target delta tD tV tC := by
  have hI := deliver_eq H ((resorts_iff _).2 hst) relaxed oL oU true true mem (fun _ => 0)
  dsimp only at hI
  generalize deliver s U (determine of df dx dc dd) hom st false relaxed oL oU true true q.pt mem = D at hI ⊢
  have hX := X_eq H hI rfl
  obtain ⟨-, f2, -, f4⟩ := iter_fields H hI
  obtain ⟨l0, -, hlam⟩ := f2 _ rfl
  obtain ⟨zL0, zU0, -, -, hzL, hzU⟩ := f4 _ _ rfl rfl
  obtain ⟨p1, p2⟩ := iterate_point H hI rfl
  obtain ⟨m1, m2, m3, m4, m5⟩ := iterate_bound_multipliers H hI rfl rfl
  obtain ⟨hE, hII, hNn, hF⟩ := spaces_variables H.spaces
  obtain ⟨hbl, hbu⟩ := spaces_bounds H.spaces
  obtain ⟨hc, hd, hdl, hdu⟩ := spaces_constraints H.sorted H.spaces
  obtain ⟨k1, k2, k3, k4, k5, k6⟩ := hK
  have hux : u.pt.x = Scal.unapplyX (determine of df dx dc dd) q.pt.x := (isScaled_unapply H.facX hC.x).symm
  have hcv : ∀ k, ((innerProb U s).c u.pt.x).getD k 0 = vec (currC (innerProb U s) (determine of df dx dc dd) q false) k := by
    intro k; rw [currC_false H, hux]; rfl
  have hdv : ∀ k, k < s.pd.length → ((innerProb U s).d u.pt.x).getD k 0 = U.g D.x (s.pd.getD k 0) := by
    intro k hk; rw [hX, ← vec_currD H hk, currD_false H, hux]; rfl
  have hF0 := H.fac
  refine ⟨fun i hi hfix => ?_, fun i hi hk => (iterate_constraints H hI rfl rfl i hi).1 hk, fun i hi hk hf => ?_, fun i hi hf hl => ?_, fun i hi hf hl => ?_,
    fun i hi hf hr => ⟨fun hm => ?_, fun hm => ?_⟩, fun i hi hl => ?_, fun i hi hl => ?_, m4, m5⟩
  · rw [hX, hlam, hzL, hzU]
    exact stationary H hC h0 k1 l0 zL0 zU0 hi hfix
  · have hm : i ∈ s.pc := (hc.2 i).mpr ⟨hi, hf, hk hf⟩
    obtain ⟨k, hk', rfl⟩ := List.mem_iff_getElem.mp hm
    have := k3 k (by show k < s.pc.length + nFix s; omega)
    rw [hcv, c_row H hk', ← hX] at this
    exact this
  · have hm : i ∈ s.pd := (hd.2 i).mpr ⟨hi, hf⟩
    obtain ⟨j, hj, rfl⟩ := List.mem_iff_getElem.mp hm
    have e : s.pd.getD j 0 = s.pd[j] := List.getD_eq_getElem _ _ hj
    obtain ⟨k, hk, hke⟩ := List.mem_iff_getElem.mp ((hdl.2 j).mpr ⟨hj, by dsimp only; rw [e]; exact hl⟩)
    have ke : s.pdl.getD k 0 = j := by rw [List.getD_eq_getElem _ _ hk, hke]
    have h4 := k4 k hk
    have e1 : (userBnd s dx dd q).dL.getD k 0 = q.dL.getD k 0 / optFac dd j := by
      show (List.map _ _).getD k 0 = _; rw [getD_map_range _ _ _ hk, ke]
    rw [e1, show (innerProb U s).posDL = s.pdl from rfl, ke, hdv j hj, e] at h4
    have h5 := hN.dL k hk
    rw [hke, e] at h5
    linarith [(abs_le.1 h5).1]
  · have hm : i ∈ s.pd := (hd.2 i).mpr ⟨hi, hf⟩
    obtain ⟨j, hj, rfl⟩ := List.mem_iff_getElem.mp hm
    have e : s.pd.getD j 0 = s.pd[j] := List.getD_eq_getElem _ _ hj
    obtain ⟨k, hk, hke⟩ := List.mem_iff_getElem.mp ((hdu.2 j).mpr ⟨hj, by dsimp only; rw [e]; exact hl⟩)
    have ke : s.pdu.getD k 0 = j := by rw [List.getD_eq_getElem _ _ hk, hke]
    have h4 := k5 k hk
    have e1 : (userBnd s dx dd q).dU.getD k 0 = q.dU.getD k 0 / optFac dd j := by
      show (List.map _ _).getD k 0 = _; rw [getD_map_range _ _ _ hk, ke]
    rw [e1, show (innerProb U s).posDU = s.pdu from rfl, ke, hdv j hj, e] at h4
    have h5 := hN.dU k hk
    rw [hke, e] at h5
    linarith [(abs_le.1 h5).2]
  · refine p2 i hi ⟨?_, hf⟩
    cases ht : s.treat <;> rw [ht] at hr hm <;> simp at hr hm ⊢
  · have hm' : i ∈ s.fixed := (hF.2 i).mpr ⟨hi, hf, hr⟩
    obtain ⟨k, hk, rfl⟩ := List.mem_iff_getElem.mp hm'
    have hnf : nFix s = s.fixed.length := by unfold nFix; rw [hm]; rfl
    have := k3 (s.pc.length + k) (by show _ < s.pc.length + nFix s; omega)
    rw [hcv, fixed_c H hk hm, ← hX] at this
    exact this
  · have hr : ¬Removed s.treat (bnd xb i) := by
      rintro ⟨h1, h2⟩
      rcases hl with h | h
      · exact h.1 h2
      · rw [h.2] at h1; simp at h1
    obtain ⟨c, hcn, rfl⟩ := hE.2.2 i hi hr
    obtain ⟨k, hk, hke⟩ := List.mem_iff_getElem.mp ((hbl.2 c).mpr ⟨hcn, hl⟩)
    have ke : s.pxl.getD k 0 = c := by rw [List.getD_eq_getElem _ _ hk, hke]
    refine ⟨q.xL.getD k 0 / optFac dx c, by have := hN.xL k hk; rwa [hke] at this, ?_⟩
    have h6 := k6 (u.pt.zL.getD k 0 * (u.pt.x.getD (s.pxl.getD k 0) 0 - (userBnd s dx dd q).xL.getD k 0) - target) (by
      unfold KktErr.products
      exact List.mem_append_left _ (List.mem_append_left _ (List.mem_append_left _ (List.mem_map.2 ⟨k, List.mem_range.2 hk, rfl⟩))))
    have e1 : (userBnd s dx dd q).xL.getD k 0 = q.xL.getD k 0 / optFac dx c := by
      show (List.map _ _).getD k 0 = _; rw [getD_map_range _ _ _ hk, ke]
    have e2 : u.pt.x.getD c 0 = D.x (s.user c) := by
      rw [p1 c hcn, eq_div_iff (optFac_ne H.facX hcn), mul_comm]; exact (hC.x.2.2 c hcn).symm
    have e3 : u.pt.zL.getD k 0 = D.zL (s.user c) := by
      have a := m1 k hk
      rw [hke] at a
      have b := hC.zL.2.2 k hk
      rw [show (innerProb U s).posXL = s.pxl from rfl, ke] at b
      rw [a, eq_div_iff hF0, mul_comm]
      exact b
    rw [e1, ke, e2, e3] at h6
    exact h6
  · have hr : ¬Removed s.treat (bnd xb i) := by
      rintro ⟨h1, h2⟩
      rcases hl with h | h
      · exact h.1 h2
      · rw [h.2] at h1; simp at h1
    obtain ⟨c, hcn, rfl⟩ := hE.2.2 i hi hr
    obtain ⟨k, hk, hke⟩ := List.mem_iff_getElem.mp ((hbu.2 c).mpr ⟨hcn, hl⟩)
    have ke : s.pxu.getD k 0 = c := by rw [List.getD_eq_getElem _ _ hk, hke]
    refine ⟨q.xU.getD k 0 / optFac dx c, by have := hN.xU k hk; rwa [hke] at this, ?_⟩
    have h6 := k6 (u.pt.zU.getD k 0 * ((userBnd s dx dd q).xU.getD k 0 - u.pt.x.getD (s.pxu.getD k 0) 0) - target) (by
      unfold KktErr.products
      exact List.mem_append_left _ (List.mem_append_left _ (List.mem_append_right _ (List.mem_map.2 ⟨k, List.mem_range.2 hk, rfl⟩))))
    have e1 : (userBnd s dx dd q).xU.getD k 0 = q.xU.getD k 0 / optFac dx c := by
      show (List.map _ _).getD k 0 = _; rw [getD_map_range _ _ _ hk, ke]
    have e2 : u.pt.x.getD c 0 = D.x (s.user c) := by
      rw [p1 c hcn, eq_div_iff (optFac_ne H.facX hcn), mul_comm]; exact (hC.x.2.2 c hcn).symm
    have e3 : u.pt.zU.getD k 0 = D.zU (s.user c) := by
      have a := m2 k hk
      rw [hke] at a
      have b := hC.zU.2.2 k hk
      rw [show (innerProb U s).posXU = s.pxu from rfl, ke] at b
      rw [a, eq_div_iff hF0, mul_comm]
      exact b
    rw [e1, ke, e2, e3] at h6
    exact h6

/-- **C84** If the algorithm stops because the convergence check says "converged" (status `SUCCESS`), the arrays given to `finalize_solution` are a KKT point of the user's
problem up to `dual_inf_tol`, `constr_viol_tol`, `compl_inf_tol` and the relaxation of the bounds. -/
theorem success_is_kkt (H : Sit t loInf upInf xb gb deps s U of df dx dc dd hom q) (hD : Dims s q sl vL vU) {delta : ℚ} (hN : Near s U dx dd q delta)
    {sqrt : ℚ → ℚ} {orig : Option (List ℚ × List ℚ)} {sMax muTarget tol dualTol violTol complTol : ℚ} (h0 : 0 ≤ dualTol)
    {cfg : Alg.CCfg} (c1 : cfg.tol = .fin tol) (c2 : cfg.dualTol = .fin dualTol) (c3 : cfg.violTol = .fin violTol) (c4 : cfg.complTol = .fin complTol)
    (hx : 0 < s.nVar) {cb : Bool} {st st' : Alg.CSt} {o : Alg.Obs}
    (h : Alg.check cfg cb st (KktErr.observe (innerProb U s) (determine of df dx dc dd) hom sqrt ⟨q.xL, q.xU, q.dL, q.dU, orig⟩ ⟨q.pt, sl, vL, vU⟩ sMax muTarget o) =
      (some .converged, st')) (relaxed : Bool) (oL oU : List ℚ) (mem : Arr ℚ) :
    ApproxKkt U s.treat loInf upInf xb gb deps (deliver s U (determine of df dx dc dd) hom .SUCCESS false relaxed oL oU true true q.pt mem) (muTarget / (df * of)) delta
      dualTol violTol complTol := by
  obtain ⟨u, hC⟩ := corr H hD
  have hK := (KktErr.converged_kkt (ok H) hC (bcorr H hD orig) c1 c2 c3 c4 hx h).1
  exact approx_kkt H hD hN hC h0 hK (by decide) relaxed oL oU mem

/-- **C84** Likewise with the acceptable tolerances for "acceptable". -/
theorem acceptable_is_kkt (H : Sit t loInf upInf xb gb deps s U of df dx dc dd hom q) (hD : Dims s q sl vL vU) {delta : ℚ} (hN : Near s U dx dd q delta)
    {sqrt : ℚ → ℚ} {orig : Option (List ℚ × List ℚ)} {sMax muTarget tol dualTol violTol complTol : ℚ} (h0 : 0 ≤ dualTol)
    {cfg : Alg.CCfg} (c1 : cfg.accTol = .fin tol) (c2 : cfg.accDualTol = .fin dualTol) (c3 : cfg.accViolTol = .fin violTol) (c4 : cfg.accComplTol = .fin complTol)
    {cb : Bool} {st st' : Alg.CSt} {o : Alg.Obs}
    (h : Alg.check cfg cb st (KktErr.observe (innerProb U s) (determine of df dx dc dd) hom sqrt ⟨q.xL, q.xU, q.dL, q.dU, orig⟩ ⟨q.pt, sl, vL, vU⟩ sMax muTarget o) =
      (some .acceptable, st')) (relaxed : Bool) (oL oU : List ℚ) (mem : Arr ℚ) :
    ApproxKkt U s.treat loInf upInf xb gb deps (deliver s U (determine of df dx dc dd) hom .STOP_AT_ACCEPTABLE_POINT false relaxed oL oU true true q.pt mem)
      (muTarget / (df * of)) delta dualTol violTol complTol := by
  obtain ⟨u, hC⟩ := corr H hD
  have hK := (KktErr.acceptable_kkt (ok H) hC (bcorr H hD orig) c1 c2 c3 c4 h).1
  exact approx_kkt H hD hN hC h0 hK (by decide) relaxed oL oU mem
end

end Verif.FinalTnlp
