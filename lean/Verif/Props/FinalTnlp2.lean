import Verif.Props.FinalTnlp

/-! # C84, continued: signs, other status codes, deviations, examples -/

set_option linter.unusedSectionVars false
set_option linter.unusedVariables false
set_option linter.unusedSimpArgs false

namespace Verif.FinalTnlp
open Verif Verif.Matrix Verif.Adapter Verif.CurrIter Finset
open Verif.Scaling hiding evalC evalD

section
variable {t : Fixed} {loInf upInf : Num} {xb gb : List (Num × Num)} {deps : List Nat} {s : Spaces}
  {U : User ℚ} {of df : ℚ} {dx dc dd : Option (List ℚ)} {hom : List ℚ → Option ℚ} {q : Curr ℚ} {sl vL vU : List ℚ}

theorem getD_nonneg {l : List ℚ} (h : ∀ z ∈ l, 0 ≤ z) (k : Nat) : 0 ≤ l.getD k 0 := by
  by_cases hk : k < l.length
  · rw [List.getD_eq_getElem _ _ hk]; exact h _ (List.getElem_mem hk)
  · rw [List.getD_eq_getElem?_getD, List.getElem?_eq_none (by omega)]; exact le_refl _

theorem all_nonneg {l : List ℚ} (h : ∀ k, k < l.length → 0 ≤ l.getD k 0) : ∀ z ∈ l, 0 ≤ z := by
  intro z hz
  obtain ⟨k, hk, rfl⟩ := List.mem_iff_getElem.mp hz
  have := h k hk
  rwa [List.getD_eq_getElem _ _ hk] at this

/-- the delivered bound multipliers are nonnegative. -/
theorem mult_nonneg (H : Sit t loInf upInf xb gb deps s U of df dx dc dd hom q) (hI : Interior s (df * of) dx dd q vL vU) (zL0 zU0 : Nat → ℚ) {i : Nat} (hi : i < xb.length) :
    0 ≤ (iterZ s U (determine of df dx dc dd) hom q true true false zL0 zU0).1 i ∧ 0 ≤ (iterZ s U (determine of df dx dc dd) hom q true true false zL0 zU0).2 i := by
  obtain ⟨hE, hII, hN, hF⟩ := spaces_variables H.spaces
  have hFi : 0 ≤ (df * of)⁻¹ := le_of_lt (inv_pos.2 hI.fac)
  have bL : 0 ≤ resortBound s s.pxl (vec (currZ (determine of df dx dc dd) hom (innerProb U s).PxL q.pt.zL false)) zL0 i := by
    by_cases h : ¬Removed s.treat (bnd xb i) ∧ HasLower s.treat loInf (bnd xb i)
    · obtain ⟨k, hk, -, h2⟩ := (bound_at_user H hi h.1 (vec (currZ (determine of df dx dc dd) hom (innerProb U s).PxL q.pt.zL false)) zL0).1 h.2
      rw [h2, vec_currZL H hk]
      exact mul_nonneg hFi (mul_nonneg (le_of_lt (hI.facX _ ((prob_ok H).xl _ (getD_mem hk)))) (getD_nonneg hI.zL k))
    · rw [(bound_multipliers_delivered H.spaces _ zL0).1.2 i hi h]
  have bU : 0 ≤ resortBound s s.pxu (vec (currZ (determine of df dx dc dd) hom (innerProb U s).PxU q.pt.zU false)) zU0 i := by
    by_cases h : ¬Removed s.treat (bnd xb i) ∧ HasUpper s.treat upInf (bnd xb i)
    · obtain ⟨k, hk, -, h2⟩ := (bound_at_user H hi h.1 (vec (currZ (determine of df dx dc dd) hom (innerProb U s).PxU q.pt.zU false)) zU0).2 h.2
      rw [h2, vec_currZU H hk]
      exact mul_nonneg hFi (mul_nonneg (le_of_lt (hI.facX _ ((prob_ok H).xu _ (getD_mem hk)))) (getD_nonneg hI.zU k))
    · rw [(bound_multipliers_delivered H.spaces _ zU0).2.2 i hi h]
  rw [iterZ_eq H]
  by_cases hf : IsFixed (bnd xb i)
  · cases ht : s.treat with
    | makeParameter =>
      have := (fixed_multipliers_dual_feasible H.sorted H.spaces ht U.jacPos (fun e he => (H.jac e he).2)
        (U.gradF (User.full U s (Scal.unapplyX (determine of df dx dc dd) q.pt.x))) (U.jac (User.full U s (Scal.unapplyX (determine of df dx dc dd) q.pt.x)))
        (vec (currYc (determine of df dx dc dd) q false)) (vec (currYd (determine of df dx dc dd) q false))
        (vec (currZ (determine of df dx dc dd) hom (innerProb U s).PxL q.pt.zL false))
        (vec (currZ (determine of df dx dc dd) hom (innerProb U s).PxU q.pt.zU false)) zL0 zU0 (U.rhs s) i hi hf).2
      exact ⟨this.1, this.2.1⟩
    | makeConstraint =>
      have hm : i ∈ s.fixed := (hF.2 i).mpr ⟨hi, hf, by rw [ht]; decide⟩
      obtain ⟨k, hk, rfl⟩ := List.mem_iff_getElem.mp hm
      exact (fixed_multipliers_constraint H.spaces ht U.jacPos _ _ _ _ _ _ zL0 zU0 k hk).2
    | makeParameterNodual =>
      unfold resortBoundMult
      rw [ht]
      split <;> exact ⟨bL, bU⟩
    | relaxBounds =>
      unfold resortBoundMult
      rw [ht]
      split <;> exact ⟨bL, bU⟩
  · obtain ⟨a, b⟩ := free_multipliers_unchanged H.spaces U.jacPos (U.gradF (User.full U s (Scal.unapplyX (determine of df dx dc dd) q.pt.x)))
      (U.jac (User.full U s (Scal.unapplyX (determine of df dx dc dd) q.pt.x))) (vec (currYc (determine of df dx dc dd) q false)) (vec (currYd (determine of df dx dc dd) q false))
      (vec (currZ (determine of df dx dc dd) hom (innerProb U s).PxL q.pt.zL false)) (vec (currZ (determine of df dx dc dd) hom (innerProb U s).PxU q.pt.zU false)) zL0 zU0 i hf
    rw [a, b]
    exact ⟨bL, bU⟩

theorem approx_signs (H : Sit t loInf upInf xb gb deps s U of df dx dc dd hom q) (hD : Dims s q sl vL vU) {delta : ℚ} (hN : Near s U dx dd q delta)
    (hI : Interior s (df * of) dx dd q vL vU)
    {u : KktErr.It ℚ} (hC : KktErr.Corr (innerProb U s) (df * of) dx dc dd ⟨q.pt, sl, vL, vU⟩ u) {target tD tV tC : ℚ}
    (hK : KktErr.Kkt (innerProb U s) (userBnd s dx dd q) u target tD tV tC)
    {st : Alg.SolverReturn} (hst : st ∈ iterateCodes) (relaxed : Bool) (oL oU : List ℚ) (mem : Arr ℚ) :
    Signs U s.treat loInf upInf xb gb (deliver s U (determine of df dx dc dd) hom st false relaxed oL oU true true q.pt mem) delta tD := by
  have hG := deliver_eq H ((resorts_iff _).2 hst) relaxed oL oU true true mem (fun _ => 0)
  dsimp only at hG
  generalize deliver s U (determine of df dx dc dd) hom st false relaxed oL oU true true q.pt mem = D at hG ⊢
  obtain ⟨-, -, -, f4⟩ := iter_fields H hG
  obtain ⟨zL0, zU0, -, -, hzL, hzU⟩ := f4 _ _ rfl rfl
  obtain ⟨p1, p2⟩ := iterate_point H hG rfl
  obtain ⟨l1, l2, l3⟩ := iterate_lambda H hG rfl
  obtain ⟨hE, hII, hNn, hF⟩ := spaces_variables H.spaces
  obtain ⟨hbl, hbu⟩ := spaces_bounds H.spaces
  obtain ⟨hc, hd, hdl, hdu⟩ := spaces_constraints H.sorted H.spaces
  have uvL : ∀ v ∈ u.vL, 0 ≤ v := by
    refine all_nonneg fun k hk => ?_
    rw [hC.vL.1] at hk
    have e := hC.vL.2.2 k hk
    have : 0 ≤ df * of * u.vL.getD k 0 := by rw [e]; exact mul_nonneg (le_of_lt (hI.facD _ ((prob_ok H).dl _ (getD_mem hk)))) (getD_nonneg hI.sL k)
    exact nonneg_of_mul_nonneg_right this hI.fac
  have uvU : ∀ v ∈ u.vU, 0 ≤ v := by
    refine all_nonneg fun k hk => ?_
    rw [hC.vU.1] at hk
    have e := hC.vU.2.2 k hk
    have : 0 ≤ df * of * u.vU.getD k 0 := by rw [e]; exact mul_nonneg (le_of_lt (hI.facD _ ((prob_ok H).du _ (getD_mem hk)))) (getD_nonneg hI.sU k)
    exact nonneg_of_mul_nonneg_right this hI.fac
  have hlam : ∀ j, (hj : j < s.pd.length) → D.lam s.pd[j] = u.pt.yd.getD j 0 := by
    intro j hj
    rw [l2 j hj, div_eq_iff H.fac, mul_comm]
    have := (hC.yd.2.2 j hj).symm
    rw [mul_comm (u.pt.yd.getD j 0)]
    rw [mul_comm] at this
    rw [← this, mul_comm]
  refine ⟨fun i hi hl => ?_, fun i hi hl => ?_, fun i hi => ?_, fun i hi => ?_, fun i hi hf hl => ?_, fun i hi hf hl => ?_⟩
  · have hr : ¬Removed s.treat (bnd xb i) := by
      rintro ⟨h1, h2⟩
      rcases hl with h | h
      · exact h.1 h2
      · rw [h.2] at h1; simp at h1
    obtain ⟨c, hcn, rfl⟩ := hE.2.2 i hi hr
    obtain ⟨k, hk, hke⟩ := List.mem_iff_getElem.mp ((hbl.2 c).mpr ⟨hcn, hl⟩)
    have h1 := hN.xL k hk
    have h2 := hI.xL k hk
    rw [hke] at h1 h2
    have h3 := div_le_div_of_nonneg_right h2 (le_of_lt (hI.facX c hcn))
    rw [p1 c hcn]
    linarith [(abs_le.1 h1).1]
  · have hr : ¬Removed s.treat (bnd xb i) := by
      rintro ⟨h1, h2⟩
      rcases hl with h | h
      · exact h.1 h2
      · rw [h.2] at h1; simp at h1
    obtain ⟨c, hcn, rfl⟩ := hE.2.2 i hi hr
    obtain ⟨k, hk, hke⟩ := List.mem_iff_getElem.mp ((hbu.2 c).mpr ⟨hcn, hl⟩)
    have h1 := hN.xU k hk
    have h2 := hI.xU k hk
    rw [hke] at h1 h2
    have h3 := div_le_div_of_nonneg_right h2 (le_of_lt (hI.facX c hcn))
    rw [p1 c hcn]
    linarith [(abs_le.1 h1).2]
  · rw [hzL]; exact (mult_nonneg H hI zL0 zU0 hi).1
  · rw [hzU]; exact (mult_nonneg H hI zL0 zU0 hi).2
  · have hm : i ∈ s.pd := (hd.2 i).mpr ⟨hi, hf⟩
    obtain ⟨j, hj, rfl⟩ := List.mem_iff_getElem.mp hm
    have e : s.pd.getD j 0 = s.pd[j] := List.getD_eq_getElem _ _ hj
    rw [hlam j hj]
    refine (KktErr.multiplier_signs hK uvL uvU hj).1 fun hm' => hl ?_
    have := ((hdu.2 j).mp hm').2
    dsimp only at this
    rwa [e] at this
  · have hm : i ∈ s.pd := (hd.2 i).mpr ⟨hi, hf⟩
    obtain ⟨j, hj, rfl⟩ := List.mem_iff_getElem.mp hm
    have e : s.pd.getD j 0 = s.pd[j] := List.getD_eq_getElem _ _ hj
    rw [hlam j hj]
    refine (KktErr.multiplier_signs hK uvL uvU hj).2 fun hm' => hl ?_
    have := ((hdl.2 j).mp hm').2
    dsimp only at this
    rwa [e] at this

/-- **C84** For positive scaling factors the point delivered with `SUCCESS` is inside the (relaxed) bounds and the multipliers have the right signs. -/
theorem success_signs (H : Sit t loInf upInf xb gb deps s U of df dx dc dd hom q) (hD : Dims s q sl vL vU) {delta : ℚ} (hN : Near s U dx dd q delta)
    (hI : Interior s (df * of) dx dd q vL vU)
    {sqrt : ℚ → ℚ} {orig : Option (List ℚ × List ℚ)} {sMax muTarget tol dualTol violTol complTol : ℚ}
    {cfg : Alg.CCfg} (c1 : cfg.tol = .fin tol) (c2 : cfg.dualTol = .fin dualTol) (c3 : cfg.violTol = .fin violTol) (c4 : cfg.complTol = .fin complTol)
    (hx : 0 < s.nVar) {cb : Bool} {st st' : Alg.CSt} {o : Alg.Obs}
    (h : Alg.check cfg cb st (KktErr.observe (innerProb U s) (determine of df dx dc dd) hom sqrt ⟨q.xL, q.xU, q.dL, q.dU, orig⟩ ⟨q.pt, sl, vL, vU⟩ sMax muTarget o) =
      (some .converged, st')) (relaxed : Bool) (oL oU : List ℚ) (mem : Arr ℚ) :
    Signs U s.treat loInf upInf xb gb (deliver s U (determine of df dx dc dd) hom .SUCCESS false relaxed oL oU true true q.pt mem) delta dualTol := by
  obtain ⟨u, hC⟩ := corr H hD
  exact approx_signs H hD hN hI hC (KktErr.converged_kkt (ok H) hC (bcorr H hD orig) c1 c2 c3 c4 hx h).1 (by decide) relaxed oL oU mem
end

section
variable {K : Type} [Field K] [LinearOrder K] [IsStrictOrderedRing K] {t : Fixed} {loInf upInf : Num} {xb gb : List (Num × Num)} {deps : List Nat} {s : Spaces}
  {U : User K} {of df : K} {dx dc dd : Option (List K)} {hom : List K → Option K} {q : Curr K}

/-- **C84** (deviation) Constraints taken out as dependent: g is reported as 0, or not written at all if at least as many variables were made constraints as
constraints were taken out; lambda is what was in the adapter's array (zero after the dependency detection). -/
theorem dropped_constraints (H : Sit t loInf upInf xb gb deps s U of df dx dc dd hom q) {st : Alg.SolverReturn} (hst : st ∈ iterateCodes) (relaxed : Bool) (oL oU : List K)
    (gOk jOk : Bool) (mem : Arr K) {i : Nat} (hi : i < gb.length) (hk : ¬Kept gb deps i) :
    let D := deliver s U (determine of df dx dc dd) hom st false relaxed oL oU gOk jOk q.pt mem
    D.g i = (if s.pc.length + nFix s + s.pd.length < gb.length then 0 else mem.g i) ∧ D.lam i = mem.lam i := by
  intro D
  have hI := deliver_eq H ((resorts_iff _).2 hst) relaxed oL oU gOk jOk mem (fun _ => 0)
  obtain ⟨g0, e1, e2⟩ := (iterate_constraints H hI rfl rfl i hi).2 hk
  obtain ⟨l0, e3, e4⟩ := (iterate_lambda H hI rfl).2.2 i hi hk
  simp only [Option.some.injEq] at e1 e3
  subst e1 e3
  refine ⟨e2.trans ?_, e4⟩
  rw [(dims_ok H).2]
  split <;> rfl

/-- **C84** (deviation) If the time limit is hit, the iterate is delivered, but the multipliers of fixed variables are zero (unless fixed variables are treated by
relaxed bounds). -/
theorem time_limit_fixed (H : Sit t loInf upInf xb gb deps s U of df dx dc dd hom q) {st : Alg.SolverReturn} (hst : st ∈ timeCodes)
    (honor relaxed : Bool) (oL oU : List K) (gOk jOk : Bool) (mem : Arr K) {i : Nat} (hi : i < xb.length) (hf : IsFixed (bnd xb i)) (ht : s.treat ≠ .relaxBounds) :
    Alg.passesValues st = true ∧
    (deliver s U (determine of df dx dc dd) hom st honor relaxed oL oU gOk jOk q.pt mem).zL i = 0 ∧
    (deliver s U (determine of df dx dc dd) hom st honor relaxed oL oU gOk jOk q.pt mem).zU i = 0 := by
  have hr : resorts st = false := by cases st <;> first | rfl | (exfalso; revert hst; decide)
  refine ⟨(passes_iff _).2 (.inr hst), ?_, ?_⟩
  · unfold deliver adapterFinal
    simp only [hr, Bool.false_eq_true, if_false]
    refine (bound_multipliers_delivered H.spaces _ mem.zL).1.2 i hi ?_
    rintro ⟨-, h | h⟩
    · exact h.1 hf
    · exact ht h.2
  · unfold deliver adapterFinal
    simp only [hr, Bool.false_eq_true, if_false]
    refine (bound_multipliers_delivered H.spaces _ mem.zU).2.2 i hi ?_
    rintro ⟨-, h | h⟩
    · exact h.1 hf
    · exact ht h.2

/-- **C84** Everything else is delivered as for the other status codes with an iterate. -/
theorem time_limit_rest (H : Sit t loInf upInf xb gb deps s U of df dx dc dd hom q) {st st' : Alg.SolverReturn} (hst : st ∈ timeCodes) (hst' : st' ∈ iterateCodes)
    (honor relaxed : Bool) (oL oU : List K) (gOk jOk : Bool) (mem : Arr K) :
    let D := deliver s U (determine of df dx dc dd) hom st honor relaxed oL oU gOk jOk q.pt mem
    let E := deliver s U (determine of df dx dc dd) hom st' honor relaxed oL oU gOk jOk q.pt mem
    D.x = E.x ∧ D.g = E.g ∧ D.lam = E.lam ∧ ∀ i < xb.length, ¬IsFixed (bnd xb i) → D.zL i = E.zL i ∧ D.zU i = E.zU i := by
  have hr : resorts st = false := by cases st <;> first | rfl | (exfalso; revert hst; decide)
  have hr' : resorts st' = true := (resorts_iff _).2 hst'
  have hp : Alg.passesValues st = true := (passes_iff _).2 (.inr hst)
  have hp' : Alg.passesValues st' = true := (passes_iff _).2 (.inl hst')
  unfold deliver selectedCon selected adapterFinal
  simp only [hr, hr', hp, hp', if_true, Bool.false_eq_true, if_false, true_and]
  intro i hi hf
  unfold resortBM
  split
  · exact ⟨rfl, rfl⟩
  · have := free_multipliers_unchanged (K := K) H.spaces U.jacPos
    exact ⟨((this _ _ _ _ _ _ _ _ i hf).1).symm, ((this _ _ _ _ _ _ _ _ i hf).2).symm⟩

/-- **C84** For the status codes without a solution the last point is delivered with zero multipliers; g is not the value of the constraints: it is the right hand side
for equality constraints and zero for inequalities. -/
theorem failure_arrays (H : Sit t loInf upInf xb gb deps s U of df dx dc dd hom q) {st : Alg.SolverReturn} (hst' : st ∉ iterateCodes ∧ st ∉ timeCodes) (relaxed : Bool) (oL oU : List K)
    (gOk jOk : Bool) (mem : Arr K) :
    let D := deliver s U (determine of df dx dc dd) hom st false relaxed oL oU gOk jOk q.pt mem
    (∀ k < s.nVar, D.x (s.user k) = q.pt.x.getD k 0 / optFac dx k) ∧
    (∀ i < gb.length, Kept gb deps i → D.lam i = 0 ∧ D.g i = if IsFixed (bnd gb i) then U.gl i else 0) ∧
    ∀ i < xb.length, D.zL i = 0 ∧ D.zU i = 0 := by
  intro D
  have hst : Alg.passesValues st = false := by
    by_contra h
    rcases (passes_iff st).1 (by simpa using h) with h | h
    · exact hst'.1 h
    · exact hst'.2 h
  have hr : resorts st = false := by
    by_contra h
    rw [resorts_passes (by simpa using h)] at hst
    exact absurd hst (by simp)
  have z : ∀ n k, (List.replicate n (0 : K)).getD k 0 = 0 := by
    intro n k
    simp only [List.getD_eq_getElem?_getD, List.getElem?_replicate]
    split <;> rfl
  have H' : Sit t loInf upInf xb gb deps s U of df dx dc dd hom { q with pt := selected st q.pt, resto := none } := by
    have e : selected st q.pt = { x := q.pt.x, yc := List.replicate q.pt.yc.length 0, yd := List.replicate q.pt.yd.length 0, zL := List.replicate q.pt.zL.length 0, zU := List.replicate q.pt.zU.length 0 } := by
      unfold selected; rw [hst]; simp
    rw [e]
    exact ⟨H.spaces, H.sorted, H.eqX, H.eqG, H.jac, H.hom, H.fac, H.facX, H.facC, H.facD, H.lx, by simpa using H.lyc, by simpa using H.lyd, by simpa using H.lzL, by simpa using H.lzU,
      H.lxL, H.lxU, (fun r h => by cases h), H.orig, H.noOrig⟩
  have hsel : selected st q.pt = { x := q.pt.x, yc := List.replicate q.pt.yc.length 0, yd := List.replicate q.pt.yd.length 0, zL := List.replicate q.pt.zL.length 0, zU := List.replicate q.pt.zU.length 0 } := by
    unfold selected; rw [hst]; simp
  have hcon : selectedCon s U (determine of df dx dc dd) st q.pt = (List.replicate q.pt.yc.length 0, List.replicate q.pt.yd.length 0) := by
    unfold selectedCon; rw [hst]; simp
  -- the vectors given to the adapter
  let fin := finalize (innerProb U s) (determine of df dx dc dd) hom false relaxed oL oU (selected st q.pt) (List.replicate q.pt.yc.length 0) (List.replicate q.pt.yd.length 0) 0
  have hD : D = adapterFinal s U st gOk jOk fin mem := by
    show deliver _ _ _ _ _ _ _ _ _ _ _ _ _ = _
    unfold deliver
    rw [hcon]
  have fx : fin.pt.x = Scal.unapplyX (determine of df dx dc dd) q.pt.x := by
    simp only [fin, finalize, clipX, unscalePoint, hsel, Bool.false_and, Bool.false_eq_true, if_false]
  have fyc : ∀ k, k < s.pc.length + nFix s → vec fin.pt.yc k = 0 := by
    intro k hk
    have := vec_currYc H' hk
    rw [currYc_false (hom := hom) (innerProb U s)] at this
    refine this.trans ?_
    rw [hsel]
    unfold vec
    rw [z, mul_zero, mul_zero]
  have fyd : ∀ k, k < s.pd.length → vec fin.pt.yd k = 0 := by
    intro k hk
    have := vec_currYd H' hk
    rw [currYd_false (hom := hom) (innerProb U s)] at this
    refine this.trans ?_
    rw [hsel]
    unfold vec
    rw [z, mul_zero, mul_zero]
  have fzL : ∀ k, k < s.pxl.length → vec fin.pt.zL k = 0 := by
    intro k hk
    have := vec_currZL H' hk
    rw [currZ_false] at this
    refine this.trans ?_
    rw [hsel]
    unfold vec
    rw [z, mul_zero, mul_zero]
  have fzU : ∀ k, k < s.pxu.length → vec fin.pt.zU k = 0 := by
    intro k hk
    have := vec_currZU H' hk
    rw [currZ_false] at this
    refine this.trans ?_
    rw [hsel]
    unfold vec
    rw [z, mul_zero, mul_zero]
  have fc : ∀ k, k < s.pc.length + nFix s → vec fin.c k = 0 := by
    intro k hk
    show (optDiv (rowOf _) _).getD k 0 = 0
    rw [det_rowC, optDiv_get H.facC (by simp [H.lyc]) hk, z, zero_div]
  have fd : ∀ k, k < s.pd.length → vec fin.d k = 0 := by
    intro k hk
    show (optDiv (rowOf _) _).getD k 0 = 0
    rw [det_rowD, optDiv_get H.facD (by simp [H.lyd]) hk, z, zero_div]
  rw [hD]
  refine ⟨fun k hk => ?_, fun i hi hk => ?_, fun i hi => ?_⟩
  · show User.full U s fin.pt.x (s.user k) = _
    rw [fx]
    exact full_user H hk
  · have hl := resortG_delivers H.sorted H.spaces (U.rhs s) (vec fin.pt.yc) (vec fin.pt.yd) mem.lam false
    have hg := resortG_delivers H.sorted H.spaces (U.rhs s) (vec fin.c) (vec fin.d) (if fin.c.length + fin.d.length < s.mFull then fun _ => 0 else mem.g) true
    obtain ⟨hc, hd, -, -⟩ := spaces_constraints H.sorted H.spaces
    show resortG s (U.rhs s) false (vec fin.pt.yc) (vec fin.pt.yd) mem.lam i = 0 ∧ resortG s (U.rhs s) true (vec fin.c) (vec fin.d) (if fin.c.length + fin.d.length < s.mFull then fun _ => 0 else mem.g) i = _
    by_cases hf : IsFixed (bnd gb i)
    · obtain ⟨k, hk', rfl⟩ := List.mem_iff_getElem.mp ((hc.2 i).mpr ⟨hi, hf, hk hf⟩)
      rw [hl.1 k hk', hg.1 k hk', fyc k (by omega), fc k (by omega), if_pos hf]
      refine ⟨by simp, ?_⟩
      simp only [if_true, zero_add]
      unfold User.rhs cRhs
      rw [if_pos hk', List.getD_eq_getElem _ _ hk']
    · obtain ⟨k, hk', rfl⟩ := List.mem_iff_getElem.mp ((hd.2 i).mpr ⟨hi, hf⟩)
      rw [hl.2.1 k hk', hg.2.1 k hk', fyd k hk', fd k hk', if_neg hf]
      exact ⟨rfl, rfl⟩
  · have e1 : (adapterFinal s U st gOk jOk fin mem).zL = resortBound s s.pxl (vec fin.pt.zL) mem.zL := by
      unfold adapterFinal; simp only [hr, Bool.false_eq_true, if_false]
    have e2 : (adapterFinal s U st gOk jOk fin mem).zU = resortBound s s.pxu (vec fin.pt.zU) mem.zU := by
      unfold adapterFinal; simp only [hr, Bool.false_eq_true, if_false]
    rw [e1, e2]
    constructor
    · by_cases h : ¬Removed s.treat (bnd xb i) ∧ HasLower s.treat loInf (bnd xb i)
      · obtain ⟨k, hk, -, h2⟩ := (bound_at_user H hi h.1 (vec fin.pt.zL) mem.zL).1 h.2
        rw [h2, fzL k hk]
      · exact (bound_multipliers_delivered H.spaces _ mem.zL).1.2 i hi h
    · by_cases h : ¬Removed s.treat (bnd xb i) ∧ HasUpper s.treat upInf (bnd xb i)
      · obtain ⟨k, hk, -, h2⟩ := (bound_at_user H hi h.1 (vec fin.pt.zU) mem.zU).2 h.2
        rw [h2, fzU k hk]
      · exact (bound_multipliers_delivered H.spaces _ mem.zU).2.2 i hi h
end

end Verif.FinalTnlp
