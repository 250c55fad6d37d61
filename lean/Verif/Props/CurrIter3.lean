import Verif.Props.CurrIter2

/-! # What `get_curr_violations` reports about the constraints; scaled reports; failures (C61) -/

set_option linter.unusedSectionVars false
set_option linter.unusedVariables false
set_option linter.unusedSimpArgs false

namespace Verif.CurrIter
open Verif Verif.Adapter Verif.Matrix Finset
open Verif.Scaling hiding evalC evalD

section
variable {K : Type} [Field K] [LinearOrder K] [IsStrictOrderedRing K] {t : Fixed} {loInf upInf : Num} {xb gb : List (Num × Num)} {deps : List Nat} {s : Spaces}
  {U : User K} {of df : K} {dx dc dd : Option (List K)} {hom : List K → Option K} {q : Curr K}

set_option quotPrecheck false in
local notation "XX" => User.full U s (Scal.unapplyX (determine of df dx dc dd) q.pt.x)
set_option quotPrecheck false in
local notation "SC" => determine of df dx dc dd

variable (H : Sit t loInf upInf xb gb deps s U of df dx dc dd hom q)
variable {n m n' m' : Nat} {gOk jOk : Bool} {b it : Iter K} {bv v : Viol K} {X g lam zL zU : Nat → K}

include H

/-- bound minus value of one inequality, if scaling factors are aligned. -/
theorem viol_aligned (hA : q.orig = none ∨ (FacAligned dd s.pdl ∧ FacAligned dd s.pdu)) {j : Nat} (hj : j < s.pd.length) :
    (vec (violL (innerProb U s) (SC) hom q false) j =
      if loInf < (bnd gb (s.pd.getD j 0)).1 then U.gl (s.pd.getD j 0) - U.g (XX) (s.pd.getD j 0) else 0) ∧
    (vec (violU (innerProb U s) (SC) hom q false) j =
      if (bnd gb (s.pd.getD j 0)).2 < upInf then U.g (XX) (s.pd.getD j 0) - U.gu (s.pd.getD j 0) else 0) := by
  obtain ⟨-, -, c3, c4⟩ := spaces_constraints H.sorted H.spaces
  obtain ⟨-, l2, l3⟩ := violL_get H
  obtain ⟨-, u2, u3⟩ := violU_get H
  have hne := optFac_ne H.facD hj
  constructor
  · by_cases h : loInf < (bnd gb (s.pd.getD j 0)).1
    · obtain ⟨k, hk, he⟩ := List.mem_iff_getElem.mp ((c3.2 j).mpr ⟨hj, h⟩)
      have hg : s.pdl.getD k 0 = j := by rw [List.getD_eq_getElem _ _ hk, he]
      have := l2 k hk
      rw [hg] at this
      rw [this, if_pos h]
      have hf : (if q.orig.isSome = true then optFac dd k else optFac dd j) = optFac dd j := by
        rcases hA with hA | hA
        · rw [hA]; simp
        · rw [hA.1 k hk, hg]; simp
      rw [hf]
      field_simp
    · rw [if_neg h]
      exact l3 j hj fun hm => h ((c3.2 j).mp hm).2
  · by_cases h : (bnd gb (s.pd.getD j 0)).2 < upInf
    · obtain ⟨k, hk, he⟩ := List.mem_iff_getElem.mp ((c4.2 j).mpr ⟨hj, h⟩)
      have hg : s.pdu.getD k 0 = j := by rw [List.getD_eq_getElem _ _ hk, he]
      have := u2 k hk
      rw [hg] at this
      rw [this, if_pos h]
      have hf : (if q.orig.isSome = true then optFac dd k else optFac dd j) = optFac dd j := by
        rcases hA with hA | hA
        · rw [hA]; simp
        · rw [hA.2 k hk, hg]; simp
      rw [hf]
      field_simp
    · rw [if_neg h]
      exact u3 j hj fun hm => h ((c4.2 j).mp hm).2

theorem c_row {k : Nat} (hk : k < s.pc.length) :
    vec (currC (innerProb U s) (SC) q false) k = U.g (XX) s.pc[k] - U.gl s.pc[k] := by
  rw [vec_currC H (by omega)]
  unfold Adapter.evalC User.rhs cRhs
  rw [if_pos hk, if_pos hk, List.getD_eq_getElem _ _ hk]

/-- **C61** The reported constraint violation is max(g_L - g(x), g(x) - g_U, 0) for the user's bounds and the reported point, if the scaling
factors of inequalities are aligned with the lists of their bounds (or bounds are not relaxed). -/
theorem violations_constraints_partial (hA : q.orig = none ∨ (FacAligned dd s.pdl ∧ FacAligned dd s.pdu))
    (hI : getCurrIterate s U (determine of df dx dc dd) hom q .ready gOk jOk false n m b = .yes it)
    (hV : getCurrViolations s U (determine of df dx dc dd) hom q .ready false n' m' bv = .yes v)
    (hX : it.x = some X) {cv : Nat → K} (hc : v.con = some cv) (i : Nat) (hi : i < gb.length) (hk : Kept gb deps i) :
    cv i = conViol (HasGL loInf (bnd gb i)) (HasGU upInf (bnd gb i)) (U.gl i) (U.gu i) (U.g X i) := by
  obtain ⟨a0, -, rfl⟩ := (viol_fields H hV).2.2.2.2.2.1 cv hc
  rw [X_eq H hI hX]
  unfold outCon
  obtain ⟨r1, r2, -⟩ := resortG_delivers H.sorted H.spaces (U.rhs s) (vec (nlpViolC (innerProb U s) (SC) q false))
    (vec (nlpViolD (innerProb U s) (SC) hom q false)) a0 false
  obtain ⟨c1, c2, -, -⟩ := spaces_constraints H.sorted H.spaces
  unfold conViol
  rcases (not_kept_iff H hi).mp hk with h | h
  · obtain ⟨k, hl, rfl⟩ := List.mem_iff_getElem.mp h
    have hfx := ((c1.2 _).mp h).2.1
    rw [r1 k hl, if_neg (by simp)]
    unfold nlpViolC
    rw [vec_map _ _ _ (by rw [len_currC H]; omega), c_row H hl, if_pos (show HasGL loInf (bnd gb s.pc[k]) from Or.inl hfx), if_pos (show HasGU upInf (bnd gb s.pc[k]) from Or.inl hfx), ← H.eqG _ hi hfx]
    unfold nabs
    generalize U.g (XX) s.pc[k] = y
    generalize U.gl s.pc[k] = l
    rw [neg_sub, max_comm]
    rcases le_total l y with hle | hle
    · rw [max_eq_right (by linarith : l - y ≤ y - l), max_eq_left (by linarith)]
    · rw [max_eq_left (by linarith : y - l ≤ l - y), max_eq_left (by linarith)]
  · obtain ⟨k, hl, rfl⟩ := List.mem_iff_getElem.mp h
    have hnf := ((c2.2 _).mp h).2
    rw [r2 k hl]
    unfold nlpViolD
    have ll := (violL_get H).1
    have lu := (violU_get H).1
    rw [vec_map _ _ _ (by simp [ll, lu]; exact hl), vec_zip _ _ _ (by rw [ll, lu]) _ (by rw [ll]; exact hl),
      (viol_aligned H hA hl).1, (viol_aligned H hA hl).2, List.getD_eq_getElem _ _ hl]
    have e1 : HasGL loInf (bnd gb s.pd[k]) ↔ loInf < (bnd gb s.pd[k]).1 := by
      unfold HasGL; constructor
      · exact fun h => h.resolve_left hnf
      · exact Or.inr
    have e2 : HasGU upInf (bnd gb s.pd[k]) ↔ (bnd gb s.pd[k]).2 < upInf := by
      unfold HasGU; constructor
      · exact fun h => h.resolve_left hnf
      · exact Or.inr
    simp only [e1, e2]

/-- **C61** The reported complementarity of constraints is (g(x) - g_L) λ⁻ + (g_U - g(x)) λ⁺ with the reported multipliers, under the same
condition. -/
theorem violations_compl_g_partial (hA : q.orig = none ∨ (FacAligned dd s.pdl ∧ FacAligned dd s.pdu))
    (hI : getCurrIterate s U (determine of df dx dc dd) hom q .ready gOk jOk false n m b = .yes it)
    (hV : getCurrViolations s U (determine of df dx dc dd) hom q .ready false n' m' bv = .yes v)
    (hX : it.x = some X) (hl : it.lam = some lam) {cg : Nat → K} (hc : v.cg = some cg) (i : Nat) (hi : i < gb.length) (hk : Kept gb deps i) :
    cg i = conCompl (HasGL loInf (bnd gb i)) (HasGU upInf (bnd gb i)) (U.gl i) (U.gu i) (U.g X i) (lam i) := by
  obtain ⟨a0, -, rfl⟩ := (viol_fields H hV).2.2.2.2.2.2 cg hc
  obtain ⟨-, h2, -, -⟩ := iter_fields H hI
  obtain ⟨l0, -, rfl⟩ := h2 lam hl
  rw [X_eq H hI hX]
  unfold outCG
  obtain ⟨r1, r2, -⟩ := resortG_delivers H.sorted H.spaces (U.rhs s) (vec (complC (innerProb U s) (SC) q false))
    (vec (complD (innerProb U s) (SC) hom q false)) a0 false
  obtain ⟨y1, y2, -⟩ := resortG_delivers H.sorted H.spaces (U.rhs s) (vec (currYc (SC) q false))
    (vec (currYd (SC) q false)) l0 false
  obtain ⟨c1, c2, -, -⟩ := spaces_constraints H.sorted H.spaces
  unfold conCompl
  have lc := len_currC (q := q) H false
  have lyc := len_currYc (q := q) H
  have lyd := len_currYd (q := q) H
  rcases (not_kept_iff H hi).mp hk with h | h
  · obtain ⟨k, hl, rfl⟩ := List.mem_iff_getElem.mp h
    have hfx := ((c1.2 _).mp h).2.1
    rw [r1 k hl, if_neg Bool.false_ne_true]
    have y1' := y1 k hl
    rw [if_neg Bool.false_ne_true] at y1'
    rw [y1']
    unfold complC
    rw [vec_map _ _ _ (by simp [emul, lc, lyc]; omega), vec_emul _ _ (by rw [lc, lyc]) _ (by rw [lc]; omega), c_row H hl,
      if_pos (show HasGL loInf (bnd gb s.pc[k]) from Or.inl hfx), if_pos (show HasGU upInf (bnd gb s.pc[k]) from Or.inl hfx), ← H.eqG _ hi hfx]
    generalize U.g (XX) s.pc[k] = y
    generalize U.gl s.pc[k] = l
    generalize vec (currYc (SC) q false) k = z
    rcases le_total 0 z with hz | hz
    · rw [max_eq_left (by linarith : -z ≤ 0), max_eq_right hz]; ring
    · rw [max_eq_right (by linarith : 0 ≤ -z), max_eq_left hz]; ring
  · obtain ⟨k, hl, rfl⟩ := List.mem_iff_getElem.mp h
    have hnf := ((c2.2 _).mp h).2
    rw [r2 k hl, y2 k hl]
    unfold complD
    simp only
    have ll := (violL_get H).1
    have lu := (violU_get H).1
    rw [vec_axpy _ _ _ (by simp [emul, ll, lu, lyd]) _ (by simp [emul, ll, lyd]; exact hl),
      vec_emul _ _ (by simp [ll, lyd]) _ (by simp [lyd]; exact hl), vec_emul _ _ (by simp [lu, lyd]) _ (by simp [lyd]; exact hl),
      vec_map _ _ _ (by rw [lyd]; exact hl), vec_map _ _ _ (by rw [lyd]; exact hl),
      (viol_aligned H hA hl).1, (viol_aligned H hA hl).2, List.getD_eq_getElem _ _ hl]
    have e1 : HasGL loInf (bnd gb s.pd[k]) ↔ loInf < (bnd gb s.pd[k]).1 := by
      unfold HasGL; constructor
      · exact fun h => h.resolve_left hnf
      · exact Or.inr
    have e2 : HasGU upInf (bnd gb s.pd[k]) ↔ (bnd gb s.pd[k]).2 < upInf := by
      unfold HasGU; constructor
      · exact fun h => h.resolve_left hnf
      · exact Or.inr
    simp only [e1, e2]
    generalize vec (currYd (SC) q false) k = z
    rcases le_total 0 z with hz | hz
    · rw [max_eq_left (by linarith : -z ≤ 0), max_eq_right hz, min_eq_right hz, max_eq_left hz]
      split <;> split <;> ring
    · rw [max_eq_right (by linarith : 0 ≤ -z), max_eq_left hz, min_eq_left hz, max_eq_right hz]
      split <;> split <;> ring

/-- **C61** (deviation) In general the bound compared with is not the user's: the lower bound number `k` is multiplied by the scaling factor
of inequality number `k` and divided by that of the inequality it belongs to. -/
theorem violations_constraints_exact (ho : q.orig ≠ none)
    (hI : getCurrIterate s U (determine of df dx dc dd) hom q .ready gOk jOk false n m b = .yes it)
    (hV : getCurrViolations s U (determine of df dx dc dd) hom q .ready false n' m' bv = .yes v)
    (hX : it.x = some X) {cv : Nat → K} (hc : v.con = some cv) (k l : Nat) (hk : k < s.pdl.length) (hl : l < s.pdu.length)
    (he : s.pdl[k] = s.pdu[l]) :
    let i := s.pd.getD s.pdl[k] 0
    cv i = max (max (optFac dd k / optFac dd s.pdl[k] * U.gl i - U.g X i) (U.g X i - optFac dd l / optFac dd s.pdu[l] * U.gu i)) 0 := by
  intro i
  obtain ⟨a0, -, rfl⟩ := (viol_fields H hV).2.2.2.2.2.1 cv hc
  rw [X_eq H hI hX]
  unfold outCon
  obtain ⟨-, r2, -⟩ := resortG_delivers H.sorted H.spaces (U.rhs s) (vec (nlpViolC (innerProb U s) (SC) q false))
    (vec (nlpViolD (innerProb U s) (SC) hom q false)) a0 false
  obtain ⟨-, -, c3, c4⟩ := spaces_constraints H.sorted H.spaces
  have hj := ((c3.2 _).mp (List.getElem_mem hk)).1
  obtain ⟨ll, l2, -⟩ := violL_get H
  obtain ⟨lu, u2, -⟩ := violU_get H
  have hi : i = s.pd[s.pdl[k]] := List.getD_eq_getElem _ _ hj
  have := r2 _ hj
  rw [← hi] at this
  rw [this]
  unfold nlpViolD
  rw [vec_map _ _ _ (by simp [ll, lu]; exact hj), vec_zip _ _ _ (by rw [ll, lu]) _ (by rw [ll]; exact hj)]
  have h1 := l2 k hk
  have h2 := u2 l hl
  rw [List.getD_eq_getElem s.pdl _ hk] at h1
  rw [List.getD_eq_getElem s.pdu _ hl] at h2
  rw [h1]
  rw [← he] at h2
  rw [h2, ← he]
  have hs : q.orig.isSome = true := by cases hq : q.orig <;> simp_all
  rw [hs]
  simp only [if_true]
  congr 2
  · show _ - U.g (XX) i = _ - _
    congr 1
    show optFac dd k * U.gl i / _ = _
    ring
  · show U.g (XX) i - _ = _ - _
    congr 1
    show optFac dd l * U.gu i / _ = _
    ring

/-- **C61** (deviation) Constraints taken out as dependent: the entries of the arrays are not written although the call reports success. -/
theorem violations_dropped_unwritten (hV : getCurrViolations s U (determine of df dx dc dd) hom q .ready false n' m' bv = .yes v)
    (i : Nat) (hi : i < gb.length) (hk : ¬Kept gb deps i) :
    (∀ cv, v.con = some cv → ∃ a0, bv.con = some a0 ∧ cv i = a0 i) ∧ (∀ cg, v.cg = some cg → ∃ a0, bv.cg = some a0 ∧ cg i = a0 i) := by
  have hn := (not_kept_iff H hi).not.mp hk
  push Not at hn
  constructor
  · intro cv hc
    obtain ⟨a0, hb, rfl⟩ := (viol_fields H hV).2.2.2.2.2.1 cv hc
    exact ⟨a0, hb, (resortG_delivers H.sorted H.spaces (U.rhs s) _ _ a0 false).2.2 i hn.1 hn.2⟩
  · intro cv hc
    obtain ⟨a0, hb, rfl⟩ := (viol_fields H hV).2.2.2.2.2.2 cv hc
    exact ⟨a0, hb, (resortG_delivers H.sorted H.spaces (U.rhs s) _ _ a0 false).2.2 i hn.1 hn.2⟩

/-- **C61** (deviation) If the user's gradient evaluation fails while multipliers of removed fixed variables are computed, the call still
reports success, with both multipliers zero. -/
theorem iterate_eval_failure (hI : getCurrIterate s U (determine of df dx dc dd) hom q .ready false jOk false n m b = .yes it)
    (hzL : it.zL = some zL) (hzU : it.zU = some zU) (ht : s.treat = .makeParameter) (i : Nat) (hi : i < xb.length) (hf : IsFixed (bnd xb i)) :
    zL i = 0 ∧ zU i = 0 := by
  obtain ⟨-, -, -, h4⟩ := iter_fields H hI
  obtain ⟨zL0, zU0, -, -, rfl, rfl⟩ := h4 zL zU hzL hzU
  obtain ⟨hE, hII, hN, hF⟩ := spaces_variables H.spaces
  have hm : i ∈ s.fixed := (hF.2 i).mpr ⟨hi, hf, by rw [ht]; decide⟩
  have h0 : s.fixed.length ≠ 0 := by
    intro h
    rw [List.length_eq_zero_iff.mp h] at hm
    simp at hm
  have hr : Removed s.treat (bnd xb i) := ⟨Or.inl ht, hf⟩
  unfold iterZ resortBM
  simp only [Bool.not_false, Bool.true_or, if_true, h0, ht, Bool.false_and, ne_eq, not_false_eq_true, decide_true, Bool.true_and]
  exact ⟨(bound_multipliers_delivered H.spaces _ zL0).1.2 i hi fun h => h.1 hr, (bound_multipliers_delivered H.spaces _ zU0).2.2 i hi fun h => h.1 hr⟩

/-- **C61** Reports in the scaled problem (`scaled` = true): point, constraint values and multipliers are the unscaled ones times the scaling
factors of the documentation. -/
theorem iterate_scaled (hI : getCurrIterate s U (determine of df dx dc dd) hom q .ready true true false n m b = .yes it)
    (hX : it.x = some X) (hg : it.g = some g) (hl : it.lam = some lam)
    {n2 m2 : Nat} {b2 it2 : Iter K} (hS : getCurrIterate s U (determine of df dx dc dd) hom q .ready gOk jOk true n2 m2 b2 = .yes it2)
    {X2 g2 lam2 : Nat → K} (hX2 : it2.x = some X2) (hg2 : it2.g = some g2) (hl2 : it2.lam = some lam2) :
    (∀ k < s.nVar, X2 (s.user k) = optFac dx k * X (s.user k)) ∧ (∀ i < xb.length, Removed s.treat (bnd xb i) → X2 i = X i) ∧
    (∀ k, (hk : k < s.pc.length) → g2 s.pc[k] = optFac dc k * g s.pc[k] ∧ lam2 s.pc[k] * optFac dc k = df * of * lam s.pc[k]) ∧
    (∀ k, (hk : k < s.pd.length) → g2 s.pd[k] = optFac dd k * g s.pd[k] ∧ lam2 s.pd[k] * optFac dd k = df * of * lam s.pd[k]) := by
  obtain ⟨f1, f2, f3, -⟩ := iter_fields H hS
  obtain ⟨hE, hII, hN, hF⟩ := spaces_variables H.spaces
  obtain ⟨p1, p2⟩ := iterate_point H hI hX
  obtain ⟨l1, l2, -⟩ := iterate_lambda H hI hl
  obtain ⟨lam0, -, rfl⟩ := f2 lam2 hl2
  obtain ⟨g0, -, rfl⟩ := f3 g2 hg2
  have hx2 := f1 X2 hX2
  obtain ⟨c1, c2, -, -⟩ := spaces_constraints H.sorted H.spaces
  refine ⟨?_, ?_, ?_, ?_⟩
  · intro k hk
    rw [hx2, p1 k hk]
    unfold resortX currX
    rw [(hII _ (hE.2.1 k hk).1 k).mpr ⟨hk, rfl⟩]
    have := optFac_ne H.facX hk
    simp only [Bool.not_true, Bool.false_and, Bool.false_eq_true, if_false]
    unfold vec
    field_simp
  · intro i hi hr
    rw [hx2, p2 i hi hr]
    exact (resortX_user H.spaces U.xl U.fullX0 _ i hi).2.1 hr
  · intro k hk
    have hi := ((c1.2 _).mp (List.getElem_mem hk)).1
    have hkept : Kept gb deps s.pc[k] := (not_kept_iff H hi).mpr (Or.inl (List.getElem_mem hk))
    have hgu := (iterate_constraints H hI hX hg _ hi).1 hkept
    have hne := optFac_ne H.facC (by omega : k < s.pc.length + nFix s)
    constructor
    · rw [hgu, X_eq H hI hX]
      unfold iterG
      rw [det_rowC]
      have hck := vec_currC_true (q := q) H (by omega : k < s.pc.length + nFix s)
      have hev : Adapter.evalC s (U.rhs s) (XX) (U.g (XX)) k = U.g (XX) s.pc[k] - U.rhs s k := by
        unfold Adapter.evalC
        rw [if_pos hk, List.getD_eq_getElem _ _ hk]
      cases hdc : dc with
      | none =>
        simp only [Bool.not_true, Bool.false_or, Option.isNone_none, if_true]
        subst hdc
        rw [(resortG_delivers H.sorted H.spaces (U.rhs s) _ _ g0 true).1 k hk, if_pos rfl, hck, hev]
        simp [optFac]
      | some w =>
        simp only [Bool.not_true, Bool.false_or, Option.isNone_some, Bool.false_eq_true, if_false]
        subst hdc
        rw [(resortG_delivers H.sorted H.spaces (U.rhs s) _ _ g0 false).1 k hk, if_neg (by simp)]
        have lc := len_currC (q := q) H true
        have la : ((determine of df dx (some w) dd).applyC ((List.range (currC (innerProb U s) (determine of df dx (some w) dd) q true).length).map (U.rhs s))).length =
            s.pc.length + nFix s := applyC_length H.facC (by simp [lc])
        rw [vec_axpy _ _ _ (lc.trans la.symm) _ (by rw [la]; omega), hck, hev]
        have ha : vec ((determine of df dx (some w) dd).applyC ((List.range (currC (innerProb U s) (determine of df dx (some w) dd) q true).length).map (U.rhs s))) k =
            optFac (some w) k * U.rhs s k := by
          unfold vec
          rw [applyC_get H.facC (by simp [lc]) k (by omega)]
          congr 1
          exact vec_range _ _ _ (by rw [lc]; omega)
        rw [ha]
        ring
    · rw [(resortG_delivers H.sorted H.spaces (U.rhs s) _ _ lam0 false).1 k hk, if_neg (by simp), l1 k hk]
      unfold currYc vec
      simp only [if_true]
      have := H.fac
      have h1 := left_ne_zero_of_mul H.fac
      have h2 := right_ne_zero_of_mul H.fac
      field_simp
  · intro k hk
    have hi := ((c2.2 _).mp (List.getElem_mem hk)).1
    have hkept : Kept gb deps s.pd[k] := (not_kept_iff H hi).mpr (Or.inr (List.getElem_mem hk))
    have hgu := (iterate_constraints H hI hX hg _ hi).1 hkept
    constructor
    · rw [hgu, X_eq H hI hX]
      have hd := vec_currD_true (q := q) H hk
      unfold iterG
      split
      · rw [(resortG_delivers H.sorted H.spaces (U.rhs s) _ _ g0 true).2.1 k hk, hd, List.getD_eq_getElem _ _ hk]
      · rw [(resortG_delivers H.sorted H.spaces (U.rhs s) _ _ g0 false).2.1 k hk, hd, List.getD_eq_getElem _ _ hk]
    · rw [(resortG_delivers H.sorted H.spaces (U.rhs s) _ _ lam0 false).2.1 k hk, l2 k hk]
      unfold currYd vec
      simp only [if_true]
      have h1 := left_ne_zero_of_mul H.fac
      have h2 := right_ne_zero_of_mul H.fac
      field_simp

/-- the loop over the fixed variables. -/
theorem scaleFixed_get (f : K) (z : (Nat → K) × (Nat → K)) :
    (∀ i ∈ s.fixed, (scaleFixed s f z).2 i - (scaleFixed s f z).1 i = f * (z.2 i - z.1 i) ∧
      (0 ≤ z.1 i → 0 ≤ z.2 i → 0 ≤ (scaleFixed s f z).1 i ∧ 0 ≤ (scaleFixed s f z).2 i)) ∧
    ∀ i, i ∉ s.fixed → (scaleFixed s f z).1 i = z.1 i ∧ (scaleFixed s f z).2 i = z.2 i := by
  unfold scaleFixed
  by_cases h1 : f = 1
  · rw [if_pos h1]
    exact ⟨fun i _ => ⟨by rw [h1]; ring, fun a b => ⟨a, b⟩⟩, fun i _ => ⟨rfl, rfl⟩⟩
  · rw [if_neg h1]
    have gen : ∀ (L : List Nat) (hn : L.Nodup) (z : (Nat → K) × (Nat → K)),
        let r := L.foldl (fun z i =>
          if 0 < f then (upd z.1 i (z.1 i * f), upd z.2 i (z.2 i * f))
          else (upd z.1 i (-(z.2 i) * f), upd z.2 i (-(z.1 i) * f))) z
        (∀ i ∈ L, r.2 i - r.1 i = f * (z.2 i - z.1 i) ∧ (0 ≤ z.1 i → 0 ≤ z.2 i → 0 ≤ r.1 i ∧ 0 ≤ r.2 i)) ∧
          ∀ i, i ∉ L → r.1 i = z.1 i ∧ r.2 i = z.2 i := by
      intro L
      induction L with
      | nil => intro _ z; exact ⟨fun i hi => by simp at hi, fun i _ => ⟨rfl, rfl⟩⟩
      | cons x L ih =>
        intro hn z
        obtain ⟨hx, hL⟩ := List.nodup_cons.mp hn
        simp only [List.foldl_cons]
        generalize hz' : (if 0 < f then (upd z.1 x (z.1 x * f), upd z.2 x (z.2 x * f))
          else (upd z.1 x (-(z.2 x) * f), upd z.2 x (-(z.1 x) * f))) = z'
        have hother : ∀ i, i ≠ x → z'.1 i = z.1 i ∧ z'.2 i = z.2 i := by
          intro i hi
          rw [← hz']
          split <;> simp [upd, hi]
        obtain ⟨i1, i2⟩ := ih hL z'
        constructor
        · intro i hi
          rcases List.mem_cons.mp hi with rfl | hi
          · obtain ⟨e1, e2⟩ := i2 i hx
            rw [e1, e2, ← hz']
            by_cases hf : 0 < f
            · rw [if_pos hf]
              simp only [upd, if_true]
              exact ⟨by ring, fun a b => ⟨mul_nonneg a hf.le, mul_nonneg b hf.le⟩⟩
            · rw [if_neg hf]
              simp only [upd, if_true]
              refine ⟨by ring, fun a b => ⟨?_, ?_⟩⟩
              · have := mul_nonneg b (by linarith : 0 ≤ -f); linarith
              · have := mul_nonneg a (by linarith : 0 ≤ -f); linarith
          · have hne : i ≠ x := fun h => hx (h ▸ hi)
            have := i1 i hi
            rw [(hother i hne).1, (hother i hne).2] at this
            exact this
        · intro i hi
          have hne : i ≠ x := fun h => hi (h ▸ List.mem_cons_self)
          obtain ⟨e1, e2⟩ := i2 i fun h => hi (List.mem_cons_of_mem _ h)
          rw [e1, e2]
          exact hother i hne
    exact gen s.fixed (fixed_nodup H) z

/-- **C61** ... and the bound multipliers of removed fixed variables in the scaled report: nonnegative, with difference objective scaling
factor times the difference of the unscaled ones — also for negative factors (maximization). -/
theorem iterate_scaled_fixed (ht : s.treat = .makeParameter)
    (hI : getCurrIterate s U (determine of df dx dc dd) hom q .ready true true false n m b = .yes it)
    (hzL : it.zL = some zL) (hzU : it.zU = some zU)
    {n2 m2 : Nat} {b2 it2 : Iter K} (hS : getCurrIterate s U (determine of df dx dc dd) hom q .ready true true true n2 m2 b2 = .yes it2)
    {zL2 zU2 : Nat → K} (hzL2 : it2.zL = some zL2) (hzU2 : it2.zU = some zU2) (i : Nat) (hi : i < xb.length) (hf : IsFixed (bnd xb i)) :
    zU2 i - zL2 i = df * of * (zU i - zL i) ∧ 0 ≤ zL2 i ∧ 0 ≤ zU2 i := by
  obtain ⟨-, -, -, h4⟩ := iter_fields H hI
  obtain ⟨zL0, zU0, -, -, rfl, rfl⟩ := h4 zL zU hzL hzU
  obtain ⟨-, -, -, h5⟩ := iter_fields H hS
  obtain ⟨zL1, zU1, -, -, rfl, rfl⟩ := h5 zL2 zU2 hzL2 hzU2
  obtain ⟨hE, hII, hN, hF⟩ := spaces_variables H.spaces
  have hm : i ∈ s.fixed := (hF.2 i).mpr ⟨hi, hf, by rw [ht]; decide⟩
  have h0 : s.fixed.length ≠ 0 := by
    intro h
    rw [List.length_eq_zero_iff.mp h] at hm
    simp at hm
  have e : iterZ s U (SC) hom q true true true zL1 zU1 = scaleFixed s (df * of)
      (resortBoundMult s U.jacPos (U.gradF (XX)) (U.jac (XX)) (vec (currYc (SC) q false)) (vec (currYd (SC) q false))
        (vec (currZ (SC) hom (innerProb U s).PxL q.pt.zL true)) (vec (currZ (SC) hom (innerProb U s).PxU q.pt.zU true)) zL1 zU1) := by
    unfold iterZ resortBM
    have ho : (SC).applyObj 1 = df * of := by simp [determine, Scal.applyObj]
    simp [h0, ht, ho, currX_false]
  rw [e]
  obtain ⟨g1, -⟩ := scaleFixed_get H (df * of)
    (resortBoundMult s U.jacPos (U.gradF (XX)) (U.jac (XX)) (vec (currYc (SC) q false)) (vec (currYd (SC) q false))
        (vec (currZ (SC) hom (innerProb U s).PxL q.pt.zL true)) (vec (currZ (SC) hom (innerProb U s).PxU q.pt.zU true)) zL1 zU1)
  obtain ⟨k1, k2⟩ := g1 i hm
  have d1 := fixed_multipliers_dual_feasible H.sorted H.spaces ht U.jacPos (fun e he => (H.jac e he).2) (U.gradF (XX)) (U.jac (XX))
        (vec (currYc (SC) q false)) (vec (currYd (SC) q false))
        (vec (currZ (SC) hom (innerProb U s).PxL q.pt.zL true)) (vec (currZ (SC) hom (innerProb U s).PxU q.pt.zU true)) zL1 zU1 (U.rhs s) i hi hf
  have d2 := fixed_multipliers_dual_feasible H.sorted H.spaces ht U.jacPos (fun e he => (H.jac e he).2) (U.gradF (XX)) (U.jac (XX))
        (vec (currYc (SC) q false)) (vec (currYd (SC) q false))
        (vec (currZ (SC) hom (innerProb U s).PxL q.pt.zL false)) (vec (currZ (SC) hom (innerProb U s).PxU q.pt.zU false)) zL0 zU0 (U.rhs s) i hi hf
  obtain ⟨k3, k4⟩ := k2 d1.2.1 d1.2.2.1
  refine ⟨?_, k3, k4⟩
  rw [k1, iterZ_eq H]
  have a1 := d1.1
  have a2 := d2.1
  congr 1
  linarith
end

end Verif.CurrIter
