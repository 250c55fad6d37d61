import Verif.Proof.CurrIter3

/-! # Violations in the user's units, and the arrays behind a successful call -/

set_option linter.unusedSectionVars false
set_option linter.unusedVariables false
set_option linter.unusedSimpArgs false

namespace Verif.CurrIter
open Verif Verif.Adapter Verif.Matrix Finset
open Verif.Scaling hiding evalC evalD

section sit
variable {K : Type} [Field K] [LinearOrder K] [IsStrictOrderedRing K] {t : Fixed} {loInf upInf : Num} {xb gb : List (Num × Num)} {deps : List Nat} {s : Spaces}
  {U : User K} {of df : K} {dx dc dd : Option (List K)} {hom : List K → Option K} {q : Curr K}

variable (H : Sit t loInf upInf xb gb deps s U of df dx dc dd hom q)

local notation "SC" => determine of df dx dc dd
set_option quotPrecheck false in
local notation "XX" => User.full U s (Scal.unapplyX (determine of df dx dc dd) q.pt.x)

include H

/-- violation of original bounds. -/
theorem origViol_get {r : Nat} {pos : List Nat} (hw : ∀ p ∈ pos, p < r) (sgn : K) (x b : List K) (hx : x.length = r)
    (hb : b.length = pos.length) {k : Nat} (hk : k < pos.length) :
    vec (origViol hom (.expansion r pos) sgn x b) k = max (sgn * (vec x (pos.getD k 0) - vec b k)) 0 := by
  unfold origViol
  have hd : (Mat.expansion (N := K) r pos).dims.2 = pos.length := rfl
  rw [hd, if_neg (by omega)]
  have e := exp_trans_get H.hom hw sgn x 0 b hx hb
  rw [vec_map _ _ _ (by rw [axpy_len _ _ _ (by rw [e.1, hb]), e.1]; exact hk)]
  rw [vec_axpy _ _ _ (by rw [e.1, hb]) _ (by rw [e.1]; exact hk)]
  have := e.2 k hk
  unfold vec
  rw [this]
  congr 1
  ring

theorem xviolL_get {o : Orig K} (ho : q.orig = some o) {k : Nat} (hk : k < s.pxl.length) :
    vec (currXViol (SC) hom q (innerProb U s).PxL (-1) (·.xL) false) k = max 0 (U.xl (s.user (s.pxl.getD k 0)) - XX (s.user (s.pxl.getD k 0))) := by
  obtain ⟨h1, -, -, -⟩ := H.orig o ho
  unfold currXViol
  rw [ho]
  simp only [Bool.false_and, Bool.false_eq_true, if_false]
  have := origViol_get H (prob_ok H).xl (-1) ((SC).unapplyX q.pt.x) o.xL (len_currX H) (by rw [h1]; simp [innerProb]) hk
  refine Eq.trans this ?_
  have hv : s.pxl.getD k 0 < s.nVar := (prob_ok H).xl _ (getD_mem hk)
  show max (-1 * (vec ((SC).unapplyX q.pt.x) (s.pxl.getD k 0) - vec o.xL k)) 0 = _
  rw [full_user H hv, ← vec_currX H hv, currX_false, h1, vec_range _ _ _ hk, max_comm]
  congr 1
  show -1 * (_ - U.xl (s.user (s.pxl.getD k 0))) = _
  ring

theorem xviolU_get {o : Orig K} (ho : q.orig = some o) {k : Nat} (hk : k < s.pxu.length) :
    vec (currXViol (SC) hom q (innerProb U s).PxU 1 (·.xU) false) k = max 0 (XX (s.user (s.pxu.getD k 0)) - U.xu (s.user (s.pxu.getD k 0))) := by
  obtain ⟨-, h1, -, -⟩ := H.orig o ho
  unfold currXViol
  rw [ho]
  simp only [Bool.false_and, Bool.false_eq_true, if_false]
  have := origViol_get H (prob_ok H).xu 1 ((SC).unapplyX q.pt.x) o.xU (len_currX H) (by rw [h1]; simp [innerProb]) hk
  refine Eq.trans this ?_
  have hv : s.pxu.getD k 0 < s.nVar := (prob_ok H).xu _ (getD_mem hk)
  show max (1 * (vec ((SC).unapplyX q.pt.x) (s.pxu.getD k 0) - vec o.xU k)) 0 = _
  rw [full_user H hv, ← vec_currX H hv, currX_false, h1, vec_range _ _ _ hk, max_comm]
  congr 1
  show 1 * (_ - U.xu (s.user (s.pxu.getD k 0))) = _
  ring

theorem complL_get {k : Nat} (hk : k < s.pxl.length) :
    vec (currCompl (SC) q (slackL hom (innerProb U s).PxL q.pt.x q.xL) q.pt.zL false) k =
      (df * of)⁻¹ * ((vec q.pt.x (s.pxl.getD k 0) - vec q.xL k) * vec q.pt.zL k) := by
  have e := exp_trans_get H.hom (prob_ok H).xl 1 q.pt.x (-1) q.xL H.lx H.lxL
  have hl : (slackL hom (innerProb U s).PxL q.pt.x q.xL).length = s.pxl.length := e.1
  have key : ∀ v : List K, vec (v.map fun v => (df * of)⁻¹ * v) k = (df * of)⁻¹ * vec v k := by
    intro v
    by_cases h : k < v.length
    · exact vec_map _ _ _ h
    · unfold vec; simp [List.getD_eq_getElem?_getD, h]
  have e1 : currCompl (SC) q (slackL hom (innerProb U s).PxL q.pt.x q.xL) q.pt.zL false =
      (emul (slackL hom (innerProb U s).PxL q.pt.x q.xL) q.pt.zL).map fun v => (df * of)⁻¹ * v := by
    unfold currCompl
    simp only [Bool.false_eq_true, if_false, unapplyObj_eq]
    cases q.resto with
    | none => rw [scalIf_map]
    | some r => rfl
  rw [e1, key, vec_emul _ _ (by rw [hl, H.lzL]) _ (by rw [hl]; exact hk)]
  congr 2
  have h := e.2 k hk
  refine Eq.trans h ?_
  show -1 * q.xL.getD k 0 + 1 * q.pt.x.getD (s.pxl.getD k 0) 0 = vec q.pt.x (s.pxl.getD k 0) - vec q.xL k
  unfold vec; ring

theorem complU_get {k : Nat} (hk : k < s.pxu.length) :
    vec (currCompl (SC) q (slackU hom (innerProb U s).PxU q.pt.x q.xU) q.pt.zU false) k =
      (df * of)⁻¹ * ((vec q.xU k - vec q.pt.x (s.pxu.getD k 0)) * vec q.pt.zU k) := by
  have e := exp_trans_get H.hom (prob_ok H).xu (-1) q.pt.x 1 q.xU H.lx H.lxU
  have hl : (slackU hom (innerProb U s).PxU q.pt.x q.xU).length = s.pxu.length := e.1
  have key : ∀ v : List K, vec (v.map fun v => (df * of)⁻¹ * v) k = (df * of)⁻¹ * vec v k := by
    intro v
    by_cases h : k < v.length
    · exact vec_map _ _ _ h
    · unfold vec; simp [List.getD_eq_getElem?_getD, h]
  have e1 : currCompl (SC) q (slackU hom (innerProb U s).PxU q.pt.x q.xU) q.pt.zU false =
      (emul (slackU hom (innerProb U s).PxU q.pt.x q.xU) q.pt.zU).map fun v => (df * of)⁻¹ * v := by
    unfold currCompl
    simp only [Bool.false_eq_true, if_false, unapplyObj_eq]
    cases q.resto with
    | none => rw [scalIf_map]
    | some r => rfl
  rw [e1, key, vec_emul _ _ (by rw [hl, H.lzU]) _ (by rw [hl]; exact hk)]
  congr 2
  have h := e.2 k hk
  refine Eq.trans h ?_
  show 1 * q.xU.getD k 0 + -1 * q.pt.x.getD (s.pxu.getD k 0) 0 = vec q.xU k - vec q.pt.x (s.pxu.getD k 0)
  unfold vec; ring

theorem unapplyD_get' {v : List K} (hv : v.length = s.pd.length) {j : Nat} (hj : j < s.pd.length) :
    vec (if !false && (rowOf (SC).jacD).isSome then (SC).unapplyD v else v) j = vec v j / optFac dd j ∧
    (if !false && (rowOf (SC).jacD).isSome then (SC).unapplyD v else v).length = s.pd.length := by
  unfold Scal.unapplyD
  rw [det_rowD]
  cases h : dd with
  | none => exact ⟨by simp [optFac], by simpa using hv⟩
  | some w =>
    simp only [Bool.not_false, Bool.true_and, Option.isSome_some, if_true]
    rw [← h]
    exact ⟨optDiv_get H.facD hv hj, optDiv_length H.facD hv⟩

/-- the difference between bound and value at every inequality that has the bound. -/
theorem dViol_get (pos : List Nat) (hw : ∀ p ∈ pos, p < s.pd.length) (hn : pos.Nodup) (b : List K) (hb : b.length = pos.length) (sgn : K)
    (v : List K) (hv : v = if 0 < b.length then
      (if !false && (rowOf (SC).jacD).isSome then (SC).unapplyD ((Mat.expansion s.pd.length pos).mult hom 1
        ((Mat.expansion s.pd.length pos).transMult hom sgn (currD (innerProb U s) (SC) q true) (-sgn) b) 0
          ((currD (innerProb U s) (SC) q true).map fun _ => 0)) else
        ((Mat.expansion s.pd.length pos).mult hom 1
        ((Mat.expansion s.pd.length pos).transMult hom sgn (currD (innerProb U s) (SC) q true) (-sgn) b) 0
          ((currD (innerProb U s) (SC) q true).map fun _ => 0))) else (currD (innerProb U s) (SC) q true).map fun _ => 0) :
    v.length = s.pd.length ∧
    (∀ k < pos.length, vec v (pos.getD k 0) = sgn * (U.g (XX) (s.pd.getD (pos.getD k 0) 0) - vec b k / optFac dd (pos.getD k 0))) ∧
    ∀ j < s.pd.length, j ∉ pos → vec v j = 0 := by
  have ld := len_currD H true
  by_cases h0 : 0 < b.length
  · rw [if_pos h0] at hv
    have e1 := exp_trans_get H.hom hw sgn (currD (innerProb U s) (SC) q true) (-sgn) b ld hb
    have e2 := exp_mult_get H.hom hw 1 _ 0 ((currD (innerProb U s) (SC) q true).map fun _ => 0) e1.1 (by simpa using ld)
    have hz : ∀ j, ((currD (innerProb U s) (SC) q true).map fun _ => (0 : K)).getD j 0 = 0 := by
      intro j
      simp only [List.getD_eq_getElem?_getD, List.getElem?_map]
      cases (currD (innerProb U s) (SC) q true)[j]? <;> simp
    have hl : v.length = s.pd.length := by
      by_cases hp : 0 < s.pd.length
      · rw [hv]; exact (unapplyD_get' H e2.1 hp).2
      · exfalso
        have : pos.getD 0 0 ∈ pos := getD_mem (by omega)
        exact hp (by have := hw _ this; omega)
    refine ⟨hl, ?_, ?_⟩
    · intro k hk
      have hj : pos.getD k 0 < s.pd.length := hw _ (getD_mem hk)
      rw [hv, (unapplyD_get' H e2.1 hj).1]
      have h2 := e2.2 _ hj
      unfold vec at h2 ⊢
      rw [h2, hz, sum_pick hn hk]
      rw [e1.2 k hk]
      have h3 := vec_currD_true H hj
      unfold vec at h3
      rw [h3]
      have := optFac_ne H.facD hj
      field_simp
      ring
    · intro j hj hnm
      rw [hv, (unapplyD_get' H e2.1 hj).1]
      have h2 := e2.2 _ hj
      unfold vec at h2 ⊢
      rw [h2, hz, sum_none hnm]
      simp
  · rw [if_neg h0] at hv
    refine ⟨by rw [hv]; simpa using ld, fun k hk => by omega, ?_⟩
    intro j hj _
    rw [hv]
    unfold vec
    simp only [List.getD_eq_getElem?_getD, List.getElem?_map]
    cases (currD (innerProb U s) (SC) q true)[j]? <;> simp

/-- the bound used for an inequality, in the user's units. -/
theorem dBound_get (pos : List Nat) (hw : ∀ p ∈ pos, p < s.pd.length) (hn : pos.Nodup) (gb' : Nat → K) (oD : Option (List K)) (b : List K)
    (ho : ∀ o, oD = some o → o = (List.range pos.length).map (dBoundValues s pos gb'))
    (hno : oD = none → IsScaledLU dd pos ((List.range pos.length).map (dBoundValues s pos gb')) b) :
    (dBound (SC) oD b).length = pos.length ∧ ∀ k < pos.length,
      vec (dBound (SC) oD b) k = (if oD.isSome then optFac dd k else optFac dd (pos.getD k 0)) * gb' (s.pd.getD (pos.getD k 0) 0) := by
  cases oD with
  | none =>
    obtain ⟨-, h2, h3⟩ := hno rfl
    refine ⟨h2, fun k hk => ?_⟩
    show b.getD k 0 = _
    rw [h3 k hk]
    congr 1
    exact vec_range _ _ _ hk
  | some o =>
    have hoe := ho o rfl
    have hol : o.length = pos.length := by rw [hoe]; simp
    unfold dBound
    simp only
    unfold Scal.applyD
    rw [det_rowD]
    have hg : ∀ k < pos.length, vec o k = gb' (s.pd.getD (pos.getD k 0) 0) := by
      intro k hk
      rw [hoe, vec_range _ _ _ hk]; rfl
    cases h : dd with
    | none => exact ⟨by simpa using hol, fun k hk => by simpa [optFac] using hg k hk⟩
    | some w =>
      simp only [Option.isSome_some, if_true, optMul]
      have hle : pos.length ≤ s.pd.length := by
        have := (List.subperm_of_subset hn (fun x hx => List.mem_range.mpr (hw x hx))).length_le
        simpa using this
      have hw' := (H.facD w h).1
      refine ⟨by simp [emul, hol, hw', hle], fun k hk => ?_⟩
      have h1 : vec (emul o w) k = vec o k * vec w k := by
        unfold vec emul
        simp [List.getD_eq_getElem?_getD, show k < o.length by omega, show k < w.length by omega]
      rw [h1, hg k hk, mul_comm]
      rfl

/-- bound minus value at the inequalities with a lower bound; zero at the others. -/
theorem violL_get :
    (violL (innerProb U s) (SC) hom q false).length = s.pd.length ∧
    (∀ k < s.pdl.length, vec (violL (innerProb U s) (SC) hom q false) (s.pdl.getD k 0) =
      (if q.orig.isSome then optFac dd k else optFac dd (s.pdl.getD k 0)) * U.gl (s.pd.getD (s.pdl.getD k 0) 0) / optFac dd (s.pdl.getD k 0) -
        U.g (XX) (s.pd.getD (s.pdl.getD k 0) 0)) ∧
    ∀ j < s.pd.length, j ∉ s.pdl → vec (violL (innerProb U s) (SC) hom q false) j = 0 := by
  have hB := dBound_get H s.pdl (prob_ok H).dl (prob_ok H).dlN U.gl (q.orig.map (·.dL)) q.dL (by
      intro o ho
      cases hq : q.orig with
      | none => rw [hq] at ho; simp at ho
      | some o' =>
        rw [hq] at ho
        simp only [Option.map_some, Option.some.injEq] at ho
        rw [← ho]; exact (H.orig o' hq).2.2.1) (by
      intro ho
      cases hq : q.orig with
      | some o' => rw [hq] at ho; simp at ho
      | none => exact (H.noOrig hq).1)
  obtain ⟨h1, h2, h3⟩ := dViol_get H s.pdl (prob_ok H).dl (prob_ok H).dlN (dBound (SC) (q.orig.map (·.dL)) q.dL) hB.1 (-1)
    (violL (innerProb U s) (SC) hom q false) (by rw [neg_neg]; rfl)
  refine ⟨h1, fun k hk => ?_, h3⟩
  rw [h2 k hk, hB.2 k hk]
  rw [Option.isSome_map]
  ring

theorem violU_get :
    (violU (innerProb U s) (SC) hom q false).length = s.pd.length ∧
    (∀ k < s.pdu.length, vec (violU (innerProb U s) (SC) hom q false) (s.pdu.getD k 0) =
      U.g (XX) (s.pd.getD (s.pdu.getD k 0) 0) - (if q.orig.isSome then optFac dd k else optFac dd (s.pdu.getD k 0)) * U.gu (s.pd.getD (s.pdu.getD k 0) 0) / optFac dd (s.pdu.getD k 0)) ∧
    ∀ j < s.pd.length, j ∉ s.pdu → vec (violU (innerProb U s) (SC) hom q false) j = 0 := by
  have hB := dBound_get H s.pdu (prob_ok H).du (prob_ok H).duN U.gu (q.orig.map (·.dU)) q.dU (by
      intro o ho
      cases hq : q.orig with
      | none => rw [hq] at ho; simp at ho
      | some o' =>
        rw [hq] at ho
        simp only [Option.map_some, Option.some.injEq] at ho
        rw [← ho]; exact (H.orig o' hq).2.2.2) (by
      intro ho
      cases hq : q.orig with
      | some o' => rw [hq] at ho; simp at ho
      | none => exact (H.noOrig hq).2)
  obtain ⟨h1, h2, h3⟩ := dViol_get H s.pdu (prob_ok H).du (prob_ok H).duN (dBound (SC) (q.orig.map (·.dU)) q.dU) hB.1 1
    (violU (innerProb U s) (SC) hom q false) rfl
  refine ⟨h1, fun k hk => ?_, h3⟩
  rw [h2 k hk, hB.2 k hk]
  rw [Option.isSome_map]
  ring

omit [IsStrictOrderedRing K] in
/-- the arrays behind a successful call of `get_curr_iterate`. -/
theorem iter_fields {gOk jOk sca : Bool} {n m : Nat} {b it : Iter K}
    (h : getCurrIterate s U (SC) hom q .ready gOk jOk sca n m b = .yes it) :
    (∀ X, it.x = some X → X = resortX s (setFixed s U.xl U.fullX0) (vec (currX (SC) q sca)) true) ∧
    (∀ l, it.lam = some l → ∃ l0, b.lam = some l0 ∧ l = resortG s (U.rhs s) false (vec (currYc (SC) q sca)) (vec (currYd (SC) q sca)) l0) ∧
    (∀ g, it.g = some g → ∃ g0, b.g = some g0 ∧ g = iterG s U (SC) q sca g0) ∧
    (∀ zL zU, it.zL = some zL → it.zU = some zU → ∃ zL0 zU0, b.zL = some zL0 ∧ b.zU = some zU0 ∧
      zL = (iterZ s U (SC) hom q gOk jOk sca zL0 zU0).1 ∧ zU = (iterZ s U (SC) hom q gOk jOk sca zL0 zU0).2) := by
  unfold getCurrIterate at h
  simp only at h
  split at h
  · exact absurd h (by simp)
  split at h
  · exact absurd h (by simp)
  simp only [Out.yes.injEq] at h
  subst h
  refine ⟨?_, ?_, ?_, ?_⟩
  · intro X hX
    simp only [Option.map_eq_some_iff] at hX
    obtain ⟨_, _, h⟩ := hX
    exact h.symm
  · intro l hl
    simp only [Option.map_eq_some_iff] at hl
    obtain ⟨l0, h1, h2⟩ := hl
    exact ⟨l0, h1, h2.symm⟩
  · intro l hl
    simp only [Option.map_eq_some_iff] at hl
    obtain ⟨l0, h1, h2⟩ := hl
    exact ⟨l0, h1, h2.symm⟩
  · intro zL zU h1 h2
    cases hL : b.zL with
    | none => simp only [hL] at h1; exact absurd h1 (by simp)
    | some zL0 =>
      cases hU : b.zU with
      | none => simp only [hL, hU] at h2; exact absurd h2 (by simp)
      | some zU0 =>
        simp only [hL, hU, Option.some.injEq] at h1 h2
        exact ⟨zL0, zU0, rfl, rfl, h1.symm, h2.symm⟩

omit [IsStrictOrderedRing K] in
/-- the arrays behind a successful call of `get_curr_violations`. -/
theorem viol_fields {sca : Bool} {n m : Nat} {b v : Viol K}
    (h : getCurrViolations s U (SC) hom q .ready sca n m b = .yes v) :
    (∀ a, v.xL = some a → ∃ a0, a = outXL s U (SC) hom q sca a0) ∧ (∀ a, v.xU = some a → ∃ a0, a = outXU s U (SC) hom q sca a0) ∧
    (∀ a, v.cL = some a → ∃ a0, a = outCL s U (SC) hom q sca a0) ∧ (∀ a, v.cU = some a → ∃ a0, a = outCU s U (SC) hom q sca a0) ∧
    (∀ a, v.grad = some a → a = outGrad s U (SC) hom q sca) ∧
    (∀ a, v.con = some a → ∃ a0, b.con = some a0 ∧ a = outCon s U (SC) hom q sca a0) ∧
    (∀ a, v.cg = some a → ∃ a0, b.cg = some a0 ∧ a = outCG s U (SC) hom q sca a0) := by
  unfold getCurrViolations at h
  simp only at h
  split at h
  · exact absurd h (by simp)
  split at h
  · exact absurd h (by simp)
  simp only [Out.yes.injEq] at h
  subst h
  simp only [Option.map_eq_some_iff]
  refine ⟨?_, ?_, ?_, ?_, ?_, ?_, ?_⟩
  · rintro a ⟨a0, -, h⟩; exact ⟨a0, h.symm⟩
  · rintro a ⟨a0, -, h⟩; exact ⟨a0, h.symm⟩
  · rintro a ⟨a0, -, h⟩; exact ⟨a0, h.symm⟩
  · rintro a ⟨a0, -, h⟩; exact ⟨a0, h.symm⟩
  · rintro a ⟨a0, -, h⟩; exact h.symm
  · rintro a ⟨a0, h0, h⟩; exact ⟨a0, h0, h.symm⟩
  · rintro a ⟨a0, h0, h⟩; exact ⟨a0, h0, h.symm⟩
end sit
end Verif.CurrIter
