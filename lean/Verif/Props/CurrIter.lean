import Verif.Proof.CurrIter4
import Mathlib.Algebra.Order.Field.Rat
import Mathlib.Tactic.NormNum

/-! # What `get_curr_iterate` and `get_curr_violations` report (C61)

All statements are about the arrays returned by successful calls; the intermediate callback may be invoked in the regular and in the
restoration phase (`q.resto`), with any scaling, any treatment of fixed variables and any set of constraints taken out as dependent. -/

set_option linter.unusedSectionVars false
set_option linter.unusedVariables false
set_option linter.unusedSimpArgs false

namespace Verif.CurrIter
open Verif Verif.Adapter Verif.Matrix Finset
open Verif.Scaling hiding evalC evalD

section
variable {K : Type} [Field K] [LinearOrder K] [IsStrictOrderedRing K] {t : Fixed} {loInf upInf : Num} {xb gb : List (Num × Num)} {deps : List Nat} {s : Spaces}
  {U : User K} {of df : K} {dx dc dd : Option (List K)} {hom : List K → Option K} {q : Curr K}

set_option quotPrecheck false in
local notation "XX" => User.full U s (Scal.unapplyX (determine of df dx dc dd) q.pt.x)

/-- **C61** The calls return false exactly when there is nothing to report, throw exactly when a requested array has another dimension
than stated, and otherwise write exactly the requested arrays (z_L and z_U only together). -/
theorem calls_outcome (sc : Scal K) (av : Avail) (gOk jOk sca : Bool) (n m : Nat) (b : Iter K) (bv : Viol K) :
    (getCurrIterate s U sc hom q av gOk jOk sca n m b = .no ↔ av = .unusable) ∧
    (getCurrViolations s U sc hom q av sca n m bv = .no ↔ av = .unusable) ∧
    (getCurrIterate s U sc hom q av gOk jOk sca n m b = .exc ↔ av = .ready ∧
      ((n ≠ s.nFull ∧ (b.x ≠ none ∨ (b.zL ≠ none ∧ b.zU ≠ none))) ∨ (m ≠ s.mFull ∧ (b.lam ≠ none ∨ b.g ≠ none)))) ∧
    (getCurrViolations s U sc hom q av sca n m bv = .exc ↔ av = .ready ∧
      ((n ≠ s.nFull ∧ (bv.xL ≠ none ∨ bv.xU ≠ none ∨ bv.cL ≠ none ∨ bv.cU ≠ none ∨ bv.grad ≠ none)) ∨
        (m ≠ s.mFull ∧ (bv.con ≠ none ∨ bv.cg ≠ none)))) ∧
    (∀ it, getCurrIterate s U sc hom q av gOk jOk sca n m b = .yes it →
      (it.x = none ↔ b.x = none) ∧ (it.g = none ↔ b.g = none) ∧ (it.lam = none ↔ b.lam = none) ∧
      (it.zL = none ↔ b.zL = none) ∧ (it.zU = none ↔ b.zU = none) ∧ (b.zU = none → it.zL = b.zL) ∧ (b.zL = none → it.zU = b.zU)) ∧
    (∀ v, getCurrViolations s U sc hom q av sca n m bv = .yes v →
      (v.xL = none ↔ bv.xL = none) ∧ (v.xU = none ↔ bv.xU = none) ∧ (v.cL = none ↔ bv.cL = none) ∧ (v.cU = none ↔ bv.cU = none) ∧
      (v.grad = none ↔ bv.grad = none) ∧ (v.con = none ↔ bv.con = none) ∧ (v.cg = none ↔ bv.cg = none)) := by
  have hs : ∀ {α : Type} (o : Option α), (o.isSome = true) = (o ≠ none) := by
    intro α o; cases o <;> simp
  unfold getCurrIterate getCurrViolations
  simp only [hs]
  cases av with
  | unusable => simp
  | ready =>
    simp only [reduceCtorEq, true_and, false_iff, iff_false]
    refine ⟨?_, ?_, ?_, ?_, ?_, ?_⟩
    · split
      · simp
      · split <;> simp
    · split
      · simp
      · split <;> simp
    · split
      · rename_i h; simp only [true_iff]; exact Or.inl h
      · split
        · rename_i h; simp only [true_iff]; exact Or.inr h
        · rename_i h1 h2
          simp only [reduceCtorEq, false_iff]
          rintro (h | h)
          · exact h1 h
          · exact h2 h
    · split
      · rename_i h; simp only [true_iff]; exact Or.inl h
      · split
        · rename_i h; simp only [true_iff]; exact Or.inr h
        · rename_i h1 h2
          simp only [reduceCtorEq, false_iff]
          rintro (h | h)
          · exact h1 h
          · exact h2 h
    · intro it h
      split at h
      · simp at h
      · split at h
        · simp at h
        · simp only [Out.yes.injEq] at h
          subst h
          cases b.zL <;> cases b.zU <;> simp
    · intro it h
      split at h
      · simp at h
      · split at h
        · simp at h
        · simp only [Out.yes.injEq] at h
          subst h
          simp

variable (H : Sit t loInf upInf xb gb deps s U of df dx dc dd hom q)
variable {n m n' m' : Nat} {gOk jOk : Bool} {b it : Iter K} {bv v : Viol K} {X g lam zL zU : Nat → K}

include H

omit [IsStrictOrderedRing K] in
theorem X_eq {gOk jOk : Bool} (hI : getCurrIterate s U (determine of df dx dc dd) hom q .ready gOk jOk false n m b = .yes it)
    (hX : it.x = some X) : X = XX := by
  rw [(iter_fields H hI).1 X hX, currX_false]; rfl

/-- **C61** The reported point is the algorithm's point in the user's numbering and units; removed variables are at their fixed value. -/
theorem iterate_point (hI : getCurrIterate s U (determine of df dx dc dd) hom q .ready gOk jOk false n m b = .yes it) (hX : it.x = some X) :
    (∀ k < s.nVar, X (s.user k) = q.pt.x.getD k 0 / optFac dx k) ∧
      ∀ i < xb.length, Removed s.treat (bnd xb i) → X i = U.xl i := by
  rw [X_eq H hI hX]
  exact ⟨fun k hk => full_user H hk, fun i hi hr => full_removed H hi hr⟩

/-- **C61** The reported constraint values are the user's g at the reported point — also in the restoration phase and whatever the
scaling; entries of constraints taken out as dependent are not written. -/
theorem iterate_constraints (hI : getCurrIterate s U (determine of df dx dc dd) hom q .ready gOk jOk false n m b = .yes it)
    (hX : it.x = some X) (hg : it.g = some g) (i : Nat) (hi : i < gb.length) :
    (Kept gb deps i → g i = U.g X i) ∧ (¬Kept gb deps i → ∃ g0, b.g = some g0 ∧ g i = g0 i) := by
  obtain ⟨-, -, h3, -⟩ := iter_fields H hI
  obtain ⟨g0, hb, rfl⟩ := h3 g hg
  rw [X_eq H hI hX]
  have e : iterG s U (determine of df dx dc dd) q false g0 = resortG s (U.rhs s) true
      (vec (currC (innerProb U s) (determine of df dx dc dd) q false)) (vec (currD (innerProb U s) (determine of df dx dc dd) q false)) g0 := by
    unfold iterG; simp
  rw [e]
  obtain ⟨r1, r2, r3⟩ := resortG_delivers H.sorted H.spaces (U.rhs s)
    (vec (currC (innerProb U s) (determine of df dx dc dd) q false)) (vec (currD (innerProb U s) (determine of df dx dc dd) q false)) g0 true
  constructor
  · intro hk
    rcases (not_kept_iff H hi).mp hk with h | h
    · obtain ⟨k, hl, rfl⟩ := List.mem_iff_getElem.mp h
      rw [r1 k hl, if_pos rfl, vec_currC H (by omega)]
      unfold Adapter.evalC
      rw [if_pos hl, List.getD_eq_getElem _ _ hl]
      ring
    · obtain ⟨k, hl, rfl⟩ := List.mem_iff_getElem.mp h
      rw [r2 k hl, vec_currD H hl, List.getD_eq_getElem _ _ hl]
  · intro hk
    have := (not_kept_iff H hi).not.mp hk
    push Not at this
    exact ⟨g0, hb, r3 i this.1 this.2⟩

/-- **C61** The reported constraint multipliers are the algorithm's, in the user's numbering and units; entries of constraints taken out as
dependent are not written. -/
theorem iterate_lambda (hI : getCurrIterate s U (determine of df dx dc dd) hom q .ready gOk jOk false n m b = .yes it)
    (hl : it.lam = some lam) :
    (∀ k, (hk : k < s.pc.length) → lam s.pc[k] = optFac dc k * q.pt.yc.getD k 0 / (df * of)) ∧
    (∀ k, (hk : k < s.pd.length) → lam s.pd[k] = optFac dd k * q.pt.yd.getD k 0 / (df * of)) ∧
    (∀ i < gb.length, ¬Kept gb deps i → ∃ l0, b.lam = some l0 ∧ lam i = l0 i) := by
  obtain ⟨-, h2, -, -⟩ := iter_fields H hI
  obtain ⟨l0, hb, rfl⟩ := h2 lam hl
  obtain ⟨r1, r2, r3⟩ := resortG_delivers H.sorted H.spaces (U.rhs s) (vec (currYc (determine of df dx dc dd) q false))
    (vec (currYd (determine of df dx dc dd) q false)) l0 false
  have inv : ∀ a b c : K, a⁻¹ * (b * c) = b * c / a := by intro a b c; rw [div_eq_mul_inv]; ring
  refine ⟨?_, ?_, ?_⟩
  · intro k hk
    rw [r1 k hk, if_neg (by simp), vec_currYc H (by omega)]; exact inv _ _ _
  · intro k hk
    rw [r2 k hk, vec_currYd H hk]; exact inv _ _ _
  · intro i hi hk
    have := (not_kept_iff H hi).not.mp hk
    push Not at this
    exact ⟨l0, hb, r3 i this.1 this.2⟩

/-- **C61** The reported bound multipliers are the algorithm's, in the user's numbering, units and sign convention. -/
theorem iterate_bound_multipliers (hI : getCurrIterate s U (determine of df dx dc dd) hom q .ready true true false n m b = .yes it)
    (hzL : it.zL = some zL) (hzU : it.zU = some zU) :
    (∀ k, (hk : k < s.pxl.length) → zL (s.user s.pxl[k]) = optFac dx s.pxl[k] * q.pt.zL.getD k 0 / (df * of)) ∧
    (∀ k, (hk : k < s.pxu.length) → zU (s.user s.pxu[k]) = optFac dx s.pxu[k] * q.pt.zU.getD k 0 / (df * of)) ∧
    (∀ k, (hk : k < s.fixed.length) → s.treat = .makeConstraint →
      zU s.fixed[k] - zL s.fixed[k] = optFac dc (s.pc.length + k) * q.pt.yc.getD (s.pc.length + k) 0 / (df * of)) ∧
    (∀ i < xb.length, ¬IsFixed (bnd xb i) → ¬loInf < (bnd xb i).1 → zL i = 0) ∧
    (∀ i < xb.length, ¬IsFixed (bnd xb i) → ¬(bnd xb i).2 < upInf → zU i = 0) := by
  obtain ⟨-, -, -, h4⟩ := iter_fields H hI
  obtain ⟨zL0, zU0, -, -, rfl, rfl⟩ := h4 zL zU hzL hzU
  rw [iterZ_eq H]
  obtain ⟨hE, hII, hN, hF⟩ := spaces_variables H.spaces
  obtain ⟨hbl, hbu⟩ := spaces_bounds H.spaces
  have inv : ∀ a b c : K, a⁻¹ * (b * c) = b * c / a := by intro a b c; rw [div_eq_mul_inv]; ring
  -- variables with a bound keep the multipliers of their bounds
  have keep : ∀ c < s.nVar, (HasLower s.treat loInf (bnd xb (s.user c)) ∨ HasUpper s.treat upInf (bnd xb (s.user c))) →
      ∀ (a b c' d e f g h : Nat → K), (resortBoundMult s U.jacPos a b c' d e f g h).1 (s.user c) = resortBound s s.pxl e g (s.user c) ∧
        (resortBoundMult s U.jacPos a b c' d e f g h).2 (s.user c) = resortBound s s.pxu f h (s.user c) := by
    intro c hc hb a b c' d e f g h
    by_cases hfx : IsFixed (bnd xb (s.user c))
    · have ht : s.treat = .relaxBounds := by
        rcases hb with h | h <;> rcases h with h | h
        · exact absurd hfx h.1
        · exact h.2
        · exact absurd hfx h.1
        · exact h.2
      unfold resortBoundMult
      rw [ht]
      split <;> exact ⟨rfl, rfl⟩
    · exact free_multipliers_unchanged H.spaces U.jacPos a b c' d e f g h _ hfx
  refine ⟨?_, ?_, ?_, ?_, ?_⟩
  · intro k hk
    have hm := (hbl.2 _).mp (List.getElem_mem hk)
    rw [(keep _ hm.1 (Or.inl hm.2) _ _ _ _ _ _ _ _).1]
    rw [(bound_multipliers_delivered H.spaces (vec (currZ (determine of df dx dc dd) hom (innerProb U s).PxL q.pt.zL false)) zL0).1.1 k hk,
      vec_currZL H hk, List.getD_eq_getElem _ _ hk]; exact inv _ _ _
  · intro k hk
    have hm := (hbu.2 _).mp (List.getElem_mem hk)
    rw [(keep _ hm.1 (Or.inr hm.2) _ _ _ _ _ _ _ _).2]
    rw [(bound_multipliers_delivered H.spaces (vec (currZ (determine of df dx dc dd) hom (innerProb U s).PxU q.pt.zU false)) zU0).2.1 k hk,
      vec_currZU H hk, List.getD_eq_getElem _ _ hk]; exact inv _ _ _
  · intro k hk ht
    have hnf : nFix s = s.fixed.length := by unfold nFix; rw [ht]; rfl
    rw [(fixed_multipliers_constraint H.spaces ht U.jacPos _ _ _ _ _ _ zL0 zU0 k hk).1, vec_currYc H (by omega)]; exact inv _ _ _
  · intro i hi hfx hlo
    rw [(free_multipliers_unchanged H.spaces U.jacPos _ _ _ _ _ _ zL0 zU0 i hfx).1]
    refine (bound_multipliers_delivered H.spaces _ zL0).1.2 i hi ?_
    rintro ⟨-, h | h⟩
    · exact hlo h.2
    · exact hfx h.1
  · intro i hi hfx hup
    rw [(free_multipliers_unchanged H.spaces U.jacPos _ _ _ _ _ _ zL0 zU0 i hfx).2]
    refine (bound_multipliers_delivered H.spaces _ zU0).2.2 i hi ?_
    rintro ⟨-, h | h⟩
    · exact hup h.2
    · exact hfx h.1

/-- **C61** The reported gradient is the gradient of the Lagrangian of the user's problem at the reported point with the reported
multipliers, for every variable that is not fixed, and for fixed variables with the default treatment `make_parameter` and with
`relax_bounds`. -/
theorem violations_gradient (hI : getCurrIterate s U (determine of df dx dc dd) hom q .ready true true false n m b = .yes it)
    (hV : getCurrViolations s U (determine of df dx dc dd) hom q .ready false n' m' bv = .yes v)
    (hX : it.x = some X) (hl : it.lam = some lam) (hzL : it.zL = some zL) (hzU : it.zU = some zU) {G : Nat → K} (hG : v.grad = some G)
    (i : Nat) (hi : i < xb.length) (hfix : IsFixed (bnd xb i) → s.treat = .makeParameter ∨ s.treat = .relaxBounds) :
    G i = gradLag U gb deps X lam zL zU i := by
  obtain ⟨-, h2, -, h4⟩ := iter_fields H hI
  obtain ⟨l0, -, rfl⟩ := h2 lam hl
  obtain ⟨zL0, zU0, -, -, rfl, rfl⟩ := h4 zL zU hzL hzU
  rw [X_eq H hI hX, (viol_fields H hV).2.2.2.2.1 G hG]
  obtain ⟨hE, hII, hN, hF⟩ := spaces_variables H.spaces
  unfold outGrad
  rw [putFixed_not (fixed_nodup H) (fun k a i => a i + vec (currYc (determine of df dx dc dd) q false) k * (1 - U.rhs s k)) (by intro k a a' i h; rw [h])]
  · by_cases hr : Removed s.treat (bnd xb i)
    · unfold resortX
      rw [(hN i hi).mpr hr]
      simp only [Bool.false_eq_true, if_false]
      have ht : s.treat = .makeParameter := by
        rcases hfix hr.2 with h | h
        · exact h
        · obtain ⟨h1 | h1, -⟩ := hr <;> rw [h] at h1 <;> simp at h1
      rw [iterZ_eq H]
      have hd := (fixed_multipliers_dual_feasible H.sorted H.spaces ht U.jacPos (fun e he => (H.jac e he).2) (U.gradF (XX)) (U.jac (XX))
        (vec (currYc (determine of df dx dc dd) q false)) (vec (currYd (determine of df dx dc dd) q false))
        (vec (currZ (determine of df dx dc dd) hom (innerProb U s).PxL q.pt.zL false))
        (vec (currZ (determine of df dx dc dd) hom (innerProb U s).PxU q.pt.zU false)) zL0 zU0 (U.rhs s) i hi hr.2).1
      unfold gradLag
      rw [← jac_sum H]
      refine hd.symm.trans ?_
      congr 3
      refine congrArg List.sum (List.map_congr_left fun e _ => ?_)
      by_cases he : e.1.2 = i
      · simp only [if_pos he]; rw [rowMult_eq H.sorted H.spaces _ _ (U.rhs s)]
      · simp only [if_neg he]
    · obtain ⟨c, hc, rfl⟩ := hE.2.2 i hi hr
      unfold resortX
      rw [(hII _ hi c).mpr ⟨hc, rfl⟩]
      exact grad_user H l0 zL0 zU0 hc
  · intro ht hm
    rcases hfix ((hF.2 i).mp hm).2.1 with h | h <;> rw [ht] at h <;> simp at h

/-- **C61** (deviation) For variables fixed by a constraint (`make_constraint`) the reported gradient is not the gradient of the Lagrangian:
it has the additional term (z_U - z_L)(1 - fixed value).  With `make_parameter_nodual` zero is reported (and no multipliers). -/
theorem violations_gradient_fixed (hI : getCurrIterate s U (determine of df dx dc dd) hom q .ready true true false n m b = .yes it)
    (hV : getCurrViolations s U (determine of df dx dc dd) hom q .ready false n' m' bv = .yes v)
    (hX : it.x = some X) (hl : it.lam = some lam) (hzL : it.zL = some zL) (hzU : it.zU = some zU) {G : Nat → K} (hG : v.grad = some G)
    (i : Nat) (hi : i < xb.length) (hfix : IsFixed (bnd xb i)) :
    (s.treat = .makeConstraint → G i = gradLag U gb deps X lam zL zU i + (zU i - zL i) * (1 - U.xl i)) ∧
    (s.treat = .makeParameterNodual → G i = 0 ∧ zL i = 0 ∧ zU i = 0) := by
  obtain ⟨-, h2, -, h4⟩ := iter_fields H hI
  obtain ⟨l0, -, rfl⟩ := h2 lam hl
  obtain ⟨zL0, zU0, -, -, rfl, rfl⟩ := h4 zL zU hzL hzU
  rw [X_eq H hI hX, (viol_fields H hV).2.2.2.2.1 G hG]
  obtain ⟨hE, hII, hN, hF⟩ := spaces_variables H.spaces
  unfold outGrad
  constructor
  · intro ht
    have hm : i ∈ s.fixed := (hF.2 i).mpr ⟨hi, hfix, by rw [ht]; decide⟩
    obtain ⟨k, hk, rfl⟩ := List.mem_iff_getElem.mp hm
    rw [putFixed_at ht (fixed_nodup H) (fun k a i => a i + vec (currYc (determine of df dx dc dd) q false) k * (1 - U.rhs s k)) (by intro k a a' i h; rw [h]) _ k hk]
    have hnr : ¬Removed s.treat (bnd xb s.fixed[k]) := by
      rintro ⟨h | h, -⟩ <;> rw [ht] at h <;> simp at h
    obtain ⟨c, hc, hce⟩ := hE.2.2 _ hi hnr
    have e1 : resortX s (setFixed s U.xl U.fullX0) (vec (currGradLag (innerProb U s) (determine of df dx dc dd) hom q false)) false s.fixed[k] =
        vec (currGradLag (innerProb U s) (determine of df dx dc dd) hom q false) c := by
      unfold resortX
      rw [(hII _ hi c).mpr ⟨hc, hce⟩]
    rw [e1, grad_user H l0 zL0 zU0 hc, hce]
    congr 1
    rw [iterZ_eq H, (fixed_multipliers_constraint H.spaces ht U.jacPos _ _ _ _ _ _ zL0 zU0 k hk).1]
    congr 2
    unfold User.rhs cRhs
    rw [if_neg (by omega), show s.pc.length + k - s.pc.length = k by omega, List.getD_eq_getElem _ _ hk]
  · intro ht
    have hr : Removed s.treat (bnd xb i) := ⟨Or.inr ht, hfix⟩
    rw [putFixed_not (fixed_nodup H) (fun k a i => a i + vec (currYc (determine of df dx dc dd) q false) k * (1 - U.rhs s k)) (by intro k a a' i h; rw [h]) _ _ (by rw [ht]; intro h; simp at h)]
    refine ⟨?_, ?_, ?_⟩
    · unfold resortX
      rw [(hN i hi).mpr hr]
      simp
    · rw [iterZ_eq H]
      unfold resortBoundMult
      rw [ht]
      have := (bound_multipliers_delivered H.spaces (vec (currZ (determine of df dx dc dd) hom (innerProb U s).PxL q.pt.zL false)) zL0).1.2 i hi
        (fun h => h.1 hr)
      split <;> exact this
    · rw [iterZ_eq H]
      unfold resortBoundMult
      rw [ht]
      have := (bound_multipliers_delivered H.spaces (vec (currZ (determine of df dx dc dd) hom (innerProb U s).PxU q.pt.zU false)) zU0).2.2 i hi
        (fun h => h.1 hr)
      split <;> exact this

end
end Verif.CurrIter
