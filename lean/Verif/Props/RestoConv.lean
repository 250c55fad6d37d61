import Verif.Model.RestoConv
import Mathlib.Tactic.Ring
import Mathlib.Tactic.NormNum

/-! # C67: when and how the restoration phase ends -/

namespace Verif.RestoConv
open Verif.Alg
set_option linter.unusedSimpArgs false
set_option linter.unusedVariables false

/-- the point of the restoration phase may be handed back to the original problem: the original constraint violation is small (square problem), or has been
reduced by the required factor (not below the tolerances; to zero if the factor is zero) and the point is acceptable to the filter and to the
iterate at which the restoration phase started. -/
def Good (cfg : RCfg) (square filterOk iterateOk : Bool) (before now : ℚ) : Prop :=
  (square = true ∧ now ≤ min cfg.origTol cfg.violTol) ∨
  ((if cfg.kappa = 0 then now ≤ 0 else now ≤ max (cfg.kappa * before) (min cfg.origTol cfg.violTol)) ∧ filterOk = true ∧ iterateOk = true)

/-- the termination test of the restoration problem itself, with the current tolerance. -/
def SelfConverged (cfg : RCfg) (tol : ℚ) (o : Obs) : Prop :=
  (o.err ≤ .fin tol ∧ o.dual ≤ cfg.base.dualTol ∧ o.viol ≤ cfg.base.violTol ∧ o.compl ≤ cfg.base.complTol) ∨
  (0 < cfg.base.accIter ∧ o.err ≤ cfg.base.accTol ∧ o.dual ≤ cfg.base.accDualTol ∧ o.viol ≤ cfg.base.accViolTol ∧ o.compl ≤ cfg.base.accComplTol)

theorem nmin_eq (a b : ℚ) : nmin a b = min a b := by
  unfold nmin; split
  · rename_i h; rw [min_eq_right h.le]
  · rename_i h; rw [min_eq_left (not_lt.1 h)]

theorem infMax_eq (cfg : RCfg) (o : RObs) (a : ℚ) (h : o.currInf = .fin a) :
    infMax cfg o = .fin (if cfg.kappa = 0 then 0 else max (cfg.kappa * a) (min cfg.origTol cfg.violTol)) := by
  unfold infMax
  split
  · rfl
  · rw [h, nmin_eq]
    show nmax (.fin (cfg.kappa * a)) _ = _
    unfold nmax
    split
    · rename_i h; rw [Num.fin_lt_fin] at h; rw [max_eq_right h.le]
    · rename_i h; rw [Num.fin_lt_fin] at h; rw [max_eq_left (not_lt.1 h)]

theorem test_conv (cfg : RCfg) (st : RSt) (o : RObs) (a b : ℚ) (ha : o.currInf = .fin a) (hb : o.trialInf = .fin b) :
    test cfg st o = .converged ↔ st.first = false ∧ Good cfg o.square o.filterOk o.iterateOk a b := by
  unfold test Good
  rw [infMax_eq cfg o a ha, hb, nmin_eq]
  simp only [Num.fin_le_fin, Num.fin_lt_fin]
  cases st.first with
  | true => simp
  | false =>
    simp only [Bool.false_eq_true, if_false, true_and]
    by_cases h1 : o.square = true ∧ b ≤ min cfg.origTol cfg.violTol
    · rw [if_pos h1]; exact ⟨fun _ => Or.inl h1, fun _ => rfl⟩
    · rw [if_neg h1]
      by_cases h2 : (if cfg.kappa = 0 then 0 else max (cfg.kappa * a) (min cfg.origTol cfg.violTol)) < b
      · rw [if_pos h2]
        refine ⟨fun h => (by cases h), fun h => ?_⟩
        rcases h with h | ⟨h, _⟩
        · exact absurd h h1
        · split at h2 <;> rename_i hk
          · rw [if_pos hk] at h; exact absurd h (not_le.2 h2)
          · rw [if_neg hk] at h; exact absurd h (not_le.2 h2)
      · rw [if_neg h2]
        have h3 : (if cfg.kappa = 0 then b ≤ 0 else b ≤ max (cfg.kappa * a) (min cfg.origTol cfg.violTol)) := by
          split at h2 <;> rename_i hk
          · rw [if_pos hk]; exact not_lt.1 h2
          · rw [if_neg hk]; exact not_lt.1 h2
        unfold progress
        generalize (o.square = true ∧ b ≤ min cfg.origTol cfg.violTol) = P at h1
        generalize (if cfg.kappa = 0 then b ≤ 0 else b ≤ max (cfg.kappa * a) (min cfg.origTol cfg.violTol)) = Q at h3
        cases o.filterOk <;> cases o.iterateOk <;> simp [h1, h3]

theorem test_cases (cfg : RCfg) (st : RSt) (o : RObs) : test cfg st o = .cont ∨ test cfg st o = .converged := by
  unfold test progress
  split
  · exact Or.inl rfl
  · split
    · exact Or.inr rfl
    · split
      · exact Or.inl rfl
      · split
        · exact Or.inl rfl
        · split
          · exact Or.inl rfl
          · exact Or.inr rfl

theorem second_conv (cfg : RCfg) (st : RSt) (o : RObs) : (second cfg st o).1 ≠ .status .converged := by
  unfold second
  simp only []
  split
  · intro h; cases h
  · split
    · split
      · intro h; cases h
      · split
        · intro h; cases h
        · split <;> intro h <;> cases h
    · rename_i hs
      intro h
      injection h with h
      exact hs (Or.inl h)

theorem rcheck_eq (cfg : RCfg) (cb : Bool) (st : RSt) (o : RObs) (h : ¬ ((cb = true ∧ o.base.goOn = false) ∨ cfg.maxIter ≤ o.base.iter ∨ cfg.maxRestoIter < st.succ)) :
    (rcheck cfg cb st o).1 = (if test cfg st o = .cont then (second cfg { st with succ := st.succ + 1 } o).1 else .status (test cfg st o)) := by
  push Not at h
  obtain ⟨h1, h2, h3⟩ := h
  have hc : (cb && !o.base.goOn) = false := by
    cases hcb : cb <;> simp_all
  unfold rcheck
  rw [hc, if_neg (by simp), if_neg (by omega), if_neg (by omega)]
  have ht : test cfg { st with succ := st.succ + 1 } o = test cfg st o := rfl
  by_cases hx : test cfg st o = .cont
  · rw [if_pos hx]
    simp only [ht, hx, if_true]
    cases hy : (second cfg { st with succ := st.succ + 1 } o).1 <;> rfl
  · rw [if_neg hx]
    simp only [ht, hx, if_false]

/-- The restoration phase reports success exactly if the callback does not stop it, the iteration limits are not reached, it is not the first check (so at
least one step has been taken), and the point is good for the original problem. -/
theorem resto_success (cfg : RCfg) (cb : Bool) (st : RSt) (o : RObs) (a b : ℚ) (ha : o.currInf = .fin a) (hb : o.trialInf = .fin b) :
    (rcheck cfg cb st o).1 = .status .converged ↔
      (cb = true → o.base.goOn = true) ∧ o.base.iter < cfg.maxIter ∧ st.succ ≤ cfg.maxRestoIter ∧ st.first = false ∧
      Good cfg o.square o.filterOk o.iterateOk a b := by
  by_cases h : (cb = true ∧ o.base.goOn = false) ∨ cfg.maxIter ≤ o.base.iter ∨ cfg.maxRestoIter < st.succ
  · constructor
    · intro hr
      exfalso
      unfold rcheck at hr
      split at hr
      · cases hr
      · split at hr
        · cases hr
        · split at hr
          · cases hr
          · rename_i h1 h2 h3
            rcases h with h | h | h
            · apply h1; simp [h.1, h.2]
            · exact h2 h
            · exact h3 h
    · rintro ⟨h1, h2, h3, _⟩
      rcases h with h | h | h
      · rw [h1 h.1] at h; cases h.2
      · omega
      · omega
  · rw [rcheck_eq cfg cb st o h]
    push Not at h
    have hcb : cb = true → o.base.goOn = true := fun hc => by
      have := h.1 hc
      cases hg : o.base.goOn
      · exact absurd hg this
      · rfl
    have ht := test_conv cfg st o a b ha hb
    rcases test_cases cfg st o with hc | hc
    · rw [if_pos hc]
      constructor
      · intro h; exact absurd h (second_conv _ _ _)
      · rintro ⟨_, _, _, h5, h6⟩
        rw [ht.2 ⟨h5, h6⟩] at hc; cases hc
    · rw [if_neg (by rw [hc]; intro h; cases h), hc]
      obtain ⟨h5, h6⟩ := ht.1 hc
      exact ⟨fun _ => ⟨hcb, h.2.1, h.2.2, h5, h6⟩, fun _ => rfl⟩

theorem check_conv (cfg : CCfg) (st : CSt) (o : Obs) (hd : o.dim ≠ 0) :
    (check cfg false st o).1 ≠ none ∧
    ((check cfg false st o).1 = some .converged → o.err ≤ cfg.tol ∧ o.dual ≤ cfg.dualTol ∧ o.viol ≤ cfg.violTol ∧ o.compl ≤ cfg.complTol) ∧
    ((check cfg false st o).1 = some .acceptable → 0 < cfg.accIter ∧ o.err ≤ cfg.accTol ∧ o.dual ≤ cfg.accDualTol ∧ o.viol ≤ cfg.accViolTol ∧ o.compl ≤ cfg.accComplTol) := by
  have hl : ∀ s, limits cfg o = s → s ≠ .converged ∧ s ≠ .acceptable := by
    intro s h
    unfold limits at h
    subst h
    split
    · exact ⟨by simp, by simp⟩
    · split
      · exact ⟨by simp, by simp⟩
      · split
        · exact ⟨by simp, by simp⟩
        · split <;> exact ⟨by simp, by simp⟩
  have hl' := hl _ rfl
  unfold check
  rw [show (false && !o.goOn) = false from rfl, if_neg (by simp)]
  split
  · rename_i h; exact ⟨by simp, fun _ => h, fun h => (by simp at h)⟩
  · try rw [if_neg hd]
    split
    · rename_i hacc
      simp only []
      split
      · rename_i hok
        unfold isAcceptable at hok
        simp only [Bool.and_eq_true, decide_eq_true_eq] at hok
        obtain ⟨⟨⟨⟨e1, e2⟩, e3⟩, e4⟩, _⟩ := hok
        split
        · exact ⟨by simp, fun h => (by simp at h), fun _ => ⟨hacc, e1, e2, e3, e4⟩⟩
        · exact ⟨by simp, fun h => absurd (Option.some.inj h) hl'.1, fun h => absurd (Option.some.inj h) hl'.2⟩
      · exact ⟨by simp, fun h => absurd (Option.some.inj h) hl'.1, fun h => absurd (Option.some.inj h) hl'.2⟩
    · exact ⟨by simp, fun h => absurd (Option.some.inj h) hl'.1, fun h => absurd (Option.some.inj h) hl'.2⟩

/-- The other ways to end: "acceptable" only for a square problem whose constraints hold up to `constr_viol_tol`; the two exceptions only if the restoration problem
itself satisfies its own termination test — "feasible point" if the original infeasibility is at most `100·tol` and `tol` has been tightened below
a tenth of the original one, "locally infeasible" if it is larger than `100·tol`.  (The restoration problem has variables.) -/
theorem resto_endings (cfg : RCfg) (cb : Bool) (st : RSt) (o : RObs) (hd : o.base.dim ≠ 0) :
    ((rcheck cfg cb st o).1 = .status .acceptable → SelfConverged cfg st.tol o.base ∧ o.square = true ∧ o.trialInf ≤ .fin cfg.violTol) ∧
    ((rcheck cfg cb st o).1 = .feasiblePoint → SelfConverged cfg st.tol o.base ∧ o.trialInf ≤ .fin (100 * st.tol) ∧ st.tol ≤ cfg.origTol / 10) ∧
    ((rcheck cfg cb st o).1 = .infeasible → SelfConverged cfg st.tol o.base ∧ ¬ o.trialInf ≤ .fin (100 * st.tol) ∧
      (o.square = true → ¬ o.trialInf ≤ .fin cfg.violTol)) := by
  by_cases h : (cb = true ∧ o.base.goOn = false) ∨ cfg.maxIter ≤ o.base.iter ∨ cfg.maxRestoIter < st.succ
  · have : (rcheck cfg cb st o).1 = .status .userStop ∨ (rcheck cfg cb st o).1 = .status .maxiter := by
      unfold rcheck
      split
      · exact Or.inl rfl
      · split
        · exact Or.inr rfl
        · split
          · exact Or.inr rfl
          · rename_i h1 h2 h3
            exfalso
            rcases h with h | h | h
            · apply h1; simp [h.1, h.2]
            · exact h2 h
            · exact h3 h
    rcases this with h | h <;> rw [h] <;> refine ⟨fun h => (by simp at h), fun h => (by cases h), fun h => (by cases h)⟩
  · rw [rcheck_eq cfg cb st o h]
    rcases test_cases cfg st o with hc | hc
    · rw [if_pos hc]
      have hcc := check_conv { cfg.base with tol := .fin st.tol } st.base o.base hd
      unfold second
      simp only []
      cases hr : (check { cfg.base with tol := .fin st.tol } false st.base o.base).1 with
      | none => exact absurd hr hcc.1
      | some s =>
        simp only []
        split
        · rename_i hs
          have hself : SelfConverged cfg st.tol o.base := by
            rcases hs with rfl | rfl
            · exact Or.inl (hcc.2.1 hr)
            · exact Or.inr (hcc.2.2 hr)
          split
          · refine ⟨fun h => (by simp at h), fun h => (by cases h), fun h => (by cases h)⟩
          · rename_i ht
            split
            · rename_i hsq
              exact ⟨fun _ => ⟨hself, hsq⟩, fun h => (by cases h), fun h => (by cases h)⟩
            · rename_i hsq
              split
              · rename_i h100
                refine ⟨fun h => (by simp at h), fun _ => ⟨hself, h100, ?_⟩, fun h => (by cases h)⟩
                have : ¬ 1 / 10 * cfg.origTol < st.tol := fun h => ht ⟨h100, h⟩
                linarith
              · rename_i h100
                exact ⟨fun h => (by simp at h), fun h => (by cases h), fun _ => ⟨hself, h100, fun h1 h2 => hsq ⟨h1, h2⟩⟩⟩
        · rename_i hs
          refine ⟨fun h => ?_, fun h => (by cases h), fun h => (by cases h)⟩
          injection h with h
          exact absurd (Or.inr h) hs
    · rw [if_neg (by rw [hc]; intro h; cases h), hc]
      refine ⟨fun h => (by simp at h), fun h => (by cases h), fun h => (by cases h)⟩

/-- state changes of a check. -/
theorem rcheck_state (cfg : RCfg) (cb : Bool) (st : RSt) (o : RObs) :
    ((rcheck cfg cb st o).1 = .status .cont → (rcheck cfg cb st o).2.succ = st.succ + 1 ∧ st.succ ≤ cfg.maxRestoIter ∧ (rcheck cfg cb st o).2.first = false) ∧
    ((rcheck cfg cb st o).2.tol = st.tol ∨ (rcheck cfg cb st o).2.tol = st.tol / 100 ∧ cfg.origTol / 10 < st.tol) := by
  have hsec : ∀ st : RSt, (second cfg st o).2.succ = st.succ ∧ ((second cfg st o).2.tol = st.tol ∨ (second cfg st o).2.tol = st.tol / 100 ∧ cfg.origTol / 10 < st.tol) := by
    intro st
    unfold second
    simp only []
    split
    · exact ⟨rfl, Or.inl rfl⟩
    · split
      · split
        · rename_i h
          refine ⟨rfl, Or.inr ⟨?_, by linarith [h.2]⟩⟩
          show 1 / 100 * st.tol = _
          ring
        · split
          · exact ⟨rfl, Or.inl rfl⟩
          · split <;> exact ⟨rfl, Or.inl rfl⟩
      · exact ⟨rfl, Or.inl rfl⟩
  unfold rcheck
  split
  · exact ⟨fun h => (by simp at h), Or.inl rfl⟩
  · split
    · exact ⟨fun h => (by simp at h), Or.inl rfl⟩
    · split
      · exact ⟨fun h => (by simp at h), Or.inl rfl⟩
      · rename_i h3
        by_cases hx : test cfg { st with succ := st.succ + 1 } o = .cont
        · obtain ⟨h5, h6⟩ := hsec { st with succ := st.succ + 1 }
          simp only [hx, if_true]
          cases hr : (second cfg { st with succ := st.succ + 1 } o).1 with
          | status s => exact ⟨fun _ => ⟨h5, by omega, rfl⟩, h6⟩
          | feasiblePoint => exact ⟨fun h => (by cases h), h6⟩
          | infeasible => exact ⟨fun h => (by cases h), h6⟩
        · simp only [hx, if_false]
          exact ⟨fun _ => ⟨trivial, by omega, trivial⟩, Or.inl trivial⟩

theorem phase_inv (cfg : RCfg) (tol0 : ℚ) (h10 : tol0 ≤ 10 * cfg.origTol) : ∀ (l : List (Bool × RObs)) (st : RSt), (st.tol = tol0 ∨ st.tol = tol0 / 100) →
    (phase cfg st l).length + st.succ ≤ max (cfg.maxRestoIter + 2) (st.succ + 1) ∧ ∀ r ∈ phase cfg st l, r.2.1.tol = tol0 ∨ r.2.1.tol = tol0 / 100 := by
  intro l
  induction l with
  | nil => intro st _; exact ⟨by simp [phase], by simp [phase]⟩
  | cons a l ih =>
    intro st ht
    obtain ⟨cb, o⟩ := a
    obtain ⟨hs1, hs2⟩ := rcheck_state cfg cb st o
    have ht' : (rcheck cfg cb st o).2.tol = tol0 ∨ (rcheck cfg cb st o).2.tol = tol0 / 100 := by
      rcases hs2 with h | ⟨h, h'⟩
      · rw [h]; exact ht
      · rcases ht with h0 | h0
        · right; rw [h, h0]
        · rw [h0] at h'; linarith
    unfold phase
    simp only []
    split
    · rename_i hc
      obtain ⟨e1, e2, _⟩ := hs1 hc
      obtain ⟨k1, k2⟩ := ih (rcheck cfg cb st o).2 ht'
      refine ⟨?_, ?_⟩
      · rw [List.length_cons]
        rw [e1] at k1
        omega
      · intro r hr
        rcases List.mem_cons.1 hr with rfl | hr
        · exact ht'
        · exact k2 r hr
    · refine ⟨by simp; omega, fun r hr => ?_⟩
      rw [List.mem_singleton] at hr
      subst hr; exact ht'

/-- Over one whole restoration phase: at most `max_resto_iter + 2` checks are made, whatever is observed; success is never reported by the first one; if the
restoration tolerance starts at no more than ten times the original one it is tightened at most once (by the factor 100). -/
theorem resto_phase (cfg : RCfg) (tol0 : ℚ) (l : List (Bool × RObs)) :
    ((tol0 ≤ 10 * cfg.origTol) → ∀ r ∈ phase cfg (.init tol0) l, r.2.1.tol = tol0 ∨ r.2.1.tol = tol0 / 100) ∧
    (phase cfg (.init tol0) l).length ≤ cfg.maxRestoIter + 2 ∧
    (∀ r, (phase cfg (.init tol0) l).head? = some r → r.1 ≠ .status .converged) := by
  refine ⟨fun h => (phase_inv cfg tol0 h l (.init tol0) (Or.inl rfl)).2, ?_, ?_⟩
  · -- the length does not depend on the tolerance bound
    suffices H : ∀ (l : List (Bool × RObs)) (st : RSt), (phase cfg st l).length + st.succ ≤ max (cfg.maxRestoIter + 2) (st.succ + 1) by
      have := H l (.init tol0)
      simp only [RSt.init, Nat.add_zero, Nat.zero_add] at this ⊢
      omega
    intro l
    induction l with
    | nil => intro st; simp [phase]
    | cons a l ih =>
      intro st
      obtain ⟨cb, o⟩ := a
      obtain ⟨hs1, _⟩ := rcheck_state cfg cb st o
      unfold phase
      simp only []
      split
      · rename_i hc
        obtain ⟨e1, e2, _⟩ := hs1 hc
        have k1 := ih (rcheck cfg cb st o).2
        rw [List.length_cons]
        rw [e1] at k1
        omega
      · simp; omega
  · intro r hr
    cases l with
    | nil => simp [phase] at hr
    | cons a l =>
      obtain ⟨cb, o⟩ := a
      have : r.1 = (rcheck cfg cb (.init tol0) o).1 := by
        unfold phase at hr
        simp only [List.head?_cons, Option.some.injEq] at hr
        rw [← hr]
      rw [this]
      by_cases h : (cb = true ∧ o.base.goOn = false) ∨ cfg.maxIter ≤ o.base.iter ∨ cfg.maxRestoIter < (RSt.init tol0).succ
      · unfold rcheck
        split
        · intro h; simp at h
        · split
          · intro h; simp at h
          · split
            · intro h; simp at h
            · rename_i h1 h2 h3
              exfalso
              rcases h with h | h | h
              · apply h1; simp [h.1, h.2]
              · exact h2 h
              · exact h3 h
      · rw [rcheck_eq cfg cb _ o h]
        have : test cfg (.init tol0) o = .cont := if_pos rfl
        rw [if_pos this]
        exact second_conv _ _ _

/-- What becomes of the result.  Let `x` be the last point of the restoration phase.
Success: `x` is the new trial point and the current point is unchanged — unless the problem is square and the point at which the
restoration phase *started* satisfies the constraints up to `constr_viol_tol`: then `x` is accepted and "feasible point found" reported.
No success: `x` becomes the current point; the exception tells the kind of failure, and for a point where the restoration phase cannot proceed
depends on the infeasibility of `x`: "locally infeasible" only if it exceeds `resto_failure_feasibility_threshold`. -/
theorem resto_outcome {P : Type} (cfg : PCfg) (viol inf : P → Num) (square : Bool) (curr x : P) (status : SolverReturn) :
    let r := perform cfg viol inf square curr status (some x)
    (status = .SUCCESS → (¬ (square = true ∧ viol curr ≤ .fin cfg.violTol) → r = ⟨.ok true, curr, some x⟩) ∧
      ((square = true ∧ viol curr ≤ .fin cfg.violTol) → r = ⟨.error .FEASIBILITY_PROBLEM_SOLVED, x, none⟩)) ∧
    (status ≠ .SUCCESS → r.curr = x ∧ r.trial = none ∧ r.out ≠ .ok true) ∧
    (r.out = .error .LOCALLY_INFEASIBLE ↔ status = .LOCAL_INFEASIBILITY ∨
      (status = .STOP_AT_TINY_STEP ∨ status = .STOP_AT_ACCEPTABLE_POINT ∧ ¬ (square = true ∧ viol x < .fin cfg.violTol)) ∧ ¬ inf x ≤ .fin cfg.threshold) ∧
    (r.out = .error .RESTORATION_CONVERGED_TO_FEASIBLE_POINT ↔
      (status = .STOP_AT_TINY_STEP ∨ status = .STOP_AT_ACCEPTABLE_POINT ∧ ¬ (square = true ∧ viol x < .fin cfg.violTol)) ∧ inf x ≤ .fin cfg.threshold) ∧
    (r.out = .error .FEASIBILITY_PROBLEM_SOLVED ↔ square = true ∧
      (status = .SUCCESS ∧ viol curr ≤ .fin cfg.violTol ∨ status = .STOP_AT_ACCEPTABLE_POINT ∧ viol x < .fin cfg.violTol)) ∧
    (r.out = .error .RESTORATION_MAXITER_EXCEEDED ↔ status = .MAXITER_EXCEEDED) ∧
    (r.out = .error .RESTORATION_CPUTIME_EXCEEDED ↔ status = .CPUTIME_EXCEEDED) ∧
    (r.out = .error .RESTORATION_WALLTIME_EXCEEDED ↔ status = .WALLTIME_EXCEEDED) ∧
    (r.out = .error .RESTORATION_USER_STOP ↔ status = .USER_REQUESTED_STOP) ∧
    (r.out = .error .RESTORATION_FAILED ↔ status = .RESTORATION_FAILURE ∨ status = .ERROR_IN_STEP_COMPUTATION) := by
  intro r
  have hr : r = perform cfg viol inf square curr status (some x) := rfl
  by_cases h1 : inf x ≤ .fin cfg.threshold <;> by_cases h2 : square = true ∧ viol x < .fin cfg.violTol <;>
    by_cases h3 : square = true ∧ viol curr ≤ .fin cfg.violTol <;>
    cases status <;> rw [hr] <;> simp [perform, h1, h2, h3] <;> simp_all

/-- Composition with the solver of the restoration problem: the original problem is reported as infeasible only if the restoration phase found itself converged
with the infeasibility above `100·tol` and (square problem) above `constr_viol_tol`, or — square problem only — ended at an acceptable
point whose infeasibility exceeds the failure threshold; and control returns to the original problem exactly after success. -/
theorem resto_infeasible_end {P : Type} (cfg : RCfg) (p : PCfg) (cb : Bool) (st : RSt) (o : RObs) (hd : o.base.dim ≠ 0) (viol inf : P → Num) (curr x : P)
    (hin : inf x = o.trialInf)
    (h : (perform p viol inf o.square curr (restoReturn (rcheck cfg cb st o).1) (some x)).out = .error .LOCALLY_INFEASIBLE) :
    SelfConverged cfg st.tol o.base ∧
      (¬ inf x ≤ .fin (100 * st.tol) ∧ (o.square = true → ¬ inf x ≤ .fin cfg.violTol) ∨ o.square = true ∧ ¬ inf x ≤ .fin p.threshold) := by
  have hres := (resto_outcome p viol inf o.square curr x (restoReturn (rcheck cfg cb st o).1)).2.2.1.1 h
  obtain ⟨e1, e2, e3⟩ := resto_endings cfg cb st o hd
  rw [← hin] at e1 e3
  cases hr : (rcheck cfg cb st o).1 with
  | feasiblePoint => rw [hr] at hres; simp [restoReturn] at hres
  | infeasible => obtain ⟨a, b, c⟩ := e3 hr; exact ⟨a, Or.inl ⟨b, c⟩⟩
  | status s =>
    rw [hr] at hres
    cases s <;> simp [restoReturn, statusReturn] at hres
    obtain ⟨a, b, _⟩ := e1 hr
    exact ⟨a, Or.inr ⟨b, hres.2⟩⟩

/-- Conversely each result of the last check is reported as what it is: "infeasible" as locally infeasible at the last point of the restoration phase, the limits
as limits, a user stop as a user stop, and for a problem that is not square control returns to the original problem with the point found
exactly after success. -/
theorem resto_reported {P : Type} (p : PCfg) (viol inf : P → Num) (square : Bool) (curr x : P) (r : RRes) :
    (r = .infeasible → perform p viol inf square curr (restoReturn r) (some x) = ⟨.error .LOCALLY_INFEASIBLE, x, none⟩) ∧
    (r = .feasiblePoint → perform p viol inf square curr (restoReturn r) (some x) = ⟨.error .RESTORATION_FAILED, x, none⟩) ∧
    (r = .status .maxiter → perform p viol inf square curr (restoReturn r) (some x) = ⟨.error .RESTORATION_MAXITER_EXCEEDED, x, none⟩) ∧
    (r = .status .userStop → perform p viol inf square curr (restoReturn r) (some x) = ⟨.error .RESTORATION_USER_STOP, x, none⟩) ∧
    (square = false → ((perform p viol inf square curr (restoReturn r) (some x)).out = .ok true ↔ r = .status .converged)) ∧
    (square = false → r = .status .converged → perform p viol inf square curr (restoReturn r) (some x) = ⟨.ok true, curr, some x⟩) := by
  refine ⟨?_, ?_, ?_, ?_, ?_, ?_⟩
  · rintro rfl; rfl
  · rintro rfl; rfl
  · rintro rfl; rfl
  · rintro rfl; rfl
  · rintro rfl
    cases r with
    | infeasible => simp [restoReturn, perform]
    | feasiblePoint => simp [restoReturn, perform]
    | status s => cases s <;> simp [restoReturn, statusReturn, perform] <;> split <;> simp
  · rintro rfl rfl
    simp [restoReturn, statusReturn, perform]

/-! ### The hypotheses are met, and a disagreement -/

/-- options for the examples. -/
def exCfg : RCfg :=
  ⟨9 / 10, 3000, 3, 1 / 10000, 1 / 1000,
   { tol := .fin 0, dualTol := .fin 1, violTol := .fin 1, complTol := .fin 1, accIter := 0, accTol := .fin 1, accDualTol := .fin 1, accViolTol := .fin 1,
     accComplTol := .fin 1, accObjTol := .fin 1, divergingTol := .fin 1000000, maxIter := 3000, maxCpu := .pinf, maxWall := .pinf }⟩

/-- an observation. -/
def exObs (err now : ℚ) (sq ok : Bool) : RObs :=
  ⟨⟨true, 7, 5, .fin err, .fin 0, .fin 0, .fin 0, .fin 1, .fin 1, .fin 0, .fin 0⟩, .fin 1, .fin now, sq, ok, ok⟩

/-- a phase that ends with success, one that tightens the tolerance and ends at a feasible point, one that ends infeasible, one that runs into `max_resto_iter`. -/
example : (phase exCfg (.init (1 / 1000)) [(true, exObs 1 1 false false), (true, exObs 1 (1 / 2) false false), (true, exObs 1 (1 / 3) false true), (true, exObs 1 1 true true)]).map (·.1) =
      [.status .cont, .status .cont, .status .converged] ∧
    (phase exCfg (.init (1 / 1000)) [(true, exObs 0 (1 / 20) false false), (true, exObs (1 / 10000) (1 / 2000) false false), (true, exObs 0 (1 / 2000) false false)]).map (·.1) =
      [.status .cont, .status .cont, .feasiblePoint] ∧
    (phase exCfg (.init (1 / 1000)) [(true, exObs 0 (1 / 2) false false)]).map (·.1) = [.infeasible] ∧
    (phase exCfg (.init (1 / 1000)) (List.replicate 20 (true, exObs 1 (1 / 2) false false))).map (·.1) =
      [.status .cont, .status .cont, .status .cont, .status .cont, .status .maxiter] ∧
    (phase exCfg (.init (1 / 100000)) [(true, exObs 0 (1 / 20000) true false)]).map (·.1) = [.status .acceptable] := by decide +kernel

/-- the disagreement: for a square problem, after success the violation is evaluated at the point at which the restoration phase started (the point found is only the
trial point then), so a point that violates the constraints is reported as feasible, or a feasible point is not reported. -/
example : perform (P := Num) ⟨1, 1⟩ id id true (.fin 0) .SUCCESS (some (.fin 5)) = ⟨.error .FEASIBILITY_PROBLEM_SOLVED, .fin 5, none⟩ ∧
    perform (P := Num) ⟨1, 1⟩ id id true (.fin 5) .SUCCESS (some (.fin 0)) = ⟨.ok true, .fin 5, some (.fin 0)⟩ := ⟨rfl, rfl⟩

end Verif.RestoConv
