import Verif.Model.LineSearch
import Mathlib.Algebra.Order.Archimedean.Basic
import Mathlib.Algebra.Order.Field.Rat
import Mathlib.Data.Rat.Floor
import Mathlib.Logic.Function.Iterate
import Mathlib.Tactic.Linarith
import Mathlib.Tactic.Positivity
import Mathlib.Tactic.NormNum
import Mathlib.Tactic.Ring

/-! # Backtracking line search: what is tried, and termination (C33) -/

set_option linter.unusedSectionVars false
set_option linter.unusedSimpArgs false

namespace Verif.LineSearch

section
variable {I D K : Type} [LinearOrder K]

/-- The step sizes `a, red a, red (red a), ...`. -/
def Spec.sizes (red : K → K) (a : K) (n : Nat) : List K := (List.range n).map (fun i => red^[i] a)

theorem sizes_succ (red : K → K) (a : K) (n : Nat) : Spec.sizes red a (n + 1) = Spec.sizes red a n ++ [red^[n] a] := by
  simp [Spec.sizes, List.range_succ]

/-- The test at a trial point as documented: the acceptor's verdict; with `accept_every_trial_step`, or once `accept_after_max_steps`
reductions were made, everything that can be evaluated. -/
def Spec.Passes (p : Par K) (e : Env I D K) (it : I) (d : D) (n : Nat) (alpha : K) : Prop :=
  e.check it d alpha = .accept
    ∨ (e.check it d alpha = .reject ∧ (p.acceptEvery = true ∨ ∃ m, p.acceptAfterMax = some m ∧ m ≤ n))

theorem checkTrial_accept (p : Par K) (e : Env I D K) (it : I) (d : D) (n : Nat) (alpha : K) :
    checkTrial p e it d n alpha = .accept ↔ Spec.Passes p e it d n alpha := by
  unfold checkTrial Spec.Passes
  by_cases h : p.acceptEvery = true ∨ (∃ m, p.acceptAfterMax = some m ∧ m ≤ n)
  · rw [if_pos h]
    cases hc : e.check it d alpha <;> simp [h]
  · rw [if_neg h]
    cases hc : e.check it d alpha <;> simp [h]

/-- What a finished loop tells; `n0` steps were already made (0 except after a stopped watchdog, where it is also 0). -/
structure LoopSpec (p : Par K) (e : Env I D K) (inWd expectInf : Bool) (countShort : Nat) (it : I) (d : D) (aMax aMin a0 : K) (n0 : Nat)
    (r : BTRes D K) : Prop where
  /-- the step sizes tried are the successive reductions of the first one -/
  sizes : r.trials = Spec.sizes p.red a0 r.trials.length
  /-- all but possibly the last trial point failed the test -/
  rejected : ∀ i, i + 1 < r.trials.length → ¬ Spec.Passes p e it d (n0 + i) (p.red^[i] a0)
  /-- only trial points above the minimal step size are tried, apart from the first one -/
  above : ∀ i, i < r.trials.length → aMin < p.red^[i] a0 ∨ n0 + i = 0
  /-- an accepted point that is not a second order correction passed the test, and its step size is the last one tried -/
  accepted : r.accept = true → r.socTaken = false → ∃ i, r.trials.length = i + 1 ∧ r.alpha = p.red^[i] a0 ∧ r.delta = d
      ∧ Spec.Passes p e it d (n0 + i) r.alpha ∧ r.nSteps = n0 + i
  /-- a second order correction is accepted only by its own test, at the first step size, when the constraint violation did not improve -/
  soc : r.socTaken = true → r.accept = true ∧ e.soc it d aMax = some (r.alpha, r.delta) ∧ e.thetaWorse it d aMax = true
      ∧ aMax ∈ r.trials ∧ r.evalErr = false
  /-- if nothing was accepted: all trial points failed, and the next step size is too small -- or the search was cut short -/
  failed : r.accept = false → r.delta = d ∧ (∀ i, i < r.trials.length → ¬ Spec.Passes p e it d (n0 + i) (p.red^[i] a0))
      ∧ (r.alpha ≤ aMin ∧ r.alpha = p.red^[r.trials.length] a0 ∧ 0 < n0 + r.trials.length
          ∨ (inWd = true ∨ (expectInf = true ∧ 5 ≤ countShort)) ∧ r.trials.length = 1)
  corr : r.corrTaken = false
  /-- an evaluation error is reported if one of the trial points could not be evaluated -/
  evalErr : r.evalErr = true ↔ ∃ i, i < r.trials.length ∧ e.check it d (p.red^[i] a0) = .evalError

theorem btLoop_spec (p : Par K) (e : Env I D K) (inWd expectInf : Bool) (countShort : Nat) (it : I) (d : D) (aMax aMin a0 : K) (n0 : Nat) :
    ∀ (fuel k : Nat) (ee : Bool) (r : BTRes D K),
      (∀ i, i < k → ¬ Spec.Passes p e it d (n0 + i) (p.red^[i] a0)) →
      (∀ i, i < k → aMin < p.red^[i] a0 ∨ n0 + i = 0) →
      (ee = true ↔ ∃ i, i < k ∧ e.check it d (p.red^[i] a0) = .evalError) →
      (0 < k → ¬ (inWd = true ∨ (expectInf = true ∧ 5 ≤ countShort))) →
      btLoop p e inWd expectInf countShort it d aMax aMin fuel (p.red^[k] a0) (n0 + k) ee (Spec.sizes p.red a0 k) = some r →
      LoopSpec p e inWd expectInf countShort it d aMax aMin a0 n0 r := by
  intro fuel
  induction fuel with
  | zero => intro k ee r _ _ _ _ h; simp [btLoop] at h
  | succ m ih =>
    intro k ee r hrej habove hee hcut h
    rw [btLoop] at h
    have hlen : (Spec.sizes p.red a0 k).length = k := by simp [Spec.sizes]
    have hlen1 : (Spec.sizes p.red a0 k ++ [p.red^[k] a0]).length = k + 1 := by simp [Spec.sizes]
    by_cases hc : aMin < p.red^[k] a0 ∨ n0 + k = 0
    · rw [if_pos hc] at h
      simp only at h
      have habove' : ∀ i, i < k + 1 → aMin < p.red^[i] a0 ∨ n0 + i = 0 := by
        intro i hi
        rcases Nat.lt_succ_iff_lt_or_eq.mp hi with hi | rfl
        · exact habove i hi
        · exact hc
      have hct : checkTrial p e it d (n0 + k) (p.red^[k] a0) = .evalError ↔ e.check it d (p.red^[k] a0) = .evalError := by
        unfold checkTrial
        by_cases hh : p.acceptEvery = true ∨ (∃ m, p.acceptAfterMax = some m ∧ m ≤ n0 + k)
        · rw [if_pos hh]; cases e.check it d (p.red^[k] a0) <;> simp
        · rw [if_neg hh]
      have hee' : (if checkTrial p e it d (n0 + k) (p.red^[k] a0) = .evalError then true else ee) = true
          ↔ ∃ i, i < k + 1 ∧ e.check it d (p.red^[i] a0) = .evalError := by
        rw [Nat.exists_lt_succ_right]
        by_cases hh : checkTrial p e it d (n0 + k) (p.red^[k] a0) = .evalError
        · rw [if_pos hh]; exact ⟨fun _ => Or.inr (hct.mp hh), fun _ => rfl⟩
        · rw [if_neg hh, hee]
          have := mt hct.mpr hh
          exact ⟨Or.inl, fun h => h.resolve_right this⟩
      by_cases ha : checkTrial p e it d (n0 + k) (p.red^[k] a0) = .accept
      · rw [if_pos ha] at h
        injection h with h
        subst h
        have hpass := (checkTrial_accept _ _ _ _ _ _).mp ha
        constructor
        · show Spec.sizes p.red a0 k ++ [p.red^[k] a0] = Spec.sizes p.red a0 _
          rw [hlen1, sizes_succ]
        · intro i hi; exact hrej i (by simpa [Spec.sizes] using hi)
        · intro i hi; exact habove' i (by simpa [Spec.sizes] using hi)
        · intro _ _; exact ⟨k, hlen1, rfl, rfl, hpass, rfl⟩
        · intro hh; exact absurd hh (by simp)
        · intro hh; exact absurd hh (by simp)
        · rfl
        · show _ ↔ ∃ i, i < (Spec.sizes p.red a0 k ++ [p.red^[k] a0]).length ∧ _
          rw [hlen1]; exact hee'
      · rw [if_neg ha] at h
        have hnp : ¬ Spec.Passes p e it d (n0 + k) (p.red^[k] a0) := fun hh => ha ((checkTrial_accept _ _ _ _ _ _).mpr hh)
        have hrej' : ∀ i, i < k + 1 → ¬ Spec.Passes p e it d (n0 + i) (p.red^[i] a0) := by
          intro i hi
          rcases Nat.lt_succ_iff_lt_or_eq.mp hi with hi | rfl
          · exact hrej i hi
          · exact hnp
        have stop : ∀ (hcut' : inWd = true ∨ (expectInf = true ∧ 5 ≤ countShort)) (r : BTRes D K),
            r = ⟨false, p.red^[k] a0, n0 + k, (if checkTrial p e it d (n0 + k) (p.red^[k] a0) = .evalError then true else ee), false,
              false, d, Spec.sizes p.red a0 k ++ [p.red^[k] a0]⟩ →
            LoopSpec p e inWd expectInf countShort it d aMax aMin a0 n0 r := by
          intro hcut' r hr
          subst hr
          have hk0 : k = 0 := by
            by_contra hk
            exact hcut (Nat.pos_of_ne_zero hk) hcut'
          constructor
          · show Spec.sizes p.red a0 k ++ [p.red^[k] a0] = Spec.sizes p.red a0 _
            rw [hlen1, sizes_succ]
          · intro i hi; exact hrej i (by simpa [Spec.sizes] using hi)
          · intro i hi; exact habove' i (by simpa [Spec.sizes] using hi)
          · intro hh; exact absurd hh (by simp)
          · intro hh; exact absurd hh (by simp)
          · intro _
            refine ⟨rfl, fun i hi => hrej' i (by simpa [Spec.sizes] using hi), Or.inr ⟨hcut', ?_⟩⟩
            show (Spec.sizes p.red a0 k ++ [p.red^[k] a0]).length = 1
            rw [hlen1, hk0]
          · rfl
          · show _ ↔ ∃ i, i < (Spec.sizes p.red a0 k ++ [p.red^[k] a0]).length ∧ _
            rw [hlen1]; exact hee'
        by_cases hw : inWd = true
        · rw [if_pos hw] at h
          injection h with h
          exact stop (Or.inl hw) r h.symm
        · rw [if_neg hw] at h
          by_cases hx : expectInf = true ∧ 5 ≤ countShort
          · rw [if_pos hx] at h
            injection h with h
            exact stop (Or.inr hx) r h.symm
          · rw [if_neg hx] at h
            by_cases hs : ((if checkTrial p e it d (n0 + k) (p.red^[k] a0) = .evalError then true else ee) = false
                ∧ p.red^[k] a0 = aMax ∧ e.thetaWorse it d (p.red^[k] a0) = true)
            · rw [if_pos hs] at h
              cases hsoc : e.soc it d (p.red^[k] a0) with
              | none =>
                rw [hsoc] at h
                simp only at h
                rw [← sizes_succ, ← Function.iterate_succ_apply' p.red k a0, Nat.add_assoc] at h
                exact ih (k + 1) _ r hrej' habove' hee' (fun _ => not_or.mpr ⟨hw, hx⟩) h
              | some ad =>
                rw [hsoc] at h
                simp only [Option.some.injEq] at h
                subst h
                constructor
                · show Spec.sizes p.red a0 k ++ [p.red^[k] a0] = Spec.sizes p.red a0 _
                  rw [hlen1, sizes_succ]
                · intro i hi; exact hrej i (by simpa [Spec.sizes] using hi)
                · intro i hi; exact habove' i (by simpa [Spec.sizes] using hi)
                · intro _ hh; exact absurd hh (by simp)
                · intro _
                  refine ⟨rfl, by rw [← hs.2.1]; exact hsoc, by rw [← hs.2.1]; exact hs.2.2, ?_, hs.1⟩
                  rw [← hs.2.1]; simp
                · intro hh; exact absurd hh (by simp)
                · rfl
                · show _ ↔ ∃ i, i < (Spec.sizes p.red a0 k ++ [p.red^[k] a0]).length ∧ _
                  rw [hlen1]; exact hee'
            · rw [if_neg hs] at h
              simp only at h
              rw [← sizes_succ, ← Function.iterate_succ_apply' p.red k a0, Nat.add_assoc] at h
              exact ih (k + 1) _ r hrej' habove' hee' (fun _ => not_or.mpr ⟨hw, hx⟩) h
    · rw [if_neg hc] at h
      injection h with h
      subst h
      have hc' := not_or.mp hc
      constructor
      · show Spec.sizes p.red a0 k = Spec.sizes p.red a0 _
        rw [hlen]
      · intro i hi; exact hrej i (by simp [Spec.sizes] at hi; omega)
      · intro i hi; exact habove i (by simpa [Spec.sizes] using hi)
      · intro hh; exact absurd hh (by simp)
      · intro hh; exact absurd hh (by simp)
      · intro _
        refine ⟨rfl, fun i hi => hrej i (by simpa [Spec.sizes] using hi), Or.inl ⟨not_lt.mp hc'.1, ?_, ?_⟩⟩
        · show p.red^[k] a0 = p.red^[(Spec.sizes p.red a0 k).length] a0
          rw [hlen]
        · show 0 < n0 + (Spec.sizes p.red a0 k).length
          rw [hlen]; omega
      · rfl
      · show _ ↔ ∃ i, i < (Spec.sizes p.red a0 k).length ∧ _
        rw [hlen]; exact hee

/-- **C33** Every finished backtracking line search, for every behaviour of the acceptor and the problem functions: either the corrector step was
accepted by its own test, or the step sizes tried are `a, red a, red (red a), ...` from the largest step to the boundary (after a stopped watchdog:
from its first reduction) and the result is as described by `LoopSpec`. -/
theorem backtracking_spec (p : Par K) (e : Env I D K) (fuel : Nat) (inWd expectInf : Bool) (countShort : Nat) (skipFirst : Bool) (it : I) (d : D)
    (r : BTRes D K) (h : doBT p e fuel inWd expectInf countShort skipFirst 0 it d = some r) :
    (r.corrTaken = true ∧ skipFirst = false ∧ r.accept = true ∧ e.corrector it d = some (r.alpha, r.delta) ∧ r.trials = [] ∧ r.nSteps = 0)
    ∨ LoopSpec p e inWd expectInf countShort it d (e.alphaMax it d) (if inWd = true then e.alphaMax it d else e.alphaMin it d)
        (if skipFirst = true then p.red (e.alphaMax it d) else e.alphaMax it d) 0 r := by
  have loop : ∀ r, btLoop p e inWd expectInf countShort it d (e.alphaMax it d) (if inWd = true then e.alphaMax it d else e.alphaMin it d) fuel
      (if skipFirst = true then p.red (e.alphaMax it d) else e.alphaMax it d) 0 false [] = some r →
      LoopSpec p e inWd expectInf countShort it d (e.alphaMax it d) (if inWd = true then e.alphaMax it d else e.alphaMin it d)
        (if skipFirst = true then p.red (e.alphaMax it d) else e.alphaMax it d) 0 r := by
    intro r h
    refine btLoop_spec p e inWd expectInf countShort it d _ _ _ 0 fuel 0 false r ?_ ?_ ?_ ?_ h
    · intro i hi; omega
    · intro i hi; omega
    · simp
    · intro hh; omega
  unfold doBT at h
  simp only at h
  by_cases hs : skipFirst = true
  · rw [if_pos hs] at h
    simp only at h
    right
    exact loop r h
  · rw [if_neg hs] at h
    cases hc : e.corrector it d with
    | none =>
      rw [hc] at h
      right
      exact loop r h
    | some ad =>
      rw [hc] at h
      simp only [Option.some.injEq] at h
      subst h
      left
      exact ⟨rfl, by simpa using hs, rfl, rfl, rfl, rfl⟩

/-- **C33** A trial point at which the functions could not be evaluated is never accepted by the loop. -/
theorem no_accept_at_eval_error (p : Par K) (e : Env I D K) (fuel : Nat) (inWd expectInf : Bool) (countShort : Nat) (skipFirst : Bool) (it : I) (d : D)
    (r : BTRes D K) (h : doBT p e fuel inWd expectInf countShort skipFirst 0 it d = some r) (ha : r.accept = true)
    (hc : r.corrTaken = false) (hs : r.socTaken = false) : e.check it d r.alpha ≠ .evalError ∧ r.delta = d := by
  rcases backtracking_spec p e fuel inWd expectInf countShort skipFirst it d r h with h | h
  · rw [h.1] at hc; exact absurd hc (by simp)
  · obtain ⟨i, _, _, hd, hp, _⟩ := h.accepted ha hs
    refine ⟨fun he => ?_, hd⟩
    rcases hp with hp | hp
    · rw [hp] at he; exact absurd he (by simp)
    · rw [hp.1] at he; exact absurd he (by simp)

/-- The loop ends within `n+1` passes if the `n`-th reduction is not above the minimal step size (and `n ≥ 1`). -/
theorem btLoop_ends (p : Par K) (e : Env I D K) (inWd expectInf : Bool) (countShort : Nat) (it : I) (d : D) (aMax aMin : K) :
    ∀ (m fuel : Nat) (alpha : K) (n : Nat) (ee : Bool) (tr : List K), m < fuel → 0 < n + m → p.red^[m] alpha ≤ aMin →
      btLoop p e inWd expectInf countShort it d aMax aMin fuel alpha n ee tr ≠ none := by
  intro m
  induction m with
  | zero =>
    intro fuel alpha n ee tr hf hn hle
    obtain ⟨f, rfl⟩ : ∃ f, fuel = f + 1 := ⟨fuel - 1, by omega⟩
    rw [btLoop, if_neg]
    · simp
    · rw [not_or]; exact ⟨not_lt.mpr hle, by omega⟩
  | succ m ih =>
    intro fuel alpha n ee tr hf hn hle
    obtain ⟨f, rfl⟩ : ∃ f, fuel = f + 1 := ⟨fuel - 1, by omega⟩
    rw [btLoop]
    split
    · simp only
      split
      · simp
      · split
        · simp
        · split
          · simp
          · split
            · simp
            · exact ih f (p.red alpha) (n + 1) _ _ (by omega) (by omega) (by rw [← Function.iterate_succ_apply]; exact hle)
    · simp

/-- **C33** Termination: whatever the acceptor and the functions do, the line search ends if all reductions of the largest step size from the `n+1`-st on
are at or below the minimal one, ... -/
theorem backtracking_ends (p : Par K) (e : Env I D K) (inWd expectInf : Bool) (countShort : Nat) (skipFirst : Bool) (it : I) (d : D) (n : Nat)
    (hn : inWd = true ∨ ∀ k, n < k → p.red^[k] (e.alphaMax it d) ≤ e.alphaMin it d) :
    ∀ fuel, n + 2 ≤ fuel → doBT p e fuel inWd expectInf countShort skipFirst 0 it d ≠ none := by
  intro fuel hf
  have loop : btLoop p e inWd expectInf countShort it d (e.alphaMax it d) (if inWd = true then e.alphaMax it d else e.alphaMin it d) fuel
      (if skipFirst = true then p.red (e.alphaMax it d) else e.alphaMax it d) 0 false [] ≠ none := by
    by_cases hw : inWd = true
    · obtain ⟨f, rfl⟩ : ∃ f, fuel = f + 1 := ⟨fuel - 1, by omega⟩
      rw [btLoop, if_pos (Or.inr rfl)]
      simp only
      generalize (if skipFirst = true then p.red (e.alphaMax it d) else e.alphaMax it d) = a
      by_cases hc : checkTrial p e it d 0 a = .accept
      · rw [if_pos hc]; simp
      · rw [if_neg hc, if_pos hw]; simp
    · have hn' := hn.resolve_left hw
      rw [if_neg hw]
      apply btLoop_ends p e inWd expectInf countShort it d _ _ (n + 1) fuel _ 0 false [] (by omega) (by omega)
      by_cases hs : skipFirst = true
      · rw [if_pos hs, ← Function.iterate_succ_apply]; exact hn' _ (by omega)
      · rw [if_neg hs]; exact hn' _ (by omega)
  unfold doBT
  simp only
  cases hc : (if skipFirst = true then none else e.corrector it d) with
  | none => simpa [hc] using loop
  | some ad => simp

/-- ... and tries at most `n+1` points. -/
theorem backtracking_trials (p : Par K) (e : Env I D K) (expectInf : Bool) (countShort : Nat) (skipFirst : Bool) (it : I) (d : D) (n : Nat)
    (hn : ∀ k, n < k → p.red^[k] (e.alphaMax it d) ≤ e.alphaMin it d) (fuel : Nat) (r : BTRes D K)
    (h : doBT p e fuel false expectInf countShort skipFirst 0 it d = some r) : r.trials.length ≤ n + 1 := by
  rcases backtracking_spec p e fuel false expectInf countShort skipFirst it d r h with h | h
  · rw [h.2.2.2.2.1]; simp
  · by_contra hlt
    have := h.above (n + 1) (by omega)
    simp only [Bool.false_eq_true, if_false] at this
    rcases this with this | this
    · by_cases hs : skipFirst = true
      · rw [if_pos hs, ← Function.iterate_succ_apply] at this
        exact absurd (hn _ (by omega)) (not_le.mpr this)
      · rw [if_neg hs] at this
        exact absurd (hn _ (by omega)) (not_le.mpr this)
    · omega

/-- **C33** With the watchdog active only one step size is tried. -/
theorem watchdog_one_trial (p : Par K) (e : Env I D K) (fuel : Nat) (expectInf : Bool) (countShort : Nat) (skipFirst : Bool) (it : I) (d : D)
    (r : BTRes D K) (h : doBT p e fuel true expectInf countShort skipFirst 0 it d = some r) : r.trials.length ≤ 1 ∧ r.nSteps = 0 := by
  have loop : ∀ (a am : K) (r : BTRes D K), btLoop p e true expectInf countShort it d (e.alphaMax it d) am fuel a 0 false [] = some r →
      r.trials.length ≤ 1 ∧ r.nSteps = 0 := by
    intro a am r h
    cases fuel with
    | zero => simp [btLoop] at h
    | succ f =>
      rw [btLoop, if_pos (Or.inr rfl)] at h
      simp only [if_true] at h
      split at h <;> (injection h with h; subst h; simp)
  unfold doBT at h
  simp only at h
  cases hc : (if skipFirst = true then none else e.corrector it d) with
  | none => rw [hc] at h; exact loop _ _ r h
  | some ad =>
    rw [hc] at h
    simp only [Option.some.injEq] at h
    subst h
    simp

end

section
variable {I D K : Type} [Field K] [LinearOrder K] [IsStrictOrderedRing K]

theorem iterate_mul (r a : K) (n : Nat) : (fun x : K => r * x)^[n] a = r ^ n * a := by
  induction n with
  | zero => simp
  | succ n ih => rw [Function.iterate_succ_apply', ih, pow_succ]; ring

/-- **C33** With exact multiplication by a factor in (0,1) and a positive minimal step size the line search always ends, after finitely many trial points whose
step sizes are `alpha_max, r alpha_max, r^2 alpha_max, ...`. Missing from the full claim: a minimal step size 0, which the filter acceptor returns at a
feasible point with a descent direction (IpFilterLSAcceptor.cpp, `CalculateAlphaMin`); see `backtracking_need_not_end`. -/
theorem backtracking_terminates_partial [Archimedean K] (p : Par K) (e : Env I D K) (rf : K) (h0 : 0 < rf) (h1 : rf < 1) (hred : p.red = fun x => rf * x)
    (inWd expectInf : Bool) (countShort : Nat) (skipFirst : Bool) (it : I) (d : D) (hmin : 0 < e.alphaMin it d) :
    ∃ n, ∀ fuel, n ≤ fuel → ∃ r, doBT p e fuel inWd expectInf countShort skipFirst 0 it d = some r ∧ r.trials.length ≤ n
      ∧ r.trials = (List.range r.trials.length).map
          (fun i => rf ^ (if skipFirst = true then i + 1 else i) * e.alphaMax it d) := by
  have hex : ∃ n, ∀ k, n < k → p.red^[k] (e.alphaMax it d) ≤ e.alphaMin it d := by
    rcases le_or_gt (e.alphaMax it d) 0 with ha | ha
    · refine ⟨0, fun k _ => ?_⟩
      rw [hred, iterate_mul]
      exact le_trans (mul_nonpos_of_nonneg_of_nonpos (pow_pos h0 k).le ha) hmin.le
    · obtain ⟨n, hn⟩ := exists_pow_lt_of_lt_one (div_pos hmin ha) h1
      refine ⟨n, fun k hk => ?_⟩
      rw [hred, iterate_mul]
      have h2 : rf ^ k ≤ rf ^ n := pow_le_pow_of_le_one h0.le h1.le hk.le
      have h3 : rf ^ n * e.alphaMax it d ≤ e.alphaMin it d := ((lt_div_iff₀ ha).mp hn).le
      exact le_trans (mul_le_mul_of_nonneg_right h2 ha.le) h3
  obtain ⟨n, hn⟩ := hex
  refine ⟨n + 2, fun fuel hf => ?_⟩
  obtain ⟨r, hr⟩ := Option.ne_none_iff_exists'.mp (backtracking_ends p e inWd expectInf countShort skipFirst it d n (Or.inr hn) fuel hf)
  refine ⟨r, hr, ?_, ?_⟩
  · cases inWd with
    | false =>
      have := backtracking_trials p e expectInf countShort skipFirst it d n hn fuel r hr
      omega
    | true =>
      have := watchdog_one_trial p e fuel expectInf countShort skipFirst it d r hr
      omega
  · rcases backtracking_spec p e fuel inWd expectInf countShort skipFirst it d r hr with h | h
    · rw [h.2.2.2.2.1]; simp
    · conv_lhs => rw [h.sizes]
      unfold Spec.sizes
      apply List.map_congr_left
      intro i _
      rw [hred]
      by_cases hs : skipFirst = true
      · rw [if_pos hs, if_pos hs, iterate_mul, pow_succ]; ring
      · rw [if_neg hs, if_neg hs, iterate_mul]

end

section
variable {I D K : Type} [LinearOrder K]

/-- **C33** (the part that fails) If no trial point is ever accepted and all reductions stay above the minimal step size, the line search does not end. -/
theorem backtracking_need_not_end (p : Par K) (e : Env I D K) (it : I) (d : D) (hcor : e.corrector it d = none)
    (hsoc : ∀ a, e.soc it d a = none) (hno : ∀ n a, ¬ Spec.Passes p e it d n a) (habove : ∀ k, e.alphaMin it d < p.red^[k] (e.alphaMax it d)) :
    ∀ fuel, doBT p e fuel false false 0 false 0 it d = none := by
  have loop : ∀ (fuel k : Nat) (ee : Bool) (tr : List K),
      btLoop p e false false 0 it d (e.alphaMax it d) (e.alphaMin it d) fuel (p.red^[k] (e.alphaMax it d)) k ee tr = none := by
    intro fuel
    induction fuel with
    | zero => intro k ee tr; rfl
    | succ f ih =>
      intro k ee tr
      rw [btLoop, if_pos (Or.inl (habove k))]
      have hn : checkTrial p e it d k (p.red^[k] (e.alphaMax it d)) ≠ .accept := fun hh => hno _ _ ((checkTrial_accept _ _ _ _ _ _).mp hh)
      simp only [hn, if_false, Bool.false_eq_true, false_and, hsoc, ite_self]
      have := ih (k + 1)
      simp only [Function.iterate_succ_apply'] at this
      exact this _ _
  intro fuel
  unfold doBT
  simp only [Bool.false_eq_true, if_false, hcor]
  exact loop fuel 0 false []

/-- Step sizes as multiples of the smallest positive floating-point number, multiplied by 0.9 and rounded to nearest, ties to even. -/
def exRound (n : Nat) : Nat :=
  let q := 9 * n / 10
  let r := 9 * n % 10
  if r < 5 then q else if 5 < r then q + 1 else q + q % 2

def exHangPar : Par Nat := ⟨exRound, false, none, 10, 3, 10, true⟩

def exHangEnv : Env Unit Unit Nat :=
  { mu := 1, currAcceptable := fun _ => false, hasResto := true, doFallback := false, yLarge := false, tiny := false, tinyEvalOk := true,
    dySmall := false, alphaTiny := 1, alphaTest0 := 1, alphaMax := fun _ _ => 5, alphaMin := fun _ _ => 0, corrector := fun _ _ => none,
    check := fun _ _ _ => .evalError, thetaWorse := fun _ _ _ => true, soc := fun _ _ _ => none, soft := fun _ _ => none,
    almostFeasible := fun _ => false, restoOk := true, ctolOk := false, restoredIterate := false }

/-- With `alpha_red_factor = 0.9`, a minimal step size 0 and functions that cannot be evaluated along the direction the line search does not end
even in floating-point arithmetic: the step size gets stuck at four times the smallest positive number. -/
theorem backtracking_hangs : ∀ fuel, doBT exHangPar exHangEnv fuel false false 0 false 0 () () = none := by
  apply backtracking_need_not_end
  · rfl
  · intro _; rfl
  · rintro n a (h | h)
    · simp [exHangEnv] at h
    · simp [exHangEnv] at h
  · intro k
    have : ∀ k, 4 ≤ (exHangPar.red)^[k] 5 ∧ (exHangPar.red)^[k] 5 ≤ 5 := by
      intro k
      induction k with
      | zero => exact ⟨by decide, by decide⟩
      | succ k ih =>
        rw [Function.iterate_succ_apply']
        generalize (exHangPar.red)^[k] 5 = n at ih
        obtain ⟨h1, h2⟩ := ih
        have : n = 4 ∨ n = 5 := by omega
        rcases this with rfl | rfl <;> exact ⟨by decide, by decide⟩
    have h := (this k).1
    show 0 < (exHangPar.red)^[k] 5
    omega

end

/-! A concrete search: steps 1, 1/2, 1/4; the first two are rejected (the functions cannot be evaluated at 1). -/

def exBTPar : Par ℚ := ⟨fun x => 1 / 2 * x, false, none, 10, 3, 10, true⟩

def exBTEnv : Env Unit Unit ℚ :=
  { mu := 1, currAcceptable := fun _ => false, hasResto := true, doFallback := false, yLarge := false, tiny := false, tinyEvalOk := true,
    dySmall := false, alphaTiny := 1, alphaTest0 := 1, alphaMax := fun _ _ => 1, alphaMin := fun _ _ => 1 / 16, corrector := fun _ _ => none,
    check := fun _ _ a => if 1 ≤ a then .evalError else if 1 / 4 < a then .reject else .accept, thetaWorse := fun _ _ _ => true,
    soc := fun _ _ _ => none, soft := fun _ _ => none,
    almostFeasible := fun _ => false, restoOk := true, ctolOk := false, restoredIterate := false }

example : doBT exBTPar exBTEnv 10 false false 0 false 0 () () = some ⟨true, 1 / 4, 2, true, false, false, (), [1, 1 / 2, 1 / 4]⟩ := by decide +kernel
example : doBT exBTPar { exBTEnv with check := fun _ _ _ => .reject } 10 false false 0 false 0 () ()
    = some ⟨false, 1 / 16, 4, false, false, false, (), [1, 1 / 2, 1 / 4, 1 / 8]⟩ := by decide +kernel
example : ∃ n, ∀ fuel, n ≤ fuel → ∃ r, doBT exBTPar exBTEnv fuel false false 0 false 0 () () = some r ∧ r.trials.length ≤ n
    ∧ r.trials = (List.range r.trials.length).map (fun i => (1 / 2 : ℚ) ^ (if false = true then i + 1 else i) * 1) :=
  backtracking_terminates_partial exBTPar exBTEnv (1 / 2) (by norm_num) (by norm_num) rfl false false 0 false () () (by norm_num [exBTEnv])

end Verif.LineSearch
