import Verif.Model.MonotoneMu
import Mathlib.Algebra.Order.Archimedean.Basic
import Mathlib.Algebra.Order.Field.Rat
import Mathlib.Tactic.Linarith
import Mathlib.Tactic.Positivity
import Mathlib.Tactic.NormNum
import Mathlib.Tactic.Ring

/-! # The barrier parameter in the monotone mode (C30) -/

set_option linter.unusedSectionVars false
set_option linter.unusedSimpArgs false

namespace Verif.MonotoneMu

variable {K : Type} [Field K] [LinearOrder K] [IsStrictOrderedRing K]

/-- The settings allowed by the option registration (IpMonotoneMuUpdate.cpp:30-95): positive tolerances, `0 < linear < 1`, and a power
that maps positive numbers to positive numbers. -/
structure Admissible (p : Par K) : Prop where
  init_pos : 0 < p.muInit
  factor_pos : 0 < p.barrierTolFactor
  linear_pos : 0 < p.linear
  linear_lt : p.linear < 1
  pw_pos : ∀ m, 0 < m → 0 < p.pw m
  tol_pos : 0 < p.tol
  complTol_pos : 0 < p.complTol

/-- The smallest barrier parameter of the run, from `mu_target` and the tolerances. -/
def Spec.floor (p : Par K) : K := max p.muTarget (min p.tol p.complTol / (p.barrierTolFactor + 1))

/-- One legal reduction: the next value of the documented rule. -/
def Spec.Reduces (p : Par K) (m m' : K) : Prop := m' = max (min (p.linear * m) (p.pw m)) (Spec.floor p)

/-- `m'` is reached from `m` by reductions, each of them made when the barrier error for the value before is at most
`barrier_tol_factor` times this value; the first one may also be due to a tiny step. -/
inductive Spec.Chain (p : Par K) (E : K → K) : Bool → K → K → Prop
  | nil (b : Bool) (m : K) : Chain p E b m m
  | cons {b : Bool} {m m' m'' : K} : (E m ≤ p.barrierTolFactor * m ∨ b = true) → Spec.Reduces p m m' → Chain p E false m' m'' → Chain p E b m m''

theorem floor_pos {p : Par K} (h : Admissible p) : 0 < Spec.floor p := by
  refine lt_of_lt_of_le ?_ (le_max_right _ _)
  exact div_pos (lt_min h.tol_pos h.complTol_pos) (by linarith [h.factor_pos])

theorem newMu_eq (p : Par K) (m : K) : newMu p m = max (min (p.linear * m) (p.pw m)) (Spec.floor p) := by
  unfold newMu Spec.floor; rw [max_assoc]

theorem floor_le_newMu (p : Par K) (m : K) : Spec.floor p ≤ newMu p m := by rw [newMu_eq]; exact le_max_right _ _

theorem newMu_le {p : Par K} (h : Admissible p) {m : K} (hm : Spec.floor p ≤ m) : newMu p m ≤ m := by
  have hpos : 0 < m := lt_of_lt_of_le (floor_pos h) hm
  rw [newMu_eq]
  refine max_le (le_trans (min_le_left _ _) ?_) hm
  nlinarith [h.linear_lt]

/-- At a value that is not changed by the rule the value is the floor. -/
theorem fixed_is_floor {p : Par K} (h : Admissible p) {m : K} (hm : 0 < m) (hf : newMu p m = m) : m = Spec.floor p := by
  rw [newMu_eq] at hf
  rcases max_choice (min (p.linear * m) (p.pw m)) (Spec.floor p) with hc | hc
  · rw [hc] at hf
    have : min (p.linear * m) (p.pw m) ≤ p.linear * m := min_le_left _ _
    nlinarith [h.linear_lt]
  · rw [hc] at hf; exact hf.symm

/-- What a terminated loop tells. -/
structure LoopSpec (p : Par K) (E : K → K) (s : State K) (tiny : Bool) (s' : State K) : Prop where
  chain : Spec.Chain p E tiny s.mu s'.mu
  tau : (s'.mu = s.mu ∧ s'.tau = s.tau) ∨ s'.tau = max p.tauMin (1 - s'.mu)
  init : s'.initialized = s.initialized
  resto : s'.firstIterResto = s.firstIterResto
  tinyF : s'.tiny = s.tiny

theorem loop_spec (p : Par K) (E : K → K) : ∀ (fuel : Nat) (s : State K) (err : K) (tiny done : Bool) (s' : State K),
    (done = false → err = E s.mu) → loop p E fuel s err tiny done = .ok s' → LoopSpec p E s tiny s' := by
  intro fuel
  induction fuel with
  | zero => intro s err tiny done s' _ h; simp [loop] at h
  | succ n ih =>
    intro s err tiny done s' he h
    rw [loop] at h
    by_cases hc : (err ≤ p.barrierTolFactor * s.mu ∨ tiny = true) ∧ done = false ∧ s.firstIterResto = false
    · rw [if_pos hc] at h
      by_cases ht : decide (s.mu ≠ newMu p s.mu) = false ∧ tiny = true
      · simp only [if_pos ht] at h; exact absurd h (by simp)
      · simp only [if_neg ht] at h
        have hEE := he hc.2.1
        have key := ih _ _ _ _ s' ?_ h
        · constructor
          · refine Spec.Chain.cons (m' := newMu p s.mu) ?_ (newMu_eq p s.mu) key.chain
            rw [← hEE]; exact hc.1
          · right
            rcases key.tau with ⟨h1, h2⟩ | h1
            · rw [h1, h2]; rfl
            · exact h1
          · exact key.init
          · exact key.resto
          · exact key.tinyF
        · intro hd
          by_cases hin : s.initialized = true ∧ p.fast = false
          · simp only [if_pos hin] at hd; exact absurd hd (by simp)
          · by_cases hch : decide (s.mu ≠ newMu p s.mu) = false
            · simp only [if_neg hin, if_pos hch] at hd; exact absurd hd (by simp)
            · simp only [if_neg hin, if_neg hch]
    · rw [if_neg hc] at h
      injection h with h
      subst h
      exact ⟨.nil _ _, Or.inl ⟨rfl, rfl⟩, rfl, rfl, rfl⟩

/-- Along a chain that starts at or above the floor the values never increase and never fall below the floor. -/
theorem chain_bounds {p : Par K} (ha : Admissible p) {E : K → K} {b : Bool} {m m' : K} (h : Spec.Chain p E b m m') :
    (m' = m ∨ Spec.floor p ≤ m') ∧ (Spec.floor p ≤ m → m' ≤ m ∧ Spec.floor p ≤ m') := by
  induction h with
  | nil b m => exact ⟨Or.inl rfl, fun h => ⟨le_rfl, h⟩⟩
  | @cons b m m1 m2 hc hr hch ih =>
    have h1 : Spec.floor p ≤ m1 := by rw [hr]; exact le_max_right _ _
    have h2 := ih.2 h1
    refine ⟨Or.inr h2.2, fun hm => ⟨le_trans h2.1 ?_, h2.2⟩⟩
    rw [hr, ← newMu_eq]; exact newMu_le ha hm

/-- **C30** One call of the update that returns: the barrier parameter is unchanged or reduced by the documented rule, each reduction being
made while the error of the barrier problem is at most `barrier_tol_factor * mu` (or because the step was tiny), and it never falls
below the floor; the fraction-to-the-boundary parameter belongs to the new value. -/
theorem update_spec (p : Par K) (E : K → K) (fuel : Nat) (s s' : State K) (h : update p E fuel s = .ok s') :
    Spec.Chain p E s.tiny s.mu s'.mu
    ∧ (s'.mu = s.mu ∧ s'.tau = s.tau ∨ s'.tau = max p.tauMin (1 - s'.mu))
    ∧ s'.initialized = true ∧ s'.firstIterResto = false ∧ s'.tiny = false
    ∧ (s.firstIterResto = true → s'.mu = s.mu) := by
  unfold update at h
  rcases hl : loop p E fuel { s with tiny := false } (E s.mu) s.tiny false with s1 | s1 | _ <;> rw [hl] at h
  · simp only [Res.ok.injEq] at h
    have hs := loop_spec p E fuel _ _ _ _ s1 (fun _ => rfl) hl
    subst h
    refine ⟨hs.chain, hs.tau, rfl, rfl, hs.tinyF, ?_⟩
    intro hr
    cases fuel with
    | zero => simp [loop] at hl
    | succ n =>
      rw [loop, if_neg (by simp [hr])] at hl
      injection hl with hl
      subst hl
      rfl
  · exact absurd h (by simp)
  · exact absurd h (by simp)

/-- **C30** If the barrier error exceeds the tolerance and the step was not tiny, the parameter is not changed and the line search is not reset. -/
theorem update_waits (p : Par K) (E : K → K) (fuel : Nat) (s : State K) (he : p.barrierTolFactor * s.mu < E s.mu) (ht : s.tiny = false) :
    update p E (fuel + 1) s = .ok { s with firstIterResto := false, initialized := true } := by
  obtain ⟨mu, tau, i, f, t, r⟩ := s
  simp only at he ht
  subst ht
  simp [update, loop, not_le.mpr he]

/-- **C30** Without `mu_allow_fast_monotone_decrease` every call but the first makes at most one reduction, and the line search is reset exactly
if the parameter was changed. -/
theorem update_slow (p : Par K) (E : K → K) (fuel : Nat) (s s' : State K) (hi : s.initialized = true) (hf : p.fast = false)
    (h : update p E fuel s = .ok s') :
    (s'.mu = s.mu ∨ s'.mu = newMu p s.mu) ∧ s'.lsResets = if s'.mu = s.mu then s.lsResets else s.lsResets + 1 := by
  unfold update at h
  cases fuel with
  | zero => simp [loop] at h
  | succ n =>
    rw [loop] at h
    by_cases hc : (E s.mu ≤ p.barrierTolFactor * s.mu ∨ s.tiny = true) ∧ True ∧ s.firstIterResto = false
    · simp only [if_pos hc] at h
      by_cases ht : decide (s.mu ≠ newMu p s.mu) = false ∧ s.tiny = true
      · simp only [if_pos ht] at h; exact absurd h (by simp)
      · simp only [if_neg ht, if_pos (And.intro hi hf)] at h
        cases n with
        | zero => simp [loop] at h
        | succ k =>
          rw [loop, if_neg (by simp)] at h
          simp only [Res.ok.injEq] at h
          subst h
          refine ⟨Or.inr rfl, ?_⟩
          by_cases hcc : newMu p s.mu = s.mu
          · simp [hcc]
          · simp [hcc, Ne.symm hcc]
    · simp only [if_neg hc, Res.ok.injEq] at h
      subst h; exact ⟨Or.inl rfl, by simp⟩

/-- **C30** "Solved to best possible accuracy" is thrown exactly if the last step was tiny and the parameter cannot be reduced any more (and this
is not the first restoration iteration). -/
theorem tiny_step_iff (p : Par K) (E : K → K) (fuel : Nat) (s : State K) :
    (∃ s', update p E (fuel + 1) s = .tinyStep s') ↔ s.tiny = true ∧ newMu p s.mu = s.mu ∧ s.firstIterResto = false := by
  have later : ∀ (n : Nat) (s : State K) (err : K) (done : Bool), ∀ s', loop p E n s err false done ≠ .tinyStep s' := by
    intro n
    induction n with
    | zero => intro s err done s'; simp [loop]
    | succ k ih =>
      intro s err done s'
      rw [loop]
      by_cases hc : (err ≤ p.barrierTolFactor * s.mu ∨ false = true) ∧ done = false ∧ s.firstIterResto = false
      · rw [if_pos hc]
        simp only [Bool.false_eq_true, and_false, if_false]
        exact ih _ _ _ s'
      · rw [if_neg hc]; simp
  constructor
  · rintro ⟨s', h⟩
    unfold update at h
    rcases hl : loop p E (fuel + 1) { s with tiny := false } (E s.mu) s.tiny false with s1 | s1 | _ <;> rw [hl] at h <;> simp only [reduceCtorEq] at h
    rw [loop] at hl
    by_cases hc : (E s.mu ≤ p.barrierTolFactor * s.mu ∨ s.tiny = true) ∧ True ∧ s.firstIterResto = false
    · simp only [if_pos hc] at hl
      by_cases ht : decide (s.mu ≠ newMu p s.mu) = false ∧ s.tiny = true
      · refine ⟨ht.2, ?_, hc.2.2⟩
        have := ht.1
        simp at this
        exact this.symm
      · simp only [if_neg ht] at hl
        exact absurd hl (later _ _ _ _ _)
    · simp only [if_neg hc] at hl; exact absurd hl (by simp)
  · rintro ⟨h1, h2, h3⟩
    refine ⟨{ s with tiny := false }, ?_⟩
    simp [update, loop, h1, h2, h3]

/-- From the floor the loop ends after at most two more passes. -/
theorem loop_at_floor {p : Par K} (E : K → K) (n : Nat) (s : State K) (err : K) (tiny done : Bool)
    (hs : newMu p s.mu = s.mu) : loop p E (n + 2) s err tiny done ≠ .outOfFuel := by
  rw [loop]
  by_cases hc : (err ≤ p.barrierTolFactor * s.mu ∨ tiny = true) ∧ done = false ∧ s.firstIterResto = false
  · rw [if_pos hc]
    by_cases ht : decide (s.mu ≠ newMu p s.mu) = false ∧ tiny = true
    · simp only [if_pos ht]; simp
    · simp only [if_neg ht]
      have hch : decide (s.mu ≠ newMu p s.mu) = false := by simp [hs]
      by_cases hin : s.initialized = true ∧ p.fast = false
      · simp only [if_pos hin]; rw [loop, if_neg (by simp)]; simp
      · simp only [if_neg hin, if_pos hch]; rw [loop, if_neg (by simp)]; simp
  · rw [if_neg hc]; simp

/-- Each pass multiplies the distance measure: `n` passes suffice once `linear^n * mu` is below the floor. -/
theorem loop_terminates {p : Par K} (ha : Admissible p) (E : K → K) : ∀ (n : Nat) (s : State K) (err : K) (tiny done : Bool),
    0 < s.mu → p.linear ^ n * s.mu ≤ Spec.floor p → loop p E (n + 3) s err tiny done ≠ .outOfFuel := by
  intro n
  induction n with
  | zero =>
    intro s err tiny done hm hn
    rw [loop]
    by_cases hc : (err ≤ p.barrierTolFactor * s.mu ∨ tiny = true) ∧ done = false ∧ s.firstIterResto = false
    · rw [if_pos hc]
      by_cases ht : decide (s.mu ≠ newMu p s.mu) = false ∧ tiny = true
      · simp only [if_pos ht]; simp
      · simp only [if_neg ht]
        have hle : s.mu ≤ Spec.floor p := by simpa using hn
        have hnew : newMu p s.mu = Spec.floor p := by
          rw [newMu_eq]
          refine max_eq_right (le_trans (min_le_left _ _) ?_)
          nlinarith [ha.linear_lt]
        have hfix : newMu p (newMu p s.mu) = newMu p s.mu :=
          le_antisymm (newMu_le ha (floor_le_newMu p _)) (by rw [hnew]; exact floor_le_newMu p _)
        exact loop_at_floor E 0 _ _ _ _ hfix
    · rw [if_neg hc]; simp
  | succ k ih =>
    intro s err tiny done hm hn
    rw [loop]
    by_cases hc : (err ≤ p.barrierTolFactor * s.mu ∨ tiny = true) ∧ done = false ∧ s.firstIterResto = false
    · rw [if_pos hc]
      by_cases ht : decide (s.mu ≠ newMu p s.mu) = false ∧ tiny = true
      · simp only [if_pos ht]; simp
      · simp only [if_neg ht]
        have hpos : 0 < newMu p s.mu := lt_of_lt_of_le (floor_pos ha) (floor_le_newMu p _)
        have hlk : p.linear ^ k ≤ 1 := pow_le_one₀ ha.linear_pos.le ha.linear_lt.le
        have hlk0 : 0 < p.linear ^ k := pow_pos ha.linear_pos k
        have hb : p.linear ^ k * newMu p s.mu ≤ Spec.floor p := by
          rw [newMu_eq]
          rcases max_choice (min (p.linear * s.mu) (p.pw s.mu)) (Spec.floor p) with hcx | hcx <;> rw [hcx]
          · refine le_trans (mul_le_mul_of_nonneg_left (min_le_left _ _) hlk0.le) ?_
            rw [pow_succ] at hn
            calc p.linear ^ k * (p.linear * s.mu) = p.linear ^ k * p.linear * s.mu := by ring
              _ ≤ _ := hn
          · nlinarith [floor_pos ha]
        exact ih _ _ _ _ hpos hb
    · rw [if_neg hc]; simp

/-- **C30** Every call of the update ends after finitely many passes of its loop, for every error function and every state with a
positive barrier parameter. -/
theorem update_terminates [Archimedean K] {p : Par K} (ha : Admissible p) (s : State K) (hm : 0 < s.mu) :
    ∃ n, ∀ E : K → K, ∀ fuel ≥ n, update p E fuel s ≠ .outOfFuel := by
  obtain ⟨n, hn⟩ := exists_pow_lt_of_lt_one (div_pos (floor_pos ha) hm) ha.linear_lt
  refine ⟨n + 3, fun E fuel hf => ?_⟩
  have hb : ∀ k ≥ n, p.linear ^ k * s.mu ≤ Spec.floor p := by
    intro k hk
    have h1 : p.linear ^ k ≤ p.linear ^ n := pow_le_pow_of_le_one ha.linear_pos.le ha.linear_lt.le hk
    have h2 : p.linear ^ n * s.mu ≤ Spec.floor p := by
      have := (lt_div_iff₀ hm).mp hn
      exact this.le
    exact le_trans (mul_le_mul_of_nonneg_right h1 hm.le) h2
  obtain ⟨k, rfl⟩ : ∃ k, fuel = k + 3 := ⟨fuel - 3, by omega⟩
  have := loop_terminates ha E k { s with tiny := false } (E s.mu) s.tiny false hm (hb k (by omega))
  unfold update
  rcases hl : loop p E (k + 3) { s with tiny := false } (E s.mu) s.tiny false with s1 | s1 | _
  · simp
  · simp
  · exact absurd hl this

/-- The states that can occur in a run: the initial one, and after every returning call with any iterate (error function) and any tiny-step
flag raised in between. -/
inductive Reach (p : Par K) (resto : Bool) : State K → Prop
  | init (tiny : Bool) : Reach p resto (init p resto tiny)
  | step {s s' : State K} (E : K → K) (fuel : Nat) (tiny : Bool) :
      Reach p resto s → update p E fuel { s with tiny := tiny } = .ok s' → Reach p resto s'

/-- The successive values of the barrier parameter in a run. -/
inductive Run (p : Par K) (resto : Bool) : List K → State K → Prop
  | init (tiny : Bool) : Run p resto [p.muInit] (init p resto tiny)
  | step {l : List K} {s s' : State K} (E : K → K) (fuel : Nat) (tiny : Bool) :
      Run p resto l s → update p E fuel { s with tiny := tiny } = .ok s' → Run p resto (l ++ [s'.mu]) s'

/-- **C30** In every run that starts at or above the floor the barrier parameter never increases and stays at or above the (positive)
floor, whatever the iterates are. -/
theorem mu_nonincreasing {p : Par K} (ha : Admissible p) (resto : Bool) (h0 : Spec.floor p ≤ p.muInit) {l : List K} {s : State K}
    (h : Run p resto l s) : l.getLast? = some s.mu ∧ l.Pairwise (fun a b => b ≤ a) ∧ ∀ a ∈ l, Spec.floor p ≤ a ∧ 0 < a ∧ s.mu ≤ a := by
  induction h with
  | init tiny =>
    refine ⟨rfl, by simp, ?_⟩
    intro a hm
    simp only [List.mem_singleton] at hm
    subst hm
    exact ⟨h0, lt_of_lt_of_le (floor_pos ha) h0, le_rfl⟩
  | @step l s s' E fuel tiny hr hu ih =>
    obtain ⟨h1, h2, h3⟩ := ih
    have hmem : s.mu ∈ l := by
      rw [List.getLast?_eq_some_iff] at h1
      obtain ⟨ys, rfl⟩ := h1
      simp
    have hc := (update_spec p E fuel _ s' hu).1
    have hb := (chain_bounds ha hc).2 (h3 _ hmem).1
    have hle : s'.mu ≤ s.mu := hb.1
    refine ⟨by simp, ?_, ?_⟩
    · rw [List.pairwise_append]
      refine ⟨h2, by simp, ?_⟩
      intro a hA b hB
      simp only [List.mem_singleton] at hB
      subst hB
      exact le_trans hle (h3 a hA).2.2
    · intro a hA
      rcases List.mem_append.mp hA with hA | hA
      · exact ⟨(h3 a hA).1, (h3 a hA).2.1, le_trans hle (h3 a hA).2.2⟩
      · simp only [List.mem_singleton] at hA
        subst hA
        exact ⟨hb.2, lt_of_lt_of_le (floor_pos ha) hb.2, le_rfl⟩

/-- **C30** In every run, also one that starts below the floor, the barrier parameter is positive and `tau = max(tau_min, 1-mu)`. -/
theorem mu_pos_tau {p : Par K} (ha : Admissible p) (resto : Bool) {s : State K} (h : Reach p resto s) :
    0 < s.mu ∧ s.tau = max p.tauMin (1 - s.mu) ∧ (s.mu = p.muInit ∨ Spec.floor p ≤ s.mu) := by
  induction h with
  | init tiny => exact ⟨ha.init_pos, rfl, Or.inl rfl⟩
  | @step s s' E fuel tiny hr hu ih =>
    obtain ⟨hc, ht, _⟩ := update_spec p E fuel _ s' hu
    rcases (chain_bounds ha hc).1 with hm | hm
    · refine ⟨by rw [hm]; exact ih.1, ?_, by rw [hm]; exact ih.2.2⟩
      rcases ht with ht | ht
      · rw [ht.2, ht.1]; exact ih.2.1
      · exact ht
    · refine ⟨lt_of_lt_of_le (floor_pos ha) hm, ?_, Or.inr hm⟩
      rcases ht with ht | ht
      · rw [ht.2, ht.1]; exact ih.2.1
      · exact ht

/-- A setting with all hypotheses: the defaults with `mu^(3/2)` replaced by `mu^2`. -/
def exPar : Par ℚ := ⟨1/10, 10, 1/5, fun m => m * m, true, 99/100, 1/10000, 1/100000000, 0⟩

example : Admissible exPar :=
  ⟨by norm_num [exPar], by norm_num [exPar], by norm_num [exPar], by norm_num [exPar], fun m h => by simpa [exPar] using mul_pos h h,
    by norm_num [exPar], by norm_num [exPar]⟩

example : Spec.floor exPar ≤ exPar.muInit := by decide +kernel

/-- One call with error 1/5: two reductions, and one reset of the line search. -/
example : (match update exPar (fun _ => 1/50) 10 (init exPar false false) with
    | .ok s => some (s.mu, s.lsResets) | _ => none) = some ((1/10000 : ℚ), 1) := by decide +kernel

/-- Disagreement with the English claim: started below the floor (here by `mu_target > mu_init`, which the options allow) the barrier
parameter increases. -/
theorem mu_increases_below_floor :
    (match update { exPar with muTarget := 1 } (fun _ => 0) 10 (init { exPar with muTarget := 1 } false false) with
      | .ok s => some s.mu | _ => none) = some (1 : ℚ) := by decide +kernel

/-- If the last pass of the loop finds the floor, the line search (and with it the filter) is not reset although the barrier parameter was reduced before in the same call. -/
theorem linesearch_not_reset :
    (match update { exPar with muTarget := 1/100 } (fun _ => 0) 10 (init { exPar with muTarget := 1/100 } false false) with
      | .ok s => some (s.mu, s.lsResets) | _ => none) = some ((1/100 : ℚ), 0) := by decide +kernel

end Verif.MonotoneMu
