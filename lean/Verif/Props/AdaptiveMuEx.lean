import Verif.Props.AdaptiveMu
import Mathlib.Tactic.NormNum

/-! # C57: concrete histories and limits of the adaptive barrier update -/

set_option linter.unusedSimpArgs false

namespace Verif.AdaptiveMu.Ex

open Verif.AdaptiveMu

/-- A setting with the default values of the options, except `mu_target` and a small initial factor for the fixed mode. -/
def par : Par ℚ where
  muMaxFact := 1000
  muMaxOpt := none
  muMinOpt := some (1 / 10 ^ 11)
  muMinDflt := 1 / 10 ^ 11
  restoPrefix := false
  tauMin := 99 / 100
  safeguard := 0
  redFact := 9999 / 10000
  numRefsMax := 2
  glob := .filter
  filterMaxMargin := 1
  filterMarginFact := 1 / 100000
  restoreAcc := false
  hasFixOracle := false
  monoInitFactor := 1 / 125
  barrierTolFactor := 10
  linear := 1 / 5
  pw := fun m => m * m
  sqrt := id
  log := fun _ => 0
  norm := .max
  centrality := .none
  balancing := false
  muTarget := 1 / 10
/-- Quantities at the iterates `0, 1, 2, …`: only iterate `0` is acceptable for the filter; `a` is the average complementarity. -/
def quant (a : ℚ) (x : Nat) : Quant ℚ where
  tol := 1 / 10 ^ 8
  complTol := 1 / 10 ^ 4
  avrgCompl := a
  nBounds := 2
  nDual := 2
  nPri := 1
  dualInf := fun _ => x
  primalInf := fun _ => 1
  compl := fun _ => 1
  xi := 1
  nlpError := if x = 0 then 2 else 1 / 1000
  f := x
  theta := x
  barrierError := fun m => m
  freeOracle := fun _ lo hi => some (max lo (min hi a))
  fixOracle := fun _ _ _ => none

/-- The calls: iterate `k` in iteration `k`, no tiny step, line search not skipped. -/
def cl (k : Nat) : Call Nat := ⟨k, k, false, false⟩

/-- The state after the calls `0, …, k-1` (or the last state reached). -/
def st (p : Par ℚ) (q : Nat → Quant ℚ) : Nat → State ℚ Nat
  | 0 => init p 0 false
  | k + 1 => match call p q (cl k) (st p q k) with
    | .ok _ s => s
    | .tinyStep s => s
    | .undefined => st p q k

/-- The history of the first `k` calls. -/
def hist (p : Par ℚ) (q : Nat → Quant ℚ) (k : Nat) : List (Call Nat × State ℚ Nat) := (List.range k).map fun i => (cl i, st p q (i + 1))

/-- If the calls all return true, this is a history. -/
theorem run_hist (p : Par ℚ) (q : Nat → Quant ℚ) : ∀ k, (∀ i < k, call p q (cl i) (st p q i) = .ok true (st p q (i + 1))) →
    Run p q (init p 0 false) (hist p q k) (st p q k)
  | 0, _ => .nil
  | k + 1, h => by
    rw [hist, List.range_succ, List.map_append]
    exact .snoc (run_hist p q k fun i hi => h i (by omega)) (h k (by omega))

theorem par_admissible : Spec.Admissible par := by
  refine ⟨by norm_num [par], by simp [par], ?_, by norm_num [par], by norm_num [par], by norm_num [par], by norm_num [par], ?_, by norm_num [par], by norm_num [par]⟩
  · intro m hm; simp only [par, Option.some.injEq] at hm; subst hm; norm_num
  · intro m hm; simp only [par]; positivity

theorem quant_interior (a : ℚ) (ha : 0 < a) : Spec.Interior (quant a) :=
  ⟨fun x => by simp [quant], fun x => by simpa [quant] using ha, fun x => by simp [quant], fun x => by simp [quant]⟩

theorem ok3 : ∀ i < 3, call par (quant (1 / 2)) (cl i) (st par (quant (1 / 2)) i) = .ok true (st par (quant (1 / 2)) (i + 1)) := by decide +kernel

/-- The hypotheses of the theorems of C57 are met by a history that stays in the free mode, enters the fixed mode, and reduces the parameter. -/
theorem history_meets_hypotheses :
    Spec.Admissible par ∧ Spec.Interior (quant (1 / 2)) ∧ Run par (quant (1 / 2)) (init par 0 false) (hist par (quant (1 / 2)) 3) (st par (quant (1 / 2)) 3)
    ∧ (hist par (quant (1 / 2)) 3).map (fun cs => (cs.2.free, cs.2.mu)) = [(true, 1 / 2), (false, 1 / 250), (false, 1 / 62500)]
    ∧ Spec.freePoints (hist par (quant (1 / 2)) 3) = [0] :=
  ⟨par_admissible, quant_interior _ (by norm_num), run_hist _ _ 3 ok3, by decide +kernel, by decide +kernel⟩

/-- **C57 (limit)** `mu_target` is not respected: with `mu_target = 1/10` both the value with which the fixed mode is entered and the value after
the reduction are below it, although `mu_max` is larger (the documentation calls `mu_target` the final value of the barrier parameter). -/
theorem mu_target_not_respected :
    ∃ (h : List (Call Nat × State ℚ Nat)) (s s1 s2 : State ℚ Nat) (c1 c2 : Call Nat),
      Run par (quant (1 / 2)) (init par 0 false) h s ∧ call par (quant (1 / 2)) c1 s = .ok true s1 ∧ call par (quant (1 / 2)) c2 s1 = .ok true s2
      ∧ s.free = true ∧ s1.free = false ∧ s2.free = false
      ∧ par.muTarget ≤ s.mu ∧ par.muTarget < s1.muMax ∧ s1.mu < par.muTarget ∧ s2.mu < s1.mu :=
  ⟨hist par (quant (1 / 2)) 1, st par (quant (1 / 2)) 1, st par (quant (1 / 2)) 2, st par (quant (1 / 2)) 3, cl 1, cl 2, run_hist _ _ 1 (fun i hi => ok3 i (by omega)), ok3 1 (by omega), ok3 2 (by omega),
    by decide +kernel⟩

/-- **C57 (limit)** In the fixed mode the fraction-to-the-boundary parameter is computed from the old barrier parameter: it differs from
`max(tau_min, 1 - mu)` for the new one. -/
theorem tau_of_old_mu :
    ∃ (h : List (Call Nat × State ℚ Nat)) (s s' : State ℚ Nat) (c : Call Nat),
      Run par (quant (1 / 2)) (init par 0 false) h s ∧ call par (quant (1 / 2)) c s = .ok true s' ∧ s'.mu < s.mu
      ∧ s'.tau = max par.tauMin (1 - s.mu) ∧ s'.tau ≠ max par.tauMin (1 - s'.mu) :=
  ⟨hist par (quant (1 / 2)) 2, st par (quant (1 / 2)) 2, st par (quant (1 / 2)) 3, cl 2, run_hist _ _ 2 (fun i hi => ok3 i (by omega)), ok3 2 (by omega), by decide +kernel⟩

theorem ok3' : ∀ i < 3, call { par with muTarget := 0 } (quant (1 / 10 ^ 10)) (cl i) (st { par with muTarget := 0 } (quant (1 / 10 ^ 10)) i)
    = .ok true (st { par with muTarget := 0 } (quant (1 / 10 ^ 10)) (i + 1)) := by decide +kernel

/-- **C57 (limit)** The "reduction" of the fixed mode may raise the parameter: its lower limit `min(tol, compl_inf_tol)/(barrier_tol_factor + 1)` can be
larger than the value set by the free mode. -/
theorem fixed_mode_may_raise_mu :
    ∃ (h : List (Call Nat × State ℚ Nat)) (s s' : State ℚ Nat) (c : Call Nat),
      Run { par with muTarget := 0 } (quant (1 / 10 ^ 10)) (init { par with muTarget := 0 } 0 false) h s
      ∧ call { par with muTarget := 0 } (quant (1 / 10 ^ 10)) c s = .ok true s' ∧ s.free = false ∧ s'.free = false ∧ c.tiny = false
      ∧ s.mu < s'.mu :=
  ⟨hist _ (quant (1 / 10 ^ 10)) 2, _, st _ (quant (1 / 10 ^ 10)) 3, cl 2, run_hist _ _ 2 (fun i hi => ok3' i (by omega)), ok3' 2 (by omega), by decide +kernel⟩

/-- **C57 (limit)** `mu_max` is computed from the average complementarity of the first iterate without a comparison with `mu_min`: the parameter
can be below `mu_min`. -/
theorem mu_min_not_respected :
    ∃ (s' : State ℚ Nat), call par (quant (1 / 10 ^ 16)) (cl 0) (init par 0 false) = .ok true s' ∧ s'.mu = s'.muMax ∧ s'.mu < s'.muMin :=
  ⟨st par (quant (1 / 10 ^ 16)) 1, by decide +kernel⟩

/-- **C57 (limit)** The options `adaptive_mu_globalization = kkt-error`, `adaptive_mu_kkterror_red_iters = 0` (allowed by the registration) and
`adaptive_mu_restore_previous_iterate = yes` make the first call dereference a null pointer. -/
theorem restore_without_point :
    call { par with glob := .kktError, numRefsMax := 0, restoreAcc := true } (quant (1 / 2)) (cl 0)
      (init { par with glob := .kktError, numRefsMax := 0, restoreAcc := true } 0 false) = .undefined := by decide +kernel

/-- **C57 (limit)** With `kkt-error`, `red_iters = 0` and a safeguard factor the first call reads the first element of an empty list. -/
theorem safeguard_without_reference :
    call { par with glob := .kktError, numRefsMax := 0, safeguard := 1 } (quant (1 / 2)) (cl 0)
      (init { par with glob := .kktError, numRefsMax := 0, safeguard := 1 } 0 false) = .undefined := by decide +kernel

/-- Iterates with KKT errors `1, 1/2, 1/3, …`. -/
def quant' (x : Nat) : Quant ℚ := { quant (1 / 2) x with primalInf := fun _ => 1 / (x + 1), dualInf := fun _ => 0, compl := fun _ => 0 }

theorem okk : ∀ i < 5, call { par with glob := .kktError } quant' (cl i) (st { par with glob := .kktError } quant' i)
    = .ok true (st { par with glob := .kktError } quant' (i + 1)) := by decide +kernel

/-- A history with the `kkt-error` globalization: five iterates with errors `1, 1/2, …, 1/5` are accepted, the reference list has two elements. -/
theorem kkt_history : ∃ (h : List (Call Nat × State ℚ Nat)) (s : State ℚ Nat),
    Run { par with glob := .kktError } quant' (init { par with glob := .kktError } 0 false) h s
    ∧ Spec.freePoints h = [0, 1, 2, 3, 4] ∧ s.refs = [1 / 4, 1 / 5] :=
  ⟨hist _ quant' 5, _, run_hist _ _ 5 okk, by decide +kernel, by decide +kernel⟩

end Verif.AdaptiveMu.Ex
