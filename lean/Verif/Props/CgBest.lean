import Verif.Model.CgBest
import Mathlib.Algebra.Order.Archimedean.Basic
import Mathlib.Tactic.Linarith
import Mathlib.Tactic.NormNum
import Mathlib.Algebra.Order.Field.Rat

/-! # C91: restored iterates and penalty parameter of the Chen-Goldfarb method -/

set_option linter.unusedSectionVars false
set_option linter.unusedSimpArgs false
set_option linter.unusedVariables false

namespace Verif.CgBest

variable {K : Type} [Field K] [LinearOrder K] [IsStrictOrderedRing K] {α : Type}

/-! ## Specification: iterates -/

/-- What happens during one optimization: an iteration with accepted step (barrier parameter, restored?, current iterate, its error), one whose
line search fails, a check for diverging multipliers (with result), a fallback. -/
inductive Event (α K : Type) where
  | iter (mu : K) (r : Bool) (it : α) (e : K)
  | failed (mu : K) (r : Bool)
  | check (div : Bool)
  | fallback

/-- State after the event, and the point restored by it. -/
def step (s : St α K) : Event α K → Option α × St α K
  | .iter mu r it e => (none, (s.initLineSearch mu r).update mu it e)
  | .failed mu r => (none, s.initLineSearch mu r)
  | .check d => s.restored d
  | .fallback => s.fallback

/-- State after a history. -/
def run (s : St α K) : List (Event α K) → St α K
  | [] => s
  | ev :: l => run (step s ev).2 l

/-- The iterates of a history with their errors. -/
def seen : List (Event α K) → List (α × K)
  | [] => []
  | .iter _ _ it e :: l => (it, e) :: seen l
  | _ :: l => seen l

/-- Number of iterates restored by checks for diverging multipliers. -/
def restorations (s : St α K) : List (Event α K) → Nat
  | [] => 0
  | .check d :: l => (if (s.restored d).1.isSome then 1 else 0) + restorations (s.restored d).2 l
  | .iter mu r it e :: l => restorations (step s (.iter mu r it e)).2 l
  | .failed mu r :: l => restorations (step s (.failed mu r)).2 l
  | .fallback :: l => restorations (step s .fallback).2 l

/-! ## Proofs: iterates -/

theorem initLineSearch_mu (mu : K) (r : Bool) (s : St α K) : ¬ mu < (s.initLineSearch mu r).penMu := by
  unfold St.initLineSearch
  cases r
  · simp only [Bool.false_eq_true, if_false]
    split
    · simp
    · assumption
  · simp

theorem initLineSearch_keep (mu : K) (r : Bool) (s : St α K) : (s.initLineSearch mu r).err = s.err ∧ (s.initLineSearch mu r).best = s.best ∧
    (s.initLineSearch mu r).counter = s.counter := by
  unfold St.initLineSearch
  simp only
  cases r <;> simp <;> split <;> simp

theorem iter_eq (mu : K) (r : Bool) (it : α) (e : K) (s : St α K) :
    (step s (.iter mu r it e)).2 = (s.initLineSearch mu r).store it e := by
  simp only [step, St.update]
  rw [if_neg (initLineSearch_mu mu r s)]

theorem store_counter (it : α) (e : K) (s : St α K) : (s.store it e).counter = s.counter := by
  unfold St.store; split <;> rfl

theorem restored_keep (d : Bool) (s : St α K) : (s.restored d).2.err = s.err ∧ (s.restored d).2.best = s.best := by
  unfold St.restored
  split
  · split
    · cases h : s.best <;> simp [h]
    · simp
  · simp

theorem fallback_keep (s : St α K) : s.fallback.2.err = s.err ∧ s.fallback.2.best = s.best ∧ s.fallback.2.counter = s.counter := by
  unfold St.fallback
  cases h : s.best <;> simp [h]

/-- stored point for a list of iterates. -/
def Least (s : St α K) (l : List (α × K)) (b0 : Option α) : Prop :=
  (l = [] → s.err < 0 ∧ s.best = b0) ∧
  (l ≠ [] → ∃ it, s.best = some it ∧ (it, s.err) ∈ l ∧ 0 ≤ s.err ∧ ∀ p ∈ l, s.err ≤ p.2)

theorem store_least {s : St α K} {l : List (α × K)} {b0 : Option α} (h : Least s l b0) (it : α) {e : K} (he : 0 ≤ e) :
    Least (s.store it e) (l ++ [(it, e)]) b0 := by
  refine ⟨fun h => by simp at h, fun _ => ?_⟩
  by_cases hl : l = []
  · have h1 := (h.1 hl).1
    unfold St.store
    rw [if_pos (Or.inr h1)]
    refine ⟨it, rfl, by simp, he, fun p hp => ?_⟩
    rw [hl] at hp
    simp at hp
    rw [hp]
  · obtain ⟨b, h1, h2, h3, h4⟩ := h.2 hl
    unfold St.store
    split
    · rename_i hc
      rcases hc with hc | hc
      · refine ⟨it, rfl, by simp, he, fun p hp => ?_⟩
        rw [List.mem_append] at hp
        rcases hp with hp | hp
        · exact le_trans (le_of_lt hc) (h4 p hp)
        · simp at hp; rw [hp]
      · exact absurd h3 (not_le.2 hc)
    · rename_i hc
      rw [not_or] at hc
      refine ⟨b, h1, by simp [h2], h3, fun p hp => ?_⟩
      rw [List.mem_append] at hp
      rcases hp with hp | hp
      · exact h4 p hp
      · simp at hp; rw [hp]; exact not_lt.1 hc.1

theorem run_least {b0 : Option α} : ∀ (l : List (Event α K)) (s : St α K) (p : List (α × K)), (∀ q ∈ seen l, 0 ≤ q.2) → Least s p b0 →
    Least (run s l) (p ++ seen l) b0
  | [], s, p, _, h => by simpa [run, seen] using h
  | ev :: l, s, p, he, h => by
    have keep : ∀ s' : St α K, s'.err = s.err → s'.best = s.best → Least s' p b0 := by
      intro s' h1 h2
      unfold Least
      rw [h1, h2]
      exact h
    cases ev with
    | iter mu r it e =>
      have hk := initLineSearch_keep mu r s
      have := run_least l (step s (.iter mu r it e)).2 (p ++ [(it, e)]) (fun q hq => he q (by simp [seen, hq])) (by
        rw [iter_eq]
        exact store_least (keep _ hk.1 hk.2.1) it (he (it, e) (by simp [seen])))
      rw [List.append_assoc] at this
      exact this
    | failed mu r => exact run_least l _ p he (keep _ (initLineSearch_keep mu r s).1 (initLineSearch_keep mu r s).2.1)
    | check d => exact run_least l _ p he (keep _ (restored_keep d s).1 (restored_keep d s).2)
    | fallback => exact run_least l _ p he (keep _ (fallback_keep s).1 (fallback_keep s).2.1)

/-- **C91.** After the initialization and any history with at least one accepted step, a point restored because of diverging multipliers or as
fallback is a former iterate of this optimization with least error among all of them, and a fallback never fails.  Partial: the code means to compare
only iterates since the barrier parameter was decreased; see `reset_is_dead`. -/
theorem restored_is_best_partial (mu0 : K) (s0 : St α K) (l : List (Event α K)) (he : ∀ q ∈ seen l, 0 ≤ q.2) (hl : seen l ≠ []) (ev : Event α K)
    (hev : ev = .fallback ∨ ∃ d, ev = .check d) :
    (∀ b, (step (run (s0.init mu0) l) ev).1 = some b → ∃ e, (b, e) ∈ seen l ∧ ∀ q ∈ seen l, e ≤ q.2) ∧
    (ev = .fallback → (step (run (s0.init mu0) l) ev).1.isSome) := by
  have h := run_least l (s0.init mu0) [] he (b0 := s0.best) ⟨fun _ => ⟨by simp [St.init], rfl⟩, fun h => absurd rfl h⟩
  rw [List.nil_append] at h
  obtain ⟨b, h1, h2, h3, h4⟩ := h.2 hl
  refine ⟨fun b' hb => ?_, fun hf => ?_⟩
  · have : b' = b := by
      rcases hev with rfl | ⟨d, rfl⟩
      · simp only [step, St.fallback, h1] at hb
        exact (Option.some.inj hb).symm
      · simp only [step, St.restored, h1] at hb
        split at hb
        · split at hb
          · exact (Option.some.inj hb).symm
          · cases hb
        · cases hb
    rw [this]
    exact ⟨_, h2, h4⟩
  · rw [hf]
    simp [step, St.fallback, h1]

/-- C91: at most three restorations because of diverging multipliers in one optimization. -/
theorem at_most_three (mu0 : K) (s0 : St α K) (l : List (Event α K)) : restorations (s0.init mu0) l ≤ 3 := by
  have key : ∀ (l : List (Event α K)) (s : St α K), s.counter ≤ 3 → restorations s l + s.counter ≤ 3 := by
    intro l
    induction l with
    | nil => intro s h; simpa [restorations] using h
    | cons ev l ih =>
      intro s h
      cases ev with
      | iter mu r it e =>
        have hc : (step s (.iter mu r it e)).2.counter = s.counter := by
          rw [iter_eq, store_counter, (initLineSearch_keep mu r s).2.2]
        have := ih (step s (.iter mu r it e)).2 (by rw [hc]; exact h)
        rw [hc] at this
        exact this
      | failed mu r =>
        have hc : (step s (.failed mu r)).2.counter = s.counter := (initLineSearch_keep mu r s).2.2
        have := ih (step s (.failed mu r)).2 (by rw [hc]; exact h)
        rw [hc] at this
        exact this
      | fallback =>
        have hc : (step s .fallback).2.counter = s.counter := (fallback_keep s).2.2
        have := ih (step s .fallback).2 (by rw [hc]; exact h)
        rw [hc] at this
        exact this
      | check d =>
        simp only [restorations]
        have h1 : (if (s.restored d).1.isSome then 1 else 0) + s.counter = (s.restored d).2.counter ∧ (s.restored d).2.counter ≤ 3 := by
          unfold St.restored
          split
          · rename_i hc
            split
            · cases hb : s.best
              · simpa using h
              · simp; omega
            · simpa using h
          · simpa using h
        have := ih (s.restored d).2 h1.2
        omega
  have := key l (s0.init mu0) (by simp [St.init])
  omega

/-- C91: an iterate is restored by the check only if the multipliers diverge, and after every restoration pure Newton steps are not tried again in this
optimization. -/
theorem restored_only_if (s : St α K) (ev : Event α K) (l : List (Event α K)) (b : α) (h : (step s ev).1 = some b) :
    (∀ d, ev = .check d → d = true) ∧ (run (step s ev).2 l).never = true := by
  have keep : ∀ (l : List (Event α K)) (s : St α K), s.never = true → (run s l).never = true := by
    intro l
    induction l with
    | nil => intro s h; exact h
    | cons ev l ih =>
      intro s h
      refine ih _ ?_
      cases ev with
      | iter mu r it e =>
        rw [iter_eq]
        unfold St.store St.initLineSearch
        cases r <;> simp only [Bool.false_eq_true, if_false, if_true] <;> split <;> split <;> exact h
      | failed mu r =>
        simp only [step]
        unfold St.initLineSearch
        cases r <;> simp only [Bool.false_eq_true, if_false, if_true] <;> split <;> exact h
      | check d =>
        simp only [step]
        unfold St.restored
        split
        · split
          · cases hb : s.best <;> simp [h]
          · exact h
        · exact h
      | fallback =>
        simp only [step]
        unfold St.fallback
        cases hb : s.best <;> simp [h]
  cases ev with
  | iter mu r it e => simp [step] at h
  | failed mu r => simp [step] at h
  | check d =>
    simp only [step] at h ⊢
    cases d
    · exfalso
      unfold St.restored at h
      simp at h
    · refine ⟨(fun d hd => by injection hd with hd; exact hd.symm), keep l _ ?_⟩
      unfold St.restored at h ⊢
      split at h
      · rename_i hc
        rw [if_pos hc]
        cases hb : s.best with
        | none => simp [hb] at h
        | some b => simp
      · cases h
  | fallback =>
    simp only [step] at h ⊢
    refine ⟨(fun d hd => by cases hd), keep l _ ?_⟩
    unfold St.fallback at h ⊢
    cases hb : s.best with
    | none => simp [hb] at h
    | some b => simp

/-- **Finding (C91).** In `UpdateForNextIteration` the test for a decrease of the barrier parameter, which would forget the best error, never
succeeds, as the line search before it has stored the barrier parameter already. -/
theorem reset_is_dead (mu : K) (r : Bool) (s : St α K) (it : α) (e : K) :
    (step s (.iter mu r it e)).2.err = if e < s.err ∨ s.err < 0 then e else s.err := by
  rw [iter_eq]
  have h := (initLineSearch_keep mu r s).1
  unfold St.store
  rw [h]
  split
  · rfl
  · exact h

/-- **Finding (C91).** A fallback before the first accepted step of a reoptimization restores an iterate of the former optimization. -/
theorem stale_fallback (s : St α K) (mu0 mu : K) (r : Bool) (b : α) (h : s.best = some b) :
    (step (run (s.init mu0) [.failed mu r]) .fallback).1 = some b := by
  have := (initLineSearch_keep mu r (s.init mu0)).2.1
  simp only [run, step, St.fallback]
  rw [this]
  simp [St.init, h]

/-! ## Penalty parameter -/

/-- `Reset` also forgets the tolerance. -/
inductive PEvent (K : Type) where
  | update (i : PIn K)
  | reset

/-- One event. -/
def pstep (c : PCfg K) (s : PSt K) : PEvent K → Option (PSt K)
  | .update i => s.update c i
  | .reset => some { s with eta := -1 }

/-- A history; `none` after an exception. -/
def prun (c : PCfg K) : PSt K → List (PEvent K) → Option (PSt K)
  | s, [] => some s
  | s, e :: l => (pstep c s e).bind (fun s => prun c s l)

/-- Consistent options; the factors are greater than one. -/
structure PCfg.Sane (c : PCfg K) : Prop where
  eta : 0 < c.etaMin
  hat : 1 < c.chiHat
  tilde : 1 < c.chiTilde

theorem first_spec {c : PCfg K} (hc : c.Sane) {i : PIn K} {s s' : PSt K} (h0 : 0 ≤ s.kkt) (h : s.first c i = some s') :
    (s' = s ∧ s.increase c i = false) ∨
    (s.increase c i = true ∧ s'.c1 = s.c1 + 1 ∧ s'.c2 = s.c2 ∧ s'.kkt ≤ c.penMax ∧ min c.chiHat c.chiTilde * s.kkt ≤ s'.kkt ∧
      s'.eta = max c.etaMin (s.eta / 2) ∧ (i.never = true → s'.pen = s'.kkt) ∧ (i.never = false → s'.pen = s.pen)) := by
  unfold PSt.first at h
  split at h
  · rename_i hi
    right
    split at h
    · cases h
    · rename_i hp
      have h' := Option.some.inj h
      subst h'
      refine ⟨hi, rfl, rfl, not_lt.1 hp, ?_, rfl, fun hn => by simp [PSt.set, hn], fun hn => by simp [PSt.set, hn]⟩
      simp only [PSt.set, PSt.newPen]
      split
      · exact le_max_of_le_left (mul_le_mul_of_nonneg_right (min_le_left _ _) h0)
      · exact le_max_of_le_left (mul_le_mul_of_nonneg_right (min_le_right _ _) h0)
  · rename_i hi
    left
    exact ⟨(Option.some.inj h).symm, by simpa using hi⟩

theorem second_off {c : PCfg K} {i : PIn K} (s : PSt K) (h : c.neverPw = true ∨ i.hasDual = false) : s.second c i = s := by
  unfold PSt.second
  rw [if_neg]
  rcases h with h | h <;> simp [h]

theorem initEta_keep (c : PCfg K) (i : PIn K) (s : PSt K) : (s.initEta c i).kkt = s.kkt ∧ (s.initEta c i).pen = s.pen ∧ (s.initEta c i).c1 = s.c1 := by
  unfold PSt.initEta; split <;> simp

/-- Without the heuristic update. -/
theorem pstep_spec {c : PCfg K} (hc : c.Sane) (hn : c.neverPw = true) {s s' : PSt K} (h0 : 0 ≤ s.kkt) {e : PEvent K} (h : pstep c s e = some s') :
    (s'.kkt = s.kkt ∧ s'.c1 = s.c1) ∨ (s'.c1 = s.c1 + 1 ∧ s'.kkt ≤ c.penMax ∧ min c.chiHat c.chiTilde * s.kkt ≤ s'.kkt) := by
  cases e with
  | reset => simp only [pstep] at h; have := Option.some.inj h; subst this; exact Or.inl ⟨rfl, rfl⟩
  | update i =>
    obtain ⟨k1, k2, k3⟩ := initEta_keep c i s
    simp only [pstep, PSt.update] at h
    rw [Option.map_eq_some_iff] at h
    obtain ⟨q, hq, rfl⟩ := h
    rw [second_off q (Or.inl hn)]
    rcases first_spec hc (by rw [k1]; exact h0) hq with ⟨rfl, _⟩ | ⟨_, a1, _, a2, a3, _⟩
    · exact Or.inl ⟨k1, k3⟩
    · rw [k1] at a3
      rw [k3] at a1
      exact Or.inr ⟨a1, a2, a3⟩

theorem prun_grow {c : PCfg K} (hc : c.Sane) (hn : c.neverPw = true) : ∀ (l : List (PEvent K)) (s s' : PSt K), 0 < s.kkt → s.kkt ≤ c.penMax →
    prun c s l = some s' → s.c1 ≤ s'.c1 ∧ s.kkt * (min c.chiHat c.chiTilde) ^ (s'.c1 - s.c1) ≤ s'.kkt ∧ s'.kkt ≤ c.penMax
  | [], s, s', h0, h1, h => by
    simp only [prun] at h
    have := Option.some.inj h
    subst this
    exact ⟨le_refl _, by simp, h1⟩
  | e :: l, s, s', h0, h1, h => by
    simp only [prun] at h
    rw [Option.bind_eq_some_iff] at h
    obtain ⟨q, hq, h⟩ := h
    have hg : 1 < min c.chiHat c.chiTilde := lt_min hc.hat hc.tilde
    rcases pstep_spec hc hn (le_of_lt h0) hq with ⟨a1, a2⟩ | ⟨a1, a2, a3⟩
    · have := prun_grow hc hn l q s' (by rw [a1]; exact h0) (by rw [a1]; exact h1) h
      rw [a1, a2] at this
      exact this
    · have hq0 : 0 < q.kkt := lt_of_lt_of_le (mul_pos (lt_trans one_pos hg) h0) a3
      obtain ⟨b1, b2, b3⟩ := prun_grow hc hn l q s' hq0 a2 h
      refine ⟨by omega, ?_, b3⟩
      have e1 : s'.c1 - s.c1 = (s'.c1 - q.c1) + 1 := by omega
      rw [e1, pow_succ]
      refine le_trans ?_ b2
      have hp : 0 ≤ (min c.chiHat c.chiTilde) ^ (s'.c1 - q.c1) := pow_nonneg (le_of_lt (lt_trans one_pos hg)) _
      calc s.kkt * ((min c.chiHat c.chiTilde) ^ (s'.c1 - q.c1) * min c.chiHat c.chiTilde)
          = (min c.chiHat c.chiTilde * s.kkt) * (min c.chiHat c.chiTilde) ^ (s'.c1 - q.c1) := by ring
        _ ≤ q.kkt * (min c.chiHat c.chiTilde) ^ (s'.c1 - q.c1) := mul_le_mul_of_nonneg_right a3 hp

/-- **C91.** With `never_use_piecewise_penalty_ls=yes`, in every history of updates that ends without exception the penalty parameter has not
decreased and is at most `penalty_max`, and the number of increases is bounded by a number that depends only on the options and the first value.
Partial: without the option (default) this fails, see `heuristic_exceeds`. -/
theorem penalty_bounded_partial [Archimedean K] {c : PCfg K} (hc : c.Sane) (hn : c.neverPw = true) {k0 : K} (h0 : 0 < k0) (h1 : k0 ≤ c.penMax) :
    ∃ B : Nat, ∀ (s s' : PSt K) (l : List (PEvent K)), s.kkt = k0 → prun c s l = some s' →
      k0 ≤ s'.kkt ∧ s'.kkt ≤ c.penMax ∧ s.c1 ≤ s'.c1 ∧ s'.c1 - s.c1 ≤ B := by
  have hg : 1 < min c.chiHat c.chiTilde := lt_min hc.hat hc.tilde
  obtain ⟨N, hN⟩ := pow_unbounded_of_one_lt (c.penMax / k0) hg
  rw [div_lt_iff₀ h0] at hN
  refine ⟨N, fun s s' l hs h => ?_⟩
  subst hs
  obtain ⟨b1, b2, b3⟩ := prun_grow hc hn l s s' h0 h1 h
  have hone : ∀ n : Nat, 1 ≤ (min c.chiHat c.chiTilde) ^ n := fun n => one_le_pow₀ (le_of_lt hg)
  refine ⟨le_trans ?_ b2, b3, b1, ?_⟩
  · have := mul_le_mul_of_nonneg_left (hone (s'.c1 - s.c1)) (le_of_lt h0)
    rwa [mul_one] at this
  · by_contra hlt
    rw [not_le] at hlt
    have h2 : (min c.chiHat c.chiTilde) ^ N ≤ (min c.chiHat c.chiTilde) ^ (s'.c1 - s.c1) := pow_le_pow_right₀ (le_of_lt hg) (le_of_lt hlt)
    have h3 := mul_le_mul_of_nonneg_left h2 (le_of_lt h0)
    linarith

theorem foldl_min_le : ∀ (l : List K) (a z : K), z ∈ a :: l → l.foldl min a ≤ z
  | [], a, z, h => by simp at h; rw [h]; exact le_refl _
  | b :: l, a, z, h => by
    rw [List.foldl_cons]
    rw [List.mem_cons, List.mem_cons] at h
    rcases h with rfl | rfl | h
    · exact le_trans (foldl_min_le l _ _ List.mem_cons_self) (min_le_left _ _)
    · exact le_trans (foldl_min_le l _ _ List.mem_cons_self) (min_le_right _ _)
    · exact foldl_min_le l _ z (by simp [h])

theorem le_foldl_max : ∀ (l : List K) (a z : K), z ∈ a :: l → z ≤ l.foldl max a
  | [], a, z, h => by simp at h; rw [h]; exact le_refl _
  | b :: l, a, z, h => by
    rw [List.foldl_cons]
    rw [List.mem_cons, List.mem_cons] at h
    rcases h with rfl | rfl | h
    · exact le_trans (le_max_left _ _) (le_foldl_max l _ _ List.mem_cons_self)
    · exact le_trans (le_max_right _ _) (le_foldl_max l _ _ List.mem_cons_self)
    · exact le_foldl_max l _ z (by simp [h])

/-- C91: an update changes the penalty parameter by the first rule only if the trial point is infeasible, the step is short, the complementarities
are within the factor `penalty_update_compl_tol` of the barrier parameter and the multipliers are close to their estimates; then it becomes at least `chi_hat` or `chi_tilde` times as
large, and covers the multipliers after a full step. -/
theorem update_only_if {c : PCfg K} (hc : c.Sane) {i : PIn K} {s s' : PSt K} (h0 : 0 ≤ s.kkt) (he : 0 ≤ s.eta) (hd : c.neverPw = true ∨ i.hasDual = false)
    (h : s.update c i = some s') (hne : s'.kkt ≠ s.kkt) :
    c.infTol ≤ i.trialInf ∧ i.maxStep ≤ s.eta ∧ (∀ z ∈ i.mu :: i.compl, i.mu * c.complTol ≤ z ∧ z ≤ i.mu / c.complTol) ∧ i.omegaC < s.eta ∧ i.omegaD < s.eta ∧
    (c.epsC ≤ i.currInf → s'.kkt = max (c.chiHat * s.kkt) (i.yFull + 1)) ∧
    (i.currInf < c.epsC → s'.kkt = max (c.chiTilde * s.kkt) (c.chiCup * i.yFull)) ∧ s'.eta = max c.etaMin (s.eta / 2) ∧ s'.kkt ≤ c.penMax := by
  have hi : s.initEta c i = s := by unfold PSt.initEta; rw [if_neg (not_lt.2 he)]
  simp only [PSt.update, hi] at h
  rw [Option.map_eq_some_iff] at h
  obtain ⟨q, hq, rfl⟩ := h
  rw [second_off q hd] at hne ⊢
  have hq2 := hq
  rcases first_spec hc h0 hq with ⟨rfl, _⟩ | ⟨a0, a1, a2, a3, a4, a5, a6, a7⟩
  · exact absurd rfl hne
  · unfold PSt.first at hq2
    rw [if_pos a0] at hq2
    split at hq2
    · cases hq2
    · have hq3 := Option.some.inj hq2
      unfold PSt.increase at a0
      simp only [Bool.and_eq_true, decide_eq_true_eq] at a0
      refine ⟨a0.1.1.1.1, a0.1.1.1.2, fun z hz => ⟨le_trans a0.1.1.2.1 (foldl_min_le i.compl i.mu z hz), le_trans (le_foldl_max i.compl i.mu z hz) a0.1.1.2.2⟩, a0.1.2, a0.2, fun hh => ?_, fun hh => ?_, a5, a3⟩
      · rw [← hq3]; simp [PSt.set, PSt.newPen, hh]
      · rw [← hq3]; simp [PSt.set, PSt.newPen, not_le.2 hh]

/-- C91: after every update the tolerance is at least `eta_min`, and the heuristic has been used with large multipliers at most five times. -/
theorem eta_and_count {c : PCfg K} : ∀ (l : List (PEvent K)) (s s' : PSt K), s.eta < 0 ∨ c.etaMin ≤ s.eta → s.c2 ≤ 5 → prun c s l = some s' →
    (s'.eta < 0 ∨ c.etaMin ≤ s'.eta) ∧ s'.c2 ≤ 5 ∧ ∀ i, ∀ s'' : PSt K, s'.update c i = some s'' → c.etaMin ≤ s''.eta ∧
      (10000 < i.yAmax → s'.c2 = 5 → s''.kkt = s'.kkt ∨ s'.increase c i = true ∨ s'.eta < 0) := by
  have one : ∀ (s s'' : PSt K) (i : PIn K), s.eta < 0 ∨ c.etaMin ≤ s.eta → s.c2 ≤ 5 → s.update c i = some s'' → c.etaMin ≤ s''.eta ∧ s''.c2 ≤ 5 ∧
      (10000 < i.yAmax → s.c2 = 5 → s''.kkt = s.kkt ∨ s.increase c i = true ∨ s.eta < 0) := by
    intro s s'' i h1 h2 h
    have e1 : c.etaMin ≤ (s.initEta c i).eta ∧ (s.initEta c i).c2 = s.c2 ∧ (s.initEta c i).kkt = s.kkt ∧ (s.eta < 0 ∨ s.initEta c i = s) := by
      unfold PSt.initEta
      split
      · rename_i hh; exact ⟨le_max_left _ _, rfl, rfl, Or.inl hh⟩
      · rename_i hh; exact ⟨h1.resolve_left hh, rfl, rfl, Or.inr rfl⟩
    simp only [PSt.update] at h
    rw [Option.map_eq_some_iff] at h
    obtain ⟨q, hq, rfl⟩ := h
    have e2 : c.etaMin ≤ q.eta ∧ q.c2 = s.c2 ∧ (q.kkt = s.kkt ∨ (s.initEta c i).increase c i = true) := by
      unfold PSt.first at hq
      split at hq
      · rename_i hi
        split at hq
        · cases hq
        · have := Option.some.inj hq
          rw [← this]
          exact ⟨le_max_left _ _, e1.2.1, Or.inr hi⟩
      · have := Option.some.inj hq
        rw [← this]
        exact ⟨e1.1, e1.2.1, Or.inl e1.2.2.1⟩
    have e3 : (q.second c i).eta = q.eta ∧ (q.second c i).c2 ≤ 5 ∧ (10000 < i.yAmax → q.c2 = 5 → (q.second c i).kkt = q.kkt) := by
      have h5 : q.c2 ≤ 5 := by rw [e2.2.1]; exact h2
      unfold PSt.second
      split
      · split
        · rename_i hy
          split
          · simp only
            split
            · rename_i hy2
              have hlt := hy.resolve_left (not_le.2 hy2)
              refine ⟨rfl, ?_, fun _ h => by omega⟩
              show q.c2 + 1 ≤ 5
              omega
            · rename_i hy2
              exact ⟨rfl, h5, fun h => absurd h hy2⟩
          · exact ⟨rfl, h5, fun _ _ => rfl⟩
        · exact ⟨rfl, h5, fun _ _ => rfl⟩
      · exact ⟨rfl, h5, fun _ _ => rfl⟩
    refine ⟨by rw [e3.1]; exact e2.1, e3.2.1, fun hy hc => ?_⟩
    rw [e3.2.2 hy (by rw [e2.2.1]; exact hc)]
    rcases e2.2.2 with h | h
    · exact Or.inl h
    · rcases e1.2.2.2 with h' | h'
      · exact Or.inr (Or.inr h')
      · rw [h'] at h; exact Or.inr (Or.inl h)
  intro l
  induction l with
  | nil =>
    intro s s' h1 h2 h
    simp only [prun] at h
    have := Option.some.inj h
    subst this
    refine ⟨h1, h2, fun i s'' hs => ?_⟩
    have := one _ _ _ h1 h2 hs
    exact ⟨this.1, this.2.2⟩
  | cons e l ih =>
    intro s s' h1 h2 h
    simp only [prun] at h
    rw [Option.bind_eq_some_iff] at h
    obtain ⟨q, hq, h⟩ := h
    cases e with
    | reset =>
      simp only [pstep] at hq
      have := Option.some.inj hq
      subst this
      exact ih { s with eta := -1 } s' (Or.inl (by simp)) h2 h
    | update i =>
      have := one s q i h1 h2 hq
      exact ih _ _ (Or.inr this.1) this.2.1 h

/-- **Finding (C91).** With a `penalty_update_compl_tol` greater than one (the default is 10) no complementarity passes the test, as the barrier
parameter itself would have to be at least that many times itself: without the heuristic the penalty parameter is never changed. -/
theorem default_never_updates {c : PCfg K} (ht : 1 < c.complTol) {i : PIn K} {s : PSt K} (hm : 0 < i.mu) (hd : c.neverPw = true ∨ i.hasDual = false) :
    ∃ s', s.update c i = some s' ∧ s'.kkt = s.kkt ∧ s'.pen = s.pen := by
  have hinc : (s.initEta c i).increase c i = false := by
    rw [Bool.eq_false_iff]
    intro h
    unfold PSt.increase at h
    simp only [Bool.and_eq_true, decide_eq_true_eq] at h
    have h1 := h.1.1.2.1
    have h2 : i.minCompl ≤ i.mu := foldl_min_le i.compl i.mu i.mu (by simp)
    have h3 : i.mu * 1 < i.mu * c.complTol := mul_lt_mul_of_pos_left ht hm
    linarith
  have k := initEta_keep c i s
  refine ⟨_, by rw [PSt.update, PSt.first, hinc]; rfl, ?_⟩
  simp only
  rw [second_off _ hd]
  exact ⟨k.1, k.2.1⟩

/-- **Finding (C91).** The heuristic update sets the penalty parameter to five times the norm of the multipliers without regard to `penalty_max`
and to its former value: it is exceeded without exception whenever the multipliers are large. -/
theorem heuristic_exceeds {c : PCfg K} {i : PIn K} {s : PSt K} (hn : c.neverPw = false) (hd : i.hasDual = true) (hi : i.trialInf < c.infTol)
    (hy : i.yAmax ≤ 10000) (hr : 1 / 2 * s.kkt * i.currInf < i.result) (hb : c.penMax < 5 * i.nrmY) :
    ∃ s', s.update c i = some s' ∧ s'.kkt = 5 * i.nrmY ∧ c.penMax < s'.kkt := by
  have hinc : (s.initEta c i).increase c i = false := by
    unfold PSt.increase
    simp [not_le.2 hi]
  have k := (initEta_keep c i s).1
  refine ⟨_, by rw [PSt.update, PSt.first, hinc]; rfl, ?_⟩
  have : ((s.initEta c i).second c i).kkt = 5 * i.nrmY := by
    unfold PSt.second
    rw [if_pos (by simp [hn, hd]), if_pos (Or.inl hy), if_pos (Or.inl (by rw [k]; exact hr))]
    simp only
    rw [if_neg (not_lt.2 hy)]
    rfl
  exact ⟨this, by rw [this]; exact hb⟩

/-! ## Concrete cases -/

/-- defaults, without the heuristic, and with `penalty_update_compl_tol` 1/10. -/
def demoC : PCfg ℚ := ⟨10, 2, 5, 3 / 2, 1 / 25, 4, 1 / 100, 10 ^ 30, 1 / 10 ^ 9, 1 / 10, true⟩

theorem demoC_sane : demoC.Sane := ⟨by norm_num [demoC], by norm_num [demoC], by norm_num [demoC]⟩

/-- an infeasible point with a short step. -/
def demoI : PIn ℚ := ⟨1, 1, 1, 1 / 10, [1, 1 / 100], 1, 1, 7, 1, 100, true, 50, 3, false⟩

theorem demo_penalty :
    (prun demoC ⟨-1, 3, 3, 0, 0⟩ [.update demoI, .reset, .update demoI]).map (fun s => (s.eta, s.kkt, s.pen, s.c1)) = some (10, 16, 3, 2) ∧
    (prun { demoC with neverPw := false } ⟨-1, 3, 3, 0, 0⟩ [.update { demoI with never := true, trialInf := 0 }]).map (fun s => (s.kkt, s.pen)) =
      some (15, 15) ∧
    (prun { demoC with complTol := 10 } ⟨-1, 3, 3, 0, 0⟩ [.update demoI]).map (fun s => (s.kkt, s.c1)) = some (3, 0) ∧
    (prun { demoC with penMax := 7 } ⟨-1, 3, 3, 0, 0⟩ [.update demoI]).isNone = true := by decide +kernel

/-- Points 1, 2, 3; the barrier parameter is decreased before the third: the second is restored, although it belongs to the larger parameter.
Not more than three times, and a stale point after an initialization. -/
theorem demo_best :
    let h : List (Event Nat ℚ) := [.iter (1 / 10) false 1 5, .iter (1 / 10) false 2 3, .iter (1 / 100) false 3 4]
    let s : St Nat ℚ := run ((⟨0, 0, none, 7, true⟩ : St Nat ℚ).init (1 / 10)) h
    seen h = [(1, 5), (2, 3), (3, 4)] ∧ (s.restored true).1 = some 2 ∧ (s.restored false).1 = none ∧ s.fallback.1 = some 2 ∧
    restorations s [.check true, .check false, .check true, .check true, .check true] = 3 ∧
    ((s.restored true).2.never, (s.restored true).2.counter, s.fallback.2.never, s.fallback.2.counter) = (true, 1, true, 0) ∧
    ((s.init 1).fallback).1 = some 2 := by decide +kernel

end Verif.CgBest
