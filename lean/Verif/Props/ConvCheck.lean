import Verif.Spec.ConvCheck

/-! # The convergence check (C18, C19) -/

set_option linter.unusedSectionVars false
set_option linter.unusedSimpArgs false

namespace Verif.Alg

open Num

theorem limits_cases (cfg : CCfg) (o : Obs) :
    limits cfg o = .diverging ∨ limits cfg o = .maxiter ∨ limits cfg o = .cputime ∨ limits cfg o = .walltime ∨
      limits cfg o = .cont := by
  unfold limits
  by_cases h1 : cfg.divergingTol < o.amax
  · simp [h1]
  by_cases h2 : cfg.maxIter ≤ o.iter
  · simp [h1, h2]
  by_cases h3 : cfg.maxCpu < veryLarge ∧ cfg.maxCpu ≤ o.cpu
  · simp [h1, h2, h3]
  by_cases h4 : cfg.maxWall < veryLarge ∧ cfg.maxWall ≤ o.wall
  · simp [h1, h2, h3, h4]
  · simp [h1, h2, h3, h4]

/-- The result of a check in terms of the decisions. -/
theorem check_cases (cfg : CCfg) (cb : Bool) (st : CSt) (o : Obs) :
    (o.Stop cb ∧ check cfg cb st o = (some .userStop, st)) ∨
    (¬ o.Stop cb ∧ o.TolMet cfg ∧ check cfg cb st o = (some .converged, st)) ∨
    (¬ o.Stop cb ∧ ¬ o.TolMet cfg ∧ o.dim = 0 ∧ o.viol ≤ cfg.violTol ∧ check cfg cb st o = (some .converged, st)) ∨
    (¬ o.Stop cb ∧ ¬ o.TolMet cfg ∧ o.dim = 0 ∧ ¬ o.viol ≤ cfg.violTol ∧ check cfg cb st o = (none, st)) ∨
    (o.Undecided cfg cb ∧ 0 < cfg.accIter ∧ (isAcceptable cfg st o).1 = true ∧
      cfg.accIter ≤ (st.record o).counter + 1 ∧
      check cfg cb st o = (some .acceptable, { st.record o with counter := (st.record o).counter + 1 })) ∨
    (o.Undecided cfg cb ∧ 0 < cfg.accIter ∧ (isAcceptable cfg st o).1 = true ∧
      ¬ cfg.accIter ≤ (st.record o).counter + 1 ∧
      check cfg cb st o = (some (limits cfg o), { st.record o with counter := (st.record o).counter + 1 })) ∨
    (o.Undecided cfg cb ∧ 0 < cfg.accIter ∧ (isAcceptable cfg st o).1 = false ∧
      check cfg cb st o = (some (limits cfg o), { st.record o with counter := 0 })) ∨
    (o.Undecided cfg cb ∧ cfg.accIter = 0 ∧ check cfg cb st o = (some (limits cfg o), { st with counter := 0 })) := by
  have hrec : (isAcceptable cfg st o).2 = st.record o := rfl
  by_cases h1 : o.Stop cb
  · left
    refine ⟨h1, ?_⟩
    obtain ⟨ha, hb⟩ := h1
    simp [check, ha, hb]
  have e1 : (cb && !o.goOn) = false := by
    unfold Obs.Stop at h1
    cases cb <;> cases hg : o.goOn <;> simp_all
  right
  by_cases h2 : o.TolMet cfg
  · left
    have h2' := h2
    unfold Obs.TolMet at h2'
    exact ⟨h1, h2, by unfold check; rw [e1, if_neg (by simp), if_pos h2']⟩
  right
  have h2' := h2
  unfold Obs.TolMet at h2'
  by_cases h3 : o.dim = 0
  · by_cases h4 : o.viol ≤ cfg.violTol
    · left
      exact ⟨h1, h2, h3, h4, by unfold check; rw [e1, if_neg (by simp), if_neg h2', if_pos h3, if_pos h4]⟩
    · right; left
      exact ⟨h1, h2, h3, h4, by unfold check; rw [e1, if_neg (by simp), if_neg h2', if_pos h3, if_neg h4]⟩
  right; right
  have hu : o.Undecided cfg cb := ⟨h1, h2, h3⟩
  by_cases h5 : 0 < cfg.accIter
  · cases h6 : (isAcceptable cfg st o).1 with
    | true =>
      by_cases h7 : cfg.accIter ≤ (st.record o).counter + 1
      · left
        refine ⟨hu, h5, rfl, h7, ?_⟩
        unfold check
        rw [e1, if_neg (by simp), if_neg h2', if_neg h3, if_pos h5]
        simp only [h6, hrec, if_true, h7]
      · right; left
        refine ⟨hu, h5, rfl, h7, ?_⟩
        unfold check
        rw [e1, if_neg (by simp), if_neg h2', if_neg h3, if_pos h5]
        simp only [h6, hrec, if_true, h7, if_false]
    | false =>
      right; right; left
      refine ⟨hu, h5, rfl, ?_⟩
      unfold check
      rw [e1, if_neg (by simp), if_neg h2', if_neg h3, if_pos h5]
      simp [h6, hrec]
  · right; right; right
    refine ⟨hu, by omega, ?_⟩
    unfold check
    rw [e1, if_neg (by simp), if_neg h2', if_neg h3, if_neg h5]

/-- **C18** `CheckConvergence` reports `CONVERGED` exactly if the user does not stop and either all four tolerances are met or there are
no variables and the constraints hold — for every state of the check and all values, NaN and infinities included. -/
theorem check_converged_iff (cfg : CCfg) (cb : Bool) (st : CSt) (o : Obs) :
    (check cfg cb st o).1 = some .converged ↔
      ¬ o.Stop cb ∧ (o.TolMet cfg ∨ (o.dim = 0 ∧ o.viol ≤ cfg.violTol)) := by
  have hl := limits_cases cfg o
  rcases check_cases cfg cb st o with ⟨a, e⟩ | ⟨a, b, e⟩ | ⟨a, b, c, d, e⟩ | ⟨a, b, c, d, e⟩ | ⟨⟨a, b, c⟩, _, _, _, e⟩ |
    ⟨⟨a, b, c⟩, _, _, _, e⟩ | ⟨⟨a, b, c⟩, _, _, e⟩ | ⟨⟨a, b, c⟩, _, e⟩ <;> rw [e]
  · simp [a]
  · simp [a, b]
  · simp [a, c, d]
  · simp [a, b, c, d]
  · simp [b, c]
  all_goals
    rcases hl with h | h | h | h | h <;> simp [b, c, h]

theorem nan_not_le (x : Num) : ¬ (Num.nan ≤ x) := by
  change ¬ (Num.leB .nan x = true)
  simp [Num.leB]

/-- **C18** NaN in the overall error, the dual infeasibility, the constraint violation or the complementarity never counts as converged
(as long as there are variables; without variables the constraint violation must not be NaN). -/
theorem nan_never_converged (cfg : CCfg) (cb : Bool) (st : CSt) (o : Obs)
    (h : (o.dim ≠ 0 ∧ (o.err = .nan ∨ o.dual = .nan ∨ o.viol = .nan ∨ o.compl = .nan)) ∨ o.viol = .nan) :
    (check cfg cb st o).1 ≠ some .converged := by
  rw [Ne, check_converged_iff]
  rintro ⟨_, ⟨h1, h2, h3, h4⟩ | ⟨hd, hv⟩⟩
  · rcases h with ⟨_, h | h | h | h⟩ | h
    · rw [h] at h1; exact nan_not_le _ h1
    · rw [h] at h2; exact nan_not_le _ h2
    · rw [h] at h3; exact nan_not_le _ h3
    · rw [h] at h4; exact nan_not_le _ h4
    · rw [h] at h3; exact nan_not_le _ h3
  · rcases h with ⟨h, _⟩ | h
    · exact h hd
    · rw [h] at hv; exact nan_not_le _ hv

/-- A user stop wins over everything else and is only reported if the user asked for it. -/
theorem check_userStop_iff (cfg : CCfg) (cb : Bool) (st : CSt) (o : Obs) :
    (check cfg cb st o).1 = some .userStop ↔ o.Stop cb := by
  have hl := limits_cases cfg o
  rcases check_cases cfg cb st o with ⟨a, e⟩ | ⟨a, b, e⟩ | ⟨a, b, c, d, e⟩ | ⟨a, b, c, d, e⟩ | ⟨⟨a, b, c⟩, _, _, _, e⟩ |
    ⟨⟨a, b, c⟩, _, _, _, e⟩ | ⟨⟨a, b, c⟩, _, _, e⟩ | ⟨⟨a, b, c⟩, _, e⟩ <;> rw [e]
  · simp [a]
  · simp [a]
  · simp [a]
  · simp [a]
  · simp [a]
  all_goals
    rcases hl with h | h | h | h | h <;> simp [a, h]

/-- The algorithm is only told to continue below the iteration limit, with `x` not diverging and the time limits not reached. -/
theorem check_cont (cfg : CCfg) (cb : Bool) (st : CSt) (o : Obs) (h : (check cfg cb st o).1 = some .cont) :
    o.iter < cfg.maxIter ∧ ¬ cfg.divergingTol < o.amax ∧ ¬ (cfg.maxCpu < veryLarge ∧ cfg.maxCpu ≤ o.cpu) ∧
      ¬ (cfg.maxWall < veryLarge ∧ cfg.maxWall ≤ o.wall) ∧ o.dim ≠ 0 ∧ ¬ o.TolMet cfg ∧ ¬ o.Stop cb := by
  have key : ∀ u : o.Undecided cfg cb, limits cfg o = .cont → o.iter < cfg.maxIter ∧ ¬ cfg.divergingTol < o.amax ∧
      ¬ (cfg.maxCpu < veryLarge ∧ cfg.maxCpu ≤ o.cpu) ∧
      ¬ (cfg.maxWall < veryLarge ∧ cfg.maxWall ≤ o.wall) ∧ o.dim ≠ 0 ∧ ¬ o.TolMet cfg ∧ ¬ o.Stop cb := by
    intro u hl
    unfold limits at hl
    by_cases h1 : cfg.divergingTol < o.amax
    · rw [if_pos h1] at hl; cases hl
    rw [if_neg h1] at hl
    by_cases h2 : cfg.maxIter ≤ o.iter
    · rw [if_pos h2] at hl; cases hl
    rw [if_neg h2] at hl
    by_cases h3 : cfg.maxCpu < veryLarge ∧ cfg.maxCpu ≤ o.cpu
    · rw [if_pos h3] at hl; cases hl
    rw [if_neg h3] at hl
    by_cases h4 : cfg.maxWall < veryLarge ∧ cfg.maxWall ≤ o.wall
    · rw [if_pos h4] at hl; cases hl
    exact ⟨by omega, h1, h3, h4, u.2.2, u.2.1, u.1⟩
  rcases check_cases cfg cb st o with ⟨a, e⟩ | ⟨a, b, e⟩ | ⟨a, b, c, d, e⟩ | ⟨a, b, c, d, e⟩ | ⟨u, _, _, _, e⟩ |
    ⟨u, _, _, _, e⟩ | ⟨u, _, _, e⟩ | ⟨u, _, e⟩ <;> rw [e] at h
  · simp at h
  · simp at h
  · simp at h
  · simp at h
  · simp at h
  all_goals exact key u (by simpa using h)

/-- **C20** Every limit a check reports has really been reached, in the order diverging iterates, iteration, CPU time and wall time
limit; the exception for problems without variables is raised only if their constraints do not hold. -/
theorem check_limit_reason (cfg : CCfg) (cb : Bool) (st : CSt) (o : Obs) :
    ((check cfg cb st o).1 = some .diverging → cfg.divergingTol < o.amax) ∧
    ((check cfg cb st o).1 = some .maxiter → cfg.maxIter ≤ o.iter ∧ ¬ cfg.divergingTol < o.amax) ∧
    ((check cfg cb st o).1 = some .cputime → cfg.maxCpu ≤ o.cpu ∧ cfg.maxCpu < veryLarge ∧ o.iter < cfg.maxIter) ∧
    ((check cfg cb st o).1 = some .walltime → cfg.maxWall ≤ o.wall ∧ cfg.maxWall < veryLarge ∧ o.iter < cfg.maxIter) ∧
    ((check cfg cb st o).1 = none → o.dim = 0 ∧ ¬ o.viol ≤ cfg.violTol) := by
  have hl : (limits cfg o = .diverging → cfg.divergingTol < o.amax) ∧
      (limits cfg o = .maxiter → cfg.maxIter ≤ o.iter ∧ ¬ cfg.divergingTol < o.amax) ∧
      (limits cfg o = .cputime → cfg.maxCpu ≤ o.cpu ∧ cfg.maxCpu < veryLarge ∧ o.iter < cfg.maxIter) ∧
      (limits cfg o = .walltime → cfg.maxWall ≤ o.wall ∧ cfg.maxWall < veryLarge ∧ o.iter < cfg.maxIter) := by
    unfold limits
    by_cases h1 : cfg.divergingTol < o.amax
    · simp [h1]
    by_cases h2 : cfg.maxIter ≤ o.iter
    · simp [h1, h2]
    have h2' : o.iter < cfg.maxIter := by omega
    by_cases h3 : cfg.maxCpu < veryLarge ∧ cfg.maxCpu ≤ o.cpu
    · simp [h1, h2, h3, h2']
    by_cases h4 : cfg.maxWall < veryLarge ∧ cfg.maxWall ≤ o.wall
    · simp only [h1, h2, h3, h4, if_true, if_false, h2']
      simp
    · simp only [h1, h2, h3, h4, if_true, if_false]
      simp
  rcases check_cases cfg cb st o with ⟨a, e⟩ | ⟨a, b, e⟩ | ⟨a, b, c, d, e⟩ | ⟨a, b, c, d, e⟩ | ⟨u, _, _, _, e⟩ |
    ⟨u, _, _, _, e⟩ | ⟨u, _, _, e⟩ | ⟨u, _, e⟩ <;> rw [e]
  · simp
  · simp
  · simp
  · simp [c, d]
  · simp
  all_goals simpa using hl

/-! ### Acceptable points -/

/-- State of the convergence check after a history of checks (newest first) from the initial state. -/
def stateAfter (cfg : CCfg) : List (Bool × Obs) → CSt
  | [] => .init
  | (cb, o) :: h => (check cfg cb (stateAfter cfg h) o).2

open Classical in
/-- The checks of a history that are not decided by user stop, convergence or absence of variables. -/
noncomputable def undecided (cfg : CCfg) (h : List (Bool × Obs)) : List Obs :=
  (h.filter fun p => decide (p.2.Undecided cfg p.1)).map Prod.snd

open Classical in
/-- Number of newest acceptable checks in a row. -/
noncomputable def streak (cfg : CCfg) : List Obs → Nat
  | [] => 0
  | o :: h => if AcceptableNow cfg (o :: h) then streak cfg h + 1 else 0

theorem le_streak_iff (cfg : CCfg) (n : Nat) (h : List Obs) : n ≤ streak cfg h ↔ LastAcceptable cfg n h := by
  induction h generalizing n with
  | nil =>
    cases n with
    | zero => simp [LastAcceptable]
    | succ n =>
      simp only [streak, LastAcceptable]
      refine ⟨fun h => by omega, fun h => ?_⟩
      obtain ⟨o, r, e, _⟩ := h 0 (by omega)
      simp at e
  | cons o h ih =>
    by_cases ha : AcceptableNow cfg (o :: h)
    · rw [streak, if_pos ha]
      cases n with
      | zero => simp [LastAcceptable]
      | succ n =>
        rw [Nat.add_le_add_iff_right, ih]
        constructor
        · intro hl k hk
          cases k with
          | zero => exact ha
          | succ k => exact hl k (by omega)
        · intro hl k hk
          exact hl (k + 1) (by omega)
    · rw [streak, if_neg ha]
      cases n with
      | zero => simp [LastAcceptable]
      | succ n =>
        refine ⟨fun h => by omega, fun h => absurd (h 0 (by omega)) ha⟩

theorem record_objs (st : CSt) (o : Obs) (h : List Obs) (e1 : (st.currObj, st.lastObj) = objs h)
    (e2 : st.lastIter = h.head?.map Obs.iter) :
    ((st.record o).currObj, (st.record o).lastObj) = objs (o :: h) ∧ (st.record o).lastIter = some o.iter ∧
      (st.record o).counter = st.counter := by
  unfold CSt.record
  by_cases hi : st.lastIter = some o.iter
  · rw [if_neg (by simp [hi])]
    refine ⟨?_, hi, rfl⟩
    rw [objs, if_pos (by rw [← e2, hi])]
    exact e1
  · rw [if_pos hi]
    refine ⟨?_, rfl, rfl⟩
    rw [objs, if_neg (by rw [← e2]; exact hi)]
    simp [← e1]

theorem isAcceptable_iff (cfg : CCfg) (st : CSt) (o : Obs) (h : List Obs)
    (e : ((st.record o).currObj, (st.record o).lastObj) = objs (o :: h)) :
    (isAcceptable cfg st o).1 = true ↔ AcceptableNow cfg (o :: h) := by
  unfold isAcceptable AcceptableNow
  have e1 : (st.record o).currObj = (objs (o :: h)).1 := by rw [← e]
  have e2 : (st.record o).lastObj = (objs (o :: h)).2 := by rw [← e]
  simp only [Bool.and_eq_true, decide_eq_true_eq, e1, e2]
  constructor
  · rintro ⟨⟨⟨⟨a, b⟩, c⟩, d⟩, f⟩
    exact ⟨o, h, rfl, a, b, c, d, f⟩
  · rintro ⟨o', r, heq, a, b, c, d, f⟩
    cases heq
    exact ⟨⟨⟨⟨a, b⟩, c⟩, d⟩, f⟩

/-- Meaning of the state of the check. -/
theorem stateAfter_meaning (cfg : CCfg) (hacc : 0 < cfg.accIter) (h : List (Bool × Obs)) :
    (stateAfter cfg h).counter = streak cfg (undecided cfg h) ∧
    ((stateAfter cfg h).currObj, (stateAfter cfg h).lastObj) = objs (undecided cfg h) ∧
    (stateAfter cfg h).lastIter = (undecided cfg h).head?.map Obs.iter := by
  induction h with
  | nil => exact ⟨rfl, rfl, rfl⟩
  | cons p h ih =>
    obtain ⟨cb, o⟩ := p
    obtain ⟨i1, i2, i3⟩ := ih
    have hno : ¬ o.Undecided cfg cb → undecided cfg ((cb, o) :: h) = undecided cfg h := by
      intro hu; simp [undecided, hu]
    have hyes : o.Undecided cfg cb → undecided cfg ((cb, o) :: h) = o :: undecided cfg h := by
      intro hu; simp [undecided, hu]
    have hsame : ¬ o.Undecided cfg cb → stateAfter cfg ((cb, o) :: h) = stateAfter cfg h := by
      intro hu
      simp only [stateAfter]
      rcases check_cases cfg cb (stateAfter cfg h) o with ⟨a, e⟩ | ⟨a, b, e⟩ | ⟨a, b, c, d, e⟩ | ⟨a, b, c, d, e⟩ | ⟨u, _⟩ |
        ⟨u, _⟩ | ⟨u, _⟩ | ⟨u, _⟩
      · rw [e]
      · rw [e]
      · rw [e]
      · rw [e]
      all_goals exact absurd u hu
    by_cases hu : o.Undecided cfg cb
    · obtain ⟨r1, r2, r3⟩ := record_objs (stateAfter cfg h) o _ i2 i3
      have hia := isAcceptable_iff cfg (stateAfter cfg h) o _ r1
      rw [hyes hu]
      simp only [stateAfter]
      rcases check_cases cfg cb (stateAfter cfg h) o with ⟨a, e⟩ | ⟨a, b, e⟩ | ⟨a, b, c, d, e⟩ | ⟨a, b, c, d, e⟩ |
        ⟨u, _, ha, _, e⟩ | ⟨u, _, ha, _, e⟩ | ⟨u, _, ha, e⟩ | ⟨u, ha, e⟩
      · exact absurd a hu.1
      · exact absurd b hu.2.1
      · exact absurd c hu.2.2
      · exact absurd c hu.2.2
      · rw [e]
        refine ⟨?_, r1, r2⟩
        rw [streak, if_pos (hia.mp ha), ← i1, ← r3]
      · rw [e]
        refine ⟨?_, r1, r2⟩
        rw [streak, if_pos (hia.mp ha), ← i1, ← r3]
      · rw [e]
        refine ⟨?_, r1, r2⟩
        rw [streak, if_neg (fun hh => by rw [hia.mpr hh] at ha; cases ha)]
      · omega
    · rw [hno hu, hsame hu]
      exact ⟨i1, i2, i3⟩

/-- **C19** After any history of checks, a check reports `CONVERGED_TO_ACCEPTABLE_POINT` exactly if it is not decided otherwise before,
`acceptable_iter` is positive and the last `acceptable_iter` checks (not counting checks decided otherwise) were all acceptable, this
one included. -/
theorem check_acceptable_iff (cfg : CCfg) (h : List (Bool × Obs)) (cb : Bool) (o : Obs) :
    (check cfg cb (stateAfter cfg h) o).1 = some .acceptable ↔
      o.Undecided cfg cb ∧ 0 < cfg.accIter ∧ LastAcceptable cfg cfg.accIter (o :: undecided cfg h) := by
  by_cases hacc : 0 < cfg.accIter
  · obtain ⟨i1, i2, i3⟩ := stateAfter_meaning cfg hacc h
    obtain ⟨r1, r2, r3⟩ := record_objs (stateAfter cfg h) o _ i2 i3
    have hia := isAcceptable_iff cfg (stateAfter cfg h) o _ r1
    rw [← le_streak_iff]
    have hl := limits_cases cfg o
    rcases check_cases cfg cb (stateAfter cfg h) o with ⟨a, e⟩ | ⟨a, b, e⟩ | ⟨a, b, c, d, e⟩ | ⟨a, b, c, d, e⟩ |
      ⟨u, _, ha, hc, e⟩ | ⟨u, _, ha, hc, e⟩ | ⟨u, _, ha, e⟩ | ⟨u, ha, e⟩
    · rw [e]; simp [Obs.Undecided, a]
    · rw [e]; simp [Obs.Undecided, b]
    · rw [e]; simp [Obs.Undecided, c]
    · rw [e]; simp [Obs.Undecided, c]
    · rw [e, streak, if_pos (hia.mp ha), ← i1, ← r3]
      simp [u, hacc, hc]
    · rw [e, streak, if_pos (hia.mp ha), ← i1, ← r3]
      have : ¬ (o.Undecided cfg cb ∧ 0 < cfg.accIter ∧ cfg.accIter ≤ (CSt.record (stateAfter cfg h) o).counter + 1) :=
        fun hh => hc hh.2.2
      rcases hl with hl | hl | hl | hl | hl <;> simp only [hl, this, iff_false] <;> simp
    · rw [e, streak, if_neg (fun hh => by rw [hia.mpr hh] at ha; cases ha)]
      have : ¬ (o.Undecided cfg cb ∧ 0 < cfg.accIter ∧ cfg.accIter ≤ 0) := fun hh => by omega
      rcases hl with hl | hl | hl | hl | hl <;> simp only [hl, this, iff_false] <;> simp
    · omega
  · have hl := limits_cases cfg o
    refine ⟨fun hh => ?_, fun hh => absurd hh.2.1 hacc⟩
    rcases check_cases cfg cb (stateAfter cfg h) o with ⟨a, e⟩ | ⟨a, b, e⟩ | ⟨a, b, c, d, e⟩ | ⟨a, b, c, d, e⟩ |
      ⟨u, ha, _⟩ | ⟨u, ha, _⟩ | ⟨u, ha, _⟩ | ⟨u, ha, e⟩
    · rw [e] at hh; simp at hh
    · rw [e] at hh; simp at hh
    · rw [e] at hh; simp at hh
    · rw [e] at hh; simp at hh
    · exact absurd ha hacc
    · exact absurd ha hacc
    · exact absurd ha hacc
    · rw [e] at hh
      rcases hl with hl | hl | hl | hl | hl <;> rw [hl] at hh <;> simp at hh

/-- **C19** With `acceptable_iter = 0` the check never reports an acceptable point. -/
theorem never_acceptable (cfg : CCfg) (h0 : cfg.accIter = 0) (h : List (Bool × Obs)) (cb : Bool) (o : Obs) :
    (check cfg cb (stateAfter cfg h) o).1 ≠ some .acceptable := by
  rw [Ne, check_acceptable_iff]
  omega

/-- `CurrentIsAcceptable` may be asked again in the same iteration (by the line search) without changing anything. -/
theorem isAcceptable_again (cfg : CCfg) (st : CSt) (o o' : Obs) (hi : o'.iter = o.iter) :
    (isAcceptable cfg (isAcceptable cfg st o).2 o').2 = (isAcceptable cfg st o).2 := by
  change (st.record o).record o' = st.record o
  unfold CSt.record
  by_cases h : st.lastIter = some o.iter
  · simp [h, hi]
  · simp [h, hi]

/-- A concrete configuration (default tolerances, two acceptable checks in a row needed). -/
def exCfg : CCfg where
  tol := .fin (1 / 100000000)
  dualTol := .fin 1
  violTol := .fin (1 / 10000)
  complTol := .fin (1 / 10000)
  accIter := 2
  accTol := .fin (1 / 1000000)
  accDualTol := .fin 10000000000
  accViolTol := .fin (1 / 100)
  accComplTol := .fin (1 / 100)
  accObjTol := .fin 100000000000000000000
  divergingTol := .fin 100000000000000000000
  maxIter := 3000
  maxCpu := veryLarge
  maxWall := veryLarge

/-- An observation with overall error `10⁻⁷` at iteration `n`. -/
def exObs (n : Nat) : Obs where
  goOn := true
  iter := n
  dim := 2
  err := .fin (1 / 10000000)
  dual := .fin 0
  viol := .fin 0
  compl := .fin 0
  f := .fin 1
  amax := .fin 1
  cpu := .fin 0
  wall := .fin 0

/-- Both outcomes occur: the third acceptable check in a row (the very first one does not count, see `first_check_not_acceptable`)
reports an acceptable point. -/
example : (check exCfg true (stateAfter exCfg [(true, exObs 1), (true, exObs 0)]) (exObs 2)).1 = some .acceptable := by
  decide +kernel

example : (check exCfg true (stateAfter exCfg [(true, exObs 0)]) (exObs 1)).1 = some .cont := by decide +kernel

example : (check exCfg true (stateAfter exCfg [(true, exObs 1), (true, { exObs 1 with err := .fin 1 }), (true, exObs 0)])
    (exObs 2)).1 = some .acceptable := by
  decide +kernel

example : (check exCfg true .init { exObs 0 with err := .fin 0 }).1 = some .converged := by decide +kernel

/-- **C19, finding** The first check of a run can never be acceptable while `acceptable_obj_change_tol` is below `10⁵⁰` (the default is
`10²⁰`) and the objective value is moderate: it is compared with the artificial previous value `-1e50`. -/
theorem first_check_not_acceptable (cfg : CCfg) (cb : Bool) (o : Obs) (f t : ℚ) (hf : o.f = .fin f) (h1 : |f| ≤ 1)
    (ht : cfg.accObjTol = .fin t) (h2 : t ≤ 100000000000000000000) :
    (check cfg cb .init o).1 ≠ some .acceptable := by
  have h := check_acceptable_iff cfg [] cb o
  rw [Ne]
  change ¬ (check cfg cb (stateAfter cfg []) o).1 = some .acceptable
  rw [h]
  rintro ⟨_, _, hl⟩
  obtain ⟨o', r, e, _, _, _, _, hc⟩ := hl 0 (by omega)
  have e' : o :: undecided cfg [] = [o] := by simp [undecided]
  rw [e'] at hc
  have e2 : objs [o] = (o.f, noObj) := by simp [objs]
  rw [List.drop_zero, e2, hf, ht] at hc
  simp only [change, noObj] at hc
  change Num.leB _ _ = true at hc
  simp only [Num.leB, decide_eq_true_eq] at hc
  rw [max_eq_left h1, div_one] at hc
  have h3 := abs_le.mp h1
  rw [abs_of_pos (by linarith)] at hc
  linarith [h3.1]

end Verif.Alg
