import Verif.Proof.Mumpse

/-! # The calls of one `MultiSolve` -/

namespace Verif.Mumps
open Verif.AugSolve (Status Structure Known SolvesAll denote)

set_option linter.unusedSectionVars false
set_option linter.unusedSimpArgs false
set_option linter.unusedVariables false

variable {K P M : Type} [Field K]
variable {L : Lib K P M}

theorem solveLoop_log (L : Lib K P M) : ∀ k i ok arr (st : St K P M), ∃ l, (st.solveLoop L k i ok arr).2.2.log = l ++ st.log ∧ l.length = k ∧
    (∀ c ∈ l, c.job = 3) ∧ ((st.solveLoop L k i ok arr).1 = true ↔ ok = true ∧ ∀ c ∈ l, 0 ≤ c.info) := by
  intro k
  induction k with
  | zero => intro i ok arr st; exact ⟨[], rfl, rfl, fun c h => by simp at h, by simp [St.solveLoop]⟩
  | succ k ih =>
    intro i ok arr st
    unfold St.solveLoop
    dsimp only
    obtain ⟨l, h1, h2, h3, h4⟩ := ih (i + 1) (ok && decide (0 ≤ (L.backsolve st.n st.m (fun j => arr (i * st.n + j))).1))
      (Ma27.putColumn st.n i (L.backsolve st.n st.m (fun j => arr (i * st.n + j))).2.1 arr)
      ({ st with m := (L.backsolve st.n st.m (fun j => arr (i * st.n + j))).2.2, log := ⟨3, st.ctl, (L.backsolve st.n st.m (fun j => arr (i * st.n + j))).1⟩ :: st.log })
    refine ⟨l ++ [⟨3, st.ctl, (L.backsolve st.n st.m (fun j => arr (i * st.n + j))).1⟩], by rw [h1]; simp, by simp [h2], ?_, ?_⟩
    · intro c hc
      simp only [List.mem_append, List.mem_singleton] at hc
      rcases hc with hc | hc
      · exact h3 c hc
      · rw [hc]
    · rw [h4]
      simp only [Bool.and_eq_true, decide_eq_true_eq, List.mem_append, List.mem_singleton]
      constructor
      · rintro ⟨⟨a, b⟩, c⟩
        refine ⟨a, fun d hd => ?_⟩
        rcases hd with hd | hd
        · exact c d hd
        · rw [hd]; exact b
      · rintro ⟨a, b⟩
        exact ⟨⟨a, b _ (Or.inr rfl)⟩, fun c hc => b c (Or.inl hc)⟩

theorem finish_log (nrhs : Nat) (arr : Nat → K) (r : Option Status × St K P M) : ∃ sol, (finish L nrhs arr r).2.2.log = sol ++ r.2.log ∧ (∀ c ∈ sol, c.job = 3) ∧
    (r.1 = some .success → sol.length = nrhs ∧ ((∀ c ∈ sol, 0 ≤ c.info) → (finish L nrhs arr r).1 = some .success) ∧
      ((∃ c ∈ sol, c.info < 0) → (finish L nrhs arr r).1 = some .fatal)) ∧
    (r.1 ≠ some .success → sol = [] ∧ (finish L nrhs arr r).1 = r.1 ∧ (finish L nrhs arr r).2.1 = arr) := by
  unfold finish
  by_cases h : r.1 = some .success
  · rw [if_pos h]
    obtain ⟨l, h1, h2, h3, h4⟩ := solveLoop_log L nrhs 0 true arr r.2
    refine ⟨l, h1, h3, fun _ => ⟨h2, fun hc => ?_, fun ⟨c, hc, hn⟩ => ?_⟩, fun e => absurd h e⟩
    · have := h4.2 ⟨rfl, hc⟩
      simp [this]
    · have : ¬ (r.2.solveLoop L nrhs 0 true arr).1 = true := fun e => by
        have := (h4.1 e).2 c hc; omega
      simp [this]
  · rw [if_neg h]
    exact ⟨[], rfl, fun c h => by simp at h, fun e => absurd e h, fun _ => ⟨rfl, rfl, rfl⟩⟩

theorem att_length {imax k mem : Nat} {calls : List (Call P)} (h : Attempts imax k mem calls) : calls.length ≤ k := by
  induction h with
  | last c hj hm => simp
  | more c hj hm hs h ih => simp; omega

theorem att_zero {imax k mem : Nat} {calls : List (Call P)} (h : Attempts imax k mem calls) : mem = 0 → ∀ c ∈ calls, c.ctl.mem = 0 := by
  induction h with
  | last c hj hm => intro e c' hc; simp only [List.mem_singleton] at hc; rw [hc, hm, e]
  | more c hj hm hs h ih =>
    intro e c' hc
    simp only [List.mem_cons] at hc
    rcases hc with hc | hc
    · rw [hc, hm, e]
    · exact ih (by simp [e]) c' hc

theorem att_ne {imax k mem : Nat} {calls : List (Call P)} (h : Attempts imax k mem calls) : calls ≠ [] := by
  cases h <;> simp

/-- the memory settings never decrease and stay below the largest Index. -/
theorem att_mono {imax k mem : Nat} {calls : List (Call P)} (h : Attempts imax k mem calls) : mem ≤ imax → ∀ c ∈ calls, mem ≤ c.ctl.mem ∧ c.ctl.mem ≤ imax := by
  induction h with
  | last c hj hm => intro e c' hc; simp only [List.mem_singleton] at hc; rw [hc, hm]; exact ⟨le_refl _, e⟩
  | more c hj hm hs h ih =>
    intro e c' hc
    simp only [List.mem_cons] at hc
    rcases hc with hc | hc
    · rw [hc, hm]; exact ⟨le_refl _, e⟩
    · obtain ⟨a, b⟩ := ih (min_le_left _ _) c' hc
      exact ⟨le_trans (le_min e (by omega)) a, b⟩

theorem again_changed (s : St K P M) (new : Bool) (nrhs : Nat) (arr : Nat → K) (chk : Bool) (neg : Nat) (h : (s.multiSolve L new nrhs arr chk neg).1 = some .callAgain) :
    s.pivtolChanged = true ∧ (s.multiSolve L new nrhs arr chk neg).2.2.pivtolChanged = false := by
  unfold St.multiSolve at h ⊢
  by_cases hA : s.pivtolChanged = true ∧ (!new) = true
  · rw [if_pos hA]; exact ⟨hA.1, rfl⟩
  · rw [if_neg hA] at h
    dsimp only at h
    exfalso
    have hp : ∀ s : St K P M, (s.prepare L chk neg).1 ≠ some .callAgain := by
      intro s
      unfold St.prepare
      dsimp only
      generalize hr : (if (!s.haveSym) = true then
        if (s.symbolic L).1 = .success then (Status.success, { (s.symbolic L).2 with haveSym := true }) else s.symbolic L else (.success, s)) = r
      have h1 : r.1 ≠ .callAgain := by
        rw [← hr]
        split
        · split
          · simp
          · unfold St.symbolic; dsimp only; split
            · simp
            · split <;> simp
        · simp
      split
      · simpa using h1
      · have : (r.2.factorize L chk neg).1 ≠ some .callAgain := by
          rw [(factorize_eq L chk neg r.2).1]
          unfold verdict
          cases (r.2.numeric L).1 with
          | none => simp
          | some o =>
            simp only [Option.map_some]
            split
            · simp
            · split
              · simp
              · split <;> simp
        split
        · exact this
        · exact this
    generalize hr : (if (new || s.refactorize) = true then ({ s with pivtolChanged := false } : St K P M).prepare L chk neg
      else (some .success, { s with pivtolChanged := false })) = r at h
    have h1 : r.1 ≠ some .callAgain := by
      rw [← hr]; split
      · exact hp _
      · simp
    split at h
    · split at h <;> simp at h
    · exact h1 h

end Verif.Mumps
