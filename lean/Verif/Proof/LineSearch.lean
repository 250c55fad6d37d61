import Verif.Model.LineSearch
import Mathlib.Tactic.Linarith

/-! # Lemmas about the parts of `FindAcceptableTrialPoint` -/

set_option linter.unusedSectionVars false
set_option linter.unusedSimpArgs false

namespace Verif.LineSearch
variable {I D K : Type} [LinearOrder K]

theorem wdLoop_cases (p : Par K) (e : Env I D K) (fuel : Nat) (s s' : State I D K) (d : D) (r : BTRes D K)
    (h : wdLoop p e fuel s d = some (s', r)) :
    (s.inWd = false ∧ s' = s ∧ doBT p e fuel false s.expectInf s.countShort false 0 s.curr d = some r)
    ∨ (s.inWd = true ∧ r.accept = true ∧ s' = { s with inWd := false }
        ∧ doBT p e fuel true s.expectInf s.countShort false 0 s.curr d = some r)
    ∨ (s.inWd = true ∧ s' = { s with wdTrialIter := s.wdTrialIter + 1 } ∧ s.wdTrialIter + 1 ≤ p.wdMax
        ∧ ∃ r0, doBT p e fuel true s.expectInf s.countShort false 0 s.curr d = some r0 ∧ r0.accept = false ∧ r0.evalErr = false
          ∧ r = { r0 with accept := true })
    ∨ (s.inWd = true ∧ s' = (stopWd { s with wdTrialIter := s.wdTrialIter + 1 }).1
        ∧ ∃ r0, doBT p e fuel true s.expectInf s.countShort false 0 s.curr d = some r0 ∧ r0.accept = false
          ∧ (r0.evalErr = true ∨ p.wdMax < s.wdTrialIter + 1)
          ∧ doBT p e fuel false s.expectInf s.countShort true r0.nSteps s'.curr (s.wdDelta.getD s.delta) = some r) := by
  unfold wdLoop at h
  rcases hw : s.inWd with _ | _
  · rw [hw] at h
    cases hd : doBT p e fuel false s.expectInf s.countShort false 0 s.curr d with
    | none => rw [hd] at h; simp at h
    | some r0 =>
      rw [hd] at h
      simp only [Bool.false_eq_true, if_false, Option.some.injEq, Prod.mk.injEq] at h
      obtain ⟨rfl, rfl⟩ := h
      exact Or.inl ⟨rfl, rfl, rfl⟩
  · rw [hw] at h
    cases hd : doBT p e fuel true s.expectInf s.countShort false 0 s.curr d with
    | none => rw [hd] at h; simp at h
    | some r0 =>
      rw [hd] at h
      simp only [if_true] at h
      by_cases ha : r0.accept = true
      · rw [if_pos ha] at h
        simp only [Option.some.injEq, Prod.mk.injEq] at h
        obtain ⟨rfl, rfl⟩ := h
        exact Or.inr (Or.inl ⟨rfl, ha, rfl, rfl⟩)
      · rw [if_neg ha] at h
        have ha' : r0.accept = false := by simpa using ha
        by_cases hc : r0.evalErr = true ∨ p.wdMax < s.wdTrialIter + 1
        · rw [if_pos hc] at h
          simp only [stopWd] at h
          cases hd2 : doBT p e fuel false s.expectInf s.countShort true r0.nSteps (s.wdIterate.getD s.curr) (s.wdDelta.getD s.delta) with
          | none => rw [hd2] at h; simp at h
          | some r2 =>
            rw [hd2] at h
            simp only [Option.some.injEq, Prod.mk.injEq] at h
            obtain ⟨rfl, rfl⟩ := h
            exact Or.inr (Or.inr (Or.inr ⟨rfl, rfl, r0, rfl, ha', hc, hd2⟩))
        · rw [if_neg hc] at h
          simp only [Option.some.injEq, Prod.mk.injEq] at h
          obtain ⟨rfl, rfl⟩ := h
          obtain ⟨h1, h2⟩ := not_or.mp hc
          exact Or.inr (Or.inr (Or.inl ⟨rfl, rfl, by omega, r0, rfl, ha', by simpa using h1, rfl⟩))

/-- What the end of the call leaves unchanged. -/
structure Fin (s s' : State I D K) : Prop where
  curr : s'.curr = s.curr
  delta : s'.delta = s.delta
  acc : s'.accIterate = s.accIterate
  lastMu : s'.lastMu = s.lastMu
  trial : s'.wdTrialIter = s.wdTrialIter
  wd : s'.inWd = true → s.inWd = true ∧ s'.wdIterate = s.wdIterate ∧ s'.wdDelta = s.wdDelta

theorem goResto_fin (e : Env I D K) (s s' : State I D K) (k : Kind D K) (h : goResto e s = .ok s' k) :
    Fin s s' ∧ s'.inSoft = false ∧ s'.softCounter = 0 ∧ k = .resto ∧ s'.wdShort = 0 := by
  unfold goResto at h
  simp only at h
  split at h
  · simp at h
  · split at h
    · simp at h
    · split at h
      · split at h <;> simp at h
      · split at h
        · split at h <;> simp at h
        · simp only [Out.ok.injEq] at h
          obtain ⟨rfl, rfl⟩ := h
          exact ⟨⟨rfl, rfl, rfl, rfl, rfl, fun h => ⟨h, rfl, rfl⟩⟩, rfl, rfl, rfl, rfl⟩

/-- A regular step is handed out only if it was accepted. -/
theorem finish_step (p : Par K) (e : Env I D K) (s s' : State I D K) (d : D) (accept g tiny softStep : Bool) (alpha : K) (n : Nat) (a : K) (d' : D)
    (h : finish p e s d accept g tiny softStep alpha n = .ok s' (.step a d')) :
    accept = true ∧ tiny = false ∧ softStep = false ∧ a = alpha ∧ d' = d := by
  have hres : ∀ s'', goResto e s ≠ .ok s'' (.step a d') := by
    intro s'' hh
    have := (goResto_fin e s s'' _ hh).2.2.2.1
    simp at this
  unfold finish at h
  rcases accept with _ | _
  · exfalso
    rw [if_pos rfl] at h
    split at h
    · simp at h
    · split at h
      · split at h
        · simp at h
        · simp at h
        · exact hres _ h
      · exact hres _ h
  · rw [if_neg (by simp)] at h
    split at h
    · simp only [Out.ok.injEq] at h
      have h2 := h.2
      rcases tiny with _ | _
      · rcases softStep with _ | _
        · simp only [Bool.false_eq_true, if_false, Kind.step.injEq] at h2
          exact ⟨rfl, rfl, rfl, h2.1.symm, h2.2.symm⟩
        · simp at h2
      · simp at h2
    · simp at h

theorem goResto_soft_none (e : Env I D K) (s s' : State I D K) (k : Kind D K) (h : goResto e s = .ok s' k) :
    s'.inSoft = false := (goResto_fin e s s' k h).2.1

/-- What the end of the call does: it leaves most of the state alone, and how it treats the soft restoration phase. -/
theorem finish_fin (p : Par K) (e : Env I D K) (s s' : State I D K) (d : D) (accept g tiny softStep : Bool) (alpha : K) (n : Nat) (k : Kind D K)
    (h : finish p e s d accept g tiny softStep alpha n = .ok s' k) :
    Fin s s' ∧ (s'.inSoft = true → s'.softCounter = s.softCounter ∧ (s.inSoft = true ∨ s.inWd = s'.inWd ∧ accept = false)) ∧
      (s'.inSoft = false → s'.softCounter = 0 ∨ (s'.softCounter = s.softCounter ∧ s.inSoft = false))
      ∧ (p.rigorous = true → accept = false → s.inSoft = true → s'.inSoft = false)
      ∧ (accept = true → s'.inSoft = s.inSoft ∧ s'.softCounter = s.softCounter)
      ∧ (accept = true → s.inSoft = false → tiny = false → softStep = false → k = .step alpha d)
      ∧ (accept = true → s.inSoft = true → tiny = false → k = .soft) := by
  unfold finish at h
  by_cases ha : accept = false
  · subst ha
    rw [if_pos rfl] at h
    by_cases hr : p.rigorous = false
    · rw [if_pos hr] at h
      simp only [Out.ok.injEq] at h
      obtain ⟨rfl, rfl⟩ := h
      refine ⟨⟨rfl, rfl, rfl, rfl, rfl, fun h => ⟨h, rfl, rfl⟩⟩, fun h => ⟨rfl, Or.inl h⟩, fun h => Or.inr ⟨rfl, h⟩, ?_, by simp, by simp, by simp⟩
      intro hr'; rw [hr] at hr'; simp at hr'
    · rw [if_neg hr] at h
      have fromResto : goResto e s = .ok s' k → _ := fun hh => goResto_fin e s s' k hh
      by_cases hc : s.inSoft = false ∧ g = false ∧ s.expectInf = false
      · rw [if_pos hc] at h
        rcases hs : e.soft s.curr d with _ | b
        · rw [hs] at h
          obtain ⟨h1, h2, h3, _⟩ := fromResto h
          exact ⟨h1, by simp [h2], fun _ => Or.inl h3, fun _ _ _ => h2, by simp, by simp, by simp⟩
        · rw [hs] at h
          rcases b with _ | _
          · simp only [Out.ok.injEq] at h
            obtain ⟨rfl, rfl⟩ := h
            exact ⟨⟨rfl, rfl, rfl, rfl, rfl, fun h => ⟨h, rfl, rfl⟩⟩, fun _ => ⟨rfl, Or.inr ⟨rfl, rfl⟩⟩, by simp, by simp [hc.1], by simp, by simp, by simp⟩
          · simp only [Out.ok.injEq] at h
            obtain ⟨rfl, rfl⟩ := h
            exact ⟨⟨rfl, rfl, rfl, rfl, rfl, fun h => ⟨h, rfl, rfl⟩⟩, fun h => ⟨rfl, Or.inl h⟩, fun h => Or.inr ⟨rfl, h⟩, fun _ _ _ => hc.1, by simp, by simp, by simp⟩
      · rw [if_neg hc] at h
        obtain ⟨h1, h2, h3, _⟩ := fromResto h
        exact ⟨h1, by simp [h2], fun _ => Or.inl h3, fun _ _ _ => h2, by simp, by simp, by simp⟩
  · rw [if_neg ha] at h
    have ha' : accept = true := by simpa using ha
    subst ha'
    by_cases hc : s.inSoft = false ∨ tiny = true
    · rw [if_pos hc] at h
      simp only [Out.ok.injEq] at h
      obtain ⟨rfl, rfl⟩ := h
      refine ⟨⟨?_, ?_, ?_, ?_, ?_, ?_⟩, ?_, ?_, by simp, ?_, ?_, ?_⟩
      · split <;> split <;> split <;> rfl
      · split <;> split <;> split <;> rfl
      · split <;> split <;> split <;> rfl
      · split <;> split <;> split <;> rfl
      · split <;> split <;> split <;> rfl
      · by_cases h3 : e.restoredIterate = true
        · rw [if_pos h3]; simp
        · rw [if_neg h3]
          intro hw
          refine ⟨?_, ?_, ?_⟩
          · revert hw; split <;> split <;> exact id
          · split <;> split <;> rfl
          · split <;> split <;> rfl
      · intro hh
        refine ⟨?_, Or.inl ?_⟩
        · split <;> split <;> split <;> rfl
        · revert hh; split <;> split <;> split <;> exact id
      · intro hh
        right
        refine ⟨?_, ?_⟩
        · split <;> split <;> split <;> rfl
        · revert hh; split <;> split <;> split <;> exact id
      · intro _
        refine ⟨?_, ?_⟩
        · split <;> split <;> split <;> rfl
        · split <;> split <;> split <;> rfl
      · intro _ _ ht hs; rw [ht, hs]; rfl
      · intro _ hs ht; rw [hs, ht] at hc; simp at hc
    · rw [if_neg hc] at h
      simp only [Out.ok.injEq] at h
      obtain ⟨rfl, rfl⟩ := h
      obtain ⟨h1, h2⟩ := not_or.mp hc
      have h1' : s.inSoft = true := by simpa using h1
      exact ⟨⟨rfl, rfl, rfl, rfl, rfl, fun h => ⟨h, rfl, rfl⟩⟩, fun h => ⟨rfl, Or.inl h⟩, fun h => Or.inr ⟨rfl, h⟩, by simp, fun _ => ⟨rfl, rfl⟩, by simp [h1'], fun _ _ _ => rfl⟩

/-- What the preparation does: `A` the watchdog was not stopped (and possibly started), `B` it was stopped. -/
structure PrepSpec (p : Par K) (e : Env I D K) (s : State I D K) (q : Prep I D K) : Prop where
  acc : q.s.accIterate = s.accIterate
  lastMu : q.s.lastMu = s.lastMu
  soft : q.s.inSoft = s.inSoft ∧ q.s.softCounter = s.softCounter
  tiny : q.tiny = true → q.tiny1 = true
  tinyg : q.tiny1 = true → q.g = false
  etiny : q.tiny1 = true → e.tiny = true
  wdg : q.s.inWd = true → q.g = false ∧ q.tiny1 = false ∧ q.d = s.delta ∧ q.s.curr = s.curr ∧ q.s.delta = s.delta
  cases : (s.inWd = false ∧ q.s.inWd = false ∧ q.s.curr = s.curr ∧ q.d = s.delta)
    ∨ (s.inWd = true ∧ q.s.inWd = true ∧ q.s.wdIterate = s.wdIterate ∧ q.s.wdDelta = s.wdDelta ∧ q.s.wdTrialIter = s.wdTrialIter)
    ∨ (s.inWd = false ∧ q.s.inWd = true ∧ q.s.wdIterate = some s.curr ∧ q.s.wdDelta = some s.delta ∧ q.s.wdTrialIter = 0
        ∧ 0 < p.trigger ∧ p.trigger ≤ s.wdShort ∧ s.inSoft = false)
    ∨ (s.inWd = true ∧ q.s.inWd = false ∧ q.s.curr = s.wdIterate.getD s.curr ∧ q.d = s.wdDelta.getD s.delta ∧ q.g = false ∧ q.tiny1 = false)

theorem prep_spec (p : Par K) (e : Env I D K) (s : State I D K) (g0 : Bool) : PrepSpec p e s (prep p e s g0) := by
  unfold prep
  simp only
  generalize hg2 : ((g0 || s.startWithResto) || (s.expectInf && e.hasResto && e.yLarge)) = g2
  by_cases hst : (s.inWd && (g2 || (!g2 && e.tiny))) = true
  · have hw : s.inWd = true := by
      rcases h : s.inWd with _ | _
      · rw [h] at hst; simp at hst
      · rfl
    simp only [hst, if_true]
    have hno : ¬ (0 < p.trigger ∧ (stopWd { s with startWithResto := false }).1.inWd = false ∧ True ∧ True
        ∧ (stopWd { s with startWithResto := false }).1.inSoft = false ∧ (stopWd { s with startWithResto := false }).1.expectInf = false
        ∧ p.trigger ≤ (stopWd { s with startWithResto := false }).1.wdShort) := by
      rintro ⟨h1, _, _, _, _, _, h2⟩
      simp only [stopWd] at h2
      omega
    rw [if_neg hno]
    constructor
    · rfl
    · rfl
    · exact ⟨rfl, rfl⟩
    · simp
    · simp
    · simp
    · intro h; simp [stopWd] at h
    · exact Or.inr (Or.inr (Or.inr ⟨hw, rfl, rfl, rfl, rfl, rfl⟩))
  · have hst' : (s.inWd && (g2 || (!g2 && e.tiny))) = false := by simpa using hst
    simp only [hst', Bool.false_eq_true, if_false]
    by_cases hs : 0 < p.trigger ∧ s.inWd = false ∧ g2 = false ∧ (!g2 && e.tiny) = false ∧ s.inSoft = false ∧ s.expectInf = false ∧ p.trigger ≤ s.wdShort
    · rw [if_pos hs]
      constructor
      · rfl
      · rfl
      · exact ⟨rfl, rfl⟩
      · intro h; simp only [Bool.and_eq_true] at h ⊢; exact h.1
      · intro h; simp only [Bool.and_eq_true] at h; simpa using h.1
      · intro h; simp only [Bool.and_eq_true] at h; exact h.2
      · intro _; exact ⟨hs.2.2.1, hs.2.2.2.1, rfl, rfl, rfl⟩
      · exact Or.inr (Or.inr (Or.inl ⟨hs.2.1, rfl, rfl, rfl, rfl, hs.1, hs.2.2.2.2.2.2, hs.2.2.2.2.1⟩))
    · rw [if_neg hs]
      constructor
      · rfl
      · rfl
      · exact ⟨rfl, rfl⟩
      · intro h; simp only [Bool.and_eq_true] at h ⊢; exact h.1
      · intro h; simp only [Bool.and_eq_true] at h; simpa using h.1
      · intro h; simp only [Bool.and_eq_true] at h; exact h.2
      · intro hw
        have hw' : s.inWd = true := hw
        rw [hw'] at hst'
        simp only [Bool.true_and, Bool.or_eq_false_iff] at hst'
        exact ⟨hst'.1, hst'.2, rfl, rfl, rfl⟩
      · rcases h : s.inWd with _ | _
        · exact Or.inl ⟨rfl, by simp [h], rfl, rfl⟩
        · exact Or.inr (Or.inl ⟨rfl, by simp [h], rfl, rfl, rfl⟩)

/-- What the beginning of the call does. -/
theorem begin_spec (e : Env I D K) (s : State I D K) :
    (begin e s).curr = s.curr ∧ (begin e s).delta = s.delta ∧ (begin e s).inSoft = s.inSoft ∧ (begin e s).softCounter = s.softCounter
    ∧ (begin e s).lastMu = some e.mu ∧ (begin e s).wdTrialIter = s.wdTrialIter
    ∧ (begin e s).accIterate = (if e.currAcceptable s.curr = true then some s.curr else s.accIterate)
    ∧ ((s.lastMu = some e.mu ∧ (begin e s).inWd = s.inWd ∧ (begin e s).wdIterate = s.wdIterate ∧ (begin e s).wdDelta = s.wdDelta
        ∧ (begin e s).wdShort = s.wdShort)
      ∨ (s.lastMu ≠ some e.mu ∧ (begin e s).inWd = false ∧ (begin e s).wdShort = 0)) := by
  unfold begin
  by_cases hm : s.lastMu = some e.mu
  · by_cases ha : e.currAcceptable s.curr = true
    · simp [hm, ha]
    · simp [hm, ha]
  · by_cases ha : e.currAcceptable s.curr = true
    · simp [hm, ha]
    · simp [hm, ha]

end Verif.LineSearch
