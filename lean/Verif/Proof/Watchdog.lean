import Verif.Proof.LineSearch


/-! # Watchdog and soft restoration phase: the search part -/

set_option linter.unusedSectionVars false
set_option linter.unusedSimpArgs false

namespace Verif.LineSearch
variable {I D K : Type} [LinearOrder K]

/-- Invariant between the calls. -/
structure Inv (p : Par K) (s : State I D K) : Prop where
  wd : s.inWd = true → s.wdIterate.isSome = true ∧ s.wdDelta.isSome = true ∧ s.wdTrialIter ≤ p.wdMax ∧ s.inSoft = false
  soft : s.inSoft = false → s.softCounter = 0
  bound : s.softCounter ≤ p.maxSoft

/-- What the search after the preparation does to the watchdog and the soft phase. -/
structure SearchSpec (p : Par K) (e : Env I D K) (fuel : Nat) (q : Prep I D K) (s' : State I D K) (k : Kind D K) : Prop where
  acc : s'.accIterate = q.s.accIterate
  lastMu : s'.lastMu = q.s.lastMu
  /-- the watchdog goes on only with one more trial -/
  wd : s'.inWd = true → q.s.inWd = true ∧ s'.wdIterate = q.s.wdIterate ∧ s'.wdDelta = q.s.wdDelta
    ∧ s'.wdTrialIter = q.s.wdTrialIter + 1 ∧ s'.wdTrialIter ≤ p.wdMax ∧ s'.curr = q.s.curr ∧ s'.inSoft = false
    ∧ ∃ r0, doBT p e fuel true q.s.expectInf q.s.countShort false 0 q.s.curr q.d = some r0 ∧ r0.accept = false ∧ k = .step r0.alpha r0.delta
  /-- it ends with an accepted step, or at the stored iterate -/
  wdEnd : q.s.inWd = true → s'.inWd = false → e.restoredIterate = false →
    (s'.curr = q.s.curr ∧ ∃ r, doBT p e fuel true q.s.expectInf q.s.countShort false 0 q.s.curr q.d = some r ∧ r.accept = true
        ∧ k = .step r.alpha r.delta)
    ∨ (s'.curr = q.s.wdIterate.getD q.s.curr ∧ ∃ n r, n = 0 ∧ doBT p e fuel false q.s.expectInf q.s.countShort true n s'.curr (q.s.wdDelta.getD q.s.delta) = some r
        ∧ (r.accept = true → k = .step r.alpha r.delta) ∧ (∀ a d', k = .step a d' → r.accept = true ∧ a = r.alpha))
  nowd : q.s.inWd = false → s'.curr = q.s.curr
  curr : s'.curr = q.s.curr ∨ s'.curr = q.s.wdIterate.getD q.s.curr
  /-- a regular step was accepted by the line search with the current direction -/
  stepK : q.s.inWd = false → ∀ a d', k = .step a d' →
    ∃ r, doBT p e fuel false q.s.expectInf q.s.countShort false 0 q.s.curr q.d = some r ∧ r.accept = true ∧ a = r.alpha ∧ d' = r.delta
  softK : s'.inSoft = true → q.s.inSoft = true → q.tiny1 = false → k = .soft
  soft0 : s'.inSoft = false → s'.softCounter = 0
  softB : s'.softCounter ≤ p.maxSoft
  /-- every call in the soft phase that is not a tiny step is counted -/
  softN : s'.inSoft = true → q.s.inSoft = true → q.tiny1 = false → s'.softCounter = q.s.softCounter + 1
  softT : s'.inSoft = true → q.s.inSoft = true → q.s.softCounter ≤ s'.softCounter
  /-- what starts the soft phase -/
  softS : s'.inSoft = true → q.s.inSoft = false → s'.softCounter = 0

/-- With the watchdog active no step reduction is made. -/
theorem watchdog_nSteps (p : Par K) (e : Env I D K) (fuel : Nat) (ei : Bool) (cs : Nat) (it : I) (d : D) (r : BTRes D K)
    (h : doBT p e fuel true ei cs false 0 it d = some r) : r.nSteps = 0 := by
  unfold doBT at h
  simp only [Bool.false_eq_true, if_false, if_true] at h
  cases hc : e.corrector it d with
  | some ad =>
    rw [hc] at h
    simp only [Option.some.injEq] at h
    subst h
    rfl
  | none =>
    rw [hc] at h
    simp only at h
    cases fuel with
    | zero => simp [btLoop] at h
    | succ f =>
      rw [btLoop, if_pos (Or.inr rfl)] at h
      simp only [if_true] at h
      split at h <;> (injection h with h; subst h; rfl)

theorem search_spec (p : Par K) (e : Env I D K) (fuel : Nat) (q : Prep I D K) (zero : K) (s' : State I D K) (k : Kind D K) (hr : p.rigorous = true)
    (hq : q.s.inWd = true → q.g = false ∧ q.tiny1 = false ∧ q.s.inSoft = false ∧ q.s.wdTrialIter ≤ p.wdMax)
    (ht : q.tiny = true → q.tiny1 = true) (htg : q.tiny1 = true → q.g = false)
    (hs0 : q.s.inSoft = false → q.s.softCounter = 0) (hsb : q.s.softCounter ≤ p.maxSoft)
    (h : search p e fuel q zero = .ok s' k) : SearchSpec p e fuel q s' k := by
  unfold search at h
  by_cases hg : q.g = false ∧ q.tiny = false
  · rw [if_pos hg] at h
    by_cases hsoft : q.s.inSoft = true
    · rw [if_pos hsoft] at h
      have hnwd : q.s.inWd = false := by
        rcases hw : q.s.inWd with _ | _
        · rfl
        · have := (hq hw).2.2.1; rw [hsoft] at this; simp at this
      have failCase : ∀ (h : finish p e { q.s with softCounter := q.s.softCounter + 1 } q.d false q.g q.tiny false zero 0 = .ok s' k),
          SearchSpec p e fuel q s' k := by
        intro h
        obtain ⟨hf, h1, h2, h3, _, _, _⟩ := finish_fin _ _ _ _ _ _ _ _ _ _ _ _ h
        have hns : s'.inSoft = false := h3 hr rfl hsoft
        have h0 : s'.softCounter = 0 := by
          rcases h2 hns with h2 | h2
          · exact h2
          · have := h2.2
            simp only at this
            rw [hsoft] at this; simp at this
        constructor
        · exact hf.acc
        · exact hf.lastMu
        · intro hw; have := (hf.wd hw).1; simp only at this; rw [hnwd] at this; simp at this
        · intro hw; rw [hnwd] at hw; simp at hw
        · intro _; exact hf.curr
        · exact Or.inl hf.curr
        · intro _ a d' hk; subst hk; have := finish_step _ _ _ _ _ _ _ _ _ _ _ _ _ h; simp at this
        · intro hh; rw [hns] at hh; simp at hh
        · intro _; exact h0
        · rw [h0]; exact Nat.zero_le _
        · intro hh; rw [hns] at hh; simp at hh
        · intro hh; rw [hns] at hh; simp at hh
        · intro hh; rw [hns] at hh; simp at hh
      by_cases hm : p.maxSoft < q.s.softCounter + 1
      · simp only at h
        rw [if_pos hm] at h
        exact failCase h
      · simp only at h
        rw [if_neg hm] at h
        rcases ho : e.soft q.s.curr q.d with _ | orig
        · rw [ho] at h; exact failCase h
        · rw [ho] at h
          simp only at h
          obtain ⟨hf, h1, h2, h3, h4, _, h7⟩ := finish_fin _ _ _ _ _ _ _ _ _ _ _ _ h
          obtain ⟨h5, h6⟩ := h4 rfl
          simp only at h5 h6
          constructor
          · exact hf.acc
          · exact hf.lastMu
          · intro hw; have := (hf.wd hw).1; simp only at this; rw [hnwd] at this; simp at this
          · intro hw; rw [hnwd] at hw; simp at hw
          · intro _; exact hf.curr
          · exact Or.inl hf.curr
          · intro _ a d' hk; subst hk; have := finish_step _ _ _ _ _ _ _ _ _ _ _ _ _ h; simp at this
          · intro hh _ _
            rw [h5] at hh
            exact h7 rfl hh hg.2
          · intro hh
            rw [h5] at hh
            have : orig = true := by simpa using hh
            rw [h6, if_pos this]
          · rw [h6]
            split
            · exact Nat.zero_le _
            · omega
          · intro hh _ _
            rw [h5] at hh
            have : ¬ orig = true := by simpa using hh
            rw [h6, if_neg this]
          · intro hh _
            rw [h5] at hh
            have : ¬ orig = true := by simpa using hh
            rw [h6, if_neg this]; omega
          · intro _ hh; rw [hsoft] at hh; simp at hh
    · rw [if_neg hsoft] at h
      have hsf : q.s.inSoft = false := by simpa using hsoft
      rcases hwl : wdLoop p e fuel q.s q.d with _ | sr
      · rw [hwl] at h; simp at h
      · obtain ⟨s5, r⟩ := sr
        rw [hwl] at h
        simp only at h
        obtain ⟨hf, h1, h2, h3, h4, h5, h7⟩ := finish_fin _ _ _ _ _ _ _ _ _ _ _ _ h
        have h55 : s5.inSoft = false ∧ s5.softCounter = 0 ∧ s5.accIterate = q.s.accIterate ∧ s5.lastMu = q.s.lastMu := by
          rcases wdLoop_cases p e fuel q.s s5 q.d r hwl with hc | hc | hc | hc
          · rw [hc.2.1]; exact ⟨hsf, hs0 hsf, rfl, rfl⟩
          · rw [hc.2.2.1]; exact ⟨hsf, hs0 hsf, rfl, rfl⟩
          · rw [hc.2.1]; exact ⟨hsf, hs0 hsf, rfl, rfl⟩
          · rw [hc.2.1]; exact ⟨hsf, hs0 hsf, rfl, rfl⟩
        have hc0 : s'.softCounter = 0 := by
          rcases hin : s'.inSoft with _ | _
          · rcases h2 hin with hh | hh
            · exact hh
            · rw [hh.1]; exact h55.2.1
          · rw [(h1 hin).1]; exact h55.2.1
        have rest : ∀ (hwd : s'.inWd = true → q.s.inWd = true ∧ s'.wdIterate = q.s.wdIterate ∧ s'.wdDelta = q.s.wdDelta
            ∧ s'.wdTrialIter = q.s.wdTrialIter + 1 ∧ s'.wdTrialIter ≤ p.wdMax ∧ s'.curr = q.s.curr ∧ s'.inSoft = false
            ∧ ∃ r0, doBT p e fuel true q.s.expectInf q.s.countShort false 0 q.s.curr q.d = some r0 ∧ r0.accept = false ∧ k = .step r0.alpha r0.delta)
            (hend : q.s.inWd = true → s'.inWd = false → e.restoredIterate = false →
              (s'.curr = q.s.curr ∧ ∃ r, doBT p e fuel true q.s.expectInf q.s.countShort false 0 q.s.curr q.d = some r ∧ r.accept = true
                  ∧ k = .step r.alpha r.delta)
              ∨ (s'.curr = q.s.wdIterate.getD q.s.curr ∧ ∃ n r, n = 0 ∧ doBT p e fuel false q.s.expectInf q.s.countShort true n s'.curr (q.s.wdDelta.getD q.s.delta) = some r
                  ∧ (r.accept = true → k = .step r.alpha r.delta) ∧ (∀ a d', k = .step a d' → r.accept = true ∧ a = r.alpha)))
            (hno : q.s.inWd = false → s'.curr = q.s.curr), SearchSpec p e fuel q s' k := by
          intro hwd hend hno
          constructor
          · rw [hf.acc, h55.2.2.1]
          · rw [hf.lastMu, h55.2.2.2]
          · exact hwd
          · exact hend
          · exact hno
          · rcases wdLoop_cases p e fuel q.s s5 q.d r hwl with hc | hc | hc | hc
            · left; rw [hf.curr, hc.2.1]
            · left; rw [hf.curr, hc.2.2.1]
            · left; rw [hf.curr, hc.2.1]
            · right; rw [hf.curr, hc.2.1]; rfl
          · intro hnw a d' hk
            subst hk
            have hfs := finish_step _ _ _ _ _ _ _ _ _ _ _ _ _ h
            rcases wdLoop_cases p e fuel q.s s5 q.d r hwl with hc | hc | hc | hc
            · exact ⟨r, hc.2.2, hfs.1, hfs.2.2.2.1, hfs.2.2.2.2⟩
            · rw [hc.1] at hnw; simp at hnw
            · rw [hc.1] at hnw; simp at hnw
            · rw [hc.1] at hnw; simp at hnw
          · intro _ hh; rw [hsf] at hh; simp at hh
          · intro _; exact hc0
          · rw [hc0]; exact Nat.zero_le _
          · intro _ hh; rw [hsf] at hh; simp at hh
          · intro _ hh; rw [hsf] at hh; simp at hh
          · intro _ _; exact hc0
        rcases wdLoop_cases p e fuel q.s s5 q.d r hwl with hc | hc | hc | hc
        · obtain ⟨hw, hs, hd⟩ := hc
          subst hs
          refine rest ?_ ?_ ?_
          · intro hh; have := (hf.wd hh).1; rw [hw] at this; simp at this
          · intro hh; rw [hw] at hh; simp at hh
          · intro _; exact hf.curr
        · obtain ⟨hw, hacc, hs, hd⟩ := hc
          subst hs
          refine rest ?_ ?_ ?_
          · intro hh; have := (hf.wd hh).1; simp at this
          · intro _ _ _
            left
            exact ⟨hf.curr, r, hd, hacc, h5 hacc h55.1 hg.2 rfl⟩
          · intro hh; rw [hw] at hh; simp at hh
        · obtain ⟨hw, hs, hle, r0, hd, ha0, he0, hrr⟩ := hc
          subst hs
          subst hrr
          have hk : k = .step r0.alpha r0.delta := h5 rfl h55.1 hg.2 rfl
          refine rest ?_ ?_ ?_
          · intro hh
            obtain ⟨h6, h7, h8⟩ := hf.wd hh
            refine ⟨hw, h7, h8, hf.trial, by rw [hf.trial]; exact hle, hf.curr, ?_, r0, hd, ha0, hk⟩
            exact (h4 rfl).1.trans h55.1
          · intro _ hin hri
            exfalso
            have hq2 := hq hw
            have : s'.inWd = true := by
              unfold finish at h
              simp only [Bool.true_eq_false, if_false] at h
              rw [if_pos (Or.inl h55.1)] at h
              simp only [hri, Bool.false_eq_true, if_false, Out.ok.injEq] at h
              rw [← h.1]
              split <;> split <;> exact hw
            rw [this] at hin; simp at hin
          · intro hh; rw [hw] at hh; simp at hh
        · obtain ⟨hw, hs, r0, hd, ha0, hcut, hd2⟩ := hc
          have hinwd : s5.inWd = false := by rw [hs]; rfl
          have hcur : s5.curr = q.s.wdIterate.getD q.s.curr := by rw [hs]; rfl
          refine rest ?_ ?_ ?_
          · intro hh; have := (hf.wd hh).1; rw [hinwd] at this; simp at this
          · intro _ _ _
            right
            refine ⟨hf.curr.trans hcur, r0.nSteps, r, (watchdog_nSteps p e fuel _ _ _ _ r0 hd), ?_, fun ha => h5 ha h55.1 hg.2 rfl, ?_⟩
            swap
            · intro a d' hk
              subst hk
              have hfs := finish_step _ _ _ _ _ _ _ _ _ _ _ _ _ h
              exact ⟨hfs.1, hfs.2.2.2.1⟩
            rw [hf.curr]; exact hd2
          · intro hh; rw [hw] at hh; simp at hh
  · rw [if_neg hg] at h
    have hnwd : q.s.inWd = false := by
      rcases hw : q.s.inWd with _ | _
      · rfl
      · exfalso
        have h1 := hq hw
        apply hg
        refine ⟨h1.1, ?_⟩
        rcases htt : q.tiny with _ | _
        · rfl
        · have := ht htt; rw [h1.2.1] at this; simp at this
    obtain ⟨hf, h1, h2, h3, h4, h5, h7⟩ := finish_fin _ _ _ _ _ _ _ _ _ _ _ _ h
    have hcB : (s'.inSoft = false → s'.softCounter = 0) ∧ s'.softCounter ≤ p.maxSoft ∧ (s'.inSoft = true → s'.softCounter = q.s.softCounter) := by
      rcases hin : s'.inSoft with _ | _
      · have h0 : s'.softCounter = 0 := by
          rcases h2 hin with hh | hh
          · exact hh
          · rw [hh.1]; exact hs0 hh.2
        exact ⟨fun _ => h0, by rw [h0]; exact Nat.zero_le _, by simp⟩
      · have := (h1 hin).1
        exact ⟨by simp, by rw [this]; exact hsb, fun _ => this⟩
    constructor
    · exact hf.acc
    · exact hf.lastMu
    · intro hw; have := (hf.wd hw).1; rw [hnwd] at this; simp at this
    · intro hw; rw [hnwd] at hw; simp at hw
    · intro _; exact hf.curr
    · exact Or.inl hf.curr
    · intro _ a d' hk
      subst hk
      have hfs := finish_step _ _ _ _ _ _ _ _ _ _ _ _ _ h
      exact absurd ⟨htg hfs.1, hfs.2.1⟩ hg
    · intro hin hss ht1
      exfalso
      rw [ht1] at h3
      have := h3 hr rfl hss
      rw [this] at hin; simp at hin
    · exact hcB.1
    · exact hcB.2.1
    · intro hin hss ht1
      exfalso
      rw [ht1] at h3
      have := h3 hr rfl hss
      rw [this] at hin; simp at hin
    · intro hin _; rw [hcB.2.2 hin]
    · intro hin hss; rw [hcB.2.2 hin, hs0 hss]

end Verif.LineSearch
