import Verif.Proof.Watchdog
import Verif.Props.LineSearch

/-! # Watchdog, soft restoration phase and backup acceptable point of the line search (C49, C50, C51)

The statements are about one call of `FindAcceptableTrialPoint` (`findTrial`) and about arbitrary sequences of calls, new iterates, resets and
fallback activations (`step`), for every behaviour `Env` of the acceptor, the problem functions and the restoration phase. -/

set_option linter.unusedSectionVars false
set_option linter.unusedSimpArgs false

namespace Verif.LineSearch
variable {I D K : Type} [LinearOrder K]

/-- With the watchdog active a rejected trial is the full step to the boundary in the unchanged direction. -/
theorem watchdog_full_step (p : Par K) (e : Env I D K) (fuel : Nat) (ei : Bool) (cs : Nat) (it : I) (d : D) (r : BTRes D K)
    (h : doBT p e fuel true ei cs false 0 it d = some r) (ha : r.accept = false) : r.alpha = e.alphaMax it d ∧ r.delta = d := by
  unfold doBT at h
  simp only [Bool.false_eq_true, if_false, if_true] at h
  cases hc : e.corrector it d with
  | some ad =>
    rw [hc] at h
    simp only [Option.some.injEq] at h
    subst h
    simp at ha
  | none =>
    rw [hc] at h
    simp only at h
    cases fuel with
    | zero => simp [btLoop] at h
    | succ f =>
      rw [btLoop, if_pos (Or.inr rfl)] at h
      simp only [if_true] at h
      split at h
      · injection h with h; subst h; simp at ha
      · injection h with h; subst h; exact ⟨rfl, rfl⟩

/-- With the watchdog active the only point that can be accepted is the full step, or the corrector step. -/
theorem watchdog_accept (p : Par K) (e : Env I D K) (fuel : Nat) (ei : Bool) (cs : Nat) (it : I) (d : D) (r : BTRes D K)
    (h : doBT p e fuel true ei cs false 0 it d = some r) (ha : r.accept = true) :
    (r.alpha = e.alphaMax it d ∧ r.delta = d ∧ Spec.Passes p e it d 0 (e.alphaMax it d)) ∨ e.corrector it d = some (r.alpha, r.delta) := by
  unfold doBT at h
  simp only [Bool.false_eq_true, if_false, if_true] at h
  cases hc : e.corrector it d with
  | some ad =>
    rw [hc] at h
    simp only [Option.some.injEq] at h
    subst h
    right; rfl
  | none =>
    rw [hc] at h
    simp only at h
    cases fuel with
    | zero => simp [btLoop] at h
    | succ f =>
      rw [btLoop, if_pos (Or.inr rfl)] at h
      simp only [if_true] at h
      split at h
      · rename_i hct
        injection h with h; subst h
        left; exact ⟨rfl, rfl, (checkTrial_accept _ _ _ _ _ _).mp hct⟩
      · injection h with h; subst h; simp at ha

/-- What one successful call does. -/
structure CallSpec (p : Par K) (e : Env I D K) (fuel : Nat) (s s' : State I D K) (k : Kind D K) : Prop where
  inv : Inv p s'
  acc : s'.accIterate = (if e.currAcceptable s.curr = true then some s.curr else s.accIterate)
  cont : s.inWd = true → s'.inWd = true → s.lastMu = some e.mu ∧ s'.wdIterate = s.wdIterate ∧ s'.wdDelta = s.wdDelta
    ∧ s'.wdTrialIter = s.wdTrialIter + 1 ∧ s'.curr = s.curr ∧ k = .step (e.alphaMax s.curr s.delta) s.delta
  start : s.inWd = false → s'.inWd = true → s'.wdIterate = some s.curr ∧ s'.wdDelta = some s.delta ∧ s'.wdTrialIter = 1 ∧ s'.curr = s.curr
    ∧ 0 < p.trigger ∧ p.trigger ≤ s.wdShort
  nowd : s.inWd = false → s'.curr = s.curr
  ends : s.inWd = true → s'.inWd = false → s.lastMu = some e.mu → e.restoredIterate = false → (s.fallback = false ∨ e.hasResto = true) →
    (s'.curr = s.curr ∧ ((k = .step (e.alphaMax s.curr s.delta) s.delta ∧ Spec.Passes p e s.curr s.delta 0 (e.alphaMax s.curr s.delta))
        ∨ ∃ a d', e.corrector s.curr s.delta = some (a, d') ∧ k = .step a d'))
    ∨ (some s'.curr = s.wdIterate ∧ ∃ dw, s.wdDelta = some dw ∧
        ∀ a d', k = .step a d' → ∃ ei cs skip r, doBT p e fuel false ei cs skip 0 s'.curr dw = some r ∧ r.accept = true ∧ a = r.alpha ∧ d' = r.delta)
  soft : s.inSoft = true → s'.inSoft = true → (s.fallback = true ∧ k = .none ∧ s'.softCounter = s.softCounter) ∨ (k = .soft ∧ s'.softCounter = s.softCounter + 1)
    ∨ (e.tiny = true ∧ s.softCounter ≤ s'.softCounter)
  softS : s'.inSoft = true → s.inSoft = false → s'.softCounter = 0

theorem middle_call (p : Par K) (e : Env I D K) (fuel : Nat) (zero : K) (s0 s s' : State I D K) (k : Kind D K) (g0 : Bool) (hr : p.rigorous = true)
    (hb : s = begin e s0 ∨ s = { begin e s0 with fallback := false }) (hi : Inv p s0)
    (h : middle p e fuel s g0 zero = .ok s' k) : CallSpec p e fuel s0 s' k := by
  have hbs := begin_spec e s0
  have hs : s.curr = s0.curr ∧ s.delta = s0.delta ∧ s.inSoft = s0.inSoft ∧ s.softCounter = s0.softCounter
    ∧ s.lastMu = some e.mu ∧ s.wdTrialIter = s0.wdTrialIter
    ∧ s.accIterate = (if e.currAcceptable s0.curr = true then some s0.curr else s0.accIterate)
    ∧ ((s0.lastMu = some e.mu ∧ s.inWd = s0.inWd ∧ s.wdIterate = s0.wdIterate ∧ s.wdDelta = s0.wdDelta ∧ s.wdShort = s0.wdShort)
      ∨ (s0.lastMu ≠ some e.mu ∧ s.inWd = false ∧ s.wdShort = 0)) := by
    rcases hb with hb | hb
    · rw [hb]; exact hbs
    · rw [hb]; exact hbs
  clear hbs hb
  obtain ⟨hcur, hdel, hsoft, hcnt, hmu, htr, hacc, hwd⟩ := hs
  have hp := prep_spec p e s g0
  unfold middle at h
  set q := prep p e s g0 with hqdef
  have hwdinv : s.inWd = true → s0.inWd = true ∧ s0.lastMu = some e.mu ∧ s.wdIterate = s0.wdIterate ∧ s.wdDelta = s0.wdDelta := by
    intro hw
    rcases hwd with hwd | hwd
    · exact ⟨by rw [← hwd.2.1]; exact hw, hwd.1, hwd.2.2.1, hwd.2.2.2.1⟩
    · rw [hwd.2.1] at hw; simp at hw
  have hq : q.s.inWd = true → q.g = false ∧ q.tiny1 = false ∧ q.s.inSoft = false ∧ q.s.wdTrialIter ≤ p.wdMax := by
    intro hw
    obtain ⟨h1, h2, _⟩ := hp.wdg hw
    refine ⟨h1, h2, ?_, ?_⟩
    · rw [hp.soft.1]
      rcases hp.cases with hc | hc | hc | hc
      · rw [hc.2.1] at hw; simp at hw
      · rw [hsoft]; exact (hi.wd (hwdinv hc.1).1).2.2.2
      · exact hc.2.2.2.2.2.2.2
      · rw [hc.2.1] at hw; simp at hw
    · rcases hp.cases with hc | hc | hc | hc
      · rw [hc.2.1] at hw; simp at hw
      · rw [hc.2.2.2.2, htr]; exact (hi.wd (hwdinv hc.1).1).2.2.1
      · rw [hc.2.2.2.2.1]; exact Nat.zero_le _
      · rw [hc.2.1] at hw; simp at hw
  have hss := search_spec p e fuel q zero s' k hr hq hp.tiny hp.tinyg (by rw [hp.soft.1, hp.soft.2, hsoft, hcnt]; exact hi.soft)
    (by rw [hp.soft.2, hcnt]; exact hi.bound) h
  constructor
  · constructor
    · intro hw
      obtain ⟨h1, h2, h3, h4, h5, h6, h7, _⟩ := hss.wd hw
      rw [h2, h3]
      rcases hp.cases with hc | hc | hc | hc
      · rw [hc.2.1] at h1; simp at h1
      · obtain ⟨h8, h9, h10, h11⟩ := hwdinv hc.1
        have := hi.wd h8
        rw [hc.2.2.1, hc.2.2.2.1, h10, h11]
        exact ⟨this.1, this.2.1, h5, h7⟩
      · rw [hc.2.2.1, hc.2.2.2.1]; exact ⟨rfl, rfl, h5, h7⟩
      · rw [hc.2.1] at h1; simp at h1
    · exact hss.soft0
    · exact hss.softB
  · rw [hss.acc, hp.acc, hacc]
  · intro hw hw'
    obtain ⟨h1, h2, h3, h4, h5, h6, h7, r0, hd, ha, hk⟩ := hss.wd hw'
    obtain ⟨_, _, hd1, hc1, _⟩ := hp.wdg h1
    rcases hp.cases with hc | hc | hc | hc
    · rw [hc.2.1] at h1; simp at h1
    · obtain ⟨h8, h9, h10, h11⟩ := hwdinv hc.1
      have hfull := watchdog_full_step p e fuel _ _ _ _ _ hd ha
      refine ⟨h9, by rw [h2, hc.2.2.1, h10], by rw [h3, hc.2.2.2.1, h11], by rw [h4, hc.2.2.2.2, htr], by rw [h6, hc1, hcur], ?_⟩
      rw [hk, hfull.1, hfull.2, hc1, hd1, hcur, hdel]
    · -- the watchdog was ended by a changed barrier parameter: it cannot start again in the same call
      rcases hwd with hwd | hwd
      · rw [hwd.2.1, hw] at hc; simp at hc
      · have := hc.2.2.2.2.2.2.1; rw [hwd.2.2] at this; have := hc.2.2.2.2.2.1; omega
    · rw [hc.2.1] at h1; simp at h1
  · intro hw hw'
    obtain ⟨h1, h2, h3, h4, h5, h6, h7, r0, hd, ha, hk⟩ := hss.wd hw'
    obtain ⟨_, _, hd1, hc1, _⟩ := hp.wdg h1
    rcases hp.cases with hc | hc | hc | hc
    · rw [hc.2.1] at h1; simp at h1
    · have := (hwdinv hc.1).1; rw [hw] at this; simp at this
    · refine ⟨by rw [h2, hc.2.2.1, hcur], by rw [h3, hc.2.2.2.1, hdel], by rw [h4, hc.2.2.2.2.1], by rw [h6, hc1, hcur], hc.2.2.2.2.2.1, ?_⟩
      have h8 := hc.2.2.2.2.2.2.1
      have h9 := hc.2.2.2.2.2.1
      rcases hwd with hwd | hwd
      · rw [hwd.2.2.2.2] at h8; exact h8
      · rw [hwd.2.2] at h8; omega
    · rw [hc.2.1] at h1; simp at h1
  · intro hw
    rcases hp.cases with hc | hc | hc | hc
    · rw [hss.nowd hc.2.1, hc.2.2.1, hcur]
    · have := (hwdinv hc.1).1; rw [hw] at this; simp at this
    · have hc1 := (hp.wdg hc.2.1).2.2.2.1
      rcases hin : s'.inWd with _ | _
      · rcases hss.curr with hcu | hcu
        · rw [hcu, hc1, hcur]
        · rw [hcu, hc.2.2.1]; exact hcur
      · rw [(hss.wd hin).2.2.2.2.2.1, hc1, hcur]
    · have := (hwdinv hc.1).1; rw [hw] at this; simp at this
  · intro hw hw' hm hri hfb
    have hwdE : s.inWd = true := by
      rcases hwd with hwd | hwd
      · rw [hwd.2.1]; exact hw
      · exact absurd hm hwd.1
    obtain ⟨_, _, hit, hde⟩ := hwdinv hwdE
    obtain ⟨hsome, hsomed, _⟩ := hi.wd hw
    obtain ⟨y, hy⟩ := Option.isSome_iff_exists.mp hsome
    obtain ⟨dw, hdw⟩ := Option.isSome_iff_exists.mp hsomed
    have hgetD : ∀ x, some (s.wdIterate.getD x) = s0.wdIterate := by
      intro x; rw [hit, hy]; rfl
    rcases hp.cases with hc | hc | hc | hc
    · rw [hwdE] at hc; simp at hc
    · obtain ⟨_, _, hd1, hc1, hdd⟩ := hp.wdg hc.2.1
      rcases hss.wdEnd hc.2.1 hw' hri with he | he
      · left
        obtain ⟨h1, r, h2, h3, h4⟩ := he
        refine ⟨by rw [h1, hc1, hcur], ?_⟩
        rw [hc1, hd1, hcur, hdel] at h2
        rcases watchdog_accept p e fuel _ _ _ _ r h2 h3 with h5 | h5
        · left; rw [h4, h5.1, h5.2.1]; exact ⟨rfl, h5.2.2⟩
        · right; exact ⟨r.alpha, r.delta, h5, h4⟩
      · right
        obtain ⟨h1, n, r, h2, h3, h4, h5⟩ := he
        refine ⟨by rw [h1, hc.2.2.1]; exact hgetD _, dw, hdw, ?_⟩
        intro a d' hk
        refine ⟨q.s.expectInf, q.s.countShort, true, r, ?_, ?_⟩
        · have : q.s.wdDelta.getD q.s.delta = dw := by rw [hc.2.2.2.1, hde, hdw]; rfl
          rw [this, h2] at h3
          exact h3
        · obtain ⟨h6, h7⟩ := h5 a d' hk
          have := h4 h6
          rw [hk] at this
          simp only [Kind.step.injEq] at this
          exact ⟨h6, this.1, this.2⟩
    · rw [hwdE] at hc; simp at hc
    · right
      refine ⟨by rw [hss.nowd hc.2.1, hc.2.2.1]; exact hgetD _, dw, hdw, ?_⟩
      intro a d' hk
      obtain ⟨r, h1, h2⟩ := hss.stepK hc.2.1 a d' hk
      refine ⟨q.s.expectInf, q.s.countShort, false, r, ?_, h2⟩
      have : q.d = dw := by rw [hc.2.2.2.1, hde, hdw]; rfl
      rw [this, ← hss.nowd hc.2.1] at h1
      exact h1
  · intro hin hin'
    have hqin : q.s.inSoft = true := by rw [hp.soft.1, hsoft]; exact hin
    rcases ht : q.tiny1 with _ | _
    · right; left
      refine ⟨hss.softK hin' hqin ht, ?_⟩
      rw [hss.softN hin' hqin ht, hp.soft.2, hcnt]
    · right; right
      refine ⟨hp.etiny ht, ?_⟩
      have := hss.softT hin' hqin
      rw [hp.soft.2, hcnt] at this
      exact this
  · intro hin' hin
    exact hss.softS hin' (by rw [hp.soft.1, hsoft]; exact hin)

theorem call_spec (p : Par K) (e : Env I D K) (fuel : Nat) (zero : K) (s s' : State I D K) (k : Kind D K) (hr : p.rigorous = true) (hi : Inv p s)
    (h : findTrial p e fuel zero s = .ok s' k) : CallSpec p e fuel s s' k := by
  unfold findTrial at h
  have hb := begin_spec e s
  have hfb : (begin e s).fallback = s.fallback := by
    unfold begin
    by_cases h1 : s.lastMu = some e.mu <;> by_cases h2 : e.currAcceptable s.curr = true <;> simp [h1, h2]
  simp only at h
  by_cases hf : (begin e s).fallback = true
  · rw [if_pos hf] at h
    by_cases hres : e.hasResto = true
    · rw [if_pos hres] at h
      exact middle_call p e fuel zero s _ s' k true hr (Or.inr rfl) hi h
    · rw [if_neg hres] at h
      by_cases hdf : e.doFallback = true
      · rw [if_pos hdf] at h
        simp only [Out.ok.injEq] at h
        obtain ⟨rfl, rfl⟩ := h
        obtain ⟨h1, h2, h3, h4, h5, h6, h7, _⟩ := hb
        constructor
        · constructor
          · intro hw; simp at hw
          · intro hh; simp only at hh ⊢; rw [h4]; rw [h3] at hh; exact hi.soft hh
          · simp only; rw [h4]; exact hi.bound
        · exact h7
        · intro _ hw; simp at hw
        · intro _ hw; simp at hw
        · intro _; exact h1
        · intro _ _ _ _ hh
          rw [hfb] at hf
          rcases hh with hh | hh
          · rw [hf] at hh; simp at hh
          · exact absurd hh hres
        · intro _ _; left; exact ⟨by rw [← hfb]; exact hf, rfl, h4⟩
        · intro hin' hin; simp only at hin'; rw [h3, hin] at hin'; simp at hin'
      · rw [if_neg hdf] at h; simp at h
  · rw [if_neg hf] at h
    exact middle_call p e fuel zero s _ s' k false hr (Or.inl rfl) hi h

/-- A sequence of events without exceptions. -/
def run (p : Par K) (s : State I D K) : List (Ev I D K) → Option (State I D K)
  | [] => some s
  | ev :: evs => (step p s ev).bind (fun s' => run p s' evs)

theorem run_append (p : Par K) (evs evs' : List (Ev I D K)) : ∀ s : State I D K,
    run p s (evs ++ evs') = (run p s evs).bind (fun s' => run p s' evs') := by
  induction evs with
  | nil => intro s; simp [run]
  | cons ev evs ih =>
    intro s
    simp only [List.cons_append, run]
    cases step p s ev with
    | none => rfl
    | some s1 => simp only [Option.bind_some]; exact ih s1

theorem step_inv (p : Par K) (hr : p.rigorous = true) (s s' : State I D K) (ev : Ev I D K) (hi : Inv p s) (h : step p s ev = some s') : Inv p s' := by
  cases ev with
  | call e fuel zero =>
    simp only [step] at h
    cases hf : findTrial p e fuel zero s with
    | ok s1 k =>
      rw [hf] at h
      simp only [Option.some.injEq] at h
      subst h
      exact (call_spec p e fuel zero s s1 k hr hi hf).inv
    | throw s1 x => rw [hf] at h; simp at h
    | hang => rw [hf] at h; simp at h
  | next it d =>
    simp only [step, Option.some.injEq] at h
    subst h
    exact ⟨hi.wd, hi.soft, hi.bound⟩
  | reset =>
    simp only [step, Option.some.injEq] at h
    subst h
    refine ⟨fun hw => ?_, fun _ => rfl, Nat.zero_le _⟩
    have := hi.wd hw
    exact ⟨this.1, this.2.1, this.2.2.1, rfl⟩
  | stopWatchDog =>
    simp only [step, Option.some.injEq, stopWatchDog] at h
    subst h
    split
    · exact ⟨fun hw => by simp [stopWd] at hw, hi.soft, hi.bound⟩
    · exact hi
  | fallback =>
    simp only [step, Option.some.injEq] at h
    subst h
    exact ⟨hi.wd, hi.soft, hi.bound⟩

theorem run_inv (p : Par K) (hr : p.rigorous = true) (evs : List (Ev I D K)) : ∀ (s s' : State I D K), Inv p s → run p s evs = some s' → Inv p s' := by
  induction evs with
  | nil => intro s s' hi h; simp only [run, Option.some.injEq] at h; subst h; exact hi
  | cons ev evs ih =>
    intro s s' hi h
    simp only [run] at h
    cases hs : step p s ev with
    | none => rw [hs] at h; simp at h
    | some s1 => rw [hs] at h; exact ih s1 s' (step_inv p hr s s1 ev hi hs) h

theorem init_inv (p : Par K) (it : I) (d : D) (a b : Bool) : Inv p (init it d a b : State I D K) :=
  ⟨fun h => by simp [init] at h, fun _ => rfl, Nat.zero_le _⟩

/-- The states reachable from the initialised line search. -/
def Reachable (p : Par K) (s : State I D K) : Prop := ∃ it d a b evs, run p (init it d a b) evs = some s

theorem reachable_inv (p : Par K) (hr : p.rigorous = true) (s : State I D K) (h : Reachable p s) : Inv p s := by
  obtain ⟨it, d, a, b, evs, h⟩ := h
  exact run_inv p hr evs _ _ (init_inv p it d a b) h

/-- `n` calls of the line search, between which the watchdog is always active. -/
inductive WdRun (p : Par K) (s : State I D K) : Nat → State I D K → Prop where
  | refl : s.inWd = true → WdRun p s 0 s
  | call {n s1 s2 e fuel zero} : WdRun p s n s1 → step p s1 (.call e fuel zero) = some s2 → s2.inWd = true → WdRun p s (n + 1) s2
  | other {n s1 s2 ev} : WdRun p s n s1 → (∀ e f z, ev ≠ .call e f z) → step p s1 ev = some s2 → s2.inWd = true → WdRun p s n s2

/-- **C49** While the watchdog is active its reference point and its reference direction do not change, and it is active for at most
`watchdog_trial_iter_max` further calls. -/
theorem watchdog_bounded (p : Par K) (hr : p.rigorous = true) (s s' : State I D K) (n : Nat) (hre : Reachable p s) (h : WdRun p s n s') :
    s'.wdIterate = s.wdIterate ∧ s'.wdDelta = s.wdDelta ∧ n + s.wdTrialIter = s'.wdTrialIter ∧ n ≤ p.wdMax := by
  have hi := reachable_inv p hr s hre
  have key : Inv p s' ∧ s'.inWd = true ∧ s'.wdIterate = s.wdIterate ∧ s'.wdDelta = s.wdDelta ∧ n + s.wdTrialIter = s'.wdTrialIter := by
    induction h with
    | refl hw => exact ⟨hi, hw, rfl, rfl, by omega⟩
    | @call n s1 s2 e fuel zero hrun hst hw ih =>
      obtain ⟨h1, h2, h3, h4, h5⟩ := ih
      simp only [step] at hst
      cases hf : findTrial p e fuel zero s1 with
      | ok s3 k =>
        rw [hf] at hst
        simp only [Option.some.injEq] at hst
        subst hst
        have hc := call_spec p e fuel zero s1 s3 k hr h1 hf
        have := hc.cont h2 hw
        exact ⟨hc.inv, hw, by rw [this.2.1, h3], by rw [this.2.2.1, h4], by rw [this.2.2.2.1]; omega⟩
      | throw s3 x => rw [hf] at hst; simp at hst
      | hang => rw [hf] at hst; simp at hst
    | @other n s1 s2 ev hrun hne hst hw ih =>
      obtain ⟨h1, h2, h3, h4, h5⟩ := ih
      refine ⟨step_inv p hr s1 s2 ev h1 hst, hw, ?_⟩
      cases ev with
      | call e f z => exact absurd rfl (hne e f z)
      | next it d => simp only [step, Option.some.injEq] at hst; subst hst; exact ⟨h3, h4, h5⟩
      | reset => simp only [step, Option.some.injEq] at hst; subst hst; exact ⟨h3, h4, h5⟩
      | stopWatchDog =>
        simp only [step, Option.some.injEq, stopWatchDog] at hst
        rw [if_pos h2] at hst
        subst hst
        simp [stopWd] at hw
      | fallback => simp only [step, Option.some.injEq] at hst; subst hst; exact ⟨h3, h4, h5⟩
  obtain ⟨h1, h2, h3, h4, h5⟩ := key
  have := (h1.wd h2).2.2.1
  exact ⟨h3, h4, h5, by omega⟩

/-- **C49** A call during which the watchdog stays active hands out the full step in the current direction and does not change the current
iterate; the barrier parameter is the one of the previous call. -/
theorem watchdog_continues (p : Par K) (hr : p.rigorous = true) (e : Env I D K) (fuel : Nat) (zero : K) (s s' : State I D K) (k : Kind D K)
    (hre : Reachable p s) (h : findTrial p e fuel zero s = .ok s' k) (hw : s.inWd = true) (hw' : s'.inWd = true) :
    s.lastMu = some e.mu ∧ s'.wdIterate = s.wdIterate ∧ s'.wdDelta = s.wdDelta ∧ s'.curr = s.curr
    ∧ k = .step (e.alphaMax s.curr s.delta) s.delta := by
  obtain ⟨h1, h2, h3, _, h4, h5⟩ := (call_spec p e fuel zero s s' k hr (reachable_inv p hr s hre) h).cont hw hw'
  exact ⟨h1, h2, h3, h4, h5⟩

/-- **C49** The watchdog is started only after `watchdog_shortened_iter_trigger` (> 0) shortened iterations, with the current iterate and the
current direction as reference. -/
theorem watchdog_starts (p : Par K) (hr : p.rigorous = true) (e : Env I D K) (fuel : Nat) (zero : K) (s s' : State I D K) (k : Kind D K)
    (hre : Reachable p s) (h : findTrial p e fuel zero s = .ok s' k) (hw : s.inWd = false) (hw' : s'.inWd = true) :
    s'.wdIterate = some s.curr ∧ s'.wdDelta = some s.delta ∧ s'.curr = s.curr ∧ 0 < p.trigger ∧ p.trigger ≤ s.wdShort := by
  obtain ⟨h1, h2, _, h4, h5⟩ := (call_spec p e fuel zero s s' k hr (reachable_inv p hr s hre) h).start hw hw'
  exact ⟨h1, h2, h4, h5⟩

/-- **C49** If the watchdog ends (with an unchanged barrier parameter and no fallback of the acceptor), then either the full step or the corrector step was accepted by the
regular test, or the current iterate is again the reference point of the watchdog, and a regular step handed out was accepted by a regular backtracking
line search from there along the reference direction. -/
theorem watchdog_ends (p : Par K) (hr : p.rigorous = true) (e : Env I D K) (fuel : Nat) (zero : K) (s s' : State I D K) (k : Kind D K)
    (hre : Reachable p s) (h : findTrial p e fuel zero s = .ok s' k) (hw : s.inWd = true) (hw' : s'.inWd = false)
    (hmu : s.lastMu = some e.mu) (hri : e.restoredIterate = false) (hfb : s.fallback = false ∨ e.hasResto = true) :
    (s'.curr = s.curr ∧ ((k = .step (e.alphaMax s.curr s.delta) s.delta ∧ Spec.Passes p e s.curr s.delta 0 (e.alphaMax s.curr s.delta))
        ∨ ∃ a d', e.corrector s.curr s.delta = some (a, d') ∧ k = .step a d'))
    ∨ (some s'.curr = s.wdIterate ∧ ∃ dw, s.wdDelta = some dw ∧
        ∀ a d', k = .step a d' → ∃ ei cs skip r, doBT p e fuel false ei cs skip 0 s'.curr dw = some r ∧ r.accept = true ∧ a = r.alpha ∧ d' = r.delta) :=
  (call_spec p e fuel zero s s' k hr (reachable_inv p hr s hre) h).ends hw hw' hmu hri hfb

/-- Without an active watchdog a call does not change the current iterate. -/
theorem no_watchdog_keeps_iterate (p : Par K) (hr : p.rigorous = true) (e : Env I D K) (fuel : Nat) (zero : K) (s s' : State I D K) (k : Kind D K)
    (hre : Reachable p s) (h : findTrial p e fuel zero s = .ok s' k) (hw : s.inWd = false) : s'.curr = s.curr :=
  (call_spec p e fuel zero s s' k hr (reachable_inv p hr s hre) h).nowd hw

/-- `n` calls that hand out soft restoration steps, between which the line search is always in the soft restoration phase. -/
inductive SoftRun (p : Par K) (s : State I D K) : Nat → State I D K → Prop where
  | refl : s.inSoft = true → SoftRun p s 0 s
  | soft {n s1 s2 e fuel zero} : SoftRun p s n s1 → findTrial p e fuel zero s1 = .ok s2 .soft → e.tiny = false → s2.inSoft = true →
      SoftRun p s (n + 1) s2
  | other {n s1 s2 ev} : SoftRun p s n s1 → step p s1 ev = some s2 → s2.inSoft = true → SoftRun p s n s2

/-- **C50** The line search stays in the soft restoration phase for at most `max_soft_resto_iters` calls with soft restoration steps, then it calls the
restoration phase. -/
theorem soft_bounded (p : Par K) (hr : p.rigorous = true) (s s' : State I D K) (n : Nat) (hre : Reachable p s) (h : SoftRun p s n s') :
    n ≤ p.maxSoft := by
  have hi := reachable_inv p hr s hre
  have key : Inv p s' ∧ s'.inSoft = true ∧ n + s.softCounter ≤ s'.softCounter := by
    induction h with
    | refl hw => exact ⟨hi, hw, by omega⟩
    | @soft n s1 s2 e fuel zero hrun hf ht hw ih =>
      obtain ⟨h1, h2, h3⟩ := ih
      have hc := call_spec p e fuel zero s1 s2 _ hr h1 hf
      refine ⟨hc.inv, hw, ?_⟩
      rcases hc.soft h2 hw with h4 | h4 | h4
      · simp at h4
      · omega
      · rw [ht] at h4; simp at h4
    | @other n s1 s2 ev hrun hst hw ih =>
      obtain ⟨h1, h2, h3⟩ := ih
      refine ⟨step_inv p hr s1 s2 ev h1 hst, hw, ?_⟩
      cases ev with
      | call e fuel zero =>
        simp only [step] at hst
        cases hf : findTrial p e fuel zero s1 with
        | ok s3 k =>
          rw [hf] at hst
          simp only [Option.some.injEq] at hst
          subst hst
          have hc := call_spec p e fuel zero s1 s3 k hr h1 hf
          rcases hc.soft h2 hw with h4 | h4 | h4
          · omega
          · omega
          · omega
        | throw s3 x => rw [hf] at hst; simp at hst
        | hang => rw [hf] at hst; simp at hst
      | next it d => simp only [step, Option.some.injEq] at hst; subst hst; exact h3
      | reset => simp only [step, Option.some.injEq] at hst; subst hst; simp [reset] at hw
      | stopWatchDog =>
        simp only [step, Option.some.injEq, stopWatchDog] at hst
        subst hst
        split
        · exact h3
        · exact h3
      | fallback => simp only [step, Option.some.injEq] at hst; subst hst; exact h3
  have := key.1.bound
  omega

/-! ## Backup acceptable point -/

/-- The last iterate at which a call found the acceptable level. -/
def Spec.lastAcceptable (p : Par K) (s : State I D K) (acc : Option I) : List (Ev I D K) → Option I
  | [] => acc
  | ev :: evs =>
    let acc' := match ev with
      | .call e _ _ => if e.currAcceptable s.curr = true then some s.curr else acc
      | _ => acc
    match step p s ev with
    | some s' => Spec.lastAcceptable p s' acc' evs
    | none => acc'

theorem run_acc (p : Par K) (hr : p.rigorous = true) (evs : List (Ev I D K)) : ∀ (s s' : State I D K), Inv p s → run p s evs = some s' →
    s'.accIterate = Spec.lastAcceptable p s s.accIterate evs := by
  induction evs with
  | nil => intro s s' _ h; simp only [run, Option.some.injEq] at h; subst h; rfl
  | cons ev evs ih =>
    intro s s' hi h
    simp only [run] at h
    cases hs : step p s ev with
    | none => rw [hs] at h; simp at h
    | some s1 =>
      rw [hs] at h
      have h1 := ih s1 s' (step_inv p hr s s1 ev hi hs) h
      rw [h1]
      simp only [Spec.lastAcceptable, hs]
      congr 1
      cases ev with
      | call e fuel zero =>
        simp only [step] at hs
        cases hf : findTrial p e fuel zero s with
        | ok s3 k =>
          rw [hf] at hs
          simp only [Option.some.injEq] at hs
          subst hs
          exact (call_spec p e fuel zero s s3 k hr hi hf).acc
        | throw s3 x => rw [hf] at hs; simp at hs
        | hang => rw [hf] at hs; simp at hs
      | next it d => simp only [step, Option.some.injEq] at hs; subst hs; rfl
      | reset => simp only [step, Option.some.injEq] at hs; subst hs; rfl
      | stopWatchDog =>
        simp only [step, Option.some.injEq, stopWatchDog] at hs
        subst hs
        split <;> rfl
      | fallback => simp only [step, Option.some.injEq] at hs; subst hs; rfl

theorem finish_throw (p : Par K) (e : Env I D K) (s s' : State I D K) (d : D) (accept g tiny softStep : Bool) (alpha : K) (n : Nat) (x : Exc)
    (h : finish p e s d accept g tiny softStep alpha n = .throw s' x) : goResto e s = .throw s' x := by
  unfold finish at h
  split at h
  · split at h
    · simp at h
    · split at h
      · split at h
        · simp at h
        · simp at h
        · exact h
      · exact h
  · split at h <;> simp at h

theorem search_throw (p : Par K) (e : Env I D K) (fuel : Nat) (q : Prep I D K) (zero : K) (s' : State I D K) (x : Exc)
    (h : search p e fuel q zero = .throw s' x) : ∃ s5, s5.accIterate = q.s.accIterate ∧ goResto e s5 = .throw s' x := by
  unfold search at h
  split at h
  · split at h
    · simp only at h
      split at h
      · exact ⟨_, by rfl, finish_throw _ _ _ _ _ _ _ _ _ _ _ _ h⟩
      · split at h
        · exact ⟨_, by rfl, finish_throw _ _ _ _ _ _ _ _ _ _ _ _ h⟩
        · exact ⟨_, by rfl, finish_throw _ _ _ _ _ _ _ _ _ _ _ _ h⟩
    · split at h
      · simp at h
      · rename_i s5 r hwl
        refine ⟨s5, ?_, finish_throw _ _ _ _ _ _ _ _ _ _ _ _ h⟩
        rcases wdLoop_cases p e fuel q.s s5 q.d r hwl with hc | hc | hc | hc
        · rw [hc.2.1]
        · rw [hc.2.2.1]
        · rw [hc.2.1]
        · rw [hc.2.1]; rfl
  · exact ⟨_, by rfl, finish_throw _ _ _ _ _ _ _ _ _ _ _ _ h⟩

/-- What an exception thrown by a call says. -/
theorem throw_spec (p : Par K) (e : Env I D K) (fuel : Nat) (zero : K) (s s' : State I D K) (x : Exc)
    (h : findTrial p e fuel zero s = .throw s' x) :
    (x = .acceptablePointReached → e.currAcceptable s'.curr = true ∨ (begin e s).accIterate = some s'.curr)
    ∧ (x = .stepComputationFailed ∨ x = .restorationFailed → (begin e s).accIterate = none ∨ (s.fallback = true ∧ e.hasResto = false ∧ e.doFallback = false))
    ∧ (x = .noRestoration → e.hasResto = false) := by
  have hfb : (begin e s).fallback = s.fallback := by
    unfold begin
    by_cases h1 : s.lastMu = some e.mu <;> by_cases h2 : e.currAcceptable s.curr = true <;> simp [h1, h2]
  have main : ∀ s1 : State I D K, s1.accIterate = (begin e s).accIterate → ∀ g0, middle p e fuel s1 g0 zero = .throw s' x →
      (x = .acceptablePointReached → e.currAcceptable s'.curr = true ∨ (begin e s).accIterate = some s'.curr)
      ∧ (x = .stepComputationFailed ∨ x = .restorationFailed → (begin e s).accIterate = none)
      ∧ (x = .noRestoration → e.hasResto = false) := by
    intro s1 hs1 g0 hm
    unfold middle at hm
    obtain ⟨s5, h5, hg⟩ := search_throw p e fuel _ zero s' x hm
    rw [(prep_spec p e s1 g0).acc, hs1] at h5
    rw [← h5]
    unfold goResto at hg
    simp only at hg
    split at hg
    · rename_i ha
      simp only [Out.throw.injEq] at hg
      obtain ⟨rfl, rfl⟩ := hg
      exact ⟨fun _ => Or.inl ha, by simp, by simp⟩
    · split at hg
      · rename_i hno
        simp only [Out.throw.injEq] at hg
        obtain ⟨rfl, rfl⟩ := hg
        exact ⟨by simp, by simp, fun _ => hno⟩
      · split at hg
        · split at hg
          · rename_i hsome
            simp only [Out.throw.injEq] at hg
            obtain ⟨rfl, rfl⟩ := hg
            obtain ⟨y, hy⟩ := Option.isSome_iff_exists.mp hsome
            refine ⟨fun _ => Or.inr ?_, by simp, by simp⟩
            simp [hy]
          · rename_i hnone
            simp only [Out.throw.injEq] at hg
            obtain ⟨rfl, rfl⟩ := hg
            exact ⟨by simp, fun _ => by simpa using hnone, by simp⟩
        · split at hg
          · split at hg
            · rename_i hsome
              simp only [Out.throw.injEq] at hg
              obtain ⟨rfl, rfl⟩ := hg
              obtain ⟨y, hy⟩ := Option.isSome_iff_exists.mp hsome
              refine ⟨fun _ => Or.inr ?_, by simp, by simp⟩
              simp [hy]
            · rename_i hnone
              simp only [Out.throw.injEq] at hg
              obtain ⟨rfl, rfl⟩ := hg
              exact ⟨by simp, fun _ => by simpa using hnone, by simp⟩
          · simp at hg
  unfold findTrial at h
  simp only at h
  split at h
  · rename_i hf
    split at h
    · obtain ⟨h1, h2, h3⟩ := main _ (by rfl) _ h
      exact ⟨h1, fun hx => Or.inl (h2 hx), h3⟩
    · rename_i hres
      split at h
      · simp at h
      · rename_i hdf
        simp only [Out.throw.injEq] at h
        obtain ⟨rfl, rfl⟩ := h
        exact ⟨by simp, fun _ => Or.inr ⟨by rw [← hfb]; exact hf, by simpa using hres, by simpa using hdf⟩, by simp⟩
  · obtain ⟨h1, h2, h3⟩ := main _ rfl _ h
    exact ⟨h1, fun hx => Or.inl (h2 hx), h3⟩

/-- **C51** If the line search of a reachable state gives up with "acceptable point reached", the iterate it leaves as the current one satisfies the
acceptable tolerances now, or it is the last iterate at which a call (this one included) found the acceptable level. -/
theorem acceptable_point (p : Par K) (hr : p.rigorous = true) (it : I) (d : D) (a b : Bool) (evs : List (Ev I D K)) (s s' : State I D K)
    (hrun : run p (init it d a b) evs = some s) (e : Env I D K) (fuel : Nat) (zero : K)
    (h : findTrial p e fuel zero s = .throw s' .acceptablePointReached) :
    e.currAcceptable s'.curr = true
    ∨ Spec.lastAcceptable p (init it d a b) none (evs ++ [.call e fuel zero]) = some s'.curr := by
  have hacc := run_acc p hr evs _ _ (init_inv p it d a b) hrun
  rcases (throw_spec p e fuel zero s s' _ h).1 rfl with h1 | h1
  · exact Or.inl h1
  · right
    rw [(begin_spec e s).2.2.2.2.2.2.1] at h1
    have app : ∀ (evs : List (Ev I D K)) (s0 : State I D K) (acc : Option I), run p s0 evs = some s →
        Spec.lastAcceptable p s0 acc (evs ++ [.call e fuel zero])
          = (if e.currAcceptable s.curr = true then some s.curr else Spec.lastAcceptable p s0 acc evs) := by
      intro evs
      induction evs with
      | nil =>
        intro s0 acc h0
        simp only [run, Option.some.injEq] at h0
        subst h0
        simp only [List.nil_append, Spec.lastAcceptable]
        have : step p s0 (.call e fuel zero) = none := by simp only [step, h]
        rw [this]
      | cons ev evs ih =>
        intro s0 acc h0
        simp only [run] at h0
        cases hs : step p s0 ev with
        | none => rw [hs] at h0; simp at h0
        | some s1 =>
          rw [hs] at h0
          simp only [List.cons_append, Spec.lastAcceptable, hs]
          exact ih s1 _ h0
    rw [app evs _ none hrun]
    have : (init it d a b : State I D K).accIterate = none := rfl
    rw [this] at hacc
    rw [← hacc]
    exact h1

/-- **C51** The line search reports a failed step computation or a failed restoration only if no iterate with the acceptable level was ever found
(except in the emergency mode without restoration phase). -/
theorem failure_means_never_acceptable (p : Par K) (hr : p.rigorous = true) (it : I) (d : D) (a b : Bool) (evs : List (Ev I D K)) (s s' : State I D K)
    (hrun : run p (init it d a b) evs = some s) (e : Env I D K) (fuel : Nat) (zero : K) (x : Exc)
    (h : findTrial p e fuel zero s = .throw s' x) (hx : x = .stepComputationFailed ∨ x = .restorationFailed) (hf : s.fallback = false ∨ e.hasResto = true) :
    Spec.lastAcceptable p (init it d a b) none evs = none ∧ e.currAcceptable s.curr = false := by
  have hacc := run_acc p hr evs _ _ (init_inv p it d a b) hrun
  have h1 : (begin e s).accIterate = none := by
    rcases (throw_spec p e fuel zero s s' x h).2.1 hx with h1 | h1
    · exact h1
    · rcases hf with hf | hf
      · rw [hf] at h1; simp at h1
      · rw [hf] at h1; simp at h1
  rw [(begin_spec e s).2.2.2.2.2.2.1] at h1
  by_cases hc : e.currAcceptable s.curr = true
  · rw [if_pos hc] at h1; simp at h1
  · rw [if_neg hc] at h1
    rw [hacc] at h1
    exact ⟨h1, by simpa using hc⟩

/-! ## Concrete runs

Iterates are numbers, the acceptor rejects steps at iterate 0 unless they are at most 1/4. -/

def exPar : Par ℚ := ⟨fun x => x / 2, false, none, 2, 3, 2, true⟩

def exEnv : Env Nat Nat ℚ :=
  { mu := 1, currAcceptable := fun i => decide (i = 7), hasResto := true, doFallback := false, yLarge := false, tiny := false, tinyEvalOk := true,
    dySmall := false, alphaTiny := 1, alphaTest0 := 1, alphaMax := fun _ _ => 1, alphaMin := fun _ _ => 1 / 16, corrector := fun _ _ => none,
    check := fun i _ a => if i < 3 ∧ a ≤ 1 / 4 then .accept else .reject, thetaWorse := fun _ _ _ => true, soc := fun _ _ _ => none,
    soft := fun i _ => if i = 9 then some false else none,
    almostFeasible := fun i => decide (i = 8), restoOk := true, ctolOk := false, restoredIterate := false }

def exCall : Ev Nat Nat ℚ := .call exEnv 10 0

/-- two shortened steps, then the watchdog is started and goes through two more iterates -/
def exWd : Option (State Nat Nat ℚ) :=
  run exPar (init 0 0 false false) [exCall, .next 1 1, exCall, .next 2 2, exCall]

example : exWd.map (fun s => (s.inWd, s.wdIterate, s.wdDelta, s.wdTrialIter)) = some (true, some 2, some 2, 1) := by decide +kernel

/-- the watchdog gives up at its fourth trial, and the search from the reference point with the reference direction gives step 1/4 -/
example : (exWd.bind (fun s => run exPar s [.next 3 3, exCall, .next 4 4, exCall])).map (fun s => (s.inWd, s.wdIterate, s.curr)) =
    some (true, some 2, 4) := by decide +kernel

/-- iterate and kind of step after a call -/
def Out.view : Out I D K → Option (I × Option (K × D))
  | .ok s (.step a d) => some (s.curr, some (a, d))
  | .ok s _ => some (s.curr, none)
  | .throw s _ => some (s.curr, none)
  | .hang => none

example : (exWd.bind (fun s => run exPar s [.next 3 3, exCall, .next 4 4, exCall, .next 5 5])).map (fun s => (findTrial exPar exEnv 10 0 s).view) =
    some (some (2, some (1 / 4, 2))) := by decide +kernel

/-- soft restoration steps: the phase is entered and stays for two more calls -/
example : (run exPar (init 9 0 false false) [exCall, exCall, exCall]).map (fun s => (s.inSoft, s.softCounter)) = some (true, 2) := by decide +kernel

/-- then the restoration phase is called -/
example : (run exPar (init 9 0 false false) [exCall, exCall, exCall, exCall]).map (fun s => (s.inSoft, s.softCounter)) = some (false, 0) := by
  decide +kernel

def Out.exc : Out I D K → Option (Exc × I)
  | .throw s x => some (x, s.curr)
  | _ => none

/-- an acceptable iterate 7 is stored and restored at the almost feasible iterate 8 -/
example : (run exPar (init 0 0 false false) [exCall, .next 7 0, .call { exEnv with check := fun _ _ _ => .accept } 10 0, .next 8 0]).map
    (fun s => (findTrial exPar exEnv 10 0 s).exc) = some (some (.acceptablePointReached, 7)) := by decide +kernel

example : (run exPar (init 8 0 false false) []).map (fun s => (findTrial exPar exEnv 10 0 s).exc) = some (some (.stepComputationFailed, 8)) := by
  decide +kernel

end Verif.LineSearch
