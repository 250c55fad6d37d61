import Verif.Model.Perturb
import Mathlib.Tactic.Linarith
import Mathlib.Tactic.Positivity
import Mathlib.Algebra.Order.Archimedean.Basic
import Mathlib.Algebra.Order.Ring.Rat

/-!
# C16, C17: perturbations of the linear system

`Cfg.Sane` is what the option registry enforces (`IpPDPerturbationHandler.cpp:23-102`).
-/

set_option linter.unusedSectionVars false
set_option linter.unusedSimpArgs false

namespace Verif.Perturb

variable {K : Type} [Field K] [LinearOrder K] [IsStrictOrderedRing K]

/-- Registered ranges of the options. -/
structure Cfg.Sane (cfg : Cfg K) : Prop where
  max : 0 < cfg.max
  min : 0 ≤ cfg.min
  firstInc : 1 < cfg.firstInc
  inc : 1 < cfg.inc
  dec0 : 0 < cfg.dec
  dec1 : cfg.dec < 1
  init : 0 < cfg.init

/-- The default values. -/
def defaultCfg : Cfg ℚ := ⟨100000000000000000000, 1/100000000000000000000, 100, 8, 1/3, 1/10000, false, false, 3⟩

theorem defaultCfg_sane : defaultCfg.Sane := by
  constructor <;> norm_num [defaultCfg]

/-! ## C16 -/

/-- Calls of the handler; `dcd` is the constraint regularisation for the new system. -/
inductive Call (K : Type) where
  | consider (dcd : K)
  | singular
  | wrongInertia

/-- Handler, caller's variables, regularisation of the current system, and whether all calls for the current system have
succeeded so far. -/
structure H (K : Type) where
  st : St K
  v : Vars K
  dcd : K
  ok : Bool

/-- One call. -/
def H.call (cfg : Cfg K) (h : H K) : Call K → H K
  | .consider dcd =>
    let r := considerNewSystem cfg dcd h.st h.v
    ⟨r.2.1, r.2.2, dcd, r.1⟩
  | .singular =>
    let r := perturbForSingularity cfg h.dcd h.st h.v
    ⟨r.2.1, r.2.2, h.dcd, h.ok && r.1⟩
  | .wrongInertia =>
    let r := perturbForWrongInertia cfg h.dcd h.st h.v
    ⟨r.2.1, r.2.2, h.dcd, h.ok && r.1⟩

/-- All calls since `InitializeImpl`. -/
def H.run (cfg : Cfg K) (cs : List (Call K)) : H K :=
  cs.foldl (H.call cfg) ⟨initSt cfg, ⟨none, none, none, none⟩, 0, false⟩

/-- A consistent perturbation. -/
def GoodVars (cfg : Cfg K) (dcd : K) (v : Vars K) : Prop :=
  ∃ x c : K, v.x = some x ∧ v.s = some x ∧ v.c = some c ∧ v.d = some c ∧ 0 ≤ x ∧ x ≤ cfg.max ∧ (c = 0 ∨ c = dcd)

/-- Holds always. -/
structure Weak (st : St K) : Prop where
  x : 0 ≤ st.x
  last : 0 ≤ st.xLast

/-- Holds as long as all calls have succeeded. -/
structure Ok (cfg : Cfg K) (dcd : K) (st : St K) (v : Vars K) : Prop where
  xs : st.x = st.s
  cd : st.c = st.d
  max : st.x ≤ cfg.max
  c : st.c = 0 ∨ st.c = dcd
  v : v = current st

theorem finalizeTest_same (cfg : Cfg K) (st : St K) :
    (finalizeTest cfg st).x = st.x ∧ (finalizeTest cfg st).xLast = st.xLast ∧ (finalizeTest cfg st).s = st.s ∧
    (finalizeTest cfg st).c = st.c ∧ (finalizeTest cfg st).d = st.d ∧ (finalizeTest cfg st).test = st.test := by
  unfold finalizeTest
  split
  · simp
  · split
    · simp
    · split
      · simp
      · split <;> simp
  · dsimp only
    split <;> split <;> (try split) <;> simp
  · dsimp only
    split <;> split <;> (try split) <;> simp
  · dsimp only
    split <;> simp

theorem nextX_nonneg {cfg : Cfg K} (hs : cfg.Sane) {st : St K} (h : Weak st) : 0 < nextX cfg st ∨ (st.x = 0 ∧ 0 < nextX cfg st) := by
  left
  unfold nextX
  have hx := h.x
  have hl := h.last
  split
  · split
    · exact hs.init
    · rename_i h1
      have : 0 < st.xLast := lt_of_le_of_ne hl (Ne.symm h1)
      exact lt_max_of_lt_right (mul_pos this hs.dec0)
  · rename_i h1
    have : 0 < st.x := lt_of_le_of_ne hx (Ne.symm h1)
    split
    · exact mul_pos (by linarith [hs.firstInc]) this
    · exact mul_pos (by linarith [hs.inc]) this

theorem nextX_pos {cfg : Cfg K} (hs : cfg.Sane) {st : St K} (h : Weak st) : 0 < nextX cfg st := by
  rcases nextX_nonneg hs h with h | h
  · exact h
  · exact h.2

theorem getDeltas_weak {cfg : Cfg K} (hs : cfg.Sane) {st : St K} (v : Vars K) (h : Weak st) : Weak (getDeltas cfg st v).2.1 := by
  have := nextX_pos hs h
  unfold getDeltas
  simp only
  split
  · exact ⟨le_of_lt this, le_refl _⟩
  · exact ⟨le_of_lt this, h.last⟩

theorem getDeltas_ok {cfg : Cfg K} {dcd : K} {st : St K} {v : Vars K} (hcd : st.c = st.d) (hc : st.c = 0 ∨ st.c = dcd)
    (hr : (getDeltas cfg st v).1 = true) : Ok cfg dcd (getDeltas cfg st v).2.1 (getDeltas cfg st v).2.2 := by
  unfold getDeltas at hr ⊢
  simp only at hr ⊢
  split at hr
  · simp at hr
  · rename_i h
    rw [if_neg h]
    exact ⟨rfl, hcd, not_lt.mp h, hc, rfl⟩

theorem consider_inv {cfg : Cfg K} (hs : cfg.Sane) {st : St K} (v : Vars K) (dcd : K) (h : Weak st) :
    Weak (considerNewSystem cfg dcd st v).2.1 ∧
    ((considerNewSystem cfg dcd st v).1 = true →
      Ok cfg dcd (considerNewSystem cfg dcd st v).2.1 (considerNewSystem cfg dcd st v).2.2) := by
  obtain ⟨f1, f2, _⟩ := finalizeTest_same cfg st
  have hw : 0 ≤ (storeLast cfg (finalizeTest cfg st)).xLast := by
    unfold storeLast
    have := h.x
    have := h.last
    split
    · simpa [f1]
    · split
      · simpa [f1]
      · simpa [f2]
  unfold considerNewSystem
  simp only
  split
  · refine ⟨getDeltas_weak hs _ ⟨le_refl _, hw⟩, fun hr => getDeltas_ok ?_ ?_ hr⟩
    · rfl
    · simp only; split
      · right; rfl
      · split
        · right; rfl
        · left; rfl
  · refine ⟨⟨le_refl _, hw⟩, fun _ => ⟨rfl, rfl, le_of_lt hs.max, ?_, rfl⟩⟩
    simp only; split
    · right; rfl
    · split
      · right; rfl
      · left; rfl

/-- Setting the test status after a successful call. -/
theorem Ok.setTest {cfg : Cfg K} {dcd : K} {st : St K} {v : Vars K} (h : Ok cfg dcd st v) (t : Test) :
    Ok cfg dcd { st with test := t } (current { st with test := t }) :=
  ⟨h.xs, h.cd, h.max, h.c, rfl⟩

theorem weak_setTest {st : St K} (h : Weak st) (t : Test) : Weak { st with test := t } := ⟨h.x, h.last⟩

theorem singular_inv {cfg : Cfg K} (hs : cfg.Sane) {st : St K} (v : Vars K) (dcd : K) (h : Weak st) :
    Weak (perturbForSingularity cfg dcd st v).2.1 ∧
    (Ok cfg dcd st v → (perturbForSingularity cfg dcd st v).1 = true →
      Ok cfg dcd (perturbForSingularity cfg dcd st v).2.1 (perturbForSingularity cfg dcd st v).2.2) := by
  have aux : ∀ (st' : St K) (t : Test), Weak st' → 
      Weak (if (!(getDeltas cfg st' v).1) = true then getDeltas cfg st' v else
        (true, { (getDeltas cfg st' v).2.1 with test := t }, current { (getDeltas cfg st' v).2.1 with test := t })).2.1 ∧
      (st'.c = st'.d → (st'.c = 0 ∨ st'.c = dcd) →
       (if (!(getDeltas cfg st' v).1) = true then getDeltas cfg st' v else
        (true, { (getDeltas cfg st' v).2.1 with test := t }, current { (getDeltas cfg st' v).2.1 with test := t })).1 = true →
       Ok cfg dcd (if (!(getDeltas cfg st' v).1) = true then getDeltas cfg st' v else
        (true, { (getDeltas cfg st' v).2.1 with test := t }, current { (getDeltas cfg st' v).2.1 with test := t })).2.1
       (if (!(getDeltas cfg st' v).1) = true then getDeltas cfg st' v else
        (true, { (getDeltas cfg st' v).2.1 with test := t }, current { (getDeltas cfg st' v).2.1 with test := t })).2.2) := by
    intro st' t hw
    cases hr : (getDeltas cfg st' v).1
    · simp only [Bool.not_false, if_true]
      exact ⟨getDeltas_weak hs v hw, fun _ _ hh => by rw [hr] at hh; simp at hh⟩
    · simp only [Bool.not_true, Bool.false_eq_true, if_false]
      exact ⟨weak_setTest (getDeltas_weak hs v hw) t, fun h1 h2 _ => (getDeltas_ok h1 h2 hr).setTest t⟩
  have aux0 : ∀ (st' : St K), Weak st' → 
      Weak (if (!(getDeltas cfg st' v).1) = true then getDeltas cfg st' v else
        (true, (getDeltas cfg st' v).2.1, current (getDeltas cfg st' v).2.1)).2.1 ∧
      (st'.c = st'.d → (st'.c = 0 ∨ st'.c = dcd) →
       (if (!(getDeltas cfg st' v).1) = true then getDeltas cfg st' v else
        (true, (getDeltas cfg st' v).2.1, current (getDeltas cfg st' v).2.1)).1 = true →
       Ok cfg dcd (if (!(getDeltas cfg st' v).1) = true then getDeltas cfg st' v else
        (true, (getDeltas cfg st' v).2.1, current (getDeltas cfg st' v).2.1)).2.1
       (if (!(getDeltas cfg st' v).1) = true then getDeltas cfg st' v else
        (true, (getDeltas cfg st' v).2.1, current (getDeltas cfg st' v).2.1)).2.2) := by
    intro st' hw
    cases hr : (getDeltas cfg st' v).1
    · simp only [Bool.not_false, if_true]
      exact ⟨getDeltas_weak hs v hw, fun _ _ hh => by rw [hr] at hh; simp at hh⟩
    · simp only [Bool.not_true, Bool.false_eq_true, if_false]
      refine ⟨getDeltas_weak hs v hw, fun h1 h2 _ => ?_⟩
      have := getDeltas_ok h1 h2 hr
      exact ⟨this.xs, this.cd, this.max, this.c, rfl⟩
  unfold perturbForSingularity
  simp only
  split
  · split
    · split
      · exact ⟨⟨h.x, h.last⟩, fun o _ => ⟨o.xs, rfl, o.max, Or.inr rfl, rfl⟩⟩
      · exact ⟨(aux st .c0xP h).1, fun o => (aux st .c0xP h).2 o.cd o.c⟩
    · split
      · have := aux { st with c := 0, d := 0 } .c0xP ⟨h.x, h.last⟩
        exact ⟨this.1, fun o => this.2 rfl (Or.inl rfl)⟩
      · exact ⟨(aux st .cPxP h).1, fun o => (aux st .cPxP h).2 o.cd o.c⟩
    · have := aux { st with c := dcd, d := dcd } .cPxP ⟨h.x, h.last⟩
      exact ⟨this.1, fun o => this.2 rfl (Or.inr rfl)⟩
    · exact ⟨(aux0 st h).1, fun o => (aux0 st h).2 o.cd o.c⟩
    · exact ⟨h, fun o _ => ⟨o.xs, o.cd, o.max, o.c, rfl⟩⟩
  · split
    · exact ⟨(aux0 st h).1, fun o => (aux0 st h).2 o.cd o.c⟩
    · exact ⟨⟨h.x, h.last⟩, fun o _ => ⟨o.xs, rfl, o.max, Or.inr rfl, rfl⟩⟩

theorem wrongInertia_inv {cfg : Cfg K} (hs : cfg.Sane) {st : St K} (v : Vars K) (dcd : K) (h : Weak st) :
    Weak (perturbForWrongInertia cfg dcd st v).2.1 ∧
    (Ok cfg dcd st v → (perturbForWrongInertia cfg dcd st v).1 = true →
      Ok cfg dcd (perturbForWrongInertia cfg dcd st v).2.1 (perturbForWrongInertia cfg dcd st v).2.2) := by
  obtain ⟨f1, f2, f3, f4, f5, f6⟩ := finalizeTest_same cfg st
  have hw : Weak (finalizeTest cfg st) := ⟨by rw [f1]; exact h.x, by rw [f2]; exact h.last⟩
  have hg := getDeltas_weak hs v hw
  unfold perturbForWrongInertia
  simp only
  split
  · exact ⟨getDeltas_weak hs _ ⟨le_refl _, hg.last⟩, fun _ hr => getDeltas_ok rfl (Or.inr rfl) hr⟩
  · exact ⟨hg, fun o hr => getDeltas_ok (by rw [f4, f5]; exact o.cd) (by rw [f4]; exact o.c) hr⟩

theorem run_inv {cfg : Cfg K} (hs : cfg.Sane) (cs : List (Call K)) :
    Weak (H.run cfg cs).st ∧ ((H.run cfg cs).ok = true → Ok cfg (H.run cfg cs).dcd (H.run cfg cs).st (H.run cfg cs).v) := by
  have : ∀ (cs : List (Call K)) (h : H K), Weak h.st → (h.ok = true → Ok cfg h.dcd h.st h.v) →
      Weak (cs.foldl (H.call cfg) h).st ∧ ((cs.foldl (H.call cfg) h).ok = true →
        Ok cfg (cs.foldl (H.call cfg) h).dcd (cs.foldl (H.call cfg) h).st (cs.foldl (H.call cfg) h).v) := by
    intro cs
    induction cs with
    | nil => intro h h1 h2; exact ⟨h1, h2⟩
    | cons c cs ih =>
      intro h h1 h2
      rw [List.foldl_cons]
      apply ih
      · cases c with
        | consider dcd => exact (consider_inv hs h.v dcd h1).1
        | singular => exact (singular_inv hs h.v h.dcd h1).1
        | wrongInertia => exact (wrongInertia_inv hs h.v h.dcd h1).1
      · cases c with
        | consider dcd => exact (consider_inv hs h.v dcd h1).2
        | singular =>
          intro hh
          simp only [H.call, Bool.and_eq_true] at hh
          exact (singular_inv hs h.v h.dcd h1).2 (h2 hh.1) hh.2
        | wrongInertia =>
          intro hh
          simp only [H.call, Bool.and_eq_true] at hh
          exact (wrongInertia_inv hs h.v h.dcd h1).2 (h2 hh.1) hh.2
  exact this cs _ ⟨le_refl _, le_refl _⟩ (by simp)

/-- **C16.** After any history of calls, if all calls for the current system have succeeded, the caller's variables hold a
consistent perturbation: `delta_x = delta_s` between 0 and `max_hessian_perturbation`, and `delta_c = delta_d` equal to 0 or to the
regularisation of the current system; `CurrentPerturbation` returns the same values. -/
theorem perturbation_consistent {cfg : Cfg K} (hs : cfg.Sane) (cs : List (Call K)) (hok : (H.run cfg cs).ok = true) :
    GoodVars cfg (H.run cfg cs).dcd (H.run cfg cs).v ∧ current (H.run cfg cs).st = (H.run cfg cs).v := by
  obtain ⟨h1, h2⟩ := run_inv hs cs
  have h := h2 hok
  refine ⟨⟨(H.run cfg cs).st.x, (H.run cfg cs).st.c, ?_, ?_, ?_, ?_, h1.x, h.max, h.c⟩, h.v.symm⟩
  · rw [h.v]; rfl
  · rw [h.v, h.xs]; rfl
  · rw [h.v]; rfl
  · rw [h.v, h.cd]; rfl

/-- Several successful calls, the last one with a positive Hessian and constraint perturbation. -/
example : (H.run defaultCfg [.consider (1/1000), .singular, .singular, .wrongInertia, .singular]).ok = true ∧
    (H.run defaultCfg [.consider (1/1000), .singular, .singular, .wrongInertia, .singular]).v
      = ⟨some 1, some 1, some (1/1000), some (1/1000)⟩ := by decide +kernel

/-- Every `consider` for a system whose Hessian is not considered degenerate succeeds. -/
theorem consider_succeeds (cfg : Cfg K) (dcd : K) (st : St K) (v : Vars K) (h : (finalizeTest cfg st).hess ≠ .yes) :
    (considerNewSystem cfg dcd st v).1 = true := by
  have hh : ∀ s : St K, (storeLast cfg s).hess = s.hess := by
    intro s; unfold storeLast; split
    · rfl
    · split <;> rfl
  unfold considerNewSystem
  simp only [hh]
  rw [if_neg h]

/-- Three systems whose matrix is singular for all combinations tried first: Hessian and Jacobian are then considered degenerate. -/
def degenerateHistory : List (Call ℚ) :=
  let sys : List (Call ℚ) := [.consider (1/1000), .singular, .singular, .singular]
  sys ++ sys ++ sys ++ [.consider (1/1000)]

/-- **Finding (C16).** With the default options: after a failed call the handler's current perturbation - with which
`SolveOnce` solves again for other right hand sides of the same system - violates the bound and `delta_x ≠ delta_s`; and the next
`ConsiderNewSystem` fails without assigning `delta_x`, `delta_s`, which `SolveOnce` does not notice, so that the system is solved
with indeterminate values. -/
theorem failed_call_leaves_bad_perturbation :
    let h := H.run defaultCfg (degenerateHistory ++ List.replicate 15 .wrongInertia)
    (H.run defaultCfg (degenerateHistory ++ List.replicate 14 .wrongInertia)).ok = true ∧ h.ok = false ∧ defaultCfg.max < h.st.x ∧ h.st.x ≠ h.st.s ∧
    (considerNewSystem defaultCfg (1/1000) h.st ⟨none, none, none, none⟩).1 = false ∧
    (solveNew defaultCfg (1/1000) true false false false h.st [⟨.success, false, false, false⟩]).1 = .success ∧
    (solveNew defaultCfg (1/1000) true false false false h.st [⟨.success, false, false, false⟩]).2.used.map (·.x) = [none] := by
  decide +kernel

/-! ## C17 -/

/-- The state in which `PerturbForSingularity` runs into `DBG_ASSERT(false && "we should not get here.")` (`:322-323`). -/
def Stuck (st : St K) : Prop := (st.hess = .notYet ∨ st.jac = .notYet) ∧ st.test = .noTest

/-- Smallest factor by which a Hessian perturbation is increased. -/
def growth (cfg : Cfg K) : K := Min.min cfg.firstInc cfg.inc

/-- `d0` is a lower bound for all positive Hessian perturbations of this system. -/
structure Lb (cfg : Cfg K) (d0 : K) (st : St K) : Prop where
  init : d0 ≤ cfg.init
  last : st.xLast ≠ 0 → d0 ≤ st.xLast * cfg.dec
  x : st.x ≠ 0 → d0 ≤ st.x

/-- The Hessian perturbation has been increased (at least) `k - 1` times after its first value. -/
def Stage (cfg : Cfg K) (d0 : K) (st : St K) : Nat → Prop
  | 0 => True
  | k + 1 => d0 * growth cfg ^ k ≤ st.x

/-- Rank of the degeneracy test. -/
def rank : Test → Nat
  | .c0x0 => 0
  | .cPx0 => 1
  | .c0xP => 2
  | .cPxP => 3
  | .noTest => 4

/-- Phase of the treatment of one system. -/
def phase (st : St K) : Nat := 2 * rank st.test + (if 0 < st.c then 1 else 0)

theorem phase_le (st : St K) : phase st ≤ 9 := by
  unfold phase
  have : rank st.test ≤ 4 := by cases st.test <;> simp [rank]
  split <;> omega

theorem getDeltas_progress {cfg : Cfg K} (hs : cfg.Sane) {d0 : K} (hd : 0 < d0) {st : St K} {v : Vars K} (hw : Weak st)
    (hl : Lb cfg d0 st) (N : Nat) (hN : cfg.max < d0 * growth cfg ^ N) (k : Nat) (hk : Stage cfg d0 st k)
    (hr : (getDeltas cfg st v).1 = true) :
    k < N + 1 ∧ Stage cfg d0 (getDeltas cfg st v).2.1 (k + 1) ∧ Lb cfg d0 (getDeltas cfg st v).2.1 ∧
    (getDeltas cfg st v).2.1.test = st.test ∧ (getDeltas cfg st v).2.1.c = st.c ∧ (getDeltas cfg st v).2.1.d = st.d ∧
    (getDeltas cfg st v).2.2.c = some st.c := by
  have hg1 : 1 < growth cfg := lt_min hs.firstInc hs.inc
  have hg0 : 0 < growth cfg := by linarith
  have hnx : ∀ j, Stage cfg d0 st j → d0 * growth cfg ^ j ≤ nextX cfg st := by
    intro j hj
    unfold nextX
    split
    · rename_i hx
      have hj0 : j = 0 := by
        cases j with
        | zero => rfl
        | succ j =>
          exfalso
          simp only [Stage] at hj
          have : 0 < d0 * growth cfg ^ j := by positivity
          rw [hx] at hj; linarith
      subst hj0
      simp only [pow_zero, mul_one]
      split
      · exact hl.init
      · rename_i h1; exact le_max_of_le_right (hl.last h1)
    · rename_i hx
      have hxp : 0 < st.x := lt_of_le_of_ne hw.x (Ne.symm hx)
      have key : d0 * growth cfg ^ j ≤ growth cfg * st.x := by
        cases j with
        | zero =>
          simp only [pow_zero, mul_one]
          have := hl.x hx
          nlinarith
        | succ j =>
          simp only [Stage] at hj
          rw [pow_succ]
          nlinarith
      split
      · refine le_trans key ?_
        exact mul_le_mul_of_nonneg_right (min_le_left _ _) (le_of_lt hxp)
      · refine le_trans key ?_
        exact mul_le_mul_of_nonneg_right (min_le_right _ _) (le_of_lt hxp)
  unfold getDeltas at hr ⊢
  simp only at hr ⊢
  split at hr
  · simp at hr
  · rename_i h
    rw [if_neg h]
    have hle : nextX cfg st ≤ cfg.max := not_lt.mp h
    have h1 := hnx k hk
    have h0 := hnx 0 trivial
    simp only [pow_zero, mul_one] at h0
    refine ⟨?_, h1, ⟨hl.init, hl.last, fun _ => h0⟩, rfl, rfl, rfl, rfl⟩
    by_contra hc
    have hNk : N ≤ k := by omega
    have : growth cfg ^ N ≤ growth cfg ^ k := pow_le_pow_right₀ (le_of_lt hg1) hNk
    have : d0 * growth cfg ^ N ≤ d0 * growth cfg ^ k := mul_le_mul_of_nonneg_left this (le_of_lt hd)
    linarith

/-- What every call of the handler inside the loop preserves. -/
structure Prog (cfg : Cfg K) (d0 dcd : K) (st : St K) (v : Vars K) (k : Nat) : Prop where
  weak : Weak st
  lb : Lb cfg d0 st
  vc : v.c = some st.c
  c : st.c = 0 ∨ st.c = dcd
  stage : Stage cfg d0 st k

/-- Potential: decreases with every successful call. -/
def pot (N : Nat) (st : St K) (k : Nat) : Nat := (9 - phase st) * (N + 2) + (N + 1 - k)

theorem pot_phase {N : Nat} {st st' : St K} {k : Nat} (h : phase st < phase st') : pot N st' 0 + 1 ≤ pot N st k + 0 ∨ pot N st' 0 < pot N st k := by
  left
  have h2 := phase_le st'
  unfold pot
  obtain ⟨e, he⟩ : ∃ e, 9 - phase st = (9 - phase st') + 1 + e := ⟨9 - phase st - (9 - phase st') - 1, by omega⟩
  rw [he]
  have : (9 - phase st' + 1 + e) * (N + 2) = (9 - phase st') * (N + 2) + (N + 2) + e * (N + 2) := by ring
  rw [this]
  have : 0 ≤ e * (N + 2) := Nat.zero_le _
  omega

theorem pot_lt_of_phase {N : Nat} {st st' : St K} {k : Nat} (h : phase st < phase st') : pot N st' 0 < pot N st k := by
  rcases pot_phase (N := N) (k := k) h with h | h <;> omega

theorem pot_lt_of_stage {N : Nat} {st st' : St K} {k : Nat} (h : phase st' = phase st) (hk : k < N + 1) :
    pot N st' (k + 1) < pot N st k := by
  unfold pot; rw [h]; omega

theorem singular_progress {cfg : Cfg K} (hs : cfg.Sane) {d0 dcd : K} (hd : 0 < d0) (hdc : 0 < dcd) (N : Nat)
    (hN : cfg.max < d0 * growth cfg ^ N) {st : St K} {v : Vars K} {k : Nat} (h : Prog cfg d0 dcd st v k) (hns : ¬ Stuck st)
    (hr : (perturbForSingularity cfg dcd st v).1 = true) :
    ∃ k', Prog cfg d0 dcd (perturbForSingularity cfg dcd st v).2.1 (perturbForSingularity cfg dcd st v).2.2 k' ∧
      pot N (perturbForSingularity cfg dcd st v).2.1 k' < pot N st k := by
  have hwk := (singular_inv hs v dcd h.weak).1
  -- calls of getDeltas that also advance the test status
  have adv : ∀ (st' : St K) (t : Test) (c' : K), st'.x = st.x → st'.xLast = st.xLast → st'.c = c' → st'.test = st.test →
      (c' = 0 ∨ c' = dcd) → rank st.test < rank t →
      (perturbForSingularity cfg dcd st v = if (!(getDeltas cfg st' v).1) = true then getDeltas cfg st' v else
        (true, { (getDeltas cfg st' v).2.1 with test := t }, current { (getDeltas cfg st' v).2.1 with test := t })) →
      ∃ k', Prog cfg d0 dcd (perturbForSingularity cfg dcd st v).2.1 (perturbForSingularity cfg dcd st v).2.2 k' ∧
        pot N (perturbForSingularity cfg dcd st v).2.1 k' < pot N st k := by
    intro st' t c' e1 e2 e3 e4 hc' hrk he
    rw [he] at hr hwk ⊢
    cases hg : (getDeltas cfg st' v).1
    · rw [hg] at hr; simp [hg] at hr
    · simp only [hg, Bool.not_true, Bool.false_eq_true, if_false] at hwk ⊢
      have hl' : Lb cfg d0 st' := ⟨h.lb.init, by rw [e2]; exact h.lb.last, by rw [e1]; exact h.lb.x⟩
      have hw' : Weak st' := ⟨by rw [e1]; exact h.weak.x, by rw [e2]; exact h.weak.last⟩
      obtain ⟨_, p2, p3, p4, p5, p6, p7⟩ := getDeltas_progress hs hd hw' hl' N hN 0 trivial hg
      refine ⟨0, ⟨hwk, ⟨p3.init, p3.last, p3.x⟩, rfl, ?_, trivial⟩, ?_⟩
      · simp only [p5, e3]; exact hc'
      · apply pot_lt_of_phase
        unfold phase
        simp only
        split <;> split <;> omega
  have same : (perturbForSingularity cfg dcd st v = if (!(getDeltas cfg st v).1) = true then getDeltas cfg st v else
        (true, (getDeltas cfg st v).2.1, current (getDeltas cfg st v).2.1)) →
      ∃ k', Prog cfg d0 dcd (perturbForSingularity cfg dcd st v).2.1 (perturbForSingularity cfg dcd st v).2.2 k' ∧
        pot N (perturbForSingularity cfg dcd st v).2.1 k' < pot N st k := by
    intro he
    rw [he] at hr hwk ⊢
    cases hg : (getDeltas cfg st v).1
    · rw [hg] at hr; simp [hg] at hr
    · simp only [hg, Bool.not_true, Bool.false_eq_true, if_false] at hwk ⊢
      obtain ⟨p1, p2, p3, p4, p5, p6, p7⟩ := getDeltas_progress hs hd h.weak h.lb N hN k h.stage hg
      refine ⟨k + 1, ⟨hwk, p3, rfl, by rw [p5]; exact h.c, p2⟩, pot_lt_of_stage ?_ p1⟩
      unfold phase; rw [p4, p5]
  by_cases hnd : st.hess = .notYet ∨ st.jac = .notYet
  · cases ht : st.test with
    | noTest => exact absurd ⟨hnd, ht⟩ hns
    | c0x0 =>
      by_cases hj : st.jac = .notYet
      · have he : perturbForSingularity cfg dcd st v
            = (true, { st with c := dcd, d := dcd, test := .cPx0 }, current { st with c := dcd, d := dcd, test := .cPx0 }) := by
          simp [perturbForSingularity, hnd, ht, hj]
        rw [he]
        refine ⟨0, ⟨⟨h.weak.x, h.weak.last⟩, ⟨h.lb.init, h.lb.last, h.lb.x⟩, rfl, Or.inr rfl, trivial⟩, ?_⟩
        apply pot_lt_of_phase
        unfold phase
        simp only [ht, rank, if_pos hdc]
        split <;> omega
      · refine adv st .c0xP st.c rfl rfl rfl rfl h.c (by simp [ht, rank]) ?_
        simp only [perturbForSingularity, if_pos hnd, ht, if_neg hj]
    | cPx0 =>
      cases ha : cfg.alwaysCd
      · refine adv { st with c := 0, d := 0 } .c0xP 0 rfl rfl rfl rfl (Or.inl rfl) (by simp [ht, rank]) ?_
        simp only [perturbForSingularity, if_pos hnd, ht, ha, Bool.not_false, if_true]
      · refine adv st .cPxP st.c rfl rfl rfl rfl h.c (by simp [ht, rank]) ?_
        simp only [perturbForSingularity, if_pos hnd, ht, ha, Bool.not_true, Bool.false_eq_true, if_false]
    | c0xP =>
      refine adv { st with c := dcd, d := dcd } .cPxP dcd rfl rfl rfl rfl (Or.inr rfl) (by simp [ht, rank]) ?_
      simp only [perturbForSingularity, if_pos hnd, ht]
    | cPxP =>
      refine same ?_
      simp only [perturbForSingularity, if_pos hnd, ht]
  · by_cases hc : 0 < st.c
    · refine same ?_
      simp only [perturbForSingularity, if_neg hnd, if_pos hc]
    · have he : perturbForSingularity cfg dcd st v
          = (true, { st with c := dcd, d := dcd }, current { st with c := dcd, d := dcd }) := by
        simp only [perturbForSingularity, if_neg hnd, if_neg hc]
      rw [he]
      refine ⟨0, ⟨⟨h.weak.x, h.weak.last⟩, ⟨h.lb.init, h.lb.last, h.lb.x⟩, rfl, Or.inr rfl, trivial⟩, ?_⟩
      apply pot_lt_of_phase
      unfold phase
      simp only [if_neg hc, if_pos hdc]
      omega

theorem wrongInertia_progress {cfg : Cfg K} (hs : cfg.Sane) {d0 dcd : K} (hd : 0 < d0) (hdc : 0 < dcd) (N : Nat)
    (hN : cfg.max < d0 * growth cfg ^ N) {st : St K} {v : Vars K} {k : Nat} (h : Prog cfg d0 dcd st v k)
    (hr : (perturbForWrongInertia cfg dcd st v).1 = true) :
    ∃ k', Prog cfg d0 dcd (perturbForWrongInertia cfg dcd st v).2.1 (perturbForWrongInertia cfg dcd st v).2.2 k' ∧
      pot N (perturbForWrongInertia cfg dcd st v).2.1 k' < pot N st k := by
  obtain ⟨f1, f2, f3, f4, f5, f6⟩ := finalizeTest_same cfg st
  have hwk := (wrongInertia_inv hs v dcd h.weak).1
  have hw : Weak (finalizeTest cfg st) := ⟨by rw [f1]; exact h.weak.x, by rw [f2]; exact h.weak.last⟩
  have hl : Lb cfg d0 (finalizeTest cfg st) := ⟨h.lb.init, by rw [f2]; exact h.lb.last, by rw [f1]; exact h.lb.x⟩
  have hst : Stage cfg d0 (finalizeTest cfg st) k := by
    have := h.stage
    cases k with
    | zero => trivial
    | succ k => simp only [Stage] at this ⊢; rw [f1]; exact this
  cases hg : (getDeltas cfg (finalizeTest cfg st) v).1
  · -- the perturbation is too large
    have hv : (getDeltas cfg (finalizeTest cfg st) v).2.2 = v ∧ (getDeltas cfg (finalizeTest cfg st) v).2.1.xLast = 0 ∧
        (getDeltas cfg (finalizeTest cfg st) v).2.1.c = st.c := by
      unfold getDeltas at hg ⊢
      simp only at hg ⊢
      split at hg
      · rename_i h1; rw [if_pos h1]; exact ⟨rfl, rfl, f4⟩
      · simp at hg
    obtain ⟨v1, v2, v3⟩ := hv
    by_cases hc : st.c = 0
    · have he : perturbForWrongInertia cfg dcd st v = getDeltas cfg (fallback dcd (getDeltas cfg (finalizeTest cfg st) v).2.1) v := by
        simp only [perturbForWrongInertia, hg, v1, h.vc, hc, Bool.not_false, decide_true, Bool.and_self, if_true]
      rw [he] at hr hwk ⊢
      obtain ⟨_, p2, p3, p4, p5, p6, p7⟩ := getDeltas_progress hs hd
        (st := fallback dcd (getDeltas cfg (finalizeTest cfg st) v).2.1) ⟨le_refl _, by simp [fallback, v2]⟩
        ⟨h.lb.init, by simp [fallback, v2], by simp [fallback]⟩ N hN 0 trivial hr
      refine ⟨0, ⟨hwk, p3, ?_, ?_, trivial⟩, ?_⟩
      · rw [p7, p5]
      · rw [p5]; exact Or.inr rfl
      · apply pot_lt_of_phase
        unfold phase
        rw [p4, p5]
        simp only [fallback, hc, lt_irrefl, if_false, if_pos hdc, rank]
        cases st.test <;> simp [hdc]
    · exfalso
      have he : perturbForWrongInertia cfg dcd st v = getDeltas cfg (finalizeTest cfg st) v := by
        have : ¬ ((getDeltas cfg (finalizeTest cfg st) v).2.2.c = some 0) := by
          rw [v1, h.vc]; simpa using hc
        simp only [perturbForWrongInertia, hg, this, decide_false, Bool.and_false, Bool.false_eq_true, if_false]
      rw [he, hg] at hr; simp at hr
  · have he : perturbForWrongInertia cfg dcd st v = getDeltas cfg (finalizeTest cfg st) v := by
      simp only [perturbForWrongInertia, hg, Bool.not_true, Bool.false_and, Bool.false_eq_true, if_false]
    rw [he] at hwk ⊢
    obtain ⟨p1, p2, p3, p4, p5, p6, p7⟩ := getDeltas_progress hs hd hw hl N hN k hst hg
    refine ⟨k + 1, ⟨hwk, p3, by rw [p7, p5], by rw [p5, f4]; exact h.c, p2⟩, pot_lt_of_stage ?_ p1⟩
    unfold phase; rw [p4, p5, f4, f6]

theorem loop_bound {cfg : Cfg K} (hs : cfg.Sane) {d0 dcd : K} (hd : 0 < d0) (hdc : 0 < dcd) (N : Nat)
    (hN : cfg.max < d0 * growth cfg ^ N) (ncon curvTest : Bool) (as : List Ans) : ∀ (l : Loop K) (k : Nat),
    Prog cfg d0 dcd l.st l.v k → (∀ pre, pre <+: as → ¬ Stuck (loop cfg dcd ncon curvTest l pre).2.st) →
    (loop cfg dcd ncon curvTest l as).1 = .running → as.length ≤ pot N l.st k + (if l.improved then 0 else 1) := by
  induction as with
  | nil => intro l k _ _ _; simp
  | cons a as ih =>
    intro l k hp hns hrun
    have hns0 : ¬ Stuck l.st := hns [] (List.nil_prefix)
    rw [loop.eq_def] at hrun
    simp only at hrun
    have hrs : (loopStep cfg dcd ncon curvTest l a).1 = .running := by
      by_contra hc
      rw [if_neg hc] at hrun
      exact hc hrun
    rw [if_pos hrs] at hrun
    have hnext : ∀ pre, pre <+: as → ¬ Stuck (loop cfg dcd ncon curvTest (loopStep cfg dcd ncon curvTest l a).2 pre).2.st := by
      intro pre hpre
      have := hns (a :: pre) (List.prefix_cons_inj a |>.mpr hpre)
      rw [loop.eq_def] at this
      simp only [if_pos hrs] at this
      exact this
    have key : ∃ k', Prog cfg d0 dcd (loopStep cfg dcd ncon curvTest l a).2.st (loopStep cfg dcd ncon curvTest l a).2.v k' ∧
        (pot N (loopStep cfg dcd ncon curvTest l a).2.st k' + (if (loopStep cfg dcd ncon curvTest l a).2.improved then 0 else 1)
          < pot N l.st k + (if l.improved then 0 else 1)) := by
      -- the loop data after the solver call
      obtain ⟨l1, h1, h2, h3, hl1⟩ : ∃ l1 : Loop K, l1.st = l.st ∧ l1.v = l.v ∧ l1.improved = l.improved ∧
          l1 = (if l.pretend then { l with pretend := false } else { l with used := l.v :: l.used }) := by
        refine ⟨_, ?_, ?_, ?_, rfl⟩ <;> split <;> rfl
      have sing : (afterCall l1 (perturbForSingularity cfg dcd l1.st l1.v)).1 = .running →
          ∃ k', Prog cfg d0 dcd (afterCall l1 (perturbForSingularity cfg dcd l1.st l1.v)).2.st
            (afterCall l1 (perturbForSingularity cfg dcd l1.st l1.v)).2.v k' ∧
          (pot N (afterCall l1 (perturbForSingularity cfg dcd l1.st l1.v)).2.st k' +
            (if (afterCall l1 (perturbForSingularity cfg dcd l1.st l1.v)).2.improved then 0 else 1)
            < pot N l.st k + (if l.improved then 0 else 1)) := by
        intro hh
        unfold afterCall at hh
        simp only at hh
        split at hh
        · rename_i hr
          rw [h1, h2] at hr
          obtain ⟨k', hk1, hk2⟩ := singular_progress hs hd hdc N hN hp hns0 hr
          refine ⟨k', ?_, ?_⟩
          · simp only [afterCall, h1, h2]; exact hk1
          · simp only [afterCall, h1, h2, h3]; omega
        · simp at hh
      have wi : (afterCall l1 (perturbForWrongInertia cfg dcd l1.st l1.v)).1 = .running →
          ∃ k', Prog cfg d0 dcd (afterCall l1 (perturbForWrongInertia cfg dcd l1.st l1.v)).2.st
            (afterCall l1 (perturbForWrongInertia cfg dcd l1.st l1.v)).2.v k' ∧
          (pot N (afterCall l1 (perturbForWrongInertia cfg dcd l1.st l1.v)).2.st k' +
            (if (afterCall l1 (perturbForWrongInertia cfg dcd l1.st l1.v)).2.improved then 0 else 1)
            < pot N l.st k + (if l.improved then 0 else 1)) := by
        intro hh
        unfold afterCall at hh
        simp only at hh
        split at hh
        · rename_i hr
          rw [h1, h2] at hr
          obtain ⟨k', hk1, hk2⟩ := wrongInertia_progress hs hd hdc N hN hp hr
          refine ⟨k', ?_, ?_⟩
          · simp only [afterCall, h1, h2]; exact hk1
          · simp only [afterCall, h1, h2, h3]; omega
        · simp at hh
      have hdef : loopStep cfg dcd ncon curvTest l a =
          (if (if l.pretend then Status.singular else a.status) = .fatal then (.failure, l1)
           else if (if l.pretend then Status.singular else a.status) = .singular ∧ ncon then
             afterCall l1 (perturbForSingularity cfg dcd l1.st l1.v)
           else if (if l.pretend then Status.singular else a.status) = .wrongInertia ∧ a.tooFew then
             if !l1.improved ∧ a.improve then (.running, { l1 with improved := true })
             else afterCall l1 (perturbForSingularity cfg dcd l1.st l1.v)
           else if (if l.pretend then Status.singular else a.status) = .wrongInertia ∨
               (if l.pretend then Status.singular else a.status) = .singular then
             afterCall l1 (perturbForWrongInertia cfg dcd l1.st l1.v)
           else if curvTest ∧ a.negCurv then afterCall l1 (perturbForWrongInertia cfg dcd l1.st l1.v)
           else (.success, l1)) := by
        rw [hl1]; rfl
      rw [hdef] at hrs ⊢
      generalize (if l.pretend then Status.singular else a.status) = rv at hrs ⊢
      by_cases c1 : rv = .fatal
      · rw [if_pos c1] at hrs; simp at hrs
      rw [if_neg c1] at hrs ⊢
      by_cases c2 : rv = .singular ∧ ncon
      · rw [if_pos c2] at hrs ⊢; exact sing hrs
      rw [if_neg c2] at hrs ⊢
      by_cases c3 : rv = .wrongInertia ∧ a.tooFew
      · rw [if_pos c3] at hrs ⊢
        by_cases c4 : !l1.improved ∧ a.improve
        · rw [if_pos c4]
          refine ⟨k, ?_, ?_⟩
          · simp only [h1, h2]; exact hp
          · have : l.improved = false := by rw [← h3]; simpa using c4.1
            simp [h1, this]
        · rw [if_neg c4] at hrs ⊢; exact sing hrs
      rw [if_neg c3] at hrs ⊢
      by_cases c4 : rv = .wrongInertia ∨ rv = .singular
      · rw [if_pos c4] at hrs ⊢; exact wi hrs
      rw [if_neg c4] at hrs ⊢
      by_cases c5 : curvTest ∧ a.negCurv
      · rw [if_pos c5] at hrs ⊢; exact wi hrs
      · rw [if_neg c5] at hrs; simp at hrs
    obtain ⟨k', hk1, hk2⟩ := key
    have := ih _ k' hk1 hnext hrun
    simp only [List.length_cons]
    omega

theorem getDeltas_c (cfg : Cfg K) (st : St K) (v : Vars K) {dc : K} (h1 : st.c = dc) (h2 : v.c = some dc) :
    (getDeltas cfg st v).2.1.c = dc ∧ (getDeltas cfg st v).2.2.c = some dc := by
  unfold getDeltas
  simp only
  by_cases h : cfg.max < nextX cfg st
  · rw [if_pos h]; exact ⟨h1, h2⟩
  · rw [if_neg h]; exact ⟨h1, by simp [h1]⟩

theorem consider_vc (cfg : Cfg K) (dcd : K) (st : St K) (v : Vars K) :
    (considerNewSystem cfg dcd st v).2.2.c = some (considerNewSystem cfg dcd st v).2.1.c ∧
    ((considerNewSystem cfg dcd st v).2.1.c = 0 ∨ (considerNewSystem cfg dcd st v).2.1.c = dcd) := by
  have hcc : ∀ j : Degen, (if j = .yes then dcd else if cfg.alwaysCd then dcd else 0) = 0 ∨
      (if j = .yes then dcd else if cfg.alwaysCd then dcd else 0) = dcd := by
    intro j
    split
    · right; rfl
    · split
      · right; rfl
      · left; rfl
  unfold considerNewSystem
  simp only
  have hj := hcc (storeLast cfg (finalizeTest cfg st)).jac
  revert hj
  generalize (if (storeLast cfg (finalizeTest cfg st)).jac = .yes then dcd else if cfg.alwaysCd then dcd else 0) = dc
  intro hj
  split
  · have g := fun st v => getDeltas_c cfg st v (dc := dc)
    refine ⟨?_, ?_⟩
    · rw [(g _ _ rfl rfl).1, (g _ _ rfl rfl).2]
    · rw [(g _ _ rfl rfl).1]; exact hj
  · exact ⟨rfl, hj⟩

/-- **C17 (partial).** After any history of handler calls and for every positive constraint regularisation, there is a bound `B`
such that the inertia-correction loop for a new system is left after at most `B` iterations, whatever the linear solver answers -
unless the handler gets into the state that its debug assertion excludes.  Missing: the exception cannot be dropped, see
`inertia_loop_can_hang`; nor can positivity of the regularisation, see `inertia_loop_can_hang_without_regularisation`. -/
theorem inertia_loop_terminates_partial [Archimedean K] {cfg : Cfg K} (hs : cfg.Sane) (cs : List (Call K)) (dcd : K)
    (hdc : 0 < dcd) : ∃ B : Nat, ∀ (ncon curvTest pretend improved : Bool) (as : List Ans),
      (∀ pre, pre <+: as → ¬ Stuck (solveNew cfg dcd ncon curvTest pretend improved (H.run cfg cs).st pre).2.st) →
      B < as.length → (solveNew cfg dcd ncon curvTest pretend improved (H.run cfg cs).st as).1 ≠ .running := by
  have hw := (consider_inv hs ⟨none, none, none, none⟩ dcd (run_inv hs cs).1).1
  obtain ⟨hv, hc⟩ := consider_vc cfg dcd (H.run cfg cs).st ⟨none, none, none, none⟩
  have hg1 : 1 < growth cfg := lt_min hs.firstInc hs.inc
  generalize hr : considerNewSystem cfg dcd (H.run cfg cs).st ⟨none, none, none, none⟩ = r at hw hv hc
  obtain ⟨d0, hd0, hlb⟩ : ∃ d0 : K, 0 < d0 ∧ Lb cfg d0 r.2.1 := by
    refine ⟨Min.min cfg.init (Min.min (if r.2.1.xLast = 0 then 1 else r.2.1.xLast * cfg.dec) (if r.2.1.x = 0 then 1 else r.2.1.x)), ?_, ?_, ?_, ?_⟩
    · refine lt_min hs.init (lt_min ?_ ?_)
      · split
        · exact one_pos
        · rename_i h1; exact mul_pos (lt_of_le_of_ne hw.last (Ne.symm h1)) hs.dec0
      · split
        · exact one_pos
        · rename_i h1; exact lt_of_le_of_ne hw.x (Ne.symm h1)
    · exact min_le_left _ _
    · intro h1; rw [if_neg h1]; exact le_trans (min_le_right _ _) (min_le_left _ _)
    · intro h1; rw [if_neg h1]; exact le_trans (min_le_right _ _) (min_le_right _ _)
  obtain ⟨N, hN⟩ := pow_unbounded_of_one_lt (cfg.max / d0) hg1
  have hN' : cfg.max < d0 * growth cfg ^ N := by
    rw [div_lt_iff₀ hd0] at hN; linarith [mul_comm d0 (growth cfg ^ N)]
  refine ⟨pot N r.2.1 0 + 1, ?_⟩
  intro ncon curvTest pretend improved as hns hlen hrun
  have h := loop_bound hs hd0 hdc N hN' ncon curvTest as ⟨r.2.1, r.2.2, improved, pretend, []⟩ 0
    ⟨hw, hlb, hv, hc, trivial⟩ (by
      intro pre hpre
      have := hns pre hpre
      unfold solveNew at this
      simp only [hr] at this
      exact this) (by
      unfold solveNew at hrun
      simp only [hr] at hrun
      exact hrun)
  simp only at h
  split at h <;> omega

/-- Concrete instance of the hypotheses: the loop for the first system with the linear solver answering "singular" four times and
then "wrong inertia" sixteen times is left with failure, without reaching the excluded state. -/
example :
    let as : List Ans := List.replicate 4 ⟨.singular, false, false, false⟩ ++ List.replicate 16 ⟨.wrongInertia, false, false, false⟩
    (solveNew defaultCfg (1/1000) true false false false (H.run defaultCfg []).st as).1 = .failure ∧
    (solveNew defaultCfg (1/1000) true false false false (H.run defaultCfg []).st as).2.st.test ≠ .noTest := by decide +kernel

theorem stuck_loop (cfg : Cfg K) (dcd : K) (curvTest : Bool) (n : Nat) : ∀ (l : Loop K), Stuck l.st → l.pretend = false →
    (loop cfg dcd true curvTest l (List.replicate n ⟨.singular, false, false, false⟩)).1 = .running := by
  induction n with
  | zero => intro l _ _; rfl
  | succ n ih =>
    intro l hst hp
    have he : loopStep cfg dcd true curvTest l ⟨.singular, false, false, false⟩
        = (.running, { l with used := l.v :: l.used, v := current l.st }) := by
      simp [loopStep, hp, afterCall, perturbForSingularity, hst.1, hst.2]
    rw [List.replicate_succ, loop.eq_def]
    simp only [he, if_true]
    exact ih _ hst hp

theorem loop_append (cfg : Cfg K) (dcd : K) (ncon curvTest : Bool) (as bs : List Ans) : ∀ (l : Loop K),
    (loop cfg dcd ncon curvTest l as).1 = .running →
    loop cfg dcd ncon curvTest l (as ++ bs) = loop cfg dcd ncon curvTest (loop cfg dcd ncon curvTest l as).2 bs := by
  induction as with
  | nil => intro l _; rfl
  | cons a as ih =>
    intro l h
    simp only [List.cons_append, loop] at h ⊢
    by_cases hr : (loopStep cfg dcd ncon curvTest l a).1 = .running
    · rw [if_pos hr] at h
      rw [if_pos hr, if_pos hr]
      exact ih _ h
    · rw [if_neg hr] at h
      exact absurd h hr

/-- Answers leading to the excluded state in the very first system (default options): singular, singular, then wrong inertia until
the Hessian perturbation exceeds its maximum. -/
def hangPrefix : List Ans :=
  List.replicate 2 ⟨.singular, false, false, false⟩ ++ List.replicate 13 ⟨.wrongInertia, false, false, false⟩

/-- **Negative result for C17.** With the default options, on the first linear system, the loop does not end if the matrix with
the perturbation tried last is reported singular: the handler returns the same perturbation again and again. -/
theorem inertia_loop_can_hang (n : Nat) :
    (solveNew defaultCfg (1/1000) true false false false (initSt defaultCfg)
      (hangPrefix ++ List.replicate n ⟨.singular, false, false, false⟩)).1 = .running := by
  unfold solveNew
  simp only
  rw [loop_append _ _ _ _ _ _ _ (by decide +kernel)]
  exact stuck_loop _ _ _ n _ ⟨by decide +kernel, by decide +kernel⟩ (by decide +kernel)

/-- **Negative result for C17.** With `jacobian_regularization_value = 0` the loop does not end if the second system is reported
singular after the first one was solved without perturbation. -/
theorem inertia_loop_can_hang_without_regularisation (n : Nat) :
    (solveNew defaultCfg 0 true false false false (H.run defaultCfg [.consider 0]).st
      (List.replicate n ⟨.singular, false, false, false⟩)).1 = .running := by
  have aux : ∀ (n : Nat) (l : Loop ℚ), l.st.hess = .no → l.st.jac = .no → l.st.c = 0 → l.pretend = false →
      (loop defaultCfg 0 true false l (List.replicate n ⟨.singular, false, false, false⟩)).1 = .running := by
    intro n
    induction n with
    | zero => intro l _ _ _ _; rfl
    | succ n ih =>
      intro l h1 h2 h3 h4
      have he : loopStep defaultCfg 0 true false l ⟨.singular, false, false, false⟩
          = (.running, { l with used := l.v :: l.used, st := { l.st with c := 0, d := 0 }, v := current { l.st with c := 0, d := 0 } }) := by
        simp [loopStep, h4, afterCall, perturbForSingularity, h1, h2, h3]
      rw [List.replicate_succ, loop.eq_def]
      simp only [he, if_true]
      exact ih _ h1 h2 rfl h4
  unfold solveNew
  exact aux n _ (by decide +kernel) (by decide +kernel) (by decide +kernel) rfl

end Verif.Perturb
