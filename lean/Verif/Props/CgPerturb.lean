import Verif.Model.CgPerturb
import Verif.Props.Perturb

/-! # C90: perturbations with the Chen-Goldfarb penalty method -/

set_option linter.unusedSectionVars false
set_option linter.unusedSimpArgs false
set_option linter.unusedVariables false

namespace Verif.CgPerturb
open Verif.Perturb

variable {K : Type} [Field K] [LinearOrder K] [IsStrictOrderedRing K]

/-! ## Specification -/

/-- Calls of the handler. -/
inductive CgCall (K : Type) where
  | consider (E : Env K)
  | singular (E : Env K)
  | wrongInertia (E : Env K)

/-- what the handler asks for in this call. -/
def CgCall.env : CgCall K → Env K
  | .consider E => E
  | .singular E => E
  | .wrongInertia E => E

/-- is it a call for the current system? -/
def CgCall.same : CgCall K → Prop
  | .consider _ => False
  | _ => True

/-- Handler, caller's variables, and whether all calls for the current system have succeeded. -/
structure CgH (K : Type) where
  s : CgSt K
  v : Vars K
  ok : Bool

/-- One call. -/
def CgH.call (cfg : Cfg K) (h : CgH K) : CgCall K → CgH K
  | .consider E => let r := consider cfg E h.s h.v; ⟨r.2.1, r.2.2, r.1⟩
  | .singular E => let r := singular cfg E h.s h.v; ⟨r.2.1, r.2.2, h.ok && r.1⟩
  | .wrongInertia E => let r := wrongInertia cfg E h.s h.v; ⟨r.2.1, r.2.2, h.ok && r.1⟩

/-- after `InitializeImpl`; the flag is not initialized. -/
def CgH.start (cfg : Cfg K) (called : Bool) : CgH K := ⟨⟨initSt cfg, called⟩, ⟨none, none, none, none⟩, false⟩

/-- numbers between 0 and `b`; positive machine precision. -/
structure Env.OK (b : K) (E : Env K) : Prop where
  dcd : 0 ≤ E.dcd ∧ E.dcd ≤ b
  pert : 0 ≤ E.pert ∧ E.pert ≤ b
  raised : 0 ≤ E.raised ∧ E.raised ≤ b
  eps : 0 < E.eps ∧ 1000 * E.eps ≤ b

/-- a consistent perturbation. -/
def CgGood (cfg : Cfg K) (b : K) (v : Vars K) : Prop :=
  ∃ x c : K, v.x = some x ∧ v.s = some x ∧ v.c = some c ∧ v.d = some c ∧ 0 ≤ x ∧ x ≤ cfg.max ∧ 0 ≤ c ∧ c ≤ b

/-! ## Consistency -/

/-- as long as all calls have succeeded. -/
structure CgOk (cfg : Cfg K) (b : K) (st : St K) (v : Vars K) : Prop where
  xs : st.x = st.s
  cd : st.c = st.d
  max : st.x ≤ cfg.max
  c0 : 0 ≤ st.c
  cb : st.c ≤ b
  v : v = current st

theorem getDeltas_cgok {cfg : Cfg K} {b : K} {st : St K} {v : Vars K} (hcd : st.c = st.d) (h0 : 0 ≤ st.c) (hb : st.c ≤ b)
    (hr : (getDeltas cfg st v).1 = true) : CgOk cfg b (getDeltas cfg st v).2.1 (getDeltas cfg st v).2.2 := by
  unfold getDeltas at hr ⊢
  simp only at hr ⊢
  split at hr
  · simp at hr
  · rename_i h
    rw [if_neg h]
    exact ⟨rfl, hcd, not_lt.mp h, h0, hb, rfl⟩

theorem deltasThen_inv {cfg : Cfg K} (hs : cfg.Sane) {b : K} (t : Test) {s : CgSt K} (v : Vars K) (h : Weak s.st) :
    Weak (deltasThen cfg t s v).2.1.st ∧ (s.st.c = s.st.d → 0 ≤ s.st.c → s.st.c ≤ b → (deltasThen cfg t s v).1 = true →
      CgOk cfg b (deltasThen cfg t s v).2.1.st (deltasThen cfg t s v).2.2) := by
  have hw := getDeltas_weak hs v h
  unfold deltasThen deltas
  simp only
  cases hr : (getDeltas cfg s.st v).1
  · simp only [Bool.not_false, if_true]
    exact ⟨hw, fun _ _ _ hh => by simp at hh⟩
  · simp only [Bool.not_true, Bool.false_eq_true, if_false]
    refine ⟨⟨hw.x, hw.last⟩, fun h1 h2 h3 _ => ?_⟩
    have := getDeltas_cgok h1 h2 h3 hr
    exact ⟨this.xs, this.cd, this.max, this.c0, this.cb, rfl⟩

theorem deltasNew_inv {cfg : Cfg K} (hs : cfg.Sane) {b : K} {s : CgSt K} (v : Vars K) (hw : Weak s.st) (hcd : s.st.c = s.st.d)
    (h0 : 0 ≤ s.st.c ∧ s.st.c ≤ b) : Weak (deltasNew cfg s v).2.1.st ∧ ((deltasNew cfg s v).1 = true →
      CgOk cfg b (deltasNew cfg s v).2.1.st (deltasNew cfg s v).2.2 ∧ (deltasNew cfg s v).2.1.st.c = s.st.c ∧
      (deltasNew cfg s v).2.1.st.jac = s.st.jac ∧ (deltasNew cfg s v).2.1.st.hess = s.st.hess ∧ 0 < (deltasNew cfg s v).2.1.st.x) := by
  have h1 := getDeltas_weak hs v hw
  unfold deltasNew deltas
  simp only
  cases hg : (getDeltas cfg s.st v).1
  · simp only [Bool.not_false, if_true]
    exact ⟨h1, fun hh => by simp at hh⟩
  · simp only [Bool.not_true, Bool.false_eq_true, if_false]
    refine ⟨h1, fun _ => ⟨getDeltas_cgok hcd h0.1 h0.2 hg, ?_⟩⟩
    have hp := nextX_pos hs hw
    unfold getDeltas at hg ⊢
    simp only at hg ⊢
    split at hg
    · simp at hg
    · rename_i hn; rw [if_neg hn]; exact ⟨rfl, rfl, rfl, hp⟩

theorem cg_consider_inv {cfg : Cfg K} (hs : cfg.Sane) {b : K} {E : Env K} (hE : E.OK b) {s : CgSt K} (v : Vars K) (h : Weak s.st) :
    Weak (consider cfg E s v).2.1.st ∧ ((consider cfg E s v).1 = true → CgOk cfg b (consider cfg E s v).2.1.st (consider cfg E s v).2.2) := by
  obtain ⟨f1, f2, _⟩ := finalizeTest_same cfg s.st
  have hr : Weak (restore E (finalizeTest cfg s.st)) := by
    unfold restore
    split
    · exact ⟨le_refl _, le_refl _⟩
    · exact ⟨by rw [f1]; exact h.x, by rw [f2]; exact h.last⟩
  have hw : 0 ≤ (storeLast cfg (restore E (finalizeTest cfg s.st))).xLast := by
    unfold storeLast
    have := hr.x
    have := hr.last
    split
    · simpa
    · split
      · simpa
      · simpa
  have hdc : ∀ (p q : Prop) [Decidable p] [Decidable q],
      0 ≤ (if p then (if q then 100 * E.eps else E.pert) else 0) ∧ (if p then (if q then 100 * E.eps else E.pert) else 0) ≤ b := by
    intro p q _ _
    have := hE.eps
    have := hE.pert
    have := hE.dcd
    split
    · split
      · constructor <;> linarith
      · constructor <;> linarith
    · constructor <;> linarith
  unfold consider
  simp only
  split
  · refine ⟨?_, fun h1 => ?_⟩
    · refine (deltasNew_inv (b := b) hs _ ?_ rfl (hdc _ _)).1
      exact ⟨le_refl _, hw⟩
    · refine ((deltasNew_inv (b := b) hs _ ?_ rfl (hdc _ _)).2 h1).1
      exact ⟨le_refl _, hw⟩
  · exact ⟨⟨le_refl _, hw⟩, fun _ => ⟨rfl, rfl, le_of_lt hs.max, (hdc _ _).1, (hdc _ _).2, rfl⟩⟩

theorem cg_singular_inv {cfg : Cfg K} (hs : cfg.Sane) {b : K} {E : Env K} (hE : E.OK b) {s : CgSt K} (v : Vars K) (h : Weak s.st) :
    Weak (singular cfg E s v).2.1.st ∧ (CgOk cfg b s.st v → (singular cfg E s v).1 = true →
      CgOk cfg b (singular cfg E s v).2.1.st (singular cfg E s v).2.2) := by
  have e1 := hE.eps
  have e2 := hE.pert
  have e3 := hE.dcd
  have e4 := hE.raised
  have hm : 0 ≤ max E.dcd E.pert ∧ max E.dcd E.pert ≤ b := ⟨le_max_of_le_left e3.1, max_le e3.2 e2.2⟩
  unfold singular
  simp only
  split
  · split
    · split
      · exact ⟨⟨h.x, h.last⟩, fun o _ => ⟨o.xs, rfl, o.max, e3.1, e3.2, rfl⟩⟩
      · have := deltasThen_inv (b := b) hs .c0xP v h
        exact ⟨this.1, fun o => this.2 o.cd o.c0 o.cb⟩
    · have := deltasThen_inv (b := b) hs .c0xP
        (s := ⟨{ s.st with c := max E.dcd E.pert, d := max E.dcd E.pert, test := if max E.dcd E.pert < E.dcd then .c0xP else .cPxP }, s.called⟩) v ⟨h.x, h.last⟩
      exact ⟨this.1, fun o => this.2 rfl hm.1 hm.2⟩
    · have := deltasThen_inv (b := b) hs .cPxP
        (s := ⟨{ s.st with c := max E.dcd E.pert, d := max E.dcd E.pert }, s.called⟩) v ⟨h.x, h.last⟩
      exact ⟨this.1, fun o => this.2 rfl hm.1 hm.2⟩
    · have := deltasThen_inv (b := b) hs .cPxP v h
      exact ⟨this.1, fun o => this.2 o.cd o.c0 o.cb⟩
    · exact ⟨h, fun o _ => ⟨o.xs, o.cd, o.max, o.c0, o.cb, rfl⟩⟩
  · split
    · have := deltasThen_inv (b := b) hs s.st.test v h
      exact ⟨this.1, fun o => this.2 o.cd o.c0 o.cb⟩
    · refine ⟨⟨h.x, h.last⟩, fun o _ => ⟨o.xs, rfl, o.max, ?_, ?_, rfl⟩⟩
      · dsimp only
        split
        · exact le_max_of_le_left (by linarith)
        · exact e3.1
      · dsimp only
        split
        · exact max_le (by linarith) (max_le e4.2 e3.2)
        · exact e3.2

theorem cg_wrong_inv {cfg : Cfg K} (hs : cfg.Sane) {b : K} {E : Env K} (hE : E.OK b) {s : CgSt K} (v : Vars K) (h : Weak s.st) :
    Weak (wrongInertia cfg E s v).2.1.st ∧ (CgOk cfg b s.st v → (wrongInertia cfg E s v).1 = true →
      CgOk cfg b (wrongInertia cfg E s v).2.1.st (wrongInertia cfg E s v).2.2) := by
  refine ⟨(wrongInertia_inv hs v E.dcd h).1, ?_⟩
  obtain ⟨f1, f2, f3, f4, f5, f6⟩ := finalizeTest_same cfg s.st
  unfold wrongInertia perturbForWrongInertia
  simp only
  split
  · exact fun _ hr => getDeltas_cgok rfl hE.dcd.1 hE.dcd.2 hr
  · exact fun o hr => getDeltas_cgok (by rw [f4, f5]; exact o.cd) (by rw [f4]; exact o.c0) (by rw [f4]; exact o.cb) hr

theorem cg_run_inv {cfg : Cfg K} (hs : cfg.Sane) {b : K} : ∀ (cs : List (CgCall K)) (h : CgH K), (∀ c ∈ cs, c.env.OK b) → Weak h.s.st →
    (h.ok = true → CgOk cfg b h.s.st h.v) →
    Weak (cs.foldl (CgH.call cfg) h).s.st ∧ ((cs.foldl (CgH.call cfg) h).ok = true →
      CgOk cfg b (cs.foldl (CgH.call cfg) h).s.st (cs.foldl (CgH.call cfg) h).v)
  | [], h, _, h1, h2 => ⟨h1, h2⟩
  | c :: cs, h, hc, h1, h2 => by
    rw [List.foldl_cons]
    have hE := hc c (by simp)
    apply cg_run_inv hs cs _ (fun c h => hc c (by simp [h]))
    · cases c with
      | consider E => exact (cg_consider_inv hs hE h.v h1).1
      | singular E => exact (cg_singular_inv hs hE h.v h1).1
      | wrongInertia E => exact (cg_wrong_inv hs hE h.v h1).1
    · cases c with
      | consider E => exact (cg_consider_inv hs hE h.v h1).2
      | singular E =>
        intro hh
        simp only [CgH.call, Bool.and_eq_true] at hh
        exact (cg_singular_inv hs hE h.v h1).2 (h2 hh.1) hh.2
      | wrongInertia E =>
        intro hh
        simp only [CgH.call, Bool.and_eq_true] at hh
        exact (cg_wrong_inv hs hE h.v h1).2 (h2 hh.1) hh.2

/-- **C90.** After any history of calls, if all calls for the current system have succeeded, the caller's variables hold a consistent
perturbation: `delta_x = delta_s` between 0 and `max_hessian_perturbation`, `delta_c = delta_d` not negative and not larger than any bound of the
regularisations asked for; `CurrentPerturbation` returns the same values. -/
theorem cg_perturbation_consistent {cfg : Cfg K} (hs : cfg.Sane) {b : K} (called : Bool) (cs : List (CgCall K)) (hE : ∀ c ∈ cs, c.env.OK b)
    (hok : (cs.foldl (CgH.call cfg) (.start cfg called)).ok = true) :
    CgGood cfg b (cs.foldl (CgH.call cfg) (.start cfg called)).v ∧
    current (cs.foldl (CgH.call cfg) (.start cfg called)).s.st = (cs.foldl (CgH.call cfg) (.start cfg called)).v := by
  obtain ⟨h1, h2⟩ := cg_run_inv hs cs (.start cfg called) hE ⟨le_refl _, le_refl _⟩ (by simp [CgH.start])
  have h := h2 hok
  refine ⟨⟨_, _, ?_, ?_, ?_, ?_, h1.x, h.max, h.c0, h.cb⟩, h.v.symm⟩
  · rw [h.v]; rfl
  · rw [h.v, h.xs]; rfl
  · rw [h.v]; rfl
  · rw [h.v, h.cd]; rfl

theorem cg_first_aux {cfg : Cfg K} (hs : cfg.Sane) {b : K} {E : Env K} (hE : E.OK b) {s : CgSt K} (v : Vars K) (h : Weak s.st)
    (hok : (consider cfg E s v).1 = true) :
    let st := (consider cfg E s v).2.1.st
    (st.jac = .yes → 100 * E.eps ≤ st.c ∧ (100 * E.eps ≤ E.pert → st.c = E.pert)) ∧
    (st.jac ≠ .yes → st.c = if E.never ∨ cfg.alwaysCd then E.pert else 0) ∧
    (st.hess = .yes → 0 < st.x) ∧ (st.hess ≠ .yes → st.x = 0) := by
  obtain ⟨f1, f2, _⟩ := finalizeTest_same cfg s.st
  have hr : Weak (restore E (finalizeTest cfg s.st)) := by
    unfold restore
    split
    · exact ⟨le_refl _, le_refl _⟩
    · exact ⟨by rw [f1]; exact h.x, by rw [f2]; exact h.last⟩
  have hw : 0 ≤ (storeLast cfg (restore E (finalizeTest cfg s.st))).xLast := by
    unfold storeLast
    have := hr.x
    have := hr.last
    split
    · simpa
    · split
      · simpa
      · simpa
  revert hok
  unfold consider
  simp only
  generalize storeLast cfg (restore E (finalizeTest cfg s.st)) = q at hw ⊢
  have hdc : (q.jac = .yes → 100 * E.eps ≤ (if q.jac = .yes ∨ E.never ∨ cfg.alwaysCd then
        (if E.pert < 100 * E.eps ∧ q.jac = .yes then 100 * E.eps else E.pert) else 0) ∧
        (100 * E.eps ≤ E.pert → (if q.jac = .yes ∨ E.never ∨ cfg.alwaysCd then
        (if E.pert < 100 * E.eps ∧ q.jac = .yes then 100 * E.eps else E.pert) else 0) = E.pert)) ∧
      (q.jac ≠ .yes → (if q.jac = .yes ∨ E.never ∨ cfg.alwaysCd then
        (if E.pert < 100 * E.eps ∧ q.jac = .yes then 100 * E.eps else E.pert) else 0) = if E.never ∨ cfg.alwaysCd then E.pert else 0) := by
    refine ⟨fun hj => ⟨?_, fun hp => ?_⟩, fun hj => ?_⟩
    · rw [if_pos (Or.inl hj)]
      split
      · exact le_refl _
      · rename_i hh
        rw [not_and_or] at hh
        rcases hh with hh | hh
        · exact not_lt.1 hh
        · exact absurd hj hh
    · rw [if_pos (Or.inl hj), if_neg (fun hh => absurd hh.1 (not_lt.2 hp))]
    · simp only [hj, false_or, and_false, if_false]
  split
  · rename_i hh
    intro hok
    have hb : 0 ≤ (if q.jac = .yes ∨ E.never ∨ cfg.alwaysCd then
        (if E.pert < 100 * E.eps ∧ q.jac = .yes then 100 * E.eps else E.pert) else 0) ∧ (if q.jac = .yes ∨ E.never ∨ cfg.alwaysCd then
        (if E.pert < 100 * E.eps ∧ q.jac = .yes then 100 * E.eps else E.pert) else 0) ≤ b := by
      have := hE.eps
      have := hE.pert
      have := hE.dcd
      split
      · split
        · constructor <;> linarith
        · constructor <;> linarith
      · constructor <;> linarith
    have hk := fun hw' => (deltasNew_inv (b := b) hs _ hw' rfl hb).2 hok
    obtain ⟨_, a1, a2, a3, a4⟩ := hk ⟨le_refl _, hw⟩
    rw [a1, a2, a3]
    exact ⟨hdc.1, hdc.2, fun _ => a4, fun hx => absurd hh hx⟩
  · rename_i hh
    intro _
    exact ⟨hdc.1, hdc.2, fun hx => absurd hx hh, fun _ => rfl⟩

/-- C90: the first perturbation for a new system: the constraints are regularised if the Jacobian is considered degenerate (then by at least 100
times the machine precision), or if pure Newton steps are not tried any more or `perturb_always_cd` is set (then by `curr_cg_pert_fact`), and
not otherwise; the Hessian is perturbed exactly if it is considered degenerate. -/
theorem cg_first_perturbation {cfg : Cfg K} (hs : cfg.Sane) {b : K} (called : Bool) (cs : List (CgCall K)) (hE : ∀ c ∈ cs, c.env.OK b)
    {E : Env K} (hE0 : E.OK b) (hok : (CgH.call cfg (cs.foldl (CgH.call cfg) (.start cfg called)) (.consider E)).ok = true) :
    let h := CgH.call cfg (cs.foldl (CgH.call cfg) (.start cfg called)) (.consider E)
    ∃ x c, h.v = ⟨some x, some x, some c, some c⟩ ∧
    (h.s.st.jac = .yes → 100 * E.eps ≤ c ∧ (100 * E.eps ≤ E.pert → c = E.pert)) ∧
    (h.s.st.jac ≠ .yes → c = if E.never ∨ cfg.alwaysCd then E.pert else 0) ∧
    (h.s.st.hess = .yes → 0 < x) ∧ (h.s.st.hess ≠ .yes → x = 0) := by
  obtain ⟨h1, _⟩ := cg_run_inv hs cs (.start cfg called) hE ⟨le_refl _, le_refl _⟩ (by simp [CgH.start])
  have o := (cg_consider_inv hs hE0 (cs.foldl (CgH.call cfg) (.start cfg called)).v h1).2 hok
  refine ⟨_, _, ?_, cg_first_aux hs hE0 (cs.foldl (CgH.call cfg) (.start cfg called)).v h1 hok⟩
  have h2 := o.v
  have h3 := o.xs
  have h4 := o.cd
  show (consider cfg E _ _).2.2 = _
  rw [h2]
  unfold current
  rw [← h3, ← h4]

/-! ## Termination -/

/-- how far the treatment of the system is: constraints regularised, first test over. -/
def cgPhase (st : St K) : Nat := (if 0 < st.c then 2 else 0) + (if st.test = .c0x0 then 0 else 1)

/-- one successful call for the same system: the Hessian perturbation grows by a factor, or the phase does. -/
structure Step (cfg : Cfg K) (d0 : K) (N : Nat) (st st' : St K) (v' : Vars K) : Prop where
  lb : Lb cfg d0 st'
  weak : Weak st'
  vc : v'.c = some st'.c
  c0 : 0 ≤ st'.c
  prog : cgPhase st < cgPhase st' ∨ (cgPhase st ≤ cgPhase st' ∧ ∀ k, Stage cfg d0 st k → k < N + 1 ∧ Stage cfg d0 st' (k + 1))

theorem phase_keep {c c' : K} (h : 0 < c → 0 < c') {t t' : Test} (ht : t ≠ .c0x0 → t' ≠ .c0x0) :
    ((if 0 < c then 2 else 0) + (if t = .c0x0 then 0 else 1) : Nat) ≤ (if 0 < c' then 2 else 0) + (if t' = .c0x0 then 0 else 1) := by
  by_cases h1 : 0 < c
  · rw [if_pos h1, if_pos (h h1)]
    by_cases h2 : t = .c0x0
    · rw [if_pos h2]; omega
    · rw [if_neg h2, if_neg (ht h2)]
  · rw [if_neg h1]
    by_cases h2 : t = .c0x0
    · rw [if_pos h2]; omega
    · rw [if_neg h2, if_neg (ht h2)]; omega

theorem deltasThen_step {cfg : Cfg K} (hs : cfg.Sane) {d0 : K} (hd : 0 < d0) (N : Nat) (hN : cfg.max < d0 * growth cfg ^ N) (st : St K) (t : Test)
    {s : CgSt K} {v : Vars K} (hw : Weak s.st) (hl : Lb cfg d0 s.st) (hx : s.st.x = st.x) (hc : 0 < st.c → 0 < s.st.c) (hc0 : 0 ≤ s.st.c)
    (ht : t ≠ .c0x0 ∨ t = st.test) (hr : (deltasThen cfg t s v).1 = true) :
    Step cfg d0 N st (deltasThen cfg t s v).2.1.st (deltasThen cfg t s v).2.2 := by
  unfold deltasThen deltas at hr ⊢
  simp only at hr ⊢
  cases hg : (getDeltas cfg s.st v).1
  · rw [hg] at hr; simp at hr
  · simp only [Bool.not_true, Bool.false_eq_true, if_false]
    obtain ⟨_, _, p3, p4, p5, p6, p7⟩ := getDeltas_progress hs hd hw hl N hN 0 trivial hg
    have pw := getDeltas_weak hs v hw
    refine ⟨⟨p3.init, p3.last, p3.x⟩, ⟨pw.x, pw.last⟩, rfl, by simp only; rw [p5]; exact hc0, Or.inr ⟨?_, fun k hk => ?_⟩⟩
    · unfold cgPhase
      simp only
      rw [p5]
      exact phase_keep hc (fun h => by rcases ht with h' | h'; exacts [h', h' ▸ h])
    · have hk' : Stage cfg d0 s.st k := by
        cases k with
        | zero => trivial
        | succ k => simp only [Stage] at hk ⊢; rw [hx]; exact hk
      obtain ⟨q1, q2, _⟩ := getDeltas_progress hs hd hw hl N hN k hk' hg
      exact ⟨q1, q2⟩

theorem cg_singular_step {cfg : Cfg K} (hs : cfg.Sane) {b d0 : K} (hd : 0 < d0) (N : Nat) (hN : cfg.max < d0 * growth cfg ^ N) {E : Env K}
    (hE : E.OK b) (hdc : 0 < E.dcd) {s : CgSt K} {v : Vars K} (hw : Weak s.st) (hl : Lb cfg d0 s.st) (hc0 : 0 ≤ s.st.c) (hst : ¬ Stuck s.st)
    (hr : (singular cfg E s v).1 = true) : Step cfg d0 N s.st (singular cfg E s v).2.1.st (singular cfg E s v).2.2 := by
  have hm : 0 < max E.dcd E.pert := lt_max_of_lt_left hdc
  unfold singular at hr ⊢
  simp only at hr ⊢
  split at hr
  · rename_i hn
    rw [if_pos hn]
    split at hr
    · rename_i ht
      split at hr
      · rename_i hj
        rw [if_pos hj]
        refine ⟨⟨hl.init, hl.last, hl.x⟩, ⟨hw.x, hw.last⟩, rfl, le_of_lt hdc, Or.inl ?_⟩
        unfold cgPhase
        simp only [ht, if_true, hdc]
        split <;> simp
      · rename_i hj
        rw [if_neg hj]
        exact deltasThen_step hs hd N hN s.st .c0xP hw hl rfl id hc0 (Or.inl (by simp)) hr
    · rename_i ht
      refine deltasThen_step hs hd N hN s.st .c0xP ?_ ?_ rfl (fun _ => hm) (le_of_lt hm) (Or.inl (by simp)) hr
      · exact ⟨hw.x, hw.last⟩
      · exact ⟨hl.init, hl.last, hl.x⟩
    · rename_i ht
      refine deltasThen_step hs hd N hN s.st .cPxP ?_ ?_ rfl (fun _ => hm) (le_of_lt hm) (Or.inl (by simp)) hr
      · exact ⟨hw.x, hw.last⟩
      · exact ⟨hl.init, hl.last, hl.x⟩
    · rename_i ht
      exact deltasThen_step hs hd N hN s.st .cPxP hw hl rfl id hc0 (Or.inl (by simp)) hr
    · rename_i ht
      exact absurd ⟨hn, ht⟩ hst
  · rename_i hn
    rw [if_neg hn]
    split at hr
    · rename_i hc
      rw [if_pos hc]
      exact deltasThen_step hs hd N hN s.st s.st.test hw hl rfl id hc0 (Or.inr rfl) hr
    · rename_i hc
      rw [if_neg hc]
      rw [not_or] at hc
      have hp : 0 < (if !E.never ∧ E.infeas then max (1000 * E.eps) (max E.raised E.dcd) else E.dcd) := by
        split
        · exact lt_max_of_lt_right (lt_max_of_lt_right hdc)
        · exact hdc
      refine ⟨⟨hl.init, hl.last, hl.x⟩, ⟨hw.x, hw.last⟩, rfl, le_of_lt hp, Or.inl ?_⟩
      unfold cgPhase
      simp only [hp, if_true, hc.1, if_false]
      split <;> omega

theorem cg_wrong_step {cfg : Cfg K} (hs : cfg.Sane) {b d0 : K} (hd : 0 < d0) (N : Nat) (hN : cfg.max < d0 * growth cfg ^ N) {E : Env K}
    (hE : E.OK b) (hdc : 0 < E.dcd) {s : CgSt K} {v : Vars K} (hw : Weak s.st) (hl : Lb cfg d0 s.st) (hc0 : 0 ≤ s.st.c) (hv : v.c = some s.st.c)
    (hr : (wrongInertia cfg E s v).1 = true) : Step cfg d0 N s.st (wrongInertia cfg E s v).2.1.st (wrongInertia cfg E s v).2.2 := by
  obtain ⟨f1, f2, f3, f4, f5, f6⟩ := finalizeTest_same cfg s.st
  have hw1 : Weak (finalizeTest cfg s.st) := ⟨by rw [f1]; exact hw.x, by rw [f2]; exact hw.last⟩
  have hl1 : Lb cfg d0 (finalizeTest cfg s.st) := ⟨hl.init, by rw [f2]; exact hl.last, by rw [f1]; exact hl.x⟩
  unfold wrongInertia perturbForWrongInertia at hr ⊢
  simp only at hr ⊢
  have hg0 := getDeltas_weak hs v hw1
  split at hr
  · rename_i hh
    rw [if_pos hh]
    simp only [Bool.and_eq_true, Bool.not_eq_true', decide_eq_true_eq] at hh
    have hz : s.st.c = 0 ∧ (getDeltas cfg (finalizeTest cfg s.st) v).2.1.xLast = 0 := by
      have h1 := hh.1
      have h2 := hh.2
      unfold getDeltas at h1 h2 ⊢
      simp only at h1 h2 ⊢
      split at h1
      · rename_i hm
        rw [if_pos hm] at h2 ⊢
        simp only at h2
        rw [hv] at h2
        exact ⟨Option.some.inj h2, rfl⟩
      · simp at h1
    have hlf : Lb cfg d0 (fallback E.dcd (getDeltas cfg (finalizeTest cfg s.st) v).2.1) :=
      ⟨hl.init, fun h => absurd hz.2 h, fun h => absurd rfl h⟩
    have hwf : Weak (fallback E.dcd (getDeltas cfg (finalizeTest cfg s.st) v).2.1) := ⟨le_refl _, hg0.last⟩
    obtain ⟨_, _, p3, p4, p5, p6, p7⟩ := getDeltas_progress hs hd hwf hlf N hN 0 trivial hr
    refine ⟨p3, getDeltas_weak hs _ hwf, by rw [p7, p5], by rw [p5]; exact le_of_lt hdc, Or.inl ?_⟩
    unfold cgPhase
    rw [p5, p4]
    have e1 : (fallback E.dcd (getDeltas cfg (finalizeTest cfg s.st) v).2.1).c = E.dcd := rfl
    have e2 : (fallback E.dcd (getDeltas cfg (finalizeTest cfg s.st) v).2.1).test = .noTest := rfl
    rw [e1, e2, hz.1]
    simp only [lt_irrefl, if_false, hdc, if_true]
    split <;> simp
  · rename_i hh
    rw [if_neg hh]
    obtain ⟨_, _, p3, p4, p5, p6, p7⟩ := getDeltas_progress hs hd hw1 hl1 N hN 0 trivial hr
    refine ⟨p3, hg0, by rw [p7, p5], by rw [p5, f4]; exact hc0, Or.inr ⟨?_, fun k hk => ?_⟩⟩
    · unfold cgPhase; rw [p5, p4, f4, f6]
    · have hk' : Stage cfg d0 (finalizeTest cfg s.st) k := by
        cases k with
        | zero => trivial
        | succ k => simp only [Stage] at hk ⊢; rw [f1]; exact hk
      obtain ⟨q1, q2, _⟩ := getDeltas_progress hs hd hw1 hl1 N hN k hk' hr
      exact ⟨q1, q2⟩

theorem cgPhase_le (st : St K) : cgPhase st ≤ 3 := by
  unfold cgPhase; split <;> split <;> omega

/-- number of calls left. -/
theorem cg_calls_bound {cfg : Cfg K} (hs : cfg.Sane) {b d0 : K} (hd : 0 < d0) (N : Nat) (hN : cfg.max < d0 * growth cfg ^ N) :
    ∀ (cs : List (CgCall K)) (h : CgH K) (k : Nat), (∀ c ∈ cs, c.same ∧ c.env.OK b ∧ 0 < c.env.dcd) → Weak h.s.st → Lb cfg d0 h.s.st → 0 ≤ h.s.st.c →
      h.v.c = some h.s.st.c → Stage cfg d0 h.s.st k → k ≤ N + 1 → (∀ pre, pre <+: cs → ¬ Stuck (pre.foldl (CgH.call cfg) h).s.st) →
      (cs.foldl (CgH.call cfg) h).ok = true → cs.length + (cgPhase h.s.st * (N + 2) + k) ≤ 4 * (N + 2)
  | [], h, k, _, _, _, _, _, _, hk, _, _ => by
    have := cgPhase_le h.s.st
    simp only [List.length_nil]
    nlinarith
  | c :: cs, h, k, hc, hw, hl, hc0, hv, hk, hkN, hst, hok => by
    obtain ⟨c1, c2, c3⟩ := hc c (by simp)
    have okStep : ∀ (cs : List (CgCall K)) (h : CgH K), (∀ c ∈ cs, c.same) → (cs.foldl (CgH.call cfg) h).ok = true → h.ok = true := by
      intro cs
      induction cs with
      | nil => intro h _ e; exact e
      | cons c cs ih =>
        intro h hs e
        have := ih _ (fun c h => hs c (by simp [h])) e
        cases c with
        | consider E => exact (hs (.consider E) (by simp)).elim
        | singular E => simp only [CgH.call, Bool.and_eq_true] at this; exact this.1
        | wrongInertia E => simp only [CgH.call, Bool.and_eq_true] at this; exact this.1
    rw [List.foldl_cons] at hok
    have hok1 := okStep cs _ (fun c h => (hc c (by simp [h])).1) hok
    have step : Step cfg d0 N h.s.st (h.call cfg c).s.st (h.call cfg c).v := by
      cases c with
      | consider E => exact absurd c1 (by simp [CgCall.same])
      | singular E =>
        simp only [CgH.call, Bool.and_eq_true] at hok1
        exact cg_singular_step hs hd N hN c2 c3 hw hl hc0 (hst [] (List.nil_prefix)) hok1.2
      | wrongInertia E =>
        simp only [CgH.call, Bool.and_eq_true] at hok1
        exact cg_wrong_step hs hd N hN c2 c3 hw hl hc0 hv hok1.2
    have rec' := fun j hj hjN => cg_calls_bound hs hd N hN cs (h.call cfg c) j (fun c h => hc c (by simp [h])) step.weak step.lb step.c0 step.vc hj hjN
      (fun pre hp => by
        have := hst (c :: pre) (by rw [List.cons_prefix_cons]; exact ⟨rfl, hp⟩)
        rwa [List.foldl_cons] at this) hok
    rcases step.prog with hp | ⟨hp, hp2⟩
    · have := rec' 0 trivial (by omega)
      simp only [List.length_cons]
      have : (cgPhase h.s.st + 1) * (N + 2) ≤ cgPhase (h.call cfg c).s.st * (N + 2) := Nat.mul_le_mul_right _ hp
      rw [Nat.add_mul] at this
      omega
    · obtain ⟨q1, q2⟩ := hp2 k hk
      have := rec' (k + 1) q2 (by omega)
      simp only [List.length_cons]
      have : cgPhase h.s.st * (N + 2) ≤ cgPhase (h.call cfg c).s.st * (N + 2) := Nat.mul_le_mul_right _ hp
      omega

/-- **C90.** For one system, reports of singularity and wrong inertia lead to failure after finitely many calls, whatever is asked for by the
handler, provided the regularisation `delta_cd` is positive.  Partial: as in the base class, provided the state in which the handler does nothing
(`DBG_ASSERT(false)`) is not met. -/
theorem cg_calls_end_partial [Archimedean K] {cfg : Cfg K} (hs : cfg.Sane) {b : K} (called : Bool) (cs : List (CgCall K)) (hE : ∀ c ∈ cs, c.env.OK b)
    (E : Env K) (hE0 : E.OK b) : ∃ B : Nat, ∀ ds : List (CgCall K), (∀ c ∈ ds, c.same ∧ c.env.OK b ∧ 0 < c.env.dcd) →
      (∀ pre, pre <+: ds → ¬ Stuck ((cs ++ CgCall.consider E :: pre).foldl (CgH.call cfg) (.start cfg called)).s.st) →
      B < ds.length → ((cs ++ CgCall.consider E :: ds).foldl (CgH.call cfg) (.start cfg called)).ok = false := by
  have hrun := cg_run_inv hs (cs ++ [CgCall.consider E]) (.start cfg called) (b := b) (by
    intro c hc
    rw [List.mem_append] at hc
    rcases hc with hc | hc
    · exact hE c hc
    · simp at hc; subst hc; exact hE0) ⟨le_refl _, le_refl _⟩ (by simp [CgH.start])
  have hsplit : ∀ ds : List (CgCall K), (cs ++ CgCall.consider E :: ds).foldl (CgH.call cfg) (.start cfg called) =
      ds.foldl (CgH.call cfg) ((cs ++ [CgCall.consider E]).foldl (CgH.call cfg) (.start cfg called)) := by
    intro ds
    rw [← List.foldl_append, List.append_assoc]; rfl
  generalize (cs ++ [CgCall.consider E]).foldl (CgH.call cfg) (.start cfg called) = h at hrun hsplit
  obtain ⟨hw, hok⟩ := hrun
  have hg1 : 1 < growth cfg := lt_min hs.firstInc hs.inc
  obtain ⟨d0, hd0, hlb⟩ : ∃ d0 : K, 0 < d0 ∧ Lb cfg d0 h.s.st := by
    refine ⟨Min.min cfg.init (Min.min (if h.s.st.xLast = 0 then 1 else h.s.st.xLast * cfg.dec) (if h.s.st.x = 0 then 1 else h.s.st.x)), ?_, ?_, ?_, ?_⟩
    · refine lt_min hs.init (lt_min ?_ ?_)
      · split
        · exact one_pos
        · rename_i h1; exact mul_pos (lt_of_le_of_ne hw.last (Ne.symm h1)) hs.dec0
      · split
        · exact one_pos
        · rename_i h1; exact lt_of_le_of_ne hw.x (Ne.symm h1)
    · exact min_le_left _ _
    · intro h1
      refine le_trans (min_le_right _ _) (le_trans (min_le_left _ _) ?_)
      rw [if_neg h1]
    · intro h1
      refine le_trans (min_le_right _ _) (le_trans (min_le_right _ _) ?_)
      rw [if_neg h1]
  obtain ⟨N, hN⟩ := pow_unbounded_of_one_lt (cfg.max / d0) hg1
  have hN' : cfg.max < d0 * growth cfg ^ N := by
    rw [div_lt_iff₀ hd0] at hN
    linarith
  refine ⟨4 * (N + 2), fun ds hds hst hlen => ?_⟩
  by_contra hc
  rw [Bool.not_eq_false, hsplit] at hc
  have hstart : h.ok = true := by
    have okStep : ∀ (cs : List (CgCall K)) (h : CgH K), (∀ c ∈ cs, c.same) → (cs.foldl (CgH.call cfg) h).ok = true → h.ok = true := by
      intro cs
      induction cs with
      | nil => intro h _ e; exact e
      | cons c cs ih =>
        intro h hs e
        have := ih _ (fun c h => hs c (by simp [h])) e
        cases c with
        | consider E => exact (hs (.consider E) (by simp)).elim
        | singular E => simp only [CgH.call, Bool.and_eq_true] at this; exact this.1
        | wrongInertia E => simp only [CgH.call, Bool.and_eq_true] at this; exact this.1
    exact okStep ds h (fun c hc => (hds c hc).1) hc
  have o := hok hstart
  have := cg_calls_bound hs hd0 N hN' ds h 0 hds hw hlb o.c0 (by rw [o.v]; rfl) trivial (by omega)
    (fun pre hp => by have := hst pre hp; rwa [hsplit] at this) hc
  omega

/-! ## Concrete cases -/

/-- numbers for the examples. -/
def demoE : Env ℚ := ⟨1 / 1000, 1 / 100, 1 / 10, 1 / 10 ^ 6, false, false, true⟩

theorem demoE_ok : demoE.OK 1 := ⟨by norm_num [demoE], by norm_num [demoE], by norm_num [demoE], by norm_num [demoE]⟩

/-- view of a state. -/
def cgView (h : CgH ℚ) : Bool × Option ℚ × Option ℚ × Degen × Degen × Test := (h.ok, h.v.x, h.v.c, h.s.st.hess, h.s.st.jac, h.s.st.test)

theorem demo_calls :
    cgView ([CgCall.consider demoE, .singular demoE].foldl (CgH.call defaultCfg) (.start defaultCfg true)) =
      (true, some 0, some (1 / 1000), .notYet, .notYet, .cPx0) ∧
    cgView ([CgCall.consider demoE, .singular demoE, .singular demoE, .wrongInertia demoE].foldl (CgH.call defaultCfg) (.start defaultCfg true)) =
      (true, some (1 / 100), some (1 / 100), .notYet, .no, .c0xP) := by decide +kernel

/-- Not stuck, and failing after 15 calls. -/
theorem demo_end :
    (∀ n, n < 16 → ¬ Stuck ((CgCall.consider demoE :: List.replicate n (.singular demoE)).foldl (CgH.call defaultCfg) (.start defaultCfg true)).s.st) ∧
    ((CgCall.consider demoE :: List.replicate 15 (.singular demoE)).foldl (CgH.call defaultCfg) (.start defaultCfg true)).ok = false ∧
    ((CgCall.consider demoE :: List.replicate 14 (.singular demoE)).foldl (CgH.call defaultCfg) (.start defaultCfg true)).ok = true := by
  unfold Stuck
  decide +kernel

/-- **Finding (C90).** The status "constraints not regularised, Hessian perturbed" is set although the constraints are regularised: the next
call concludes that the Jacobian is not degenerate, and two further systems lead to a degenerate Hessian, although the first system was never solved
without regularisation of the constraints.  The base class draws that conclusion only from systems solved without it. -/
theorem cg_wrong_conclusion :
    let sys : List (CgCall ℚ) := [.consider demoE, .singular demoE, .singular demoE]
    cgView (sys.foldl (CgH.call defaultCfg) (.start defaultCfg true)) = (true, some (1 / 10000), some (1 / 100), .notYet, .notYet, .c0xP) ∧
    ((sys ++ sys.take 2 ++ sys.take 2 ++ sys.take 1).foldl (CgH.call defaultCfg) (.start defaultCfg true)).s.st.jac = .no ∧
    ((sys ++ sys.take 2 ++ sys.take 2 ++ sys.take 1).foldl (CgH.call defaultCfg) (.start defaultCfg true)).s.st.hess = .yes ∧
    let psys : List (Call ℚ) := [.consider (1 / 1000), .singular, .singular]
    (H.run defaultCfg psys).st.test = .c0xP ∧ (H.run defaultCfg psys).v.c = some 0 := by decide +kernel

end Verif.CgPerturb
