import Verif.Proof.Mumpsd

/-! # The pivot tolerance -/

namespace Verif.Mumps
open Verif.AugSolve (Status Structure Known SolvesAll denote Contract Env)

set_option linter.unusedSectionVars false
set_option linter.unusedSimpArgs false
set_option linter.unusedVariables false

variable {K P M : Type} [Field K]
variable {L : Lib K P M}

/-! ## Which tolerance is used -/

/-- invariant of all histories. -/
structure TolInv (st : St K P M) : Prop where
  have_ : st.haveSym = true → ∃ d, lastAnalysis st.log = some d
  tol : ∀ d, lastAnalysis st.log = some d → st.ctl.tol = d.ctl.tol
  all : Faithful st.log

theorem lastAnalysis_skip {l log : List (Call P)} (h : ∀ c ∈ l, c.job ≠ 1) : lastAnalysis (l ++ log) = lastAnalysis log := by
  unfold lastAnalysis
  rw [List.find?_append, List.find?_eq_none.2 (fun c hc => by simpa using h c hc)]
  rfl

theorem faithful_append {l log : List (Call P)} {d : Call P} (hd : lastAnalysis log = some d) (hl : ∀ c ∈ l, c.job ≠ 1) (ht : ∀ c ∈ l, c.job = 2 → c.ctl.tol = d.ctl.tol)
    (h : Faithful log) : Faithful (l ++ log) := by
  induction l with
  | nil => exact h
  | cons c l ih =>
    have hl' : ∀ c ∈ l, c.job ≠ 1 := fun c hc => hl c (List.mem_cons_of_mem _ hc)
    refine ⟨fun hj => ⟨d, ?_, ht c List.mem_cons_self hj⟩, ih hl' fun c hc => ht c (List.mem_cons_of_mem _ hc)⟩
    show lastAnalysis (l ++ log) = _
    rw [lastAnalysis_skip hl']; exact hd

theorem faithful_other {l log : List (Call P)} (hl : ∀ c ∈ l, c.job ≠ 2) (h : Faithful log) : Faithful (l ++ log) := by
  induction l with
  | nil => exact h
  | cons c l ih => exact ⟨fun hj => absurd hj (hl c List.mem_cons_self), ih fun c hc => hl c (List.mem_cons_of_mem _ hc)⟩

theorem att_job {imax k mem : Nat} {calls : List (Call P)} (h : Attempts imax k mem calls) : ∀ c ∈ calls, c.job = 2 := by
  induction h with
  | last c hj hm => intro c' hc; simp only [List.mem_singleton] at hc; rw [hc]; exact hj
  | more c hj hm hs h ih =>
    intro c' hc
    simp only [List.mem_cons] at hc
    rcases hc with hc | hc
    · rw [hc]; exact hj
    · exact ih c' hc

theorem symbolic_tol {st : St K P M} (h : TolInv st) (b : Bool) : TolInv { (st.symbolic L).2 with haveSym := b } := by
  obtain ⟨m, i, e1, e2, e3⟩ := symbolic_res (L := L) st
  rw [e1]
  refine ⟨fun _ => ⟨_, rfl⟩, fun d hd => ?_, ⟨fun hj => by simp at hj, h.all⟩⟩
  unfold lastAnalysis at hd
  dsimp only at hd
  rw [List.find?_cons_of_pos (by simp)] at hd
  simp only [Option.some.injEq] at hd
  rw [← hd]

/-- the repeated calls. -/
theorem numeric_tol {st : St K P M} (h : TolInv st) (hs : st.haveSym = true) : TolInv (st.numeric L).2 := by
  obtain ⟨calls, N⟩ := numeric_res L st
  obtain ⟨mem, m, e⟩ := N.state
  obtain ⟨d, hd⟩ := h.have_ hs
  have hj := att_job N.att
  have hj1 : ∀ c ∈ calls.reverse, c.job ≠ 1 := fun c hc => by rw [hj c (List.mem_reverse.1 hc)]; simp
  rw [e]
  refine ⟨fun _ => ⟨d, ?_⟩, fun d' hd' => ?_, ?_⟩
  · dsimp only; rw [lastAnalysis_skip hj1]; exact hd
  · dsimp only at hd' ⊢; rw [lastAnalysis_skip hj1] at hd'; exact h.tol d' hd'
  · refine faithful_append hd hj1 (fun c hc _ => ?_) h.all
    obtain ⟨mm, ec⟩ := N.ctl c (List.mem_reverse.1 hc)
    rw [ec]
    exact h.tol d hd

theorem TolInv.congr {st st' : St K P M} (h : TolInv st) (h1 : st'.haveSym = st.haveSym) (h2 : st'.ctl.tol = st.ctl.tol) (h3 : st'.log = st.log) : TolInv st' :=
  ⟨fun e => by rw [h3]; exact h.have_ (h1 ▸ e), fun d e => by rw [h2]; exact h.tol d (h3 ▸ e), by rw [h3]; exact h.all⟩

theorem prepare_tol (chk : Bool) (neg : Nat) {st : St K P M} (h : TolInv st) : TolInv (st.prepare L chk neg).2 := by
  unfold St.prepare
  dsimp only
  have hA : ∀ r : Status × St K P M, r = (if (!st.haveSym) = true then
      if (st.symbolic L).1 = .success then (.success, { (st.symbolic L).2 with haveSym := true }) else st.symbolic L
      else (.success, st)) → TolInv r.2 ∧ (r.1 = .success → r.2.haveSym = true) := by
    intro r hr
    subst hr
    by_cases hs : st.haveSym = true
    · rw [if_neg (by simp [hs])]; exact ⟨h, fun _ => hs⟩
    · rw [if_pos (by simpa using hs)]
      by_cases h0 : (st.symbolic L).1 = .success
      · rw [if_pos h0]; exact ⟨symbolic_tol h true, fun _ => rfl⟩
      · rw [if_neg h0]; exact ⟨symbolic_tol h (st.symbolic L).2.haveSym, fun e => absurd e h0⟩
  generalize hr : (if (!st.haveSym) = true then
      if (st.symbolic L).1 = .success then (Status.success, { (st.symbolic L).2 with haveSym := true }) else st.symbolic L
      else (Status.success, st)) = r
  obtain ⟨a1, a2⟩ := hA r hr.symm
  by_cases hs : r.1 = .success
  · rw [if_neg (by simp [hs])]
    obtain ⟨f1, g, f2, _⟩ := factorize_eq L chk neg r.2
    have hf : TolInv (r.2.factorize L chk neg).2 := by
      rw [f2]; exact (numeric_tol a1 (a2 hs)).congr rfl rfl rfl
    split
    · exact hf.congr rfl rfl rfl
    · exact hf
  · rw [if_pos (by simpa using hs)]; exact a1

theorem loop_tol (k i : Nat) (ok : Bool) (arr : Nat → K) {st : St K P M} (h : TolInv st) : TolInv (st.solveLoop L k i ok arr).2.2 := by
  obtain ⟨⟨m, l, e, _, hj⟩, _⟩ := solveLoop_state L k i ok arr st
  have h1 : ∀ c ∈ l, c.job ≠ 1 := fun c hc => by rw [hj c hc]; simp
  have h2 : ∀ c ∈ l, c.job ≠ 2 := fun c hc => by rw [hj c hc]; simp
  rw [e]
  refine ⟨fun hs => ?_, fun d hd => ?_, faithful_other h2 h.all⟩
  · dsimp only; rw [lastAnalysis_skip h1]; exact h.have_ hs
  · dsimp only at hd ⊢; rw [lastAnalysis_skip h1] at hd; exact h.tol d hd

theorem solve_tol (new : Bool) (nrhs : Nat) (arr : Nat → K) (chk : Bool) (neg : Nat) {st : St K P M} (h : TolInv st) :
    TolInv (st.multiSolve L new nrhs arr chk neg).2.2 := by
  unfold St.multiSolve
  split
  · exact h.congr rfl rfl rfl
  · dsimp only
    have h1 : TolInv ({ st with pivtolChanged := false } : St K P M) := h.congr rfl rfl rfl
    have h2 : TolInv (if (new || st.refactorize) = true then ({ st with pivtolChanged := false } : St K P M).prepare L chk neg
        else (some .success, { st with pivtolChanged := false })).2 := by
      split
      · exact prepare_tol chk neg h1
      · exact h1
    generalize (if (new || st.refactorize) = true then ({ st with pivtolChanged := false } : St K P M).prepare L chk neg
        else (some .success, { st with pivtolChanged := false })) = r at h2 ⊢
    split
    · exact loop_tol _ _ _ _ h2
    · exact h2

theorem dependent_tol {st : St K P M} (h : TolInv st) : TolInv (st.dependent L).2.2 := by
  have hA : TolInv (st.depSymbolic L).2 ∧ ((st.depSymbolic L).1 = .success → (st.depSymbolic L).2.haveSym = true) := by
    unfold St.depSymbolic
    by_cases hs : st.haveSym = true
    · rw [if_neg (by simp [hs])]; exact ⟨h, fun _ => hs⟩
    · rw [if_pos (by simpa using hs)]
      have h' : TolInv ({ st with perm := 0, scal := 6 } : St K P M) := h.congr rfl rfl rfl
      dsimp only
      split
      · exact ⟨(symbolic_tol (L := L) h' true).congr rfl rfl rfl, fun _ => rfl⟩
      · rename_i h0
        exact ⟨(symbolic_tol (L := L) h' (({ st with perm := 0, scal := 6 } : St K P M).symbolic L).2.haveSym).congr rfl rfl rfl, fun e => absurd e h0⟩
  unfold St.dependent
  generalize st.depSymbolic L = r at *
  obtain ⟨rs, r⟩ := r
  dsimp only at hA ⊢
  by_cases hs : rs = .success
  · rw [if_neg (by simp [hs])]
    have hN := numeric_tol (L := L) (st := { r with ctl := { r.ctl with nul := true, nulTol := r.depTol } }) (hA.1.congr rfl rfl rfl) (hA.2 hs)
    generalize ({ r with ctl := { r.ctl with nul := true, nulTol := r.depTol } } : St K P M).numeric L = q at *
    obtain ⟨qo, q⟩ := q
    cases qo with
    | none => exact hN
    | some o =>
      dsimp only
      split
      · exact hN.congr rfl rfl rfl
      · split
        · exact hN.congr rfl rfl rfl
        · exact hN.congr rfl rfl rfl
  · rw [if_pos (by simpa using hs)]; exact hA.1

theorem ran_tol [LinearOrder P] {st : St K P M} {k : Known K} (h : Ran L st k) : TolInv st := by
  induction h with
  | start o c m => exact ⟨fun e => by simp [St.start] at e, fun d e => by simp [St.start, lastAnalysis] at e, trivial⟩
  | init o maxSet warm _ ih =>
    unfold St.init
    split
    · exact ih.congr rfl rfl rfl
    · dsimp only
      split
      · exact ⟨fun e => by simp at e, ih.tol, ih.all⟩
      · exact ⟨fun e => by simp at e, ih.tol, ih.all⟩
  | struct S _ ha ih =>
    unfold St.initStructure
    split
    · exact ⟨fun e => by simp at e, ih.tol, ih.all⟩
    · split
      · exact ih.congr rfl rfl rfl
      · exact ih
  | write v _ ih => exact ih.congr rfl rfl rfl
  | solve new nrhs arr chk neg _ ha ih => exact solve_tol new nrhs arr chk neg ih
  | quality _ ih =>
    unfold St.quality
    split
    · exact ih
    · exact ih.congr rfl rfl rfl
  | dependent _ hk _ hn ih => exact dependent_tol ih

/-! ## Raising the tolerance has no effect -/

/-- a state with another pivot tolerance in the interface object. -/
def St.with_ (p : P) (b : Bool) (st : St K P M) : St K P M := { st with pivtol := p, refactorize := b }

theorem tryMore_with (p : P) (b : Bool) : ∀ k o (st : St K P M), (st.with_ p b).tryMore L k o = ((st.tryMore L k o).1, (st.tryMore L k o).2.with_ p b) := by
  intro k
  induction k with
  | zero => intro o st; rfl
  | succ k ih =>
    intro o st
    unfold St.tryMore
    show (match Ma27.memIncrease L.imax st.ctl.mem (2 * st.ctl.mem) 0 with | none => _ | some mem => _) = _
    cases Ma27.memIncrease L.imax st.ctl.mem (2 * st.ctl.mem) 0 with
    | none => rfl
    | some mem =>
      dsimp only
      have e : ({ st.with_ p b with ctl := { (st.with_ p b).ctl with mem := mem } } : St K P M).call2 L =
          ((({ st with ctl := { st.ctl with mem := mem } } : St K P M).call2 L).1, (({ st with ctl := { st.ctl with mem := mem } } : St K P M).call2 L).2.with_ p b) := rfl
      rw [e]
      generalize ({ st with ctl := { st.ctl with mem := mem } } : St K P M).call2 L = r
      dsimp only
      split
      · rfl
      · exact ih _ _

theorem numeric_with (p : P) (b : Bool) (st : St K P M) : (st.with_ p b).numeric L = ((st.numeric L).1, (st.numeric L).2.with_ p b) := by
  unfold St.numeric
  have e : (st.with_ p b).call2 L = ((st.call2 L).1, (st.call2 L).2.with_ p b) := rfl
  rw [e]
  generalize st.call2 L = r
  dsimp only
  split
  · exact tryMore_with p b _ _ _
  · rfl

theorem factorize_with (p : P) (b chk : Bool) (neg : Nat) (st : St K P M) :
    (st.with_ p b).factorize L chk neg = ((st.factorize L chk neg).1, (st.factorize L chk neg).2.with_ p b) := by
  unfold St.factorize
  rw [numeric_with]
  generalize st.numeric L = r
  obtain ⟨ro, r⟩ := r
  cases ro with
  | none => rfl
  | some o =>
    dsimp only
    split
    · rfl
    · split
      · rfl
      · split
        · rfl
        · split
          · rfl
          · split <;> rfl

theorem loop_with (p : P) (b : Bool) : ∀ k i ok arr (st : St K P M), (st.with_ p b).solveLoop L k i ok arr =
    ((st.solveLoop L k i ok arr).1, (st.solveLoop L k i ok arr).2.1, (st.solveLoop L k i ok arr).2.2.with_ p b) := by
  intro k
  induction k with
  | zero => intro i ok arr st; rfl
  | succ k ih =>
    intro i ok arr st
    unfold St.solveLoop
    exact ih (i + 1) _ _ ({ st with m := (L.backsolve st.n st.m (fun j => arr (i * st.n + j))).2.2,
                                    log := ⟨3, st.ctl, (L.backsolve st.n st.m (fun j => arr (i * st.n + j))).1⟩ :: st.log })

/-- the end of `MultiSolve`. -/
def finish (L : Lib K P M) (nrhs : Nat) (arr : Nat → K) (r : Option Status × St K P M) : Option Status × (Nat → K) × St K P M :=
  if r.1 = some .success then
    (some (if (r.2.solveLoop L nrhs 0 true arr).1 then .success else .fatal), (r.2.solveLoop L nrhs 0 true arr).2.1, (r.2.solveLoop L nrhs 0 true arr).2.2)
  else (r.1, arr, r.2)

theorem multiSolve_prep (st : St K P M) (new : Bool) (hn : new = true ∨ (st.refactorize = true ∧ st.pivtolChanged = false)) (nrhs : Nat) (arr : Nat → K) (chk : Bool) (neg : Nat) :
    st.multiSolve L new nrhs arr chk neg = finish L nrhs arr (({ st with pivtolChanged := false } : St K P M).prepare L chk neg) := by
  unfold St.multiSolve
  rw [if_neg (by
    rcases hn with hn | ⟨_, hn⟩
    · simp [hn]
    · simp [hn])]
  have e1 : (new || st.refactorize) = true := by
    rcases hn with hn | ⟨hn, _⟩
    · simp [hn]
    · simp [hn]
  dsimp only
  rw [if_pos e1]
  rfl

/-- a solve for a new matrix, when the analysis has been done, does not depend on `pivtol_`. -/
theorem solve_with (p : P) (b : Bool) (st : St K P M) (hs : st.haveSym = true) (new : Bool) (hn : new = true ∨ (b = true ∧ st.pivtolChanged = false)) (nrhs : Nat) (arr : Nat → K) (chk : Bool)
    (neg : Nat) : ((st.with_ p b).multiSolve L new nrhs arr chk neg).1 = (st.multiSolve L true nrhs arr chk neg).1 ∧
      ((st.with_ p b).multiSolve L new nrhs arr chk neg).2.1 = (st.multiSolve L true nrhs arr chk neg).2.1 ∧
      ((st.with_ p b).multiSolve L new nrhs arr chk neg).2.2.m = (st.multiSolve L true nrhs arr chk neg).2.2.m ∧
      ((st.with_ p b).multiSolve L new nrhs arr chk neg).2.2.neg = (st.multiSolve L true nrhs arr chk neg).2.2.neg ∧
      ((st.with_ p b).multiSolve L new nrhs arr chk neg).2.2.log = (st.multiSolve L true nrhs arr chk neg).2.2.log := by
  rw [multiSolve_prep st true (Or.inl rfl), multiSolve_prep (st.with_ p b) new (by
    rcases hn with hn | hn
    · exact Or.inl hn
    · exact Or.inr hn)]
  have hp : ∀ s : St K P M, s.haveSym = true → s.prepare L chk neg =
      (if (s.factorize L chk neg).1 = some .success then ((s.factorize L chk neg).1, { (s.factorize L chk neg).2 with refactorize := false }) else s.factorize L chk neg) := by
    intro s h
    unfold St.prepare
    simp only [h, Bool.not_true, Bool.false_eq_true, if_false, ne_eq, not_true_eq_false]
  rw [hp _ (show ({ St.with_ p b st with pivtolChanged := false } : St K P M).haveSym = true from hs),
    hp _ (show ({ st with pivtolChanged := false } : St K P M).haveSym = true from hs)]
  have e2 : ({ St.with_ p b st with pivtolChanged := false } : St K P M) = ({ st with pivtolChanged := false } : St K P M).with_ p b := rfl
  rw [e2, factorize_with]
  generalize ({ st with pivtolChanged := false } : St K P M).factorize L chk neg = f
  obtain ⟨fs, f⟩ := f
  dsimp only
  by_cases h : fs = some .success
  · rw [if_pos h, if_pos h]
    unfold finish
    dsimp only
    rw [if_pos h, if_pos h]
    have e3 : ({ f.with_ p b with refactorize := false } : St K P M) = ({ f with refactorize := false } : St K P M).with_ p false := rfl
    rw [e3, loop_with (L := L) p false nrhs 0 true arr { f with refactorize := false }]
    exact ⟨rfl, rfl, rfl, rfl, rfl⟩
  · rw [if_neg h, if_neg h]
    unfold finish
    dsimp only
    rw [if_neg h, if_neg h]
    exact ⟨rfl, rfl, rfl, rfl, rfl⟩

/-! ## The tolerance is raised finitely often -/

theorem solve_pivtol (new : Bool) (nrhs : Nat) (arr : Nat → K) (chk : Bool) (neg : Nat) (st : St K P M) :
    (st.multiSolve L new nrhs arr chk neg).2.2.pivtol = st.pivtol ∧ (st.multiSolve L new nrhs arr chk neg).2.2.pivtolmax = st.pivtolmax := by
  have hnum : ∀ s : St K P M, (s.numeric L).2.pivtol = s.pivtol ∧ (s.numeric L).2.pivtolmax = s.pivtolmax := by
    intro s
    obtain ⟨calls, N⟩ := numeric_res L s
    obtain ⟨mem, m, e⟩ := N.state
    rw [e]; exact ⟨rfl, rfl⟩
  have hfac : ∀ s : St K P M, (s.factorize L chk neg).2.pivtol = s.pivtol ∧ (s.factorize L chk neg).2.pivtolmax = s.pivtolmax := by
    intro s
    obtain ⟨_, g, f2, _⟩ := factorize_eq L chk neg s
    rw [f2]; exact hnum s
  have hprep : ∀ s : St K P M, (s.prepare L chk neg).2.pivtol = s.pivtol ∧ (s.prepare L chk neg).2.pivtolmax = s.pivtolmax := by
    intro s
    unfold St.prepare
    dsimp only
    have hA : ∀ r : Status × St K P M, r = (if (!s.haveSym) = true then
        if (s.symbolic L).1 = .success then (.success, { (s.symbolic L).2 with haveSym := true }) else s.symbolic L
        else (.success, s)) → r.2.pivtol = s.pivtol ∧ r.2.pivtolmax = s.pivtolmax := by
      intro r hr
      subst hr
      split
      · split <;> exact ⟨rfl, rfl⟩
      · exact ⟨rfl, rfl⟩
    generalize hr : (if (!s.haveSym) = true then
        if (s.symbolic L).1 = .success then (Status.success, { (s.symbolic L).2 with haveSym := true }) else s.symbolic L
        else (Status.success, s)) = r
    have a := hA r hr.symm
    split
    · exact a
    · have b := hfac r.2
      rw [a.1, a.2] at b
      split <;> exact b
  unfold St.multiSolve
  split
  · exact ⟨rfl, rfl⟩
  · dsimp only
    have h2 : (if (new || st.refactorize) = true then ({ st with pivtolChanged := false } : St K P M).prepare L chk neg
        else (some .success, { st with pivtolChanged := false })).2.pivtol = st.pivtol ∧
        (if (new || st.refactorize) = true then ({ st with pivtolChanged := false } : St K P M).prepare L chk neg
        else (some .success, { st with pivtolChanged := false })).2.pivtolmax = st.pivtolmax := by
      split
      · exact hprep _
      · exact ⟨rfl, rfl⟩
    generalize (if (new || st.refactorize) = true then ({ st with pivtolChanged := false } : St K P M).prepare L chk neg
        else (some .success, { st with pivtolChanged := false })) = r at h2 ⊢
    split
    · obtain ⟨⟨m, l, e, _, _⟩, _⟩ := solveLoop_state L nrhs 0 true arr r.2
      dsimp only
      rw [e]; exact h2
    · exact h2

theorem dependent_pivtol (st : St K P M) : (st.dependent L).2.2.pivtol = st.pivtol ∧ (st.dependent L).2.2.pivtolmax = st.pivtolmax := by
  obtain ⟨c, m, b, calls, an, e, _⟩ := dependent_res (L := L) st
  rw [e]; exact ⟨rfl, rfl⟩

section Pivot
open Real
variable {Lr : Lib K ℝ M}

theorem later_pivtol (hL : Lr.raisePow = fun x => x ^ (1 / 2 : ℝ)) {st st' : St K ℝ M} {n : Nat} (h : Later Lr st n st')
    (h0 : 0 < st.pivtol) (h1 : st.pivtol ≤ st.pivtolmax) (h2 : st.pivtolmax < 1) :
    st'.pivtolmax = st.pivtolmax ∧ st.pivtol ≤ st'.pivtol ∧ st'.pivtol ≤ st.pivtolmax ∧
      min st.pivtolmax (st.pivtol ^ ((1 / 2 : ℝ) ^ n)) ≤ st'.pivtol ∧
      (0 < n → min st.pivtolmax (st.pivtol ^ ((1 / 2 : ℝ) ^ (n - 1))) < st.pivtolmax) := by
  induction h with
  | here => exact ⟨rfl, le_refl _, h1, by simp, fun h => by omega⟩
  | struct d nz ia ja _ ih =>
    unfold St.initStructure
    split
    · exact ih
    · split <;> exact ih
  | write v _ ih => exact ih
  | solve new nrhs arr chk neg _ ih =>
    obtain ⟨e1, e2⟩ := solve_pivtol (L := Lr) new nrhs arr chk neg _
    rw [e1, e2]; exact ih
  | dependent _ ih =>
    obtain ⟨e1, e2⟩ := dependent_pivtol (L := Lr) _
    rw [e1, e2]; exact ih
  | quality _ ih =>
    rename_i n st' _
    obtain ⟨i1, i2, i3, i4, i5⟩ := ih
    unfold St.quality
    split
    · simp only [Bool.false_eq_true, if_false]
      exact ⟨i1, i2, i3, i4, i5⟩
    · rename_i hne
      simp only [if_true, hL, i1]
      have hp : 0 < st'.pivtol := lt_of_lt_of_le h0 i2
      have hlt : st'.pivtol < 1 := lt_of_le_of_lt i3 h2
      have hinc : st'.pivtol ≤ st'.pivtol ^ (1 / 2 : ℝ) := by
        conv_lhs => rw [← Real.rpow_one st'.pivtol]
        exact Real.rpow_le_rpow_of_exponent_ge hp hlt.le (by norm_num)
      refine ⟨trivial, le_min h1 (le_trans i2 hinc), min_le_left _ _, ?_, fun _ => ?_⟩
      · refine le_min (min_le_left _ _) ?_
        have : (min st.pivtolmax (st.pivtol ^ ((1 / 2 : ℝ) ^ n))) ^ (1 / 2 : ℝ) ≤ st'.pivtol ^ (1 / 2 : ℝ) := by
          refine Real.rpow_le_rpow ?_ i4 (by norm_num)
          exact le_min (le_trans h0.le h1) (Real.rpow_nonneg h0.le _)
        refine le_trans ?_ this
        by_cases hc : st.pivtolmax ≤ st.pivtol ^ ((1 / 2 : ℝ) ^ n)
        · rw [min_eq_left hc]
          refine le_trans (min_le_left _ _) ?_
          conv_lhs => rw [← Real.rpow_one st.pivtolmax]
          exact Real.rpow_le_rpow_of_exponent_ge (lt_of_lt_of_le h0 h1) h2.le (by norm_num)
        · rw [min_eq_right (le_of_not_ge hc), ← Real.rpow_mul h0.le, ← pow_succ]
          exact min_le_right _ _
      · simp only [Nat.add_sub_cancel]
        refine lt_of_le_of_lt i4 (lt_of_le_of_ne i3 ?_)
        rw [i1] at hne
        exact hne

theorem quality_bound {p pmax : ℝ} (h0 : 0 < p) (h1 : p ≤ pmax) (h2 : pmax < 1) : ∃ N : ℕ, ∀ n, N ≤ n → pmax ≤ p ^ ((1 / 2 : ℝ) ^ n) := by
  have lp : Real.log p < 0 := Real.log_neg h0 (lt_of_le_of_lt h1 h2)
  have lm : Real.log pmax < 0 := Real.log_neg (lt_of_lt_of_le h0 h1) h2
  obtain ⟨N, hN⟩ := exists_pow_lt_of_lt_one (show (0 : ℝ) < Real.log pmax / Real.log p from div_pos_of_neg_of_neg lm lp)
    (show (1 / 2 : ℝ) < 1 by norm_num)
  refine ⟨N, fun n hn => ?_⟩
  have hle : (1 / 2 : ℝ) ^ n ≤ (1 / 2 : ℝ) ^ N := pow_le_pow_of_le_one (by norm_num) (by norm_num) hn
  have hlt : (1 / 2 : ℝ) ^ n < Real.log pmax / Real.log p := lt_of_le_of_lt hle hN
  rw [← Real.log_le_log_iff (lt_of_lt_of_le h0 h1) (Real.rpow_pos_of_pos h0 _), Real.log_rpow h0]
  rw [lt_div_iff_of_neg lp] at hlt
  linarith

end Pivot

end Verif.Mumps
