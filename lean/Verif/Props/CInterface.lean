import Verif.Proof.CInterfaceCalls
import Verif.Props.AdapterEval
import Verif.Props.Options

set_option linter.unusedSectionVars false
set_option linter.unusedSimpArgs false
set_option linter.unusedVariables false

/-! # C39: the C interface forwards data and reports failures -/

namespace Verif.CInterface
open Text

variable {K : Type}

/-- What the interface copies. -/
theorem snapshot_eq : @snapshot K = @copyIn K := rfl

/-! ### Creating a problem -/

/-- **C39 (creation).** A problem object is returned exactly for acceptable arguments. -/
theorem create_some_iff [One K] (h : Heap K) (a : CreateArgs) : (create h a).isSome = true ↔ Acceptable a := by
  unfold create Acceptable
  have e : ∀ o : Option Nat, o ≠ none ↔ o.isNone = false := fun o => by cases o <;> simp
  simp only [e]
  split
  · rename_i hc
    simp only [Bool.or_eq_true, Bool.and_eq_true, decide_eq_true_eq, beq_iff_eq, bne_iff_ne] at hc
    constructor
    · intro h; cases h
    · rintro ⟨h1, h2, h3, h4, h5, h6, h7, h8, h9⟩
      exfalso
      rcases hc with (((((((((hc | hc) | hc) | hc) | hc) | hc) | hc) | hc) | hc) | hc) | hc
      · omega
      · omega
      · rw [h3] at hc; cases hc
      · rw [h4] at hc; cases hc
      · obtain ⟨hm, hg⟩ := hc
        obtain ⟨g1, g2, -⟩ := h9 hm
        rw [g1, g2] at hg; rcases hg with hg | hg <;> cases hg
      · exact hc.2 (h8 hc.1)
      · have := (h9 hc.1).2.2.1; have := hc.2; omega
      · omega
      · rw [h6] at hc; cases hc
      · rw [h7] at hc; cases hc
      · obtain ⟨hm, hg⟩ := hc
        obtain ⟨-, -, -, g1, g2⟩ := h9 hm
        rw [g1, g2] at hg; rcases hg with hg | hg <;> cases hg
  · rename_i hc
    simp only [Bool.or_eq_true, Bool.and_eq_true, decide_eq_true_eq, beq_iff_eq, bne_iff_ne, not_or, not_and, Bool.not_eq_true,
      Decidable.not_not, not_lt] at hc
    obtain ⟨⟨⟨⟨⟨⟨⟨⟨⟨⟨h1, h2⟩, h3⟩, h4⟩, h5⟩, h6⟩, h7⟩, h8⟩, h9⟩, h10⟩, h11⟩ := hc
    refine ⟨fun _ => ⟨h1, h2, h3, h4, h8, h9, h10, h6, fun hm => ⟨(h5 hm).1, (h5 hm).2, h7 hm, (h11 hm).1, (h11 hm).2⟩⟩, fun _ => rfl⟩

/-- Data fixed when the problem is created. -/
structure Kept (p p' : Problem K) : Prop where
  n : p'.n = p.n
  m : p'.m = p.m
  xL : p'.xL = p.xL
  xU : p'.xU = p.xU
  gL : p'.gL = p.gL
  gU : p'.gU = p.gU
  neleJac : p'.neleJac = p.neleJac
  neleHess : p'.neleHess = p.neleHess
  indexStyle : p'.indexStyle = p.indexStyle
  evalF : p'.evalF = p.evalF
  evalG : p'.evalG = p.evalG
  evalGradF : p'.evalGradF = p.evalGradF
  evalJacG : p'.evalJacG = p.evalJacG
  evalH : p'.evalH = p.evalH

theorem Kept.refl (p : Problem K) : Kept p p := by constructor <;> rfl

theorem Kept.trans {p p' p'' : Problem K} (h : Kept p p') (h' : Kept p' p'') : Kept p p'' := by
  obtain ⟨⟩ := h; obtain ⟨⟩ := h'
  constructor <;> simp_all

/-- `IpoptSolve` changes the option list and the pointer `tnlp` of the problem object only. -/
theorem solve_problem (W : World K) (s : Sess K) (a : SolveArgs) :
    ∃ o t, (ipoptSolve W s a).2.p = { s.p with opts := o, tnlp := t } := by
  unfold ipoptSolve
  simp only
  split
  · exact ⟨_, s.p.tnlp, rfl⟩
  · split
    · exact ⟨_, s.p.tnlp, rfl⟩
    · split
      · exact ⟨_, false, rfl⟩
      · split
        · exact ⟨_, false, rfl⟩
        · split
          · exact ⟨_, false, rfl⟩
          · exact ⟨_, true, rfl⟩

theorem solve_kept (W : World K) (s : Sess K) (a : SolveArgs) : Kept s.p (ipoptSolve W s a).2.p := by
  obtain ⟨o, t, h⟩ := solve_problem W s a
  rw [h]; constructor <;> rfl

theorem step_kept (W : World K) (s : Sess K) (o : Op K) : Kept s.p (step W s o).2.p := by
  cases o with
  | solve a => exact solve_kept W s a
  | _ => constructor <;> rfl

theorem run_kept (W : World K) (ops : List (Op K)) : ∀ s : Sess K, Kept s.p (run W s ops).p := by
  induction ops with
  | nil => intro s; exact Kept.refl _
  | cons o ops ih => intro s; exact (step_kept W s o).trans (ih _)

/-- The requests of a solve and where their answers come from. -/
theorem solve_answers (W : World K) (s : Sess K) (a : SolveArgs) :
    ∀ p ∈ (ipoptSolve W s a).2.qa, ∃ s' : Rt K, Same (mkT s.p s.h a) s'.t ∧ p.2 = (serve W.user s' p.1).1 := by
  unfold ipoptSolve
  simp only
  split
  · simp
  · split
    · simp
    · split
      · simp
      · have hmk : mkT { s.p with opts := Opt.run W.optEnv s.p.opts (W.initApp s.p.opts).2 } s.h a = mkT s.p s.h a := rfl
        rw [hmk]
        have := exec_answers W.user (W.solver (Opt.run W.optEnv s.p.opts (W.initApp s.p.opts).2)).1 (mkT s.p s.h a) s.h s.calls
        split
        · exact this
        · split <;> exact this

/-- Requests recorded in a session come from the last solve; facts about every solve hold for all of them. -/
theorem run_qa (W : World K) (P : Req K × Ans K → Prop) (J : Sess K → Prop) (hJ : ∀ s o, J s → J (step W s o).2)
    (hP : ∀ s a, J s → ∀ p ∈ (ipoptSolve W s a).2.qa, P p) (ops : List (Op K)) :
    ∀ s : Sess K, J s → (∀ p ∈ s.qa, P p) → ∀ p ∈ (run W s ops).qa, P p := by
  induction ops with
  | nil => intro s _ h; exact h
  | cons o ops ih =>
    intro s hj h
    refine ih _ (hJ s o hj) ?_
    cases o with
    | solve a => exact hP s a hj
    | _ => exact h

/-- **C39 (problem data).** Whatever the caller does afterwards — writing to its arrays, setting options or scaling, solving repeatedly with
whatever callbacks and solver behaviour —, every solve sees the dimensions given at creation and the bounds as they were in the arrays at
creation. -/
theorem problem_data_kept [One K] (W : World K) (h : Heap K) (a : CreateArgs) (p : Problem K) (hc : create h a = some p)
    (ops : List (Op K)) (q : Req K) (r : Ans K) (hq : (q, r) ∈ (run W ⟨p, h, [], []⟩ ops).qa) :
    (q = .info → r = .info a.n a.m a.neleJac a.neleHess (a.indexStyle == 0)) ∧
    (q = .bounds → r = .bounds (snapshot h a.n a.xL) (snapshot h a.n a.xU) (if 0 < a.m then snapshot h a.m a.gL else none)
      (if 0 < a.m then snapshot h a.m a.gU else none)) := by
  simp only [snapshot_eq]
  have hp : p.n = a.n ∧ p.m = a.m ∧ p.xL = copyIn h a.n a.xL ∧ p.xU = copyIn h a.n a.xU ∧
      p.gL = (if 0 < a.m then copyIn h a.m a.gL else none) ∧ p.gU = (if 0 < a.m then copyIn h a.m a.gU else none) ∧
      p.neleJac = a.neleJac ∧ p.neleHess = a.neleHess ∧ p.indexStyle = a.indexStyle := by
    unfold create at hc
    split at hc
    · cases hc
    · cases hc
      exact ⟨rfl, rfl, rfl, rfl, rfl, rfl, rfl, rfl, rfl⟩
  have := run_qa W (fun pr => (pr.1 = .info → pr.2 = .info a.n a.m a.neleJac a.neleHess (a.indexStyle == 0)) ∧
    (pr.1 = .bounds → pr.2 = .bounds (copyIn h a.n a.xL) (copyIn h a.n a.xU) (if 0 < a.m then copyIn h a.m a.gL else none)
      (if 0 < a.m then copyIn h a.m a.gU else none))) (fun s => Kept p s.p) (fun s o hj => hj.trans (step_kept W s o))
    (by
      rintro s sa hk ⟨q, r⟩ hq
      obtain ⟨s', hs, hr⟩ := solve_answers W s sa _ hq
      obtain ⟨p1, p2, p3, p4, p5, p6, p7, p8, p9⟩ := hp
      simp only at hr ⊢
      constructor
      · rintro rfl
        rw [hr]
        simp only [serve, hs.n, hs.m, hs.neleJac, hs.neleHess, hs.indexStyle, mkT, hk.n, hk.m, hk.neleJac, hk.neleHess, hk.indexStyle,
          p1, p2, p7, p8, p9]
      · rintro rfl
        rw [hr]
        simp only [serve, hs.xL, hs.xU, hs.gL, hs.gU, mkT, hk.xL, hk.xU, hk.gL, hk.gU, p3, p4, p5, p6])
    ops ⟨p, h, [], []⟩ (Kept.refl p) (by simp) (q, r) hq
  exact this

/-- The call sets the scaling. -/
def isScaling : Op K → Bool
  | .scaling _ _ _ => true
  | _ => false

theorem run_scaling (W : World K) (ops : List (Op K)) (hno : ∀ o ∈ ops, isScaling o = false) :
    ∀ s : Sess K, (run W s ops).p.objScaling = s.p.objScaling ∧ (run W s ops).p.xScaling = s.p.xScaling ∧
      (run W s ops).p.gScaling = s.p.gScaling := by
  induction ops with
  | nil => intro s; exact ⟨rfl, rfl, rfl⟩
  | cons o ops ih =>
    intro s
    have h := ih (fun o ho => hno o (List.mem_cons_of_mem _ ho)) (step W s o).2
    have hs : (step W s o).2.p.objScaling = s.p.objScaling ∧ (step W s o).2.p.xScaling = s.p.xScaling ∧
        (step W s o).2.p.gScaling = s.p.gScaling := by
      cases o with
      | solve a =>
        obtain ⟨o, t, h⟩ := solve_problem W s a
        simp only [step]
        rw [h]; exact ⟨rfl, rfl, rfl⟩
      | scaling o x g => simp [isScaling] at hno
      | _ => exact ⟨rfl, rfl, rfl⟩
    exact ⟨h.1.trans hs.1, h.2.1.trans hs.2.1, h.2.2.trans hs.2.2⟩

theorem run_append (W : World K) (s : Sess K) (a b : List (Op K)) : run W s (a ++ b) = run W (run W s a) b := by
  simp [run, List.foldl_append]

/-- **C39 (scaling).** A solve sees the scaling factors of the last `SetIpoptProblemScaling` call, as they were in the arrays at that time. -/
theorem scaling_latest (W : World K) (s : Sess K) (pre mid : List (Op K)) (o : K) (x g : Ptr) (args : SolveArgs)
    (hno : ∀ op ∈ mid, isScaling op = false) (r : Ans K)
    (hq : (.scaling, r) ∈ (run W s (pre ++ [.scaling o x g] ++ mid ++ [.solve args])).qa) :
    r = .scaling o (snapshot (run W s pre).h s.p.n x) (snapshot (run W s pre).h s.p.m g) := by
  simp only [snapshot_eq]
  rw [run_append] at hq
  obtain ⟨s', hs, hr⟩ := solve_answers W _ args _ hq
  simp only [serve] at hr
  rw [hr, hs.objScaling, hs.xScaling, hs.gScaling]
  simp only [mkT]
  rw [run_append, run_append]
  obtain ⟨h1, h2, h3⟩ := run_scaling W mid hno (run W (run W s pre) [.scaling o x g])
  rw [h1, h2, h3]
  have hk := run_kept W pre s
  show Ans.scaling o (copyIn (run W s pre).h (run W s pre).p.n x) (copyIn (run W s pre).h (run W s pre).p.m g) = _
  rw [hk.n, hk.m]

/-- **C39 (scaling).** Without such a call there is no scaling. -/
theorem scaling_default [One K] (W : World K) (h : Heap K) (a : CreateArgs) (p : Problem K) (hc : create h a = some p)
    (ops : List (Op K)) (hno : ∀ op ∈ ops, isScaling op = false) (args : SolveArgs) (r : Ans K)
    (hq : (.scaling, r) ∈ (run W ⟨p, h, [], []⟩ (ops ++ [.solve args])).qa) : r = .scaling 1 none none := by
  have hp : p.objScaling = 1 ∧ p.xScaling = none ∧ p.gScaling = none := by
    unfold create at hc
    split at hc
    · cases hc
    · cases hc
      exact ⟨rfl, rfl, rfl⟩
  rw [run_append] at hq
  obtain ⟨s', hs, hr⟩ := solve_answers W _ args _ hq
  simp only [serve] at hr
  obtain ⟨h1, h2, h3⟩ := run_scaling W ops hno ⟨p, h, [], []⟩
  rw [hr, hs.objScaling, hs.xScaling, hs.gScaling]
  simp only [mkT]
  rw [h1, h2, h3, hp.1, hp.2.1, hp.2.2]

/-- **C39 (starting point).** Asked for a starting point, the interface delivers the contents of the caller's arrays at the call of
`IpoptSolve` (also if they are overwritten during the solve), and reports failure exactly if multipliers are requested whose array is
`NULL`. -/
theorem starting_point (W : World K) (s : Sess K) (args : SolveArgs) (ix iz il : Bool) (r : Ans K)
    (hq : (.start ix iz il, r) ∈ (ipoptSolve W s args).2.qa) :
    ∃ ok x zL zU lam, r = .start ok x zL zU lam ∧
      (ok = true ↔ (iz = true → args.multXL ≠ none ∧ args.multXU ≠ none) ∧ (il = true → args.multG ≠ none)) ∧
      (ix = true → x = snapshot s.h s.p.n args.x) ∧ (iz = true → zL = snapshot s.h s.p.n args.multXL ∧ zU = snapshot s.h s.p.n args.multXU) ∧
      (il = true → lam = snapshot s.h s.p.m args.multG) := by
  simp only [snapshot_eq]
  obtain ⟨s', hs, hr⟩ := solve_answers W s args _ hq
  simp only [serve] at hr
  rw [hs.startX, hs.startZL, hs.startZU, hs.startLam] at hr
  refine ⟨_, _, _, _, _, hr, ?_, ?_, ?_, ?_⟩
  · simp only [mkT, copyIn]
    cases args.multXL <;> cases args.multXU <;> cases args.multG <;> cases iz <;> cases il <;> simp
  · rintro rfl; rfl
  · rintro rfl; exact ⟨rfl, rfl⟩
  · rintro rfl; rfl

/-! ### Results -/

/-- A solve that gets to the solver. -/
def Runs (W : World K) (s : Sess K) (a : SolveArgs) : Prop :=
  (W.initApp s.p.opts).1 = .Solve_Succeeded ∧ a.x ≠ none ∧ (mkT s.p s.h a).valid = true

/-- The solver's run. -/
theorem solve_runs (W : World K) (s : Sess K) (a : SolveArgs) (hr : Runs W s a) :
    ∃ sv : Solver K, sv = (W.solver (Opt.run W.optEnv s.p.opts (W.initApp s.p.opts).2)).1 ∧
      (ipoptSolve W s a).2.h = (exec W.user sv ⟨mkT s.p s.h a, s.h, s.calls, []⟩).2.h ∧
      (ipoptSolve W s a).2.calls = (exec W.user sv ⟨mkT s.p s.h a, s.h, s.calls, []⟩).2.calls ∧
      (ipoptSolve W s a).2.qa = (exec W.user sv ⟨mkT s.p s.h a, s.h, s.calls, []⟩).2.qa ∧
      (ipoptSolve W s a).1 = (match (exec W.user sv ⟨mkT s.p s.h a, s.h, s.calls, []⟩).1 with
        | .ok st => .ok st
        | .error e => if isIpopt e then .ok .Unrecoverable_Exception else .error e) := by
  obtain ⟨h1, h2, h3⟩ := hr
  have hmk : mkT { s.p with opts := Opt.run W.optEnv s.p.opts (W.initApp s.p.opts).2 } s.h a = mkT s.p s.h a := rfl
  refine ⟨_, rfl, ?_⟩
  unfold ipoptSolve
  simp only [hmk]
  rw [if_neg (by simp [h1]), if_neg (by cases hx : a.x <;> simp_all), if_neg (by simp [h3])]
  cases (exec W.user (W.solver (Opt.run W.optEnv s.p.opts (W.initApp s.p.opts).2)).1 ⟨mkT s.p s.h a, s.h, s.calls, []⟩).1 with
  | ok st => exact ⟨rfl, rfl, rfl, rfl⟩
  | error e =>
    simp only
    by_cases he : isIpopt e = true
    · rw [if_pos he, if_pos he]; exact ⟨rfl, rfl, rfl, rfl⟩
    · rw [if_neg he, if_neg he]; exact ⟨rfl, rfl, rfl, rfl⟩

/-- A solve that does not get to the solver calls no callback, writes nothing, and says why. -/
theorem solve_not_runs (W : World K) (s : Sess K) (a : SolveArgs) (hr : ¬Runs W s a) :
    (ipoptSolve W s a).2.h = s.h ∧ (ipoptSolve W s a).2.calls = s.calls ∧ (ipoptSolve W s a).2.qa = [] ∧
      (ipoptSolve W s a).1 = .ok (if (W.initApp s.p.opts).1 = .Solve_Succeeded then .Invalid_Problem_Definition
        else (W.initApp s.p.opts).1) := by
  have hmk : mkT { s.p with opts := Opt.run W.optEnv s.p.opts (W.initApp s.p.opts).2 } s.h a = mkT s.p s.h a := rfl
  unfold ipoptSolve
  simp only [hmk]
  split
  · rename_i h; exact ⟨rfl, rfl, rfl, rfl⟩
  · rename_i h
    have h' : (W.initApp s.p.opts).1 = .Solve_Succeeded := by simpa using h
    split
    · exact ⟨rfl, rfl, rfl, rfl⟩
    · rename_i hx
      split
      · exact ⟨rfl, rfl, rfl, rfl⟩
      · rename_i hv
        exact absurd ⟨h', by cases hx' : a.x <;> simp_all, by simpa using hv⟩ hr

theorem created_valid_iff [One K] (W : World K) (h : Heap K) (a : CreateArgs) (p : Problem K) (hc : create h a = some p)
    (ops : List (Op K)) (args : SolveArgs) (hx : args.x ≠ none) :
    (mkT (run W ⟨p, h, [], []⟩ ops).p (run W ⟨p, h, [], []⟩ ops).h args).valid = true ↔ Solvable a := by
  have hacc : Acceptable a := (create_some_iff h a).1 (by rw [hc]; rfl)
  have hk := run_kept W ops ⟨p, h, [], []⟩
  simp only at hk
  have hp : p = {
      opts := [], tnlp := false, n := a.n, xL := copyIn h a.n a.xL, xU := copyIn h a.n a.xU, m := a.m,
      gL := (if a.m > 0 then copyIn h a.m a.gL else none), gU := (if a.m > 0 then copyIn h a.m a.gU else none),
      neleJac := a.neleJac, neleHess := a.neleHess, indexStyle := a.indexStyle,
      evalF := a.evalF, evalG := a.evalG, evalGradF := a.evalGradF, evalJacG := a.evalJacG, evalH := a.evalH,
      interm := none, objScaling := 1, xScaling := none, gScaling := none } := by
    unfold create at hc
    split at hc
    · cases hc
    · cases hc; rfl
  obtain ⟨a1, a2, a3, a4, a5, a6, a7, a8, a9⟩ := hacc
  have e : ∀ o : Option Nat, o ≠ none ↔ o.isSome = true := fun o => by cases o <;> simp
  have ec : ∀ (n : Int) (o : Ptr), (copyIn h n o).isSome = o.isSome := fun n o => by cases o <;> rfl
  have ec' : ∀ (h' : Heap K) (n : Int) (o : Ptr), (copyIn h' n o).isSome = o.isSome := fun h' n o => by cases o <;> rfl
  unfold T.valid mkT Solvable
  simp only [hk.n, hk.m, hk.xL, hk.xU, hk.gL, hk.gU, hk.neleJac, hk.neleHess, hk.indexStyle, hk.evalF, hk.evalG, hk.evalGradF,
    hk.evalJacG, hk.evalH]
  rw [hp]
  simp only [ec', e, Bool.and_eq_true, Bool.or_eq_true, decide_eq_true_eq, beq_iff_eq]
  rw [e] at a3 a4 a6 a7 hx
  have hgL : (if a.m > 0 then copyIn h a.m a.gL else none).isSome = true ∨ a.m = 0 := by
    by_cases hm : 0 < a.m
    · left; rw [if_pos hm, ec]; exact (e _).1 (a9 hm).1
    · right; omega
  have hgU : (if a.m > 0 then copyIn h a.m a.gU else none).isSome = true ∨ a.m = 0 := by
    by_cases hm : 0 < a.m
    · left; rw [if_pos hm, ec]; exact (e _).1 (a9 hm).2.1
    · right; omega
  have hnj : 0 ≤ a.neleJac := by
    by_cases hm : 0 < a.m
    · have := (a9 hm).2.2.1; omega
    · have := a8 (by omega); omega
  constructor
  · rintro ⟨⟨⟨⟨⟨⟨⟨_, hs⟩, -⟩, -⟩, h2⟩, -⟩, h3⟩, h4⟩
    exact ⟨h2, h3, h4, hs⟩
  · rintro ⟨h1, h2, h3, h4⟩
    exact ⟨⟨⟨⟨⟨⟨⟨⟨⟨⟨⟨⟨⟨⟨by omega, a2⟩, a3⟩, a4⟩, hgL⟩, hgU⟩, hnj⟩, a5⟩, h4⟩, hx⟩, a6⟩, h1⟩, a7⟩, h2⟩, h3⟩

/-- **C39 (failures).** `IpoptSolve` for a created problem: a failed initialisation is returned as it is; without starting point, or if a
callback is missing or the index style unknown, the result is `Invalid_Problem_Definition`; no callback is called and no array touched in
these cases.  Otherwise the solver runs and its status is returned, an exception raised by Ipopt as `Unrecoverable_Exception`. -/
theorem solve_status [One K] (W : World K) (h : Heap K) (a : CreateArgs) (p : Problem K) (hc : create h a = some p)
    (ops : List (Op K)) (args : SolveArgs) :
    let s := run W ⟨p, h, [], []⟩ ops
    let i := W.initApp s.p.opts
    (i.1 ≠ .Solve_Succeeded → (ipoptSolve W s args).1 = .ok i.1) ∧
    (i.1 = .Solve_Succeeded → (args.x = none ∨ ¬Solvable a) → (ipoptSolve W s args).1 = .ok .Invalid_Problem_Definition) ∧
    (i.1 ≠ .Solve_Succeeded ∨ args.x = none ∨ ¬Solvable a → (ipoptSolve W s args).2.h = s.h ∧ (ipoptSolve W s args).2.calls = s.calls) ∧
    (i.1 = .Solve_Succeeded → args.x ≠ none → Solvable a →
      (ipoptSolve W s args).1 = match (exec W.user (W.solver (Opt.run W.optEnv s.p.opts i.2)).1 ⟨mkT s.p s.h args, s.h, s.calls, []⟩).1 with
        | .ok st => .ok st
        | .error e => if isIpopt e then .ok .Unrecoverable_Exception else .error e) := by
  intro s i
  have hv : args.x ≠ none → ((mkT s.p s.h args).valid = true ↔ Solvable a) := created_valid_iff W h a p hc ops args
  have hnr : i.1 ≠ .Solve_Succeeded ∨ args.x = none ∨ ¬Solvable a → ¬Runs W s args := by
    rintro hor ⟨r1, r2, r3⟩
    rcases hor with h1 | h1 | h1
    · exact h1 r1
    · exact r2 h1
    · exact h1 ((hv r2).1 r3)
  refine ⟨fun h1 => ?_, fun h1 h2 => ?_, fun h1 => ?_, fun h1 h2 h3 => ?_⟩
  · obtain ⟨-, -, -, hs⟩ := solve_not_runs W s args (hnr (Or.inl h1))
    rw [hs, if_neg h1]
  · obtain ⟨-, -, -, hs⟩ := solve_not_runs W s args (hnr (Or.inr h2))
    rw [hs, if_pos h1]
  · obtain ⟨hs1, hs2, -, -⟩ := solve_not_runs W s args (hnr h1)
    exact ⟨hs1, hs2⟩
  · obtain ⟨sv, rfl, -, -, -, hs⟩ := solve_runs W s args ⟨h1, h2, (hv h2).2 h3⟩
    exact hs

/-- **C39** fails for creation as a whole: arguments for which `CreateIpoptProblem` returns a problem that no call of `IpoptSolve` accepts:
an unconstrained problem without constraint callbacks, or any problem without Hessian callback (as one would use with the limited-memory
Hessian approximation), or with an unknown index style. -/
theorem created_but_unsolvable :
    (∃ a : CreateArgs, Acceptable a ∧ a.m = 0 ∧ a.evalG = none ∧ a.evalJacG = none ∧ a.evalH ≠ none ∧ a.indexStyle = 0 ∧ ¬Solvable a) ∧
    (∃ a : CreateArgs, Acceptable a ∧ 0 < a.m ∧ a.evalG ≠ none ∧ a.evalJacG ≠ none ∧ a.evalH = none ∧ a.indexStyle = 0 ∧ ¬Solvable a) ∧
    (∃ a : CreateArgs, Acceptable a ∧ a.evalG ≠ none ∧ a.evalJacG ≠ none ∧ a.evalH ≠ none ∧ a.indexStyle = 2 ∧ ¬Solvable a) := by
  refine ⟨⟨⟨2, some 0, some 1, 0, none, none, 0, 3, 0, some 0, none, some 2, none, some 4⟩, ?_, rfl, rfl, rfl, by simp, rfl, ?_⟩,
    ⟨⟨2, some 0, some 1, 1, some 2, some 3, 2, 3, 0, some 0, some 1, some 2, some 3, none⟩, ?_, by simp, by simp, by simp, rfl, rfl, ?_⟩,
    ⟨⟨2, some 0, some 1, 1, some 2, some 3, 2, 3, 2, some 0, some 1, some 2, some 3, some 4⟩, ?_, by simp, by simp, by simp, rfl, ?_⟩⟩
  all_goals simp [Acceptable, Solvable]

/-- `IpoptSolve` lets no exception escape if the solver raises none but Ipopt's own. -/
theorem solve_returns (W : World K) (s : Sess K) (a : SolveArgs)
    (hs : ∀ m rt e, (exec W.user (W.solver m).1 rt).1 = .error e → isIpopt e = true) :
    ∃ st, (ipoptSolve W s a).1 = .ok st := by
  by_cases hr : Runs W s a
  · obtain ⟨sv, rfl, -, -, -, h⟩ := solve_runs W s a hr
    rw [h]
    cases he : (exec W.user (W.solver (Opt.run W.optEnv s.p.opts (W.initApp s.p.opts).2)).1 ⟨mkT s.p s.h a, s.h, s.calls, []⟩).1 with
    | ok st => exact ⟨st, rfl⟩
    | error e => simp only; rw [if_pos (hs _ _ _ he)]; exact ⟨_, rfl⟩
  · exact ⟨_, (solve_not_runs W s a hr).2.2.2⟩

/-- `OptimizeNLP` raises nothing at all in the configuration chosen by `CreateIpoptProblem` (`RethrowNonIpoptException(false)`). -/
theorem optimizeNLP_returns {σ : Type} (cfg : Alg.CCfg) (st : Alg.Strategies σ) (app : Alg.App σ) (fuel : Nat) (a : Alg.A σ)
    (hr : app.rethrow = false) (r : Except Alg.Exn Alg.AppStatus) (a' : Alg.A σ) (h : Alg.optimizeNLP cfg st app fuel a = some (r, a')) :
    ∃ s, r = .ok s := by
  have ho : ∀ e, ∃ s, Alg.outerHandler false e = some s := by intro e; cases e <;> exact ⟨_, rfl⟩
  unfold Alg.optimizeNLP at h
  simp only [hr] at h
  split at h
  · cases h
  · cases h; exact ⟨_, rfl⟩
  · rename_i e a1 _
    obtain ⟨s, hs⟩ := ho e
    rw [hs] at h
    cases h; exact ⟨s, rfl⟩

/-- Outside of `IpoptSolve` the current iterate cannot be retrieved. -/
theorem no_retrieval_outside [One K] (W : World K) (h : Heap K) (a : CreateArgs) (p : Problem K) (hc : create h a = some p)
    (hs : ∀ m rt e, (exec W.user (W.solver m).1 rt).1 = .error e → isIpopt e = true) (ops : List (Op K)) (live : Bool) :
    canRetrieve (run W ⟨p, h, [], []⟩ ops).p live = false := by
  have hp : p.tnlp = false := by
    unfold create at hc
    split at hc
    · cases hc
    · cases hc; rfl
  have hstep : ∀ (s : Sess K) o, s.p.tnlp = false → (step W s o).2.p.tnlp = false := by
    intro s o h0
    cases o with
    | solve args =>
      simp only [step]
      unfold ipoptSolve
      simp only
      split
      · exact h0
      · split
        · exact h0
        · split
          · rfl
          · split
            · rfl
            · rename_i e he
              rw [if_pos (hs _ _ _ he)]
    | _ => exact h0
  have : ∀ (ops : List (Op K)) (s : Sess K), s.p.tnlp = false → (run W s ops).p.tnlp = false := by
    intro ops
    induction ops with
    | nil => intro s h; exact h
    | cons o ops ih => intro s h; exact ih _ (hstep s o h)
  unfold canRetrieve
  rw [this ops ⟨p, h, [], []⟩ hp]; rfl

/-- **C39 (results).** When the solver has reported a solution (`finalize_solution`, after it at most data of the problem were requested),
the arrays passed to `IpoptSolve` hold it after the call: final point, bound multipliers, constraint values, constraint multipliers and
objective value; `NULL` arguments are skipped.  The arrays are required to be different arrays. -/
theorem results_delivered (W : World K) (s : Sess K) (a : SolveArgs) (x zL zU g lam : List K) (obj : K)
    (hx : x.length = s.p.n.toNat) (hzL : zL.length = s.p.n.toNat) (hzU : zU.length = s.p.n.toNat) (hg : g.length = s.p.m.toNat)
    (hl : lam.length = s.p.m.toNat) (hd : [a.x, a.multXL, a.multXU, a.g, a.multG, a.obj].Pairwise Apart)
    (pre post : List (Req K × Ans K)) (r : Ans K) (hqa : (ipoptSolve W s a).2.qa = pre ++ (.finalize x zL zU g lam obj, r) :: post)
    (hpre : ∀ p ∈ pre, p.1.isQuery = true) :
    let h' := (ipoptSolve W s a).2.h
    (∀ p, a.x = some p → (h' p).take s.p.n.toNat = x) ∧ (∀ p, a.multXL = some p → (h' p).take s.p.n.toNat = zL) ∧
    (∀ p, a.multXU = some p → (h' p).take s.p.n.toNat = zU) ∧ (∀ p, a.g = some p → (h' p).take s.p.m.toNat = g) ∧
    (∀ p, a.multG = some p → (h' p).take s.p.m.toNat = lam) ∧ (∀ p, a.obj = some p → (h' p).take 1 = [obj]) := by
  by_cases hr : Runs W s a
  · obtain ⟨sv, -, h1, -, h3, -⟩ := solve_runs W s a hr
    rw [h3] at hqa
    have := exec_final W.user sv (mkT s.p s.h a) s.h s.calls x zL zU g lam obj hx hzL hzU hg hl hd pre post r hqa hpre
    simp only at this ⊢
    rw [h1]
    exact this
  · rw [(solve_not_runs W s a hr).2.2.1] at hqa
    simp at hqa

/-- **C39 (results).** If the callbacks do not write to the caller's arrays, a solve changes none but the arrays passed to it, and changes
nothing if no solution is reported. -/
theorem other_arrays_untouched (W : World K) (hu : ∀ cs h, (W.user cs h).2 = h) (s : Sess K) (a : SolveArgs) :
    (∀ b, a.x ≠ some b → a.multXL ≠ some b → a.multXU ≠ some b → a.g ≠ some b → a.multG ≠ some b → a.obj ≠ some b →
      (ipoptSolve W s a).2.h b = s.h b) ∧
    ((∀ p ∈ (ipoptSolve W s a).2.qa, ∀ x zL zU g lam obj, p.1 ≠ .finalize x zL zU g lam obj) → (ipoptSolve W s a).2.h = s.h) := by
  by_cases hr : Runs W s a
  · obtain ⟨sv, -, h1, -, h3, -⟩ := solve_runs W s a hr
    rw [h1, h3]
    constructor
    · intro b b1 b2 b3 b4 b5 b6
      have := exec_inv W.user (fun s' => Same (mkT s.p s.h a) s'.t ∧ s'.h b = s.h b)
        (by
          rintro s' q ⟨hs, hb⟩
          refine ⟨hs.trans (serve_same _ _ _), ?_⟩
          by_cases hq : ∃ x zL zU g lam obj, q = .finalize x zL zU g lam obj
          · obtain ⟨x, zL, zU, g, lam, obj, rfl⟩ := hq
            simp only [tick, serve]
            rw [hs.xSol, hs.zLSol, hs.zUSol, hs.gSol, hs.lamSol, hs.objSol]
            simp only [mkT]
            rw [copyOut_other _ _ _ _ _ b6, copyOut_other _ _ _ _ _ b5, copyOut_other _ _ _ _ _ b4, copyOut_other _ _ _ _ _ b3,
              copyOut_other _ _ _ _ _ b2, copyOut_other _ _ _ _ _ b1]
            exact hb
          · push Not at hq
            simp only [tick]
            rw [serve_heap W.user hu s' q hq]; exact hb)
        sv ⟨mkT s.p s.h a, s.h, s.calls, []⟩ ⟨Same.refl _, rfl⟩
      exact this.2
    · have := exec_inv W.user (fun s' => (∀ p ∈ s'.qa, ∀ x zL zU g lam obj, p.1 ≠ .finalize x zL zU g lam obj) → s'.h = s.h)
        (by
          intro s' q ih hq
          simp only [tick, serve_qa] at hq ⊢
          rw [serve_heap W.user hu s' q (hq (q, _) (List.mem_cons_self ..))]
          exact ih (fun p hp => hq p (List.mem_cons_of_mem _ hp)))
        sv ⟨mkT s.p s.h a, s.h, s.calls, []⟩ (fun _ => rfl)
      exact this
  · obtain ⟨e1, -, -, -⟩ := solve_not_runs W s a hr
    rw [e1]; exact ⟨fun _ _ _ _ _ _ _ => rfl, fun _ => rfl⟩

theorem copyOut_drop (h : Heap K) (n : Int) (v : List K) (p : Ptr) (b k : Nat) (hv : v.length = n.toNat) (hk : p = some b → n.toNat ≤ k) :
    (copyOut h n v p b).drop k = (h b).drop k := by
  cases p with
  | none => rfl
  | some a =>
    by_cases hb : b = a
    · subst hb
      have hk' := hk rfl
      have e : v.take n.toNat = v := by rw [← hv]; exact List.take_length
      simp only [copyOut, if_true, e]
      rw [List.drop_append, List.drop_of_length_le (by omega), List.nil_append, List.drop_drop]
      congr 1; omega
    · simp [copyOut, if_neg hb]

/-- **C39 (results).** If the callbacks do not write to the caller's arrays, a solve changes at most the first `n` (or `m`, or 1) elements of
the arrays passed to it. -/
theorem array_tails_untouched (W : World K) (hu : ∀ cs h, (W.user cs h).2 = h) (s : Sess K) (a : SolveArgs) (b k : Nat)
    (hlen : ∀ p ∈ (ipoptSolve W s a).2.qa, ∀ x zL zU g lam obj, p.1 = .finalize x zL zU g lam obj → x.length = s.p.n.toNat ∧
      zL.length = s.p.n.toNat ∧ zU.length = s.p.n.toNat ∧ g.length = s.p.m.toNat ∧ lam.length = s.p.m.toNat)
    (hx : a.x = some b → s.p.n.toNat ≤ k) (hxL : a.multXL = some b → s.p.n.toNat ≤ k) (hxU : a.multXU = some b → s.p.n.toNat ≤ k)
    (hg : a.g = some b → s.p.m.toNat ≤ k) (hl : a.multG = some b → s.p.m.toNat ≤ k) (ho : a.obj = some b → 1 ≤ k) :
    ((ipoptSolve W s a).2.h b).drop k = (s.h b).drop k := by
  by_cases hr : Runs W s a
  · obtain ⟨sv, -, h1, -, h3, -⟩ := solve_runs W s a hr
    rw [h3] at hlen
    rw [h1]
    have := exec_inv W.user (fun s' => Same (mkT s.p s.h a) s'.t ∧ ((∀ p ∈ s'.qa, ∀ x zL zU g lam obj, p.1 = .finalize x zL zU g lam obj →
        x.length = s.p.n.toNat ∧ zL.length = s.p.n.toNat ∧ zU.length = s.p.n.toNat ∧ g.length = s.p.m.toNat ∧ lam.length = s.p.m.toNat) →
        (s'.h b).drop k = (s.h b).drop k))
      (by
        rintro s' q ⟨hs, ih⟩
        refine ⟨hs.trans (serve_same _ _ _), ?_⟩
        intro hq
        simp only [tick, serve_qa] at hq ⊢
        have hb := ih (fun p hp => hq p (List.mem_cons_of_mem _ hp))
        by_cases hf : ∃ x zL zU g lam obj, q = .finalize x zL zU g lam obj
        · obtain ⟨x, zL, zU, g, lam, obj, rfl⟩ := hf
          obtain ⟨l1, l2, l3, l4, l5⟩ := hq _ (List.mem_cons_self ..) x zL zU g lam obj rfl
          simp only [serve]
          rw [hs.xSol, hs.zLSol, hs.zUSol, hs.gSol, hs.lamSol, hs.objSol, hs.n, hs.m]
          simp only [mkT]
          rw [copyOut_drop _ _ _ _ _ _ rfl ho, copyOut_drop _ _ _ _ _ _ l5 hl, copyOut_drop _ _ _ _ _ _ l4 hg, copyOut_drop _ _ _ _ _ _ l3 hxU,
            copyOut_drop _ _ _ _ _ _ l2 hxL, copyOut_drop _ _ _ _ _ _ l1 hx]
          exact hb
        · push Not at hf
          rw [serve_heap W.user hu s' q hf]; exact hb)
      sv ⟨mkT s.p s.h a, s.h, s.calls, []⟩ ⟨Same.refl _, fun _ => rfl⟩
    exact this.2 hlen
  · rw [(solve_not_runs W s a hr).1]

/-! ### Callbacks -/

theorem right_of_rightCall [One K] (W : World K) (h : Heap K) (a : CreateArgs) (p : Problem K) (hc : create h a = some p)
    (ops : List (Op K)) (args : SolveArgs) (hr : Runs W (run W ⟨p, h, [], []⟩ ops) args) (c : Call K)
    (hcall : RightCall (mkT (run W ⟨p, h, [], []⟩ ops).p (run W ⟨p, h, [], []⟩ ops).h args) c) :
    RightFunction a (run W ⟨p, h, [], []⟩ ops).p.interm c := by
  have hk := run_kept W ops ⟨p, h, [], []⟩
  simp only at hk
  have hp : p.m = a.m ∧ p.evalF = a.evalF ∧ p.evalG = a.evalG ∧ p.evalGradF = a.evalGradF ∧ p.evalJacG = a.evalJacG ∧ p.evalH = a.evalH := by
    unfold create at hc
    split at hc
    · cases hc
    · cases hc
      exact ⟨rfl, rfl, rfl, rfl, rfl, rfl⟩
  have hv := hr.2.2
  unfold T.valid mkT at hv
  simp only [Bool.and_eq_true] at hv
  obtain ⟨⟨⟨⟨⟨-, v1⟩, v2⟩, v3⟩, v4⟩, v5⟩ := hv
  obtain ⟨p0, p1, p2, p3, p4, p5⟩ := hp
  rw [hk.evalF, p1] at v1
  rw [hk.evalG, p2] at v2
  rw [hk.evalGradF, p3] at v3
  rw [hk.evalJacG, p4] at v4
  rw [hk.evalH, p5] at v5
  have e : ∀ (o : Option Nat) (f : Nat), o.isSome = true → f = o.getD 0 → o = some f := by
    intro o f ho hf
    cases o with
    | none => cases ho
    | some g => simpa using hf.symm
  unfold RightCall mkT at hcall
  unfold RightFunction
  cases hq : c.req with
  | evalF x b => rw [hq] at hcall; simp only [hk.evalF, p1] at hcall ⊢; exact ⟨e _ _ v1 hcall.1, hcall.2⟩
  | evalGradF x b => rw [hq] at hcall; simp only [hk.evalGradF, p3] at hcall ⊢; exact ⟨e _ _ v3 hcall.1, hcall.2⟩
  | evalG x b => rw [hq] at hcall; simp only [hk.evalG, p2] at hcall ⊢; exact ⟨e _ _ v2 hcall.1, hcall.2⟩
  | evalJacG x b => rw [hq] at hcall; simp only [hk.evalJacG, p4] at hcall ⊢; exact ⟨e _ _ v4 hcall.1, hcall.2⟩
  | evalH x b o lam nl =>
    rw [hq] at hcall
    simp only [hk.evalH, hk.m, p0, p5] at hcall ⊢
    exact ⟨e _ _ v5 hcall.1, hcall.2⟩
  | interm i j k l => rw [hq] at hcall; exact hcall
  | _ => rw [hq] at hcall; exact hcall

/-- **C39 (callbacks).** In every solve, each evaluation request of the solver, and each progress report if an intermediate callback is set,
leads to exactly one call, in order: of the function given for it at creation (or set as intermediate callback), with the flag `new_x` and
the multipliers of the request and the data pointer given to `IpoptSolve`.  The current iterate can be retrieved during the intermediate
callback and at no other time. -/
theorem callbacks_forwarded [One K] (W : World K) (h : Heap K) (a : CreateArgs) (p : Problem K) (hc : create h a = some p)
    (ops : List (Op K)) (args : SolveArgs) :
    let s := run W ⟨p, h, [], []⟩ ops
    ∃ cs, (ipoptSolve W s args).2.calls = cs ++ s.calls ∧
      (∀ c ∈ cs, RightFunction a s.p.interm c ∧ c.userData = args.userData ∧ c.live = c.req.isInterm) ∧
      cs.map (·.req) = ((ipoptSolve W s args).2.qa.map (·.1)).filter (fun q => q.point.isSome || (q.isInterm && s.p.interm.isSome)) := by
  intro s
  by_cases hr : Runs W s args
  · obtain ⟨sv, -, -, h2, h3, -⟩ := solve_runs W s args hr
    rw [h2, h3]
    obtain ⟨cs, c1, c2, c3⟩ := exec_callbacks W.user sv (mkT s.p s.h args) rfl s.h s.calls
    refine ⟨cs, c1, fun c hcm => ⟨right_of_rightCall W h a p hc ops args hr c (c2 c hcm).1, (c2 c hcm).2⟩, ?_⟩
    rw [c3]; rfl
  · obtain ⟨-, h2, h3, -⟩ := solve_not_runs W s args hr
    rw [h2, h3]
    exact ⟨[], rfl, by simp, by simp⟩

/-- **C39 (callbacks).** The solver gets what the callback returned: values, and success or failure; for the intermediate callback whether to
go on.  Without intermediate callback the answer is to go on. -/
theorem answers_from_callbacks (W : World K) (s : Sess K) (args : SolveArgs) (q : Req K) (r : Ans K)
    (hq : (q, r) ∈ (ipoptSolve W s args).2.qa) :
    (q.point.isSome = true → ∃ c cs h, c.req = q ∧ r = .eval (W.user (c :: cs) h).1.ok (W.user (c :: cs) h).1.vals) ∧
    (q.isInterm = true → (s.p.interm = none → r = .interm true) ∧
      ∀ fn, s.p.interm = some fn → ∃ c cs h, c.req = q ∧ c.fn = fn ∧ r = .interm (W.user (c :: cs) h).1.ok) := by
  obtain ⟨s', hs, hr⟩ := solve_answers W s args _ hq
  simp only at hr
  have hi : s'.t.interm = s.p.interm := hs.interm
  cases q with
  | interm a b c d =>
    refine ⟨by simp [Req.point], fun _ => ⟨fun h => ?_, fun fn h => ?_⟩⟩
    · unfold serve at hr
      simp only [hi, h] at hr
      exact hr
    · unfold serve at hr
      simp only [hi, h] at hr
      exact ⟨_, _, _, rfl, rfl, hr⟩
  | evalF x nx => exact ⟨fun _ => ⟨_, _, _, rfl, hr⟩, by simp [Req.isInterm]⟩
  | evalGradF x nx => exact ⟨fun _ => ⟨_, _, _, rfl, hr⟩, by simp [Req.isInterm]⟩
  | evalG x nx => exact ⟨fun _ => ⟨_, _, _, rfl, hr⟩, by simp [Req.isInterm]⟩
  | evalJacG x nx => exact ⟨fun _ => ⟨_, _, _, rfl, hr⟩, by simp [Req.isInterm]⟩
  | evalH x nx o lam nl => exact ⟨fun _ => ⟨_, _, _, rfl, hr⟩, by simp [Req.isInterm]⟩
  | _ => exact ⟨by simp [Req.point], by simp [Req.isInterm]⟩

/-- **C39 (evaluation points).** For callbacks that do not modify the array `x` they are handed: that array holds the point of the last request
that was flagged `new_x`, which is the requested point as long as every request flagged "not new" directly follows one at the same point. -/
theorem callbacks_get_point (W : World K) (hp : Polite W.user) (s : Sess K) (args : SolveArgs)
    (hs : ∀ p ∈ (ipoptSolve W s args).2.qa, Sane s.p.n p.1) (hf : AdapterEval.FlagsLast (points (ipoptSolve W s args).2.qa)) :
    ∃ cs, (ipoptSolve W s args).2.calls = cs ++ s.calls ∧
      ∀ c ∈ cs, ∀ v b, c.req.point = some (some v, b) → c.x = some v := by
  by_cases hr : Runs W s args
  · obtain ⟨sv, -, -, h2, h3, -⟩ := solve_runs W s args hr
    rw [h3] at hs hf
    rw [h2]
    obtain ⟨cs, c1, c2, c3⟩ := exec_callbacks W.user sv (mkT s.p s.h args) rfl s.h s.calls
    obtain ⟨cs', d1, d2⟩ := exec_x W.user hp sv (mkT s.p s.h args) rfl s.h s.calls
    have : cs' = cs := List.append_cancel_right (d1.symm.trans c1)
    subst this
    refine ⟨cs', c1, ?_⟩
    intro c hc v b hpt
    obtain ⟨pre, post, he⟩ := List.append_of_mem hc
    have hint : c.req.isInterm = false := by
      cases hq : c.req <;> first | rfl | (rw [hq] at hpt; simp [Req.point] at hpt)
    rw [d2 pre c post he hint]
    have hsane : ∀ q ∈ cs'.map (·.req), Sane s.p.n q := by
      intro q hq
      rw [c3] at hq
      obtain ⟨hq, -⟩ := List.mem_filter.1 hq
      obtain ⟨pr, hpr, rfl⟩ := List.mem_map.1 hq
      exact hs pr hpr
    have hfl : AdapterEval.FlagsLast (ptsR (cs'.map (·.req))) := by
      rw [c3, ptsR_filter, ← points_eq]; exact hf
    have hsuf : ptsR (cs'.map (·.req)) = ptsR (pre.map (·.req)) ++ ptsR (c.req :: post.map (·.req)) := by
      rw [he]; simp [ptsR, List.filterMap_append]
    rw [hsuf] at hfl
    have hmem : ∀ q ∈ c.req :: post.map (·.req), Sane s.p.n q := by
      intro q hq
      refine hsane q ?_
      rw [he, List.map_append, List.map_cons]
      exact List.mem_append_right _ hq
    have hfirst : ptsR (c.req :: post.map (·.req)) = (v, b) :: ptsR (post.map (·.req)) := by
      simp [ptsR, List.filterMap_cons, hpt]
    rw [lastNew_of_flags s.p.n _ hmem (flagsLast_suffix _ _ hfl) v b _ hfirst]
    have hlen := ((hmem c.req (List.mem_cons_self ..)) _ _ hpt).2 v rfl
    simp only [Option.map_some, mkT]
    rw [← hlen, List.take_length]
  · rw [(solve_not_runs W s args hr).2.1]
    exact ⟨[], rfl, by simp⟩

/-- **C39 (evaluation points, partial).** The same with the requests that the solver's evaluation layer makes when it evaluates the Jacobian
by the user's function and visits each point in one go.  (Full claim: for every history of the evaluation layer; see
`callbacks_wrong_point`.) -/
theorem callbacks_get_point_partial {Y L G J H D : Type} (W : World K) (hp : Polite W.user) (s : Sess K) (args : SolveArgs)
    (hs : ∀ p ∈ (ipoptSolve W s args).2.qa, Sane s.p.n p.1)
    (U : AdapterEval.User (List K) Y L G J H D) (cont : Nat → List K) (conty : Nat → Y) (x : List K) (g : G) (jac : J) (y : Y)
    (aops : List (AdapterEval.Op (List K) Y L))
    (hlog : points (ipoptSolve W s args).2.qa = (AdapterEval.run U .exact (AdapterEval.init x g jac y) aops).log)
    (ht : ∀ op ∈ aops, AdapterEval.Tagged cont conty op) (hr : ∀ op ∈ aops, AdapterEval.Reaches U op)
    (hcg : AdapterEval.Contig (aops.map fun op => op.pt.tag)) :
    ∃ cs, (ipoptSolve W s args).2.calls = cs ++ s.calls ∧
      ∀ c ∈ cs, ∀ v b, c.req.point = some (some v, b) → c.x = some v :=
  callbacks_get_point W hp s args hs (by
    rw [hlog]; exact AdapterEval.new_x_flag_last_partial U cont conty x g jac y aops ht hr hcg)

/-! ### Options -/

/-- **C39 (options).** The option list of the problem is always that of a program that calls the setters of the option list directly, in the
same order (and `Initialize` and the solver at the same places). -/
theorem options_forwarded (W : World K) (ops : List (Op K)) : ∀ s : Sess K,
    ∃ qs, OptHistory W s.p.opts ops qs ∧ (run W s ops).p.opts = Opt.run W.optEnv s.p.opts qs := by
  induction ops with
  | nil => intro s; exact ⟨[], .nil _, rfl⟩
  | cons o ops ih =>
    intro s
    obtain ⟨qs, h1, h2⟩ := ih (step W s o).2
    have hrun : run W s (o :: ops) = run W (step W s o).2 ops := rfl
    rw [hrun, h2]
    have happ : ∀ m a b, Opt.run W.optEnv m (a ++ b) = Opt.run W.optEnv (Opt.run W.optEnv m a) b := by
      intro m a b; simp [Opt.run, List.foldl_append]
    cases o with
    | write a v => exact ⟨qs, .other _ _ _ _ rfl (by simp) h1, rfl⟩
    | scaling c x g => exact ⟨qs, .other _ _ _ _ rfl (by simp) h1, rfl⟩
    | setInterm cb => exact ⟨qs, .other _ _ _ _ rfl (by simp) h1, rfl⟩
    | addStr k v => exact ⟨_, .opt _ _ _ _ _ rfl h1, rfl⟩
    | addNum k v => exact ⟨_, .opt _ _ _ _ _ rfl h1, rfl⟩
    | addInt k v => exact ⟨_, .opt _ _ _ _ _ rfl h1, rfl⟩
    | solve a =>
      have hcase : (step W s (.solve a)).2.p.opts = Opt.run W.optEnv s.p.opts (W.initApp s.p.opts).2 ∨
          (step W s (.solve a)).2.p.opts = Opt.run W.optEnv (Opt.run W.optEnv s.p.opts (W.initApp s.p.opts).2)
            (W.solver (Opt.run W.optEnv s.p.opts (W.initApp s.p.opts).2)).2 := by
        simp only [step]
        unfold ipoptSolve
        simp only
        split
        · exact Or.inl rfl
        · split
          · exact Or.inl rfl
          · split
            · exact Or.inl rfl
            · split
              · exact Or.inr rfl
              · split <;> exact Or.inr rfl
      rcases hcase with hc | hc
      · rw [hc] at h1 ⊢
        exact ⟨_, .init _ a _ _ h1, (happ _ _ _).symm⟩
      · rw [hc] at h1 ⊢
        exact ⟨_, .solve _ a _ _ h1, by rw [happ, happ]⟩

/-- Without a solve in between, the option list is that of the setter calls alone. -/
theorem options_forwarded_setters (W : World K) (ops : List (Op K)) (hno : ∀ o ∈ ops, ∀ a, o ≠ .solve a) (s : Sess K) :
    (run W s ops).p.opts = Opt.run W.optEnv s.p.opts (ops.filterMap optOp) := by
  obtain ⟨qs, h1, h2⟩ := options_forwarded W ops s
  have : ∀ (m : Opt.Store) (ops : List (Op K)) (qs : List Opt.Op), OptHistory W m ops qs → (∀ o ∈ ops, ∀ a, o ≠ .solve a) →
      qs = ops.filterMap optOp := by
    intro m ops qs h
    induction h with
    | nil m => intro _; rfl
    | opt m o q ops qs ho _ ih => intro hn; simp [List.filterMap_cons, ho, ih (fun o h => hn o (List.mem_cons_of_mem _ h))]
    | init m a ops qs _ _ => intro hn; exact absurd rfl (hn _ (List.mem_cons_self ..) a)
    | solve m a ops qs _ _ => intro hn; exact absurd rfl (hn _ (List.mem_cons_self ..) a)
    | other m o ops qs ho _ _ ih => intro hn; simp [List.filterMap_cons, ho, ih (fun o h => hn o (List.mem_cons_of_mem _ h))]
  rw [h2, this _ _ _ h1 hno]

/-- **C39 (options).** An integer option successfully set through the C interface has the value set, for every reader, as long as only other
options are touched (and it was not protected against changes before). -/
theorem int_option_effective (W : World K) (s : Sess K) (pre more : List (Op K)) (T T' : Str) (v : Int) (hs0 : s.p.opts = [])
    (hnp : ∀ o ∈ pre ++ more, ∀ a, o ≠ .solve a)
    (hbits : 0 < W.optEnv.idxBits ∧ W.optEnv.idxBits ≤ 64) (hv1 : -2 ^ (W.optEnv.idxBits - 1) ≤ v) (hv2 : v < 2 ^ (W.optEnv.idxBits - 1))
    (hok : (step W (run W s pre) (.addInt T v)).1 = .bool true) (hmore : ∀ o ∈ more.filterMap optOp, ¬Opt.Mentions T o)
    (hprot : ¬Opt.Protected (Opt.tableAfter W.optEnv (pre.filterMap optOp)) T)
    (hT : lower T' = lower T) (hr : Opt.Readable W.optEnv T' .integer) :
    (Opt.getInteger W.optEnv (run W s (pre ++ [.addInt T v] ++ more)).p.opts T' []).1 = .ok true (some v) := by
  have e1 := options_forwarded_setters W pre (fun o ho => hnp o (List.mem_append_left _ ho)) s
  have e2 := options_forwarded_setters W (pre ++ [.addInt T v] ++ more) (by
    intro o ho a
    simp only [List.mem_append, List.mem_singleton] at ho
    rcases ho with (ho | rfl) | ho
    · exact hnp o (List.mem_append_left _ ho) a
    · simp
    · exact hnp o (List.mem_append_right _ ho) a) s
  rw [hs0] at e1 e2
  rw [e2, List.filterMap_append, List.filterMap_append]
  refine Opt.integer_write_then_read W.optEnv T T' v true false (pre.filterMap optOp) (more.filterMap optOp) hbits hv1 hv2 ?_ hprot hmore hT hr
  rw [← e1]
  simp only [step] at hok
  simp only [Opt.step]
  rw [Ret.bool.inj hok]

/-- The same for strings. -/
theorem str_option_effective (W : World K) (s : Sess K) (pre more : List (Op K)) (T T' v : Str) (hs0 : s.p.opts = [])
    (hnp : ∀ o ∈ pre ++ more, ∀ a, o ≠ .solve a)
    (hok : (step W (run W s pre) (.addStr T v)).1 = .bool true) (hmore : ∀ o ∈ more.filterMap optOp, ¬Opt.Mentions T o)
    (hprot : ¬Opt.Protected (Opt.tableAfter W.optEnv (pre.filterMap optOp)) T)
    (hT : lower T' = lower T) (hr : Opt.Readable W.optEnv T' .string) :
    (Opt.getString W.optEnv (run W s (pre ++ [.addStr T v] ++ more)).p.opts T' []).1 = .ok true (some (Opt.shown W.optEnv T' v)) := by
  have e1 := options_forwarded_setters W pre (fun o ho => hnp o (List.mem_append_left _ ho)) s
  have e2 := options_forwarded_setters W (pre ++ [.addStr T v] ++ more) (by
    intro o ho a
    simp only [List.mem_append, List.mem_singleton] at ho
    rcases ho with (ho | rfl) | ho
    · exact hnp o (List.mem_append_left _ ho) a
    · simp
    · exact hnp o (List.mem_append_right _ ho) a) s
  rw [hs0] at e1 e2
  rw [e2, List.filterMap_append, List.filterMap_append]
  refine Opt.string_write_then_read W.optEnv T T' v true false (pre.filterMap optOp) (more.filterMap optOp) ?_ hprot hmore hT hr
  rw [← e1]
  simp only [step] at hok
  simp only [Opt.step]
  rw [Ret.bool.inj hok]

/-! ### Examples and what fails -/

/-- Arrays of the examples. -/
def exHeap : Heap ℤ := fun a => match a with
  | 0 => [0, -1]
  | 1 => [9, 9]
  | 2 => [1]
  | 3 => [2]
  | 4 => [5, 6, 77]
  | _ => [0, 0, 0]

/-- Two variables, one constraint. -/
def exArgs : CreateArgs := ⟨2, some 0, some 1, 1, some 2, some 3, 2, 3, 0, some 10, some 11, some 12, some 13, some 14⟩

example : Acceptable exArgs ∧ Solvable exArgs := by simp [Acceptable, Solvable, exArgs]

/-- Callbacks that always succeed with value `7` and write nothing. -/
def exUser : User ℤ := fun cs h => (⟨true, [7], (cs.head?.bind (·.x)).getD []⟩, h)

example : Polite exUser := by intro c cs h v hv; simp [exUser, hv]

/-- A solver run as with finite-difference Jacobian: constraints at a point, at a perturbed point, then the objective at the first point. -/
def exSolver : Solver ℤ :=
  .ask .info fun _ => .ask .bounds fun _ => .ask .scaling fun _ => .ask (.start true false false) fun _ =>
  .ask (.evalG (some [5, 6]) true) fun _ => .ask (.evalG (some [5, 7]) true) fun _ => .ask (.evalF (some [5, 6]) false) fun _ =>
  .ask (.interm 0 0 [] 1) fun _ =>
  .ask (.finalize [3, 4] [0, 0] [1, 0] [12] [-2] 8) fun _ => .ret (.ok .Solve_Succeeded)

def exWorld : World ℤ := ⟨Opt.exEnv, fun _ => (.Solve_Succeeded, []), fun _ => (exSolver, []), exUser⟩

/-- The problem object of the examples. -/
def exProblem : Problem ℤ := (create exHeap exArgs).getD ⟨[], false, 0, none, none, 0, none, none, 0, 0, 0, none, none, none, none, none, none, 0, none, none⟩

example : create exHeap exArgs = some exProblem := rfl

def exSess : Sess ℤ := ⟨exProblem, exHeap, [], []⟩

def exSolve : SolveArgs := { x := some 4, g := some 5, obj := some 6, multG := some 7, userData := 42 }

/-- Hypotheses of `results_delivered` are met; the results arrive, the rest of a longer array is left alone. -/
example : (ipoptSolve exWorld exSess exSolve).1 = .ok .Solve_Succeeded ∧
    (ipoptSolve exWorld exSess exSolve).2.h 4 = [3, 4, 77] ∧ (ipoptSolve exWorld exSess exSolve).2.h 5 = [12, 0, 0] ∧
    (ipoptSolve exWorld exSess exSolve).2.h 6 = [8, 0, 0] ∧ (ipoptSolve exWorld exSess exSolve).2.h 7 = [-2, 0, 0] ∧
    (ipoptSolve exWorld exSess exSolve).2.h 0 = [0, -1] ∧
    [exSolve.x, exSolve.multXL, exSolve.multXU, exSolve.g, exSolve.multG, exSolve.obj].Pairwise Apart := by
  refine ⟨rfl, rfl, rfl, rfl, rfl, rfl, ?_⟩
  simp [exSolve, Apart]

/-- The bounds the solver sees are those at creation, although the caller overwrote its array before solving. -/
example : (Req.bounds, Ans.bounds (some [0, -1]) (some [9, 9]) (some [1]) (some [2])) ∈
    (run exWorld exSess [.write 0 [100, 100], .scaling 2 (some 4) none, .write 4 [1, 1], .solve exSolve]).qa := by
  simp [run, step, setScaling, ipoptSolve, exWorld, exSess, exSolve, exSolver, exec, serve, evalCall, applyNewX, mkT, T.valid, exProblem, create, exArgs,
    copyIn, exHeap, Opt.run]

/-- The scaling factors are those at the call that set them. -/
example : (Req.scaling, Ans.scaling 2 (some [5, 6]) none) ∈
    (run exWorld exSess [.write 0 [100, 100], .scaling 2 (some 4) none, .write 4 [1, 1], .solve exSolve]).qa := by
  simp [run, step, setScaling, ipoptSolve, exWorld, exSess, exSolve, exSolver, exec, serve, evalCall, applyNewX, mkT, T.valid, exProblem, create, exArgs,
    copyIn, exHeap, Opt.run]

/-- User functions of the evaluation layer for the counterexample. -/
def exAU : AdapterEval.User (List ℤ) Nat Nat Nat Nat Nat Nat where
  f _ := some 0
  grad _ := some 0
  g _ := some 0
  jac _ := some 0
  h _ _ _ := some 0
  junkG _ g := g
  junkJ _ j := j
  lam a _ := a
  zeroWeights _ _ _ := false
  zeroH := 0

/-- **C39** fails for the evaluation point: with a finite-difference Jacobian, the evaluation layer asks for the objective at the iterate
with `new_x = false` right after evaluating constraints at a perturbed point; the C interface then hands the perturbed point to the user's
objective function.  (`apply_new_x` copies the point only if `new_x` is set.)  The user's functions change nothing, and the requests visit
each point in one go. -/
theorem callbacks_wrong_point :
    ∃ (W : World ℤ) (s : Sess ℤ) (args : SolveArgs) (aops : List (AdapterEval.Op (List ℤ) Nat Nat)) (pts : List ℤ → List (List ℤ))
      (combine : List ℤ → Nat → List Nat → Nat → Nat) (cont : Nat → List ℤ) (c : Call ℤ) (v w : List ℤ),
      Polite W.user ∧ (∀ op ∈ aops, AdapterEval.Tagged cont (fun _ => 0) op) ∧ AdapterEval.Contig (aops.map fun op => op.pt.tag) ∧
      points (ipoptSolve W s args).2.qa = (AdapterEval.run exAU (.findiff pts combine) (AdapterEval.init [] 0 0 0) aops).log ∧
      c ∈ (ipoptSolve W s args).2.calls ∧ c.req = .evalF (some v) false ∧ c.x = some w ∧ w ≠ v := by
  refine ⟨exWorld, exSess, exSolve, [.jac ⟨1, [5, 6]⟩, .f ⟨1, [5, 6]⟩], fun _ => [[5, 7]], fun _ _ _ _ => 0, fun _ => [5, 6],
    ⟨10, .evalF (some [5, 6]) false, some [5, 7], false, none, 42, false⟩, [5, 6], [5, 7], ?_, ?_, ?_, ?_, ?_, rfl, rfl, by decide⟩
  · intro c cs h v hv; simp [exWorld, exUser, hv]
  · intro op hop
    simp only [List.mem_cons, List.not_mem_nil, or_false] at hop
    rcases hop with rfl | rfl <;> exact ⟨by decide, rfl, trivial⟩
  · intro pre post t he hm
    simp only [List.map_cons, List.map_nil, AdapterEval.Op.pt] at he
    rcases pre with _ | ⟨p, _ | ⟨q, _ | ⟨r, pre⟩⟩⟩
    · simp at hm
    · simp only [List.cons_append, List.nil_append, List.cons.injEq] at he
      obtain ⟨rfl, rfl, -⟩ := he
      rfl
    · simp at he
    · simp at he
  · rfl
  · simp [ipoptSolve, exWorld, exSess, exSolve, exSolver, exec, serve, evalCall, applyNewX, mkT, T.valid, exProblem, create, exArgs,
      copyIn, exHeap, Opt.run, exUser]

/-- Hypotheses of `callbacks_get_point` for a run without the perturbed point. -/
example : AdapterEval.FlagsLast (points (K := ℤ) [(.evalF (some [5, 6]) false, .unit), (.evalG (some [5, 6]) true, .unit), (.evalJacG none false, .unit)]) := by
  intro pre post x he
  rcases pre with _ | ⟨p, _ | ⟨q, pre⟩⟩
  · simp [points, Req.point] at he
    obtain ⟨rfl, rfl⟩ := he
    exact ⟨true, [], rfl⟩
  · simp [points, Req.point] at he
  · simp [points, Req.point] at he

/-- A Hessian call for the sparsity structure hands an array with undefined contents to the user, not `NULL`. -/
example (W : World K) (s : Rt K) (o : K) : ∃ c, (serve W.user s (.evalH none false o none false)).2.calls = c :: s.calls ∧ c.lambda = none :=
  ⟨_, rfl, rfl⟩

end Verif.CInterface
