import Verif.Proof.Optimize
import Mathlib.Tactic.NormNum

/-! # The main loop (C18, C19, C20) -/

set_option linter.unusedSectionVars false
set_option linter.unusedSimpArgs false

namespace Verif.Alg

variable {σ : Type}

/-! ### Documented meaning of the return codes -/

/-- Return code for the reason a check gives to stop. -/
inductive CodeOfStatus : Status → SolverReturn → Prop
  | converged : CodeOfStatus .converged .SUCCESS
  | acceptable : CodeOfStatus .acceptable .STOP_AT_ACCEPTABLE_POINT
  | maxiter : CodeOfStatus .maxiter .MAXITER_EXCEEDED
  | cputime : CodeOfStatus .cputime .CPUTIME_EXCEEDED
  | walltime : CodeOfStatus .walltime .WALLTIME_EXCEEDED
  | diverging : CodeOfStatus .diverging .DIVERGING_ITERATES
  | userStop : CodeOfStatus .userStop .USER_REQUESTED_STOP

/-- Return code for a failure of a strategy object (`square`: as many equations as variables). -/
inductive CodeOfExn (square : Bool) : Exn → SolverReturn → Prop
  | tiny : CodeOfExn square .TINY_STEP_DETECTED .STOP_AT_TINY_STEP
  | acceptable : CodeOfExn square .ACCEPTABLE_POINT_REACHED .STOP_AT_ACCEPTABLE_POINT
  | infeasible : CodeOfExn square .LOCALLY_INFEASIBLE .LOCAL_INFEASIBILITY
  | restoFeasSquare (h : square = true) : CodeOfExn square .RESTORATION_CONVERGED_TO_FEASIBLE_POINT .FEASIBLE_POINT_FOUND
  | restoFeas (h : square = false) : CodeOfExn square .RESTORATION_CONVERGED_TO_FEASIBLE_POINT .RESTORATION_FAILURE
  | restoFailed : CodeOfExn square .RESTORATION_FAILED .RESTORATION_FAILURE
  | restoIter : CodeOfExn square .RESTORATION_MAXITER_EXCEEDED .MAXITER_EXCEEDED
  | restoCpu : CodeOfExn square .RESTORATION_CPUTIME_EXCEEDED .CPUTIME_EXCEEDED
  | restoWall : CodeOfExn square .RESTORATION_WALLTIME_EXCEEDED .WALLTIME_EXCEEDED
  | restoUser : CodeOfExn square .RESTORATION_USER_STOP .USER_REQUESTED_STOP
  | step : CodeOfExn square .STEP_COMPUTATION_FAILED .ERROR_IN_STEP_COMPUTATION
  | eval : CodeOfExn square .Eval_Error .INVALID_NUMBER_DETECTED
  | solved : CodeOfExn square .FEASIBILITY_PROBLEM_SOLVED .FEASIBLE_POINT_FOUND
  | dof : CodeOfExn square .TOO_FEW_DOF .TOO_FEW_DEGREES_OF_FREEDOM
  | abort : CodeOfExn square .INTERNAL_ABORT .INTERNAL_ERROR

/-- Failures that `Optimize` does not turn into a return code. -/
def Exn.Uncaught (e : Exn) : Prop :=
  e = .OPTION_INVALID ∨ e = .DYNAMIC_LIBRARY_FAILURE ∨ e = .INCONSISTENT_BOUNDS ∨ e = .otherIpopt ∨ e = .bad_alloc ∨
    e = .overflow_error ∨ e = .foreign

/-! ### Structure of a run -/

theorem checked_start (cfg : CCfg) (st : Strategies σ) (s : S σ) :
    Holds (call st.init ≫= fun _ => doCheck cfg st true) (fun s1 => s1 = s)
      (fun status s1 => Checked cfg status s1 ∧ s.iter ≤ s1.iter ∧ acceptedCount s1.log = acceptedCount s.log ∧
        (NoStop s.log → NoStop s1.log.tail))
      (fun _ s1 => Quiet s 0 s1) := by
  refine Holds.weaken (P := Quiet s 0) ?_ (fun s1 hs => hs ▸ ⟨le_refl _, rfl, fun h => h⟩) (fun _ _ h => h) (fun _ _ h => h)
  exact (call_quiet _ s 0).bind fun _ => (doCheck_true cfg st s 0)

/-- What a run of `Optimize` from an empty log looks like before the exception handlers. -/
theorem optimize_shape (cfg : CCfg) (st : Strategies σ) (fuel : Nat) (s : S σ) (h0 : s.log = [])
    (r : Except Exn SolverReturn) (s' : S σ) (h : optimize cfg st fuel s = some (r, s')) :
    (∃ status s1, Checked cfg status s1 ∧ status ≠ .cont ∧ acceptedCount s1.log ≤ cfg.maxIter - s.iter ∧ NoStop s1.log.tail ∧
      (r, s') = handle st (afterLoop st status s1)) ∨
    (∃ e s1, acceptedCount s1.log ≤ cfg.maxIter - s.iter ∧ NoStop s1.log ∧ (r, s') = handle st (.error e, s1)) := by
  have hns : NoStop s.log := by rw [h0]; intro o r hm; cases hm
  have ha0 : acceptedCount s.log = 0 := by rw [h0]; rfl
  obtain ⟨p1, p2⟩ := checked_start cfg st s s rfl
  unfold optimize at h
  cases hm : (call st.init ≫= fun _ => doCheck cfg st true) s with
  | mk r1 s1 =>
    rw [hm] at h
    cases r1 with
    | error e =>
      obtain ⟨q1, q2, q3⟩ := p2 e s1 hm
      right
      exact ⟨e, s1, by omega, q3 hns, (Option.some.inj h).symm⟩
    | ok status =>
      obtain ⟨q0, q1, q2, q3⟩ := p1 status s1 hm
      simp only at h
      cases hl : mainLoop cfg st fuel status s1 with
      | none => rw [hl] at h; cases h
      | some p =>
        obtain ⟨r2, s2⟩ := p
        rw [hl] at h
        obtain ⟨l1, l2⟩ := mainLoop_spec cfg st s.iter fuel status s1 ⟨q0, by omega, by omega, q3 hns⟩ r2 s2 hl
        cases r2 with
        | error e =>
          obtain ⟨m1, m2⟩ := l2 e rfl
          right
          exact ⟨e, s2, m1, m2, (Option.some.inj h).symm⟩
        | ok status' =>
          obtain ⟨⟨m1, m2, m3, m4⟩, m5⟩ := l1 status' rfl
          left
          exact ⟨status', s2, m1, m5, m3, m4, (Option.some.inj h).symm⟩

/-- **C20** `Optimize` ends: it does not need more passes than there are iterations left, whatever the strategies do. -/
theorem optimize_terminates (cfg : CCfg) (st : Strategies σ) (fuel : Nat) (s : S σ) (hf : cfg.maxIter - s.iter ≤ fuel) :
    ∃ r, optimize cfg st fuel s = some r := by
  obtain ⟨p1, p2⟩ := checked_start cfg st s s rfl
  unfold optimize
  cases hm : (call st.init ≫= fun _ => doCheck cfg st true) s with
  | mk r1 s1 =>
    cases r1 with
    | error e => exact ⟨_, rfl⟩
    | ok status =>
      obtain ⟨q0, q1, q2, q3⟩ := p1 status s1 hm
      obtain ⟨⟨r2, s2⟩, hr⟩ := mainLoop_terminates cfg st fuel status s1 (fun hh => hh ▸ q0) (by omega)
      simp only [hr]
      cases r2 with
      | error e => exact ⟨_, rfl⟩
      | ok status' => exact ⟨_, rfl⟩

/-- The result does not depend on the bound on the number of passes used in the model. -/
theorem optimize_more_fuel (cfg : CCfg) (st : Strategies σ) (fuel k : Nat) (s : S σ) (r : Except Exn SolverReturn × S σ)
    (h : optimize cfg st fuel s = some r) : optimize cfg st (fuel + k) s = some r := by
  unfold optimize at h ⊢
  cases hm : (call st.init ≫= fun _ => doCheck cfg st true) s with
  | mk r1 s1 =>
    rw [hm] at h
    cases r1 with
    | error e => exact h
    | ok status =>
      simp only at h ⊢
      cases hl : mainLoop cfg st fuel status s1 with
      | none => rw [hl] at h; cases h
      | some p =>
        rw [hl] at h
        rw [mainLoop_more_fuel cfg st fuel status s1 p k hl]
        exact h

/-- How a handler extends the log. -/
theorem handler_log (st : Strategies σ) (e : Exn) (h : M (S σ) SolverReturn) (hh : handler st e = some h) (s : S σ) :
    (h s).2.log = s.log ∨ (h s).2.log = .strategy :: s.log := by
  have hb : ∀ c : SolverReturn, ((call st.postprocess ≫= fun _ => M.pure c) s).2.log = .strategy :: s.log := by
    intro c
    unfold M.bind call
    cases hp : st.postprocess s.env with
    | mk r env => cases r <;> simp [M.pure, hp]
  cases e <;> simp only [handler] at hh <;> cases hh <;>
  first
  | (left; rfl)
  | (by_cases hq : st.square s.env = true
     · right; simp only [hq, if_true]; exact hb _
     · left; simp [hq])

theorem handle_log (st : Strategies σ) (p : Except Exn SolverReturn × S σ) :
    (handle st p).2.log = p.2.log ∨ ∃ e, (handle st p).2.log = .raised e :: p.2.log ∨
      (handle st p).2.log = .strategy :: .raised e :: p.2.log := by
  obtain ⟨r, s⟩ := p
  cases r with
  | ok a => left; rfl
  | error e =>
    right
    refine ⟨e, ?_⟩
    unfold handle
    simp only
    cases hh : handler st e with
    | none => left; rfl
    | some h => exact handler_log st e h hh _

theorem handle_accepted (st : Strategies σ) (p : Except Exn SolverReturn × S σ) :
    acceptedCount (handle st p).2.log = acceptedCount p.2.log := by
  rcases handle_log st p with h | ⟨e, h | h⟩ <;> rw [h] <;> simp [acceptedCount]

theorem afterLoop_cases (st : Strategies σ) (status : Status) (s : S σ) :
    (∃ e env, st.output s.env = (.error e, env) ∧
      afterLoop st status s = (.error e, { s with env := env, log := .strategy :: s.log })) ∨
    (∃ env, st.output s.env = (.ok (), env) ∧ (statusReturn status).2 = false ∧
      afterLoop st status s = (.ok (statusReturn status).1, { s with env := env, log := .strategy :: s.log })) ∨
    (∃ env env', st.output s.env = (.ok (), env) ∧ (statusReturn status).2 = true ∧ st.stopWatchdog env = (.ok (), env') ∧
      afterLoop st status s = (.ok (statusReturn status).1, { s with env := env', log := .strategy :: .strategy :: s.log })) ∨
    (∃ env e env', st.output s.env = (.ok (), env) ∧ (statusReturn status).2 = true ∧ st.stopWatchdog env = (.error e, env') ∧
      afterLoop st status s = (.error e, { s with env := env', log := .strategy :: .strategy :: s.log })) := by
  unfold afterLoop M.bind call
  cases ho : st.output s.env with
  | mk r env =>
    cases r with
    | error e => left; exact ⟨e, env, rfl, rfl⟩
    | ok u =>
      right
      cases hw : (statusReturn status).2 with
      | false => left; exact ⟨env, rfl, rfl, rfl⟩
      | true =>
        right
        simp only [if_true]
        cases hs : st.stopWatchdog env with
        | mk r' env' =>
          cases r' with
          | error e => right; exact ⟨env, e, env', rfl, trivial, hs, rfl⟩
          | ok u => left; exact ⟨env, env', rfl, trivial, hs, rfl⟩

theorem afterLoop_accepted (st : Strategies σ) (status : Status) (s : S σ) :
    acceptedCount (afterLoop st status s).2.log = acceptedCount s.log := by
  rcases afterLoop_cases st status s with ⟨e, env, _, h⟩ | ⟨env, _, _, h⟩ | ⟨env, env', _, _, _, h⟩ | ⟨env, e, env', _, _, _, h⟩ <;>
    rw [h] <;> simp [acceptedCount]

/-- **C20** At most `max_iter` iterations: whatever the strategies do, not more trial points are accepted than iterations are left. -/
theorem optimize_iterations_bounded (cfg : CCfg) (st : Strategies σ) (fuel : Nat) (s : S σ) (h0 : s.log = [])
    (r : Except Exn SolverReturn) (s' : S σ) (h : optimize cfg st fuel s = some (r, s')) :
    acceptedCount s'.log ≤ cfg.maxIter - s.iter := by
  rcases optimize_shape cfg st fuel s h0 r s' h with ⟨status, s1, _, _, ha, _, he⟩ | ⟨e, s1, ha, _, he⟩
  · have : s' = (handle st (afterLoop st status s1)).2 := by rw [← he]
    rw [this, handle_accepted, afterLoop_accepted]
    exact ha
  · have : s' = (handle st (.error e, s1)).2 := by rw [← he]
    rw [this, handle_accepted]
    exact ha

/-- **C20** If the user's callback asks to stop, nothing but the final output happens afterwards — no further strategy call, check or
accepted point — and `USER_REQUESTED_STOP` is returned (unless the final output itself raises an exception). -/
theorem optimize_user_stop (cfg : CCfg) (st : Strategies σ) (fuel : Nat) (s : S σ) (h0 : s.log = [])
    (r : Except Exn SolverReturn) (s' : S σ) (h : optimize cfg st fuel s = some (r, s'))
    (o : Obs) (res : Option Status) (hev : Event.check true o res ∈ s'.log) (hstop : o.goOn = false) :
    (r = .ok .USER_REQUESTED_STOP ∧ ∃ l, s'.log = .strategy :: .check true o res :: l ∧ NoStop l) ∨
    (∃ env e env', st.output env = (.error e, env')) := by
  have hnot : ∀ {l : List Event}, NoStop l → Event.check true o res ∉ l := by
    intro l hl hm
    have := hl o res hm
    rw [hstop] at this
    cases this
  have hback : ∀ p : Except Exn SolverReturn × S σ, (r, s') = handle st p → Event.check true o res ∈ p.2.log := by
    intro p hp
    have : s' = (handle st p).2 := by rw [← hp]
    rw [this] at hev
    rcases handle_log st p with e | ⟨x, e | e⟩ <;> rw [e] at hev
    · exact hev
    · simpa using hev
    · simpa using hev
  rcases optimize_shape cfg st fuel s h0 r s' h with ⟨status, s1, hc, _, ha, hn, he⟩ | ⟨e, s1, ha, hn, he⟩
  · have hm := hback _ he
    obtain ⟨o1, l, cc, hl, hi, hck⟩ := hc
    rw [hl] at hn
    have hmem : Event.check true o res ∈ s1.log := by
      rcases afterLoop_cases st status s1 with ⟨e, env, _, h⟩ | ⟨env, _, _, h⟩ | ⟨env, env', _, _, _, h⟩ | ⟨env, e, env', _, _, _, h⟩ <;>
        rw [h] at hm <;> simpa using hm
    rw [hl] at hmem
    rcases List.mem_cons.mp hmem with e | hmem
    · cases e
      have hst : status = .userStop := by
        have := (check_userStop_iff cfg true cc o).mpr ⟨rfl, hstop⟩
        rw [hck] at this
        exact Option.some.inj this
      subst hst
      rcases afterLoop_cases st .userStop s1 with ⟨e, env, ho, h⟩ | ⟨env, ho, _, h⟩ | ⟨env, env', _, hw, _, h⟩ |
        ⟨env, e, env', _, hw, _, h⟩
      · right; exact ⟨_, _, _, ho⟩
      · left
        rw [h] at he
        cases he
        exact ⟨rfl, l, by simp [hl], hn⟩
      · cases hw
      · cases hw
    · exact absurd hmem (hnot hn)
  · exact absurd (hback _ he) (hnot hn)

theorem handler_code (st : Strategies σ) (e : Exn) (h : M (S σ) SolverReturn) (hh : handler st e = some h) (s s' : S σ)
    (c : SolverReturn) (hr : h s = (.ok c, s')) : CodeOfExn (st.square s.env) e c := by
  have hb : ∀ c', (call st.postprocess ≫= fun _ => M.pure c') s = (.ok c, s') → c = c' := by
    intro c' h'
    unfold M.bind call at h'
    cases hp : st.postprocess s.env with
    | mk r env => cases r <;> simp_all [M.pure]
  cases e <;> simp only [handler] at hh <;> cases hh
  case RESTORATION_CONVERGED_TO_FEASIBLE_POINT =>
    by_cases hq : st.square s.env = true
    · simp only [hq, if_true] at hr
      rw [hb _ hr]
      exact .restoFeasSquare hq
    · simp only [hq] at hr
      cases hr
      exact .restoFeas (by simpa using hq)
  case FEASIBILITY_PROBLEM_SOLVED =>
    by_cases hq : st.square s.env = true
    · simp only [hq, if_true] at hr
      rw [hb _ hr]
      exact .solved
    · simp only [hq] at hr
      cases hr
      exact .solved
  all_goals
    cases hr
    constructor

theorem statusReturn_code (cfg : CCfg) (status : Status) (s : S σ) (hc : Checked cfg status s) (hn : status ≠ .cont) :
    CodeOfStatus status (statusReturn status).1 := by
  obtain ⟨o, l, cc, _, _, hck⟩ := hc
  have hf : status ≠ .failed := by
    intro hf
    subst hf
    have hl := limits_cases cfg o
    rcases check_cases cfg true cc o with ⟨a, e⟩ | ⟨a, b, e⟩ | ⟨a, b, c, d, e⟩ | ⟨a, b, c, d, e⟩ | ⟨u, _, _, _, e⟩ |
      ⟨u, _, _, _, e⟩ | ⟨u, _, _, e⟩ | ⟨u, _, e⟩ <;> rw [e] at hck <;>
    first
    | (simp at hck; done)
    | (rcases hl with hl | hl | hl | hl | hl <;> rw [hl] at hck <;> simp at hck)
  cases status <;> first | constructor | exact absurd rfl hn | exact absurd rfl hf

/-- **C20** Every return code of `Optimize` has its documented reason: either the last check gave the reason to stop (and no exception
was raised), or an exception was raised and it is the one documented for this code. -/
theorem optimize_return_reason (cfg : CCfg) (st : Strategies σ) (fuel : Nat) (s : S σ) (h0 : s.log = [])
    (code : SolverReturn) (s' : S σ) (h : optimize cfg st fuel s = some (.ok code, s')) :
    (∃ status o cc l, (s'.log = .strategy :: .check true o (some status) :: l ∨
        s'.log = .strategy :: .strategy :: .check true o (some status) :: l) ∧
      (check cfg true cc o).1 = some status ∧ CodeOfStatus status code) ∨
    (∃ e square l, (s'.log = .raised e :: l ∨ s'.log = .strategy :: .raised e :: l) ∧ CodeOfExn square e code) := by
  have key : ∀ e s1, (Except.ok code, s') = handle st (.error e, s1) →
      ∃ e square l, (s'.log = .raised e :: l ∨ s'.log = .strategy :: .raised e :: l) ∧ CodeOfExn square e code := by
    intro e s1 he
    unfold handle at he
    simp only at he
    cases hh : handler st e with
    | none => rw [hh] at he; cases he
    | some hd =>
      rw [hh] at he
      simp only at he
      refine ⟨e, _, s1.log, ?_, handler_code st e hd hh _ _ code he.symm⟩
      have := handler_log st e hd hh { s1 with log := .raised e :: s1.log }
      rw [← he] at this
      exact this
  rcases optimize_shape cfg st fuel s h0 _ s' h with ⟨status, s1, hc, hns, ha, hn, he⟩ | ⟨e, s1, ha, hn, he⟩
  · have hcode := statusReturn_code cfg status s1 hc hns
    obtain ⟨o1, l, cc, hl, hi, hck⟩ := hc
    rcases afterLoop_cases st status s1 with ⟨e, env, ho, h⟩ | ⟨env, ho, _, h⟩ | ⟨env, env', _, hw, _, h⟩ |
        ⟨env, e, env', _, hw, _, h⟩ <;> rw [h] at he
    · right; exact key _ _ he
    · left
      cases he
      exact ⟨status, o1, cc, l, Or.inl (by simp [hl]), hck, hcode⟩
    · left
      cases he
      exact ⟨status, o1, cc, l, Or.inr (by simp [hl]), hck, hcode⟩
    · right; exact key _ _ he
  · right; exact key _ _ he

/-- **C20** Failures that are not turned into a return code: only those of classes `Optimize` does not know, or failures of the
post-processing done inside an exception handler. -/
theorem optimize_propagates (cfg : CCfg) (st : Strategies σ) (fuel : Nat) (s : S σ) (h0 : s.log = [])
    (e : Exn) (s' : S σ) (h : optimize cfg st fuel s = some (.error e, s')) :
    e.Uncaught ∨ ∃ env env', st.postprocess env = (.error e, env') := by
  have key : ∀ x s1, (Except.error e, s') = handle st (.error x, s1) →
      e.Uncaught ∨ ∃ env env', st.postprocess env = (.error e, env') := by
    intro x s1 he
    have hb : ∀ (c : SolverReturn) (s2 : S σ), (call st.postprocess ≫= fun _ => M.pure c) s2 = (.error e, s') →
        ∃ env env', st.postprocess env = (.error e, env') := by
      intro c s2 h'
      unfold M.bind call at h'
      cases hp : st.postprocess s2.env with
      | mk r env =>
        cases r with
        | ok u => simp [hp, M.pure] at h'
        | error e' =>
          simp only [hp] at h'
          refine ⟨s2.env, env, ?_⟩
          injection h' with h1 h2
          rw [hp]
          injection h1 with h1
          rw [h1]
    unfold handle at he
    simp only at he
    cases x <;> simp only [handler] at he
    case RESTORATION_CONVERGED_TO_FEASIBLE_POINT =>
      right
      by_cases hq : st.square s1.env = true
      · simp only [hq, if_true] at he
        exact hb _ _ he.symm
      · simp only [hq] at he
        cases he
    case FEASIBILITY_PROBLEM_SOLVED =>
      right
      by_cases hq : st.square s1.env = true
      · simp only [hq, if_true] at he
        exact hb _ _ he.symm
      · simp only [hq] at he
        cases he
    all_goals
      first
      | (cases he; done)
      | (left; cases he; simp [Exn.Uncaught])
  rcases optimize_shape cfg st fuel s h0 _ s' h with ⟨status, s1, hc, hns, ha, hn, he⟩ | ⟨x, s1, ha, hn, he⟩
  · rcases afterLoop_cases st status s1 with ⟨e, env, ho, h⟩ | ⟨env, ho, _, h⟩ | ⟨env, env', _, hw, _, h⟩ |
        ⟨env, e, env', _, hw, _, h⟩ <;> rw [h] at he
    · exact key _ _ he
    · cases he
    · cases he
    · exact key _ _ he
  · exact key _ _ he

/-- **C18** If `Optimize` returns `SUCCESS`, the last convergence check — after which only the final output was done — saw values that
meet all tolerances (or a problem without variables whose constraints hold). -/
theorem optimize_success_sound (cfg : CCfg) (st : Strategies σ) (fuel : Nat) (s : S σ) (h0 : s.log = [])
    (s' : S σ) (h : optimize cfg st fuel s = some (.ok .SUCCESS, s')) :
    ∃ o l, (s'.log = .strategy :: .check true o (some .converged) :: l ∨
        s'.log = .strategy :: .strategy :: .check true o (some .converged) :: l) ∧
      (o.TolMet cfg ∨ (o.dim = 0 ∧ o.viol ≤ cfg.violTol)) := by
  rcases optimize_return_reason cfg st fuel s h0 _ s' h with ⟨status, o, cc, l, hl, hck, hc⟩ | ⟨e, sq, l, hl, hc⟩
  · cases hc
    exact ⟨o, l, hl, ((check_converged_iff cfg true cc o).mp hck).2⟩
  · cases hc

/-! ### Concrete runs -/

/-- A run whose strategies do nothing; the environment counts the checks, and the error becomes `0` at check `n`. -/
def exStrategies (n : Nat) (square : Bool) : Strategies Nat where
  init := M.pure ()
  hessian := M.pure ()
  output := M.pure ()
  mu := M.pure true
  dir := M.pure true
  fallback := M.pure false
  trial := M.pure 0
  accept := M.pure ()
  square := fun _ => square
  mayCalc := M.pure true
  calcMult := M.pure true
  restore := M.pure ()
  observe := fun k => (.ok (if k = n then { exObs 0 with err := .fin 0 } else exObs 0), k + 1)
  stopWatchdog := M.pure ()
  postprocess := M.pure ()

/-- Initial state. -/
def exStart : S Nat := ⟨0, 0, .init, []⟩

/-- Code or exception, number of accepted points, final iteration number. -/
def outcome : Option (Except Exn SolverReturn × S Nat) → Option (Sum Exn SolverReturn × Nat × Nat)
  | none => none
  | some (.ok c, s) => some (.inr c, acceptedCount s.log, s.iter)
  | some (.error e, s) => some (.inl e, acceptedCount s.log, s.iter)

theorem outcome_ok {x : Option (Except Exn SolverReturn × S Nat)} {c : SolverReturn} {n i : Nat}
    (h : outcome x = some (.inr c, n, i)) : ∃ s', x = some (.ok c, s') ∧ acceptedCount s'.log = n ∧ s'.iter = i := by
  match x, h with
  | none, h => cases h
  | some (.error e, s), h => cases h
  | some (.ok c', s), h =>
    simp only [outcome, Option.some.injEq, Prod.mk.injEq, Sum.inr.injEq] at h
    exact ⟨s, by rw [h.1], h.2.1, h.2.2⟩

example : outcome (optimize { exCfg with accIter := 0 } (exStrategies 2 false) 5 exStart) = some (.inr .SUCCESS, 2, 2) := by
  decide +kernel

example : outcome (optimize { exCfg with accIter := 0, maxIter := 3 } (exStrategies 20 false) 5 exStart) =
    some (.inr .MAXITER_EXCEEDED, 3, 3) := by decide +kernel

/-- A run in which the user stops at check `n`. -/
def exStopping (n : Nat) : Strategies Nat :=
  { exStrategies 100 false with observe := fun k => (.ok { exObs 0 with goOn := decide (k ≠ n) }, k + 1) }

example : outcome (optimize { exCfg with accIter := 0 } (exStopping 2) 5 exStart) = some (.inr .USER_REQUESTED_STOP, 2, 2) := by
  decide +kernel

/-- A run whose first trial point computation fails. -/
def exFailing (e : Exn) : Strategies Nat := { exStrategies 100 false with trial := M.throw e }

example : outcome (optimize exCfg (exFailing .RESTORATION_FAILED) 5 exStart) = some (.inr .RESTORATION_FAILURE, 0, 0) := by
  decide +kernel

example : outcome (optimize exCfg (exFailing .otherIpopt) 5 exStart) = some (.inl .otherIpopt, 0, 0) := by decide +kernel

/-- **C19, finding** The property counts *checks*, not iterations: for a square problem the multiplier computation performs up to two
more checks per iteration, so with `acceptable_iter = 4` the run below stops at an acceptable point after two iterations. -/
theorem acceptable_counts_checks_not_iterations :
    ∃ s', optimize { exCfg with accIter := 4 } (exStrategies 100 true) 5 exStart = some (.ok .STOP_AT_ACCEPTABLE_POINT, s') ∧
      acceptedCount s'.log = 2 ∧ s'.iter = 2 :=
  outcome_ok (by decide +kernel)

end Verif.Alg
