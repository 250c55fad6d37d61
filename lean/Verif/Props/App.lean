import Verif.Props.Optimize

/-! # The application: status translation and solution delivery (C21) -/

set_option linter.unusedSectionVars false
set_option linter.unusedSimpArgs false

namespace Verif.Alg

variable {σ : Type}

/-- Documented application status for a solver return code (`IpAlgTypes.hpp`, `IpReturnCodes_inc.h`, documentation "Ipopt output"). -/
inductive AppStatusOf : SolverReturn → AppStatus → Prop
  | ok : AppStatusOf .SUCCESS .Solve_Succeeded
  | acceptable : AppStatusOf .STOP_AT_ACCEPTABLE_POINT .Solved_To_Acceptable_Level
  | infeasible : AppStatusOf .LOCAL_INFEASIBILITY .Infeasible_Problem_Detected
  | tiny : AppStatusOf .STOP_AT_TINY_STEP .Search_Direction_Becomes_Too_Small
  | diverging : AppStatusOf .DIVERGING_ITERATES .Diverging_Iterates
  | user : AppStatusOf .USER_REQUESTED_STOP .User_Requested_Stop
  | feasible : AppStatusOf .FEASIBLE_POINT_FOUND .Feasible_Point_Found
  | maxiter : AppStatusOf .MAXITER_EXCEEDED .Maximum_Iterations_Exceeded
  | resto : AppStatusOf .RESTORATION_FAILURE .Restoration_Failed
  | step : AppStatusOf .ERROR_IN_STEP_COMPUTATION .Error_In_Step_Computation
  | cpu : AppStatusOf .CPUTIME_EXCEEDED .Maximum_CpuTime_Exceeded
  | wall : AppStatusOf .WALLTIME_EXCEEDED .Maximum_WallTime_Exceeded
  | dof : AppStatusOf .TOO_FEW_DEGREES_OF_FREEDOM .Not_Enough_Degrees_Of_Freedom
  | number : AppStatusOf .INVALID_NUMBER_DETECTED .Invalid_Number_Detected
  | internal : AppStatusOf .INTERNAL_ERROR .Internal_Error

/-- Documented application status for an exception that the algorithm does not handle. -/
inductive AppStatusOfExn : Exn → AppStatus → Prop
  | dof : AppStatusOfExn .TOO_FEW_DOF .Not_Enough_Degrees_Of_Freedom
  | option : AppStatusOfExn .OPTION_INVALID .Invalid_Option
  | library : AppStatusOfExn .DYNAMIC_LIBRARY_FAILURE .Invalid_Option
  | bounds : AppStatusOfExn .INCONSISTENT_BOUNDS .Invalid_Problem_Definition
  | alloc : AppStatusOfExn .bad_alloc .Insufficient_Memory
  | overflow : AppStatusOfExn .overflow_error .Insufficient_Memory
  | foreign : AppStatusOfExn .foreign .NonIpopt_Exception_Thrown
  | other {e : Exn} (h1 : e ≠ .TOO_FEW_DOF) (h2 : e ≠ .OPTION_INVALID) (h3 : e ≠ .DYNAMIC_LIBRARY_FAILURE)
      (h4 : e ≠ .INCONSISTENT_BOUNDS) (h5 : e ≠ .bad_alloc) (h6 : e ≠ .overflow_error) (h7 : e ≠ .foreign) :
      AppStatusOfExn e .Unrecoverable_Exception

/-- **C21** `OptimizeNLP` returns a status after every exception, raised anywhere — building the algorithm, running it, evaluating the
solution, in the user's `FinalizeSolution` — except for foreign exceptions if rethrowing is requested. -/
theorem optimizeNLP_returns_status (cfg : CCfg) (st : Strategies σ) (app : App σ) (fuel : Nat) (a a' : A σ)
    (r : Except Exn AppStatus) (h : optimizeNLP cfg st app fuel a = some (r, a')) :
    (∃ ret, r = .ok ret) ∨ (app.rethrow = true ∧ r = .error .foreign) := by
  have key : ∀ x : Option (Except Exn AppStatus × A σ),
      (match x with
       | none => none
       | some (.ok ret, a) => some (.ok ret, a)
       | some (.error e, a) =>
         match outerHandler app.rethrow e with
         | none => some (.error e, a)
         | some ret => some (.ok ret, a) : Option (Except Exn AppStatus × A σ)) = some (r, a') →
      (∃ ret, r = .ok ret) ∨ (app.rethrow = true ∧ r = .error .foreign) := by
    intro x hx
    match x, hx with
    | none, hx => cases hx
    | some (.ok ret, a), hx => cases hx; exact Or.inl ⟨_, rfl⟩
    | some (.error e, a), hx =>
      simp only at hx
      cases ho : outerHandler app.rethrow e with
      | some ret => rw [ho] at hx; cases hx; exact Or.inl ⟨_, rfl⟩
      | none =>
        rw [ho] at hx
        cases hx
        right
        cases e <;> simp only [outerHandler] at ho <;> try cases ho
        cases hr : app.rethrow <;> rw [hr] at ho
        · cases ho
        · exact ⟨rfl, rfl⟩
  exact key _ h

/-- A step that never raises an exception. -/
def Quietly {α : Type} (m : M σ α) : Prop := ∀ s, ∃ x s', m s = (.ok x, s')

/-- Nothing around the algorithm raises an exception. -/
structure App.Calm (app : App σ) : Prop where
  build : Quietly app.build
  init : Quietly app.initAlg
  summary : Quietly app.summary
  print : Quietly app.printRest
  stats : Quietly app.statistics
  eval : Quietly app.evaluate
  final : ∀ c, Quietly (app.finalize c)

theorem onEnv_quietly {α : Type} {m : M σ α} (h : Quietly m) (a : A σ) :
    ∃ x env, onEnv m a = (.ok x, { a with alg := { a.alg with env := env } }) := by
  obtain ⟨x, s', hs⟩ := h a.alg.env
  exact ⟨x, s', by unfold onEnv; rw [hs]⟩

/-- Running the algorithm from the state the application hands over (after building and initialising it). -/
def runAlg (cfg : CCfg) (st : Strategies σ) (app : App σ) (fuel : Nat) (a : A σ) : Option (Except Exn SolverReturn × S σ) :=
  optimize cfg st fuel (onEnv app.initAlg (onEnv app.build a).2).2.alg

theorem finish_calm (app : App σ) (hc : app.Calm) (ret : AppStatus) (status : SolverReturn) (a : A σ) :
    ∃ a', finish app ret status a = (.ok ret, a') ∧
      a'.finals = (if app.skipFinalize = false ∧ app.haveIterate a.alg.env = true then [(status, passesValues status)] else []) ++
        a.finals := by
  unfold finish
  by_cases h : app.skipFinalize = false ∧ app.haveIterate a.alg.env = true
  · rw [if_pos h, h.1, h.2]
    simp only [Bool.not_false, Bool.and_self, if_true]
    unfold M.bind
    cases hp : passesValues status with
    | false =>
      simp only [M.pure, hp]
      obtain ⟨x, env, hx⟩ := onEnv_quietly (hc.final status) { a with finals := (status, false) :: a.finals }
      rw [show (if false = true then onEnv app.evaluate else M.pure ()) a = (.ok (), a) from rfl]
      simp only [hx]
      exact ⟨_, rfl, rfl⟩
    | true =>
      simp only [M.pure, hp, if_true]
      obtain ⟨x, env, hx⟩ := onEnv_quietly hc.eval a
      simp only [hx]
      obtain ⟨y, env', hy⟩ := onEnv_quietly (hc.final status)
        { { a with alg := { a.alg with env := env } } with finals := (status, true) :: a.finals }
      simp only [hy]
      exact ⟨_, rfl, rfl⟩
  · rw [if_neg h]
    have : (!app.skipFinalize && app.haveIterate a.alg.env) = false := by
      cases h1 : app.skipFinalize <;> cases h2 : app.haveIterate a.alg.env <;> simp_all
    rw [this]
    exact ⟨a, rfl, rfl⟩

theorem onEnv_finals {α : Type} (m : M σ α) (a : A σ) : (onEnv m a).2.finals = a.finals := rfl

theorem finish_finals (app : App σ) (ret : AppStatus) (status : SolverReturn) (a : A σ) :
    (finish app ret status a).2.finals = a.finals ∨
      (finish app ret status a).2.finals = (status, passesValues status) :: a.finals := by
  unfold finish
  cases (!app.skipFinalize && app.haveIterate a.alg.env) with
  | false => left; rfl
  | true =>
    simp only [if_true]
    unfold M.bind
    have h1 : ((if passesValues status = true then onEnv app.evaluate else M.pure ()) a).2.finals = a.finals := by
      cases passesValues status <;> rfl
    cases hx : (if passesValues status = true then onEnv app.evaluate else M.pure ()) a with
    | mk r s1 =>
      rw [hx] at h1
      simp only at h1
      cases r with
      | error e => left; exact h1
      | ok u =>
        right
        simp only
        have h2 := onEnv_finals (app.finalize status) { s1 with finals := (status, passesValues status) :: s1.finals }
        cases hy : onEnv (app.finalize status) { s1 with finals := (status, passesValues status) :: s1.finals } with
        | mk r2 s2 =>
          rw [hy] at h2
          simp only [h1] at h2
          cases r2 <;> exact h2

theorem afterOptimize_finals (app : App σ) (status : SolverReturn) (a : A σ) :
    (afterOptimize app status a).2.finals = a.finals := by
  have hs : (summaryStep app status a).2.finals = a.finals := by
    unfold summaryStep
    by_cases h : status = .INVALID_NUMBER_DETECTED
    · rw [if_pos h]
    · rw [if_neg h]
      have := onEnv_finals app.summary a
      cases hx : onEnv app.summary a with
      | mk r s1 =>
        rw [hx] at this
        cases r with
        | ok u => exact this
        | error e => by_cases he : e = .Eval_Error <;> simp [he] <;> exact this
  unfold afterOptimize
  by_cases h : status = .TOO_FEW_DEGREES_OF_FREEDOM
  · rw [if_pos h]
  rw [if_neg h]
  cases hx : summaryStep app status a with
  | mk r s1 =>
    rw [hx] at hs
    cases r with
    | error e => exact hs
    | ok status1 =>
      simp only
      have h1 := onEnv_finals app.printRest s1
      cases hp : onEnv app.printRest s1 with
      | mk r2 s2 =>
        rw [hp] at h1
        cases r2 with
        | error e => simp only; rw [h1]; exact hs
        | ok u =>
          simp only
          cases translate status1 with
          | none => simp only; rw [h1]; exact hs
          | some ret =>
            simp only
            by_cases hq : status1 ≠ .INVALID_NUMBER_DETECTED
            · rw [if_pos hq]
              have h2 := onEnv_finals app.statistics s2
              cases ht : onEnv app.statistics s2 with
              | mk r3 s3 =>
                rw [ht] at h2
                cases r3 <;> simp only <;> rw [h2, h1] <;> exact hs
            · rw [if_neg hq]; simp only; rw [h1]; exact hs

theorem callOptimize_finals (cfg : CCfg) (st : Strategies σ) (app : App σ) (fuel : Nat) (a a' : A σ)
    (r : Except Exn AppStatus) (h : callOptimize cfg st app fuel a = some (r, a')) :
    a'.finals = a.finals ∨ ∃ p, a'.finals = p :: a.finals := by
  have fin : ∀ ret status (a1 : A σ), a1.finals = a.finals → finish app ret status a1 = (r, a') →
      a'.finals = a.finals ∨ ∃ p, a'.finals = p :: a.finals := by
    intro ret status a1 h1 h2
    have := finish_finals app ret status a1
    rw [h2, h1] at this
    rcases this with h | h
    · exact Or.inl h
    · exact Or.inr ⟨_, h⟩
  have err : ∀ e status (a1 : A σ), a1.finals = a.finals →
      (match appHandler app.rethrow e status with
       | none => some (.error e, a1)
       | some (ret, status) => some (finish app ret status a1) : Option (Except Exn AppStatus × A σ)) = some (r, a') →
      a'.finals = a.finals ∨ ∃ p, a'.finals = p :: a.finals := by
    intro e status a1 h1 h2
    cases hh : appHandler app.rethrow e status with
    | none => rw [hh] at h2; cases h2; exact Or.inl h1
    | some p =>
      obtain ⟨ret, status'⟩ := p
      rw [hh] at h2
      exact fin ret status' a1 h1 (Option.some.inj h2)
  unfold callOptimize at h
  have h1 := onEnv_finals app.initAlg a
  cases hi : onEnv app.initAlg a with
  | mk r1 a1 =>
    rw [hi] at h1
    simp only at h1
    cases r1 with
    | error e =>
      simp only [hi] at h
      exact err _ _ _ h1 h
    | ok u =>
      simp only [hi] at h
      cases ho : optimize cfg st fuel a1.alg with
      | none => rw [ho] at h; cases h
      | some q =>
        obtain ⟨r2, s2⟩ := q
        rw [ho] at h
        cases r2 with
        | error e => exact err _ _ _ (by simpa using h1) h
        | ok status =>
          simp only at h
          have h2 := afterOptimize_finals app status { a1 with alg := s2 }
          cases hq : afterOptimize app status { a1 with alg := s2 } with
          | mk r3 a3 =>
            rw [hq] at h h2
            simp only at h2
            rw [h1] at h2
            match r3, h with
            | .ok (.early ret), h => cases h; exact Or.inl h2
            | .ok (.done ret status'), h => exact fin _ _ _ h2 (Option.some.inj h)
            | .error (e, status'), h => exact err _ _ _ h2 h

/-- **C21** `FinalizeSolution` is called at most once per optimisation, whatever happens. -/
theorem finalize_at_most_once (cfg : CCfg) (st : Strategies σ) (app : App σ) (fuel : Nat) (a a' : A σ)
    (r : Except Exn AppStatus) (h : optimizeNLP cfg st app fuel a = some (r, a')) :
    a'.finals = a.finals ∨ ∃ p, a'.finals = p :: a.finals := by
  unfold optimizeNLP at h
  have h1 := onEnv_finals app.build a
  have out : ∀ e (a1 : A σ),
      (match outerHandler app.rethrow e with
       | none => some (.error e, a1)
       | some ret => some (.ok ret, a1) : Option (Except Exn AppStatus × A σ)) = some (r, a') → a' = a1 := by
    intro e a1 hx
    cases ho : outerHandler app.rethrow e <;> rw [ho] at hx <;> cases hx <;> rfl
  cases hb : onEnv app.build a with
  | mk r1 a1 =>
    rw [hb] at h1
    simp only at h1
    cases r1 with
    | error e =>
      simp only [hb] at h
      rw [out _ _ h]
      exact Or.inl h1
    | ok u =>
      simp only [hb] at h
      cases hc : callOptimize cfg st app fuel a1 with
      | none => rw [hc] at h; cases h
      | some q =>
        obtain ⟨r2, a2⟩ := q
        have := callOptimize_finals cfg st app fuel a1 a2 r2 hc
        rw [h1] at this
        rw [hc] at h
        cases r2 with
        | ok ret => cases h; exact this
        | error e => rw [out _ _ h]; exact this

theorem optimize_code_range (cfg : CCfg) (st : Strategies σ) (fuel : Nat) (s : S σ) (h0 : s.log = [])
    (code : SolverReturn) (s' : S σ) (h : optimize cfg st fuel s = some (.ok code, s')) :
    code ≠ .INVALID_OPTION ∧ code ≠ .OUT_OF_MEMORY ∧ code ≠ .UNASSIGNED := by
  rcases optimize_return_reason cfg st fuel s h0 _ s' h with ⟨status, o, cc, l, hl, hck, hc⟩ | ⟨e, sq, l, hl, hc⟩
  · cases hc <;> simp
  · cases hc <;> simp

/-- **C21** If nothing around the algorithm raises an exception, every return code of the algorithm is translated into the documented
application status, and the user's `FinalizeSolution` is called exactly once and with this code — provided an iterate is available,
the call is not disabled and the code is not `INTERNAL_ERROR` (see `internal_error_without_finalize`). -/
theorem status_translated_and_solution_delivered (cfg : CCfg) (st : Strategies σ) (app : App σ) (hc : app.Calm) (fuel : Nat)
    (a : A σ) (h0 : a.alg.log = []) (hf : a.finals = []) (code : SolverReturn) (s' : S σ)
    (hrun : runAlg cfg st app fuel a = some (.ok code, s')) :
    ∃ ret a', optimizeNLP cfg st app fuel a = some (.ok ret, a') ∧ AppStatusOf code ret ∧
      (app.skipFinalize = false → (∀ env, app.haveIterate env = true) → code ≠ .INTERNAL_ERROR →
        a'.finals = [(code, passesValues code)]) := by
  obtain ⟨x, env, hb⟩ := onEnv_quietly hc.build a
  obtain ⟨x1, env1, hi⟩ := onEnv_quietly hc.init { a with alg := { a.alg with env := env } }
  unfold runAlg at hrun
  rw [hb] at hrun
  simp only [hi] at hrun
  have hrange := optimize_code_range cfg st fuel _ (by exact h0) code s' hrun
  -- the state after the algorithm
  have hcall : ∃ ret a', callOptimize cfg st app fuel { a with alg := { a.alg with env := env } } = some (.ok ret, a') ∧
      AppStatusOf code ret ∧ (app.skipFinalize = false → (∀ env, app.haveIterate env = true) → code ≠ .INTERNAL_ERROR →
        a'.finals = [(code, passesValues code)]) := by
    unfold callOptimize
    simp only [hi, hrun]
    by_cases hdof : code = .TOO_FEW_DEGREES_OF_FREEDOM
    · subst hdof
      unfold afterOptimize
      rw [if_pos rfl]
      simp only [appHandler]
      obtain ⟨a', h1, h2⟩ := finish_calm app hc .Not_Enough_Degrees_Of_Freedom .TOO_FEW_DEGREES_OF_FREEDOM
        { { a with alg := { { a.alg with env := env } with env := env1 } } with alg := s' }
      refine ⟨_, a', by rw [h1], .dof, ?_⟩
      intro g1 g2 _
      rw [h2, if_pos ⟨g1, g2 _⟩]
      simp [hf]
    · -- summary
      have hsum : ∃ env2, summaryStep app code { { a with alg := { { a.alg with env := env } with env := env1 } } with alg := s' } =
          (.ok code, { { a with alg := { { a.alg with env := env } with env := env1 } } with alg := { s' with env := env2 } }) := by
        unfold summaryStep
        by_cases hinv : code = .INVALID_NUMBER_DETECTED
        · rw [if_pos hinv]; exact ⟨s'.env, rfl⟩
        · rw [if_neg hinv]
          obtain ⟨y, env2, hy⟩ := onEnv_quietly hc.summary
            { { a with alg := { { a.alg with env := env } with env := env1 } } with alg := s' }
          rw [hy]
          exact ⟨env2, rfl⟩
      obtain ⟨env2, hsum⟩ := hsum
      obtain ⟨z, env3, hz⟩ := onEnv_quietly hc.print
        { { a with alg := { { a.alg with env := env } with env := env1 } } with alg := { s' with env := env2 } }
      have haft : ∀ ret, translate code = some ret → ∃ env4,
          afterOptimize app code { { a with alg := { { a.alg with env := env } with env := env1 } } with alg := s' } =
          (.ok (.done ret code), { { a with alg := { { a.alg with env := env } with env := env1 } } with alg := { s' with env := env4 } }) := by
        intro ret hret
        unfold afterOptimize
        rw [if_neg hdof]
        simp only [hsum, hz, hret]
        by_cases hinv : code = .INVALID_NUMBER_DETECTED
        · rw [if_neg (by simp [hinv])]; exact ⟨env3, rfl⟩
        · rw [if_pos hinv]
          obtain ⟨w, env4, hw⟩ := onEnv_quietly hc.stats
            { { a with alg := { { a.alg with env := env } with env := env1 } } with alg := { s' with env := env3 } }
          rw [hw]
          exact ⟨env4, rfl⟩
      have hdone : ∀ ret, translate code = some ret → AppStatusOf code ret → ∃ ret a',
          (match (match (some (.ok code, s') : Option (Except Exn SolverReturn × S σ)) with
            | none => none
            | some (.error e, s) => some (.error (e, .INTERNAL_ERROR), { { a with alg := { { a.alg with env := env } with env := env1 } } with alg := s })
            | some (.ok status, s) => some (afterOptimize app status { { a with alg := { { a.alg with env := env } with env := env1 } } with alg := s }) :
              Option (Except (Exn × SolverReturn) Tried × A σ)) with
          | none => none
          | some (.ok (.early ret), a) => some (.ok ret, a)
          | some (.ok (.done ret status), a) => some (finish app ret status a)
          | some (.error (e, status), a) =>
            match appHandler app.rethrow e status with
            | none => some (.error e, a)
            | some (ret, status) => some (finish app ret status a) : Option (Except Exn AppStatus × A σ)) = some (.ok ret, a') ∧
          AppStatusOf code ret ∧ (app.skipFinalize = false → (∀ env, app.haveIterate env = true) → code ≠ .INTERNAL_ERROR →
            a'.finals = [(code, passesValues code)]) := by
        intro ret hret hdoc
        obtain ⟨env4, h4⟩ := haft ret hret
        simp only [h4]
        obtain ⟨a', h1, h2⟩ := finish_calm app hc ret code
          { { a with alg := { { a.alg with env := env } with env := env1 } } with alg := { s' with env := env4 } }
        refine ⟨ret, a', by rw [h1], hdoc, ?_⟩
        intro g1 g2 _
        rw [h2, if_pos ⟨g1, g2 _⟩]
        simp [hf]
      cases hcode : code
      case INTERNAL_ERROR =>
        subst hcode
        unfold afterOptimize
        rw [if_neg hdof]
        simp only [hsum, hz, translate]
        exact ⟨_, _, rfl, .internal, fun _ _ h => absurd rfl h⟩
      case TOO_FEW_DEGREES_OF_FREEDOM => exact absurd hcode hdof
      case INVALID_OPTION => exact absurd hcode hrange.1
      case OUT_OF_MEMORY => exact absurd hcode hrange.2.1
      case UNASSIGNED => exact absurd hcode hrange.2.2
      all_goals
        subst hcode
        exact hdone _ rfl (by constructor)
  obtain ⟨ret, a', h1, h2, h3⟩ := hcall
  refine ⟨ret, a', ?_, h2, h3⟩
  unfold optimizeNLP
  simp only [hb, h1]

/-- **C21** An exception that the algorithm does not handle (and that is not rethrown) is translated into the documented status. -/
theorem exception_translated (cfg : CCfg) (st : Strategies σ) (app : App σ) (hc : app.Calm) (hr : app.rethrow = false) (fuel : Nat)
    (a : A σ) (e : Exn) (s' : S σ) (hrun : runAlg cfg st app fuel a = some (.error e, s')) :
    ∃ ret a', optimizeNLP cfg st app fuel a = some (.ok ret, a') ∧ AppStatusOfExn e ret := by
  obtain ⟨x, env, hb⟩ := onEnv_quietly hc.build a
  obtain ⟨x1, env1, hi⟩ := onEnv_quietly hc.init { a with alg := { a.alg with env := env } }
  unfold runAlg at hrun
  rw [hb] at hrun
  simp only [hi] at hrun
  have hh : ∃ ret status, appHandler app.rethrow e .INTERNAL_ERROR = some (ret, status) ∧ AppStatusOfExn e ret := by
    rw [hr]
    cases e <;> exact ⟨_, _, rfl, by constructor <;> simp⟩
  obtain ⟨ret, status, h1, h2⟩ := hh
  obtain ⟨a', h3, _⟩ := finish_calm app hc ret status
    { { a with alg := { { a.alg with env := env } with env := env1 } } with alg := s' }
  refine ⟨ret, a', ?_, h2⟩
  unfold optimizeNLP
  simp only [hb]
  unfold callOptimize
  simp only [hi, hrun, h1, h3]

/-! ### Concrete runs and findings -/

/-- An application around `exStrategies` that does nothing else. -/
def exApp : App Nat where
  build := M.pure ()
  initAlg := M.pure ()
  summary := M.pure ()
  printRest := M.pure ()
  statistics := M.pure ()
  skipFinalize := false
  haveIterate := fun _ => true
  evaluate := M.pure ()
  finalize := fun _ => M.pure ()
  rethrow := false

/-- Status or exception, calls of `FinalizeSolution`. -/
def appOutcome : Option (Except Exn AppStatus × A Nat) → Option (Sum Exn AppStatus × List (SolverReturn × Bool))
  | none => none
  | some (.ok c, a) => some (.inr c, a.finals)
  | some (.error e, a) => some (.inl e, a.finals)

example : exApp.Calm :=
  ⟨fun _ => ⟨_, _, rfl⟩, fun _ => ⟨_, _, rfl⟩, fun _ => ⟨_, _, rfl⟩, fun _ => ⟨_, _, rfl⟩, fun _ => ⟨_, _, rfl⟩,
    fun _ => ⟨_, _, rfl⟩, fun _ _ => ⟨_, _, rfl⟩⟩

example : appOutcome (optimizeNLP exCfg (exStrategies 1 false) exApp 5 ⟨exStart, []⟩) =
    some (.inr .Solve_Succeeded, [(.SUCCESS, true)]) := by decide +kernel

example : appOutcome (optimizeNLP exCfg (exFailing .otherIpopt) exApp 5 ⟨exStart, []⟩) =
    some (.inr .Unrecoverable_Exception, [(.INTERNAL_ERROR, false)]) := by decide +kernel

example : appOutcome (optimizeNLP exCfg (exFailing .foreign) { exApp with rethrow := true } 5 ⟨exStart, []⟩) =
    some (.inl .foreign, []) := by decide +kernel

/-- **C21, finding** If the algorithm ends with `INTERNAL_ERROR` (exception `INTERNAL_ABORT`), the application returns at once: the
user's `FinalizeSolution` is not called although an iterate is available. -/
theorem internal_error_without_finalize :
    appOutcome (optimizeNLP exCfg (exFailing .INTERNAL_ABORT) exApp 5 ⟨exStart, []⟩) = some (.inr .Internal_Error, []) := by
  decide +kernel

/-- **C21, finding** An exception raised after a successful run (here while collecting statistics) makes the application report
`Unrecoverable_Exception`, but `FinalizeSolution` is called with `SUCCESS`. -/
theorem inconsistent_codes_after_late_exception :
    appOutcome (optimizeNLP exCfg (exStrategies 1 false) { exApp with statistics := M.throw .Eval_Error } 5 ⟨exStart, []⟩) =
      some (.inr .Unrecoverable_Exception, [(.SUCCESS, true)]) := by
  decide +kernel

/-- **C21, finding** `ReOptimizeNLP` calls `call_optimize` (`callOptimize`) without exception handlers around it: an evaluation error
at the final point, or any exception in `FinalizeSolution`, reaches the caller. -/
theorem reoptimize_propagates :
    appOutcome (callOptimize exCfg (exStrategies 1 false) { exApp with evaluate := M.throw .Eval_Error } 5 ⟨exStart, []⟩) =
      some (.inl .Eval_Error, []) ∧
    appOutcome (callOptimize exCfg (exStrategies 1 false) { exApp with finalize := fun _ => M.throw .foreign } 5 ⟨exStart, []⟩) =
      some (.inl .foreign, [(.SUCCESS, true)]) := by
  decide +kernel

end Verif.Alg
