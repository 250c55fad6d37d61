import Verif.Proof.FilterLS
import Mathlib.Tactic.Linarith

/-!
# C14, C15 — acceptance in the filter line search

The specification is written directly with the values the user can see in the iteration log: constraint violations
`θ`, barrier objective values `φ`, directional derivative `g`, step size `α`, and the documented options.
-/

namespace Verif.FilterLS
set_option linter.unusedSectionVars false
set_option linter.unusedSimpArgs false
variable {K : Type} [Field K] [LinearOrder K] [IsStrictOrderedRing K]

/-- Tolerance used in comparisons relative to a base value (ten machine epsilons). -/
def slackTol (c : Cfg K) (bas : K) : K := 10 * c.eps * |bas|

/-- The slope used in the switching condition is the directional derivative of the barrier function; at a feasible
reference point a tiny positive slope (round-off) is replaced by `-eps`. -/
def SlopeOf (c : Cfg K) (θr g g' : K) : Prop :=
  g' = g ∨ (θr = 0 ∧ 0 < g ∧ g < 100 * c.eps ∧ g' = -c.eps)

/-- Switching condition: descent direction and predicted decrease dominating the constraint violation. -/
def Switching (c : Cfg K) (θr g α : K) : Prop :=
  g < 0 ∧ c.delta * c.pow θr c.s_theta < α * c.pow (-g) c.s_phi

/-- Armijo condition for the barrier function. -/
def Armijo (c : Cfg K) (φr g α φ : K) : Prop := φ - φr ≤ c.eta_phi * α * g + slackTol c φr

/-- Sufficient reduction of the constraint violation or of the barrier function. -/
def SufficientReduction (c : Cfg K) (θr φr θ φ : K) : Prop :=
  θ ≤ (1 - c.gamma_theta) * θr + slackTol c θr ∨ φ - φr ≤ -c.gamma_phi * θr + slackTol c φr

/-- The barrier function does not increase by too many orders of magnitude (option `obj_max_inc`). -/
def NotTooRapidIncrease (c : Cfg K) (φr φ : K) : Prop :=
  φr < φ → c.log10 (φ - φr) ≤ c.obj_max_inc + (if 10 < |φr| then c.log10 |φr| else 1)

/-- The list of calls consists of trial-point checks. -/
def OnlyChecks (ops : List (Op K)) : Prop := ∀ o ∈ ops, ∃ a t b, o = .check a t b

/-- The list of calls does not contain an explicit reset (which happens when the barrier parameter changes). -/
def NoReset (ops : List (Op K)) : Prop := ∀ o ∈ ops, o ≠ .reset

/-- Number of filter resets done by the heuristic, as reported by the `F+` tag of the iteration output. -/
def heuristicResets (s : St K) : Nat := s.info.count "F+"

private theorem compareLe_iff (c : Cfg K) (l r b : K) : compareLe c l r b = true ↔ l ≤ r + slackTol c b := by
  simp only [compareLe, slackTol, decide_eq_true_eq]
  constructor <;> intro h <;> linarith

private theorem slope_isFtype (c : Cfg K) (s : St K) (a g : K)
    (h : SlopeOf c s.ref_theta g s.ref_grad) :
    SlopeOf c s.ref_theta g (isFtype c s a).2.ref_grad := by
  simp only [isFtype]
  split
  · rename_i hh
    rcases h with h | h
    · exact Or.inr ⟨hh.1, h ▸ hh.2.1, h ▸ hh.2.2, rfl⟩
    · exact Or.inr ⟨h.1, h.2.1, h.2.2.1, rfl⟩
  · exact h

private theorem ftype_iff (c : Cfg K) (s : St K) (a : K) :
    (isFtype c s a).1 = true ↔ Switching c s.ref_theta (isFtype c s a).2.ref_grad a := by
  simp only [isFtype, Switching]
  split <;> simp

private theorem checks_frame (c : Cfg K) (ops : List (Op K)) (ho : OnlyChecks ops) (g : K) :
    ∀ (s s' : St K), SlopeOf c s.ref_theta g s.ref_grad → run c s ops = some s' →
      s'.ref_theta = s.ref_theta ∧ s'.ref_barr = s.ref_barr ∧ SlopeOf c s.ref_theta g s'.ref_grad := by
  induction ops with
  | nil => intro s s' h hr; simp only [run, Option.some.injEq] at hr; subst hr; exact ⟨rfl, rfl, h⟩
  | cons o os ih =>
    intro s s' h hr
    obtain ⟨a, t, b, rfl⟩ := ho o (by simp)
    simp only [run, step, Option.bind_eq_some_iff] at hr
    obtain ⟨⟨r, s1⟩, h1, h2⟩ := hr
    have key : s1.ref_theta = s.ref_theta ∧ s1.ref_barr = s.ref_barr ∧ SlopeOf c s.ref_theta g s1.ref_grad := by
      have hI := initThetaLimits_frame c s
      have hT := iterateTest_frame c (initThetaLimits c s) a t b
      have hsl : SlopeOf c s.ref_theta g (iterateTest c (initThetaLimits c s) a t b).2.ref_grad := by
        have h0 : SlopeOf c (initThetaLimits c s).ref_theta g (initThetaLimits c s).ref_grad := by
          rw [hI.2.1, hI.2.2.2.1]; exact h
        have := slope_isFtype c (initThetaLimits c s) a g h0
        rw [hI.2.1] at this h0
        unfold iterateTest
        split
        · simp only []; split <;> exact this
        · exact h0
      have hrf : ∀ q : St K, (resetHeuristic c q).ref_grad = q.ref_grad := by
        intro q; unfold resetHeuristic; simp only []; split_ifs <;> simp [reset]
      unfold checkAcceptability at h1
      simp only [] at h1
      split at h1
      · simp only [Option.some.injEq, Prod.mk.injEq] at h1; rw [← h1.2]
        exact ⟨hI.2.1, hI.2.2.1, by simp only [hI.2.2.2.1]; exact h⟩
      · split at h1
        · simp only [Option.some.injEq, Prod.mk.injEq] at h1; rw [← h1.2]
          exact ⟨by simp [hT, hI], by simp [hT, hI], hsl⟩
        · split at h1
          · simp at h1
          · simp only [Option.some.injEq, Prod.mk.injEq] at h1; rw [← h1.2]
            exact ⟨by simp [hT, hI], by simp [hT, hI], hsl⟩
          · simp only [Option.some.injEq, Prod.mk.injEq] at h1; rw [← h1.2]
            have hF := resetHeuristic_frame c (iterateTest c (initThetaLimits c s) a t b).2
            exact ⟨by simp [hF, hT, hI], by simp [hF, hT, hI], by simp only [hrf]; exact hsl⟩
    have hos : OnlyChecks os := fun o' ho' => ho o' (by simp [ho'])
    obtain ⟨k1, k2, k3⟩ := key
    have := ih hos s1 s' (by rw [k1]; exact k3) h2
    rw [k1, k2] at this
    exact this

/-- No call history leads to undefined behaviour (out-of-range access in the filter). -/
theorem ls_history_defined (c : Cfg K) (hc : 0 < c.theta_max_fact) (rt rb rg wt wb wg : K) (it : Int)
    (ops : List (Op K)) : ∃ s, run c (init rt rb rg wt wb wg it) ops = some s := by
  obtain ⟨s, hs, _⟩ := run_spec c hc ops (init rt rb rg wt wb wg it) (by intro e he; simp [init, reset, Filter.clear] at he)
  exact ⟨s, hs⟩

/-- **C14 (acceptance).** Take any history of calls, then a line search started at a reference point with violation `θr`,
barrier value `φr` and slope `g`, in which some trial points were checked, and then a trial point `(θ, φ)` with step size
`α` that is accepted.  Then `θ` is at most the maximal violation (a positive number that never changes again),
`(φ, θ)` is accepted by the current filter, and either the Armijo condition holds with the switching condition and a small
reference violation, or there is sufficient reduction with respect to the reference point. -/
theorem ls_accept_implies_progress (c : Cfg K) (hc : 0 < c.theta_max_fact)
    (rt rb rg wt wb wg : K) (it : Int) (pre checks : List (Op K)) (hchk : OnlyChecks checks)
    (θr φr g α θ φ : K) (s s' : St K)
    (hrun : run c (init rt rb rg wt wb wg it) (pre ++ .initLS false θr φr g :: checks) = some s)
    (hacc : step c s (.check α θ φ) = some (true, s')) :
    0 < s'.theta_max ∧ θ ≤ s'.theta_max ∧
    (∀ more s'', run c s' more = some s'' → s''.theta_max = s'.theta_max) ∧
    Filter.acceptable s.filter [φ, θ] = some true ∧
    ((∃ g', SlopeOf c θr g g' ∧ 0 < α ∧ Switching c θr g' α ∧ θr ≤ s'.theta_min ∧ Armijo c φr g' α φ) ∨
      (NotTooRapidIncrease c φr φ ∧ SufficientReduction c θr φr θ φ)) := by
  have happ : ∀ (l1 l2 : List (Op K)) (q : St K), run c q (l1 ++ l2) = (run c q l1).bind (fun q' => run c q' l2) := by
    intro l1 l2
    induction l1 with
    | nil => intro q; rfl
    | cons o os ih =>
      intro q
      simp only [List.cons_append, run]
      cases step c q o with
      | none => rfl
      | some r => exact ih r.2
  rw [happ, Option.bind_eq_some_iff] at hrun
  obtain ⟨s1, hs1, hs2⟩ := hrun
  have hs2 : run c (initThisLineSearch s1 false θr φr g) checks = some s := by simpa [run, step] using hs2
  obtain ⟨hθ, hφ, hg⟩ := checks_frame c checks hchk g _ s
    (by simp [initThisLineSearch, SlopeOf]) hs2
  simp only [initThisLineSearch, Bool.not_false, if_true] at hθ hφ hg
  -- well-formedness of s
  have hw : Wf s.filter ∧ (s.theta_max < 0 ∨ 0 < s.theta_max) := by
    obtain ⟨q, hq, hqw, -, -, -, hqm, -⟩ := run_spec c hc (pre ++ .initLS false θr φr g :: checks)
      (init rt rb rg wt wb wg it) (by intro e he; simp [init, reset, Filter.clear] at he)
    have : q = s := by
      have h2 : run c (init rt rb rg wt wb wg it) (pre ++ .initLS false θr φr g :: checks) = some s := by
        rw [happ, hs1]; simpa [run, step] using hs2
      rw [hq] at h2; injection h2
    subst this
    exact ⟨hqw, hqm (Or.inl (by simp [init, reset]))⟩
  have hacc' : checkAcceptability c s α θ φ = some (true, s') := hacc
  obtain ⟨hmax, hit, hfil, htm⟩ := check_accept c s s' α θ φ hacc'
  have hpos : 0 < (initThetaLimits c s).theta_max := by
    rw [initThetaLimits_max]
    split
    · have : (0 : K) < max 1 s.ref_theta := lt_of_lt_of_le one_pos (le_max_left _ _)
      positivity
    · rcases hw.2 with h | h
      · contradiction
      · exact h
  have hw' : Wf s'.filter := by
    obtain ⟨r, q, hq, hqw, _⟩ := step_spec c s (.check α θ φ) hw.1
    rw [hacc] at hq; injection hq with hq; injection hq with _ hq; subst hq; exact hqw
  have hpos' : 0 < s'.theta_max := by rw [htm]; exact hpos
  refine ⟨hpos', ?_, ?_, hfil, ?_⟩
  · rw [htm]
    by_contra hcon
    exact hmax ⟨hpos, not_le.1 hcon⟩
  · intro more s'' hm
    obtain ⟨q, hq, _, _, _, h5, _⟩ := run_spec c hc more s' hw'
    rw [hm] at hq; injection hq with hq; subst hq
    exact h5 hpos'
  · have hI := initThetaLimits_frame c s
    have htmin : s'.theta_min = (initThetaLimits c s).theta_min := by
      unfold checkAcceptability at hacc'
      simp only [] at hacc'
      have hT := iterateTest_frame c (initThetaLimits c s) α θ φ
      split at hacc'
      · simp at hacc'
      · split at hacc'
        · simp at hacc'
        · split at hacc'
          · simp at hacc'
          · simp at hacc'
          · simp only [Option.some.injEq, Prod.mk.injEq, true_and] at hacc'
            rw [← hacc']
            simp only [(resetHeuristic_frame c _).2.1, hT]
    have hred : isAcceptableToCurrentIterate c (initThetaLimits c s) φ θ false = true →
        NotTooRapidIncrease c φr φ ∧ SufficientReduction c θr φr θ φ := by
      intro h
      have h' : (compareLe c θ ((1 - c.gamma_theta) * (initThetaLimits c s).ref_theta) (initThetaLimits c s).ref_theta ||
          compareLe c (φ - (initThetaLimits c s).ref_barr) (-c.gamma_phi * (initThetaLimits c s).ref_theta)
            (initThetaLimits c s).ref_barr) = true := by
        unfold isAcceptableToCurrentIterate at h
        generalize (if 10 < |(initThetaLimits c s).ref_barr| then c.log10 |(initThetaLimits c s).ref_barr| else 1) = z at h
        split at h
        · simp at h
        · exact h
      rw [Bool.or_eq_true, compareLe_iff, compareLe_iff, hI.2.1, hI.2.2.1, hθ, hφ] at h'
      refine ⟨?_, h'⟩
      intro hlt
      by_contra hcon
      unfold isAcceptableToCurrentIterate at h
      rw [if_pos (by
        rw [hI.2.2.1, hφ]
        simp only [Bool.not_false, Bool.true_and, Bool.and_eq_true, decide_eq_true_eq]
        exact ⟨hlt, not_le.1 hcon⟩)] at h
      simp at h
    have hred2 : ∀ q : St K, q.ref_theta = (initThetaLimits c s).ref_theta → q.ref_barr = (initThetaLimits c s).ref_barr →
        isAcceptableToCurrentIterate c q φ θ false = isAcceptableToCurrentIterate c (initThetaLimits c s) φ θ false := by
      intro q h1 h2; simp [isAcceptableToCurrentIterate, h1, h2]
    unfold iterateTest at hit
    split at hit
    · rename_i hα
      simp only [] at hit
      split at hit
      · rename_i hft
        left
        simp only [Bool.and_eq_true, decide_eq_true_eq] at hft
        refine ⟨(isFtype c (initThetaLimits c s) α).2.ref_grad, ?_, hα, ?_, ?_, ?_⟩
        · have := slope_isFtype c (initThetaLimits c s) α g (by rw [hI.2.1, hI.2.2.2.1, hθ]; exact hg)
          rw [hI.2.1, hθ] at this; exact this
        · have := (ftype_iff c (initThetaLimits c s) α).1 hft.1
          rw [hI.2.1, hθ] at this; exact this
        · have := hft.2
          simp only [isFtype_ref_theta, isFtype_theta_min, hI.2.1, hθ] at this
          rw [htmin]; exact this
        · have hh : compareLe c (φ - (isFtype c (initThetaLimits c s) α).2.ref_barr) _ _ = true := hit
          rw [compareLe_iff] at hh
          simp only [isFtype_ref_barr, hI.2.2.1, hφ] at hh
          exact hh
      · right
        exact hred (by rw [← hred2 (isFtype c (initThetaLimits c s) α).2 (by simp) (by simp)]; exact hit)
    · right; exact hred hit

/-- **C14 (next iteration).** The step type reported at the end of an iteration is `f` exactly if switching and Armijo
condition hold; otherwise it is `h` and the filter is augmented. -/
theorem ls_update_type (c : Cfg K) (s : St K) (hf : Wf s.filter) (α φ : K) :
    ∃ ch s', updateForNextIteration c s α φ = some (ch, s') ∧
      (ch = 'f' ↔ Switching c s.ref_theta (isFtype c s α).2.ref_grad α ∧
        Armijo c s.ref_barr (isFtype c s α).2.ref_grad α φ) ∧
      (ch ≠ 'f' → ch = 'h' ∧ Covers s'.filter (s.ref_barr - c.gamma_phi * s.ref_theta) ((1 - c.gamma_theta) * s.ref_theta)) := by
  have harm : armijoHolds c (isFtype c s α).2 α φ = true ↔ Armijo c s.ref_barr (isFtype c s α).2.ref_grad α φ := by
    unfold armijoHolds; rw [compareLe_iff]; simp [Armijo]
  have hft := ftype_iff c s α
  by_cases hb : (isFtype c s α).1 = true ∧ armijoHolds c (isFtype c s α).2 α φ = true
  · refine ⟨'f', (isFtype c s α).2, by simp [updateForNextIteration, hb], ?_, by simp⟩
    simp [← hft, ← harm, hb]
  · obtain ⟨s', h1, h2, h3, _⟩ := augment_spec c (isFtype c s α).2 (by simpa using hf)
    refine ⟨'h', s', ?_, ?_, fun _ => ⟨rfl, by simpa using h3⟩⟩
    · unfold updateForNextIteration
      have : (!(isFtype c s α).1 || !(armijoHolds c (isFtype c s α).2 α φ)) = true := by
        rw [not_and_or] at hb
        rcases hb with hb | hb <;> simp [hb]
      simp [this, h1]
    · rw [← hft, ← harm]; simp [hb]

/-- **C14 (no cycling).** Take any history, then an iteration with reference violation `θr` and barrier value `φr` whose
step was of type `h`.  In every later state reached without resetting the filter (neither explicitly nor by the heuristic),
every accepted trial point has barrier value at most `φr - γφ θr` or violation at most `(1-γθ) θr`; the reference point
itself is not accepted again if `θr > 0`. -/
theorem ls_no_cycling (c : Cfg K) (hc : 0 < c.theta_max_fact) (hγθ : 0 < c.gamma_theta) (hγφ : 0 < c.gamma_phi)
    (rt rb rg wt wb wg : K) (it : Int) (pre more : List (Op K)) (s s1 s2 s3 : St K) (α φa θ φ α' : K) (ch : Char)
    (hpre : run c (init rt rb rg wt wb wg it) pre = some s)
    (hupd : updateForNextIteration c s α φa = some (ch, s1)) (hh : ch ≠ 'f')
    (hmore : run c s1 more = some s2) (hno : NoReset more) (hcnt : heuristicResets s2 = heuristicResets s1)
    (hacc : step c s2 (.check α' θ φ) = some (true, s3)) :
    (φ ≤ s.ref_barr - c.gamma_phi * s.ref_theta ∨ θ ≤ (1 - c.gamma_theta) * s.ref_theta) ∧
    (0 < s.ref_theta → (φ, θ) ≠ (s.ref_barr, s.ref_theta)) := by
  obtain ⟨q, hq, hqw, _⟩ := run_spec c hc pre (init rt rb rg wt wb wg it)
    (by intro e he; simp [init, reset, Filter.clear] at he)
  rw [hpre] at hq; injection hq with hq; subst hq
  obtain ⟨ch', s1', h1, _, h2⟩ := ls_update_type c s hqw α φa
  rw [hupd] at h1; injection h1 with h1; injection h1 with hch hs1; subst hch; subst hs1
  have hcov := (h2 hh).2
  have hw1 : Wf s1.filter := by
    obtain ⟨r, q, hq, hqw, _⟩ := step_spec c s (.update α φa) hqw
    simp only [step, hupd, Option.map_some, Option.some.injEq, Prod.mk.injEq] at hq
    rw [hq.2]; exact hqw
  obtain ⟨q2, hq2, hqw2, _, _, _, _, hc2⟩ := run_spec c hc more s1 hw1
  rw [hmore] at hq2; injection hq2 with hq2; subst hq2
  have hcov2 := hc2 (by
    intro o ho hm
    cases o <;> simp at hm
    exact hno _ ho rfl) hcnt _ _ hcov
  have hfil := (check_accept c s2 s3 α' θ φ hacc).2.2.1
  have hmain := acceptable_covers s2.filter hqw2 _ _ _ _ hfil hcov2
  refine ⟨hmain, ?_⟩
  intro hpos heq
  injection heq with e1 e2
  subst e1 e2
  rcases hmain with h | h
  · have := mul_pos hγφ hpos; linarith
  · have := mul_pos hγθ hpos; linarith

/-! ### Example data: all hypotheses are met by a concrete run -/

/-- The default option values, rational arithmetic; power and logarithm are replaced by simple rational functions. -/
def exCfg : Cfg ℚ :=
  { theta_max_fact := 10000, theta_min_fact := 1/10000, eta_phi := 1/100000000, delta := 1, s_phi := 23/10, s_theta := 11/10,
    gamma_phi := 1/100000000, gamma_theta := 1/100000, alpha_min_frac := 1/20, obj_max_inc := 5, max_filter_resets := 1,
    filter_reset_trigger := 1, eps := 1/1000000000000000, pow := fun x _ => x, log10 := fun x => x }

/-- Initial state of the examples. -/
def exInit : St ℚ := init 0 0 0 0 0 0 0

/-- The call history of the first example. -/
def exOps1 : List (Op ℚ) := [.initLS false 2 5 1, .update 1 7] ++ .initLS false 1 0 (-1) :: [.check 1 50000 0]

/-- The hypotheses of `ls_accept_implies_progress` are met: after an `h` iteration and a rejected trial point, a trial point is
accepted. -/
example : ∃ s s', run exCfg exInit exOps1 = some s ∧ step exCfg s (.check (1/2) (1/2) (-1)) = some (true, s') ∧
    OnlyChecks [Op.check (1:ℚ) 50000 0] := by
  have h : ((run exCfg exInit exOps1).bind (fun s => step exCfg s (.check (1/2) (1/2) (-1)))).map (·.1) = some true := by
    decide +kernel
  rw [Option.map_eq_some_iff] at h
  obtain ⟨⟨r, s'⟩, h, rfl⟩ := h
  rw [Option.bind_eq_some_iff] at h
  obtain ⟨s, h1, h2⟩ := h
  exact ⟨s, s', h1, h2, by intro o ho; simp at ho; exact ⟨_, _, _, ho⟩⟩

/-- The hypotheses of `ls_no_cycling` are met. -/
example : ∃ s s1 s2 s3 ch, run exCfg exInit [.initLS false 2 5 1] = some s ∧
    updateForNextIteration exCfg s 1 7 = some (ch, s1) ∧ ch ≠ 'f' ∧
    run exCfg s1 [.initLS false 1 0 (-1)] = some s2 ∧ heuristicResets s2 = heuristicResets s1 ∧
    step exCfg s2 (.check 1 (1/2) (-1)) = some (true, s3) := by
  have h : (updateForNextIteration exCfg (initThisLineSearch exInit false 2 5 1) 1 7).map
      (fun r => (r.1, decide (heuristicResets (initThisLineSearch r.2 false 1 0 (-1)) = heuristicResets r.2),
        (step exCfg (initThisLineSearch r.2 false 1 0 (-1)) (.check 1 (1/2) (-1))).map (·.1)))
      = some ('h', true, some true) := by decide +kernel
  rw [Option.map_eq_some_iff] at h
  obtain ⟨⟨ch, s1⟩, h1, h2⟩ := h
  simp only [Prod.mk.injEq, decide_eq_true_eq, Option.map_eq_some_iff] at h2
  obtain ⟨rfl, h3, ⟨b, s3⟩, h4, h5⟩ := h2
  simp only at h5
  subst h5
  exact ⟨_, s1, initThisLineSearch s1 false 1 0 (-1), s3, 'h', rfl, h1, by decide, rfl, h3, h4⟩

/-! ### C15 -/

/-- One round of the counterexample: the filter gets an entry, the next line search has a trial point rejected by the
filter and then a trial point that is accepted. -/
def round15 : List (Op ℚ) :=
  [.initLS false 1 (-10) (-1), .prepareResto, .initLS false 2 0 (-1), .check 1 (3/2) (-1), .check 1 (1/10) (-20)]

/-- State after `n+1` rounds. -/
def afterRounds (n : Nat) : St ℚ :=
  { theta_max := 20000, theta_min := 1/5000, filter := [], ref_theta := 2, ref_barr := 0, ref_grad := -1,
    wd_theta := 0, wd_barr := 0, wd_grad := 0, last_rejection_due_to_filter := false, count_successive := 0,
    n_filter_resets := 0, info := List.replicate (n + 1) "F+", iter := 0 }

private theorem round_first : run exCfg exInit round15 = some (afterRounds 0) := by
  decide +kernel

private theorem round_next (n : Nat) : run exCfg (afterRounds n) round15 = some (afterRounds (n+1)) := by
  norm_num [run, round15, step, afterRounds, exCfg, initThisLineSearch, prepareRestoPhaseStart, augmentFilter,
    checkAcceptability, initThetaLimits, iterateTest, isFtype, isAcceptableToCurrentIterate, compareLe,
    isAcceptableToCurrentFilter, Filter.addEntry, Filter.prune, Filter.acceptable, Filter.Entry.acceptable,
    Filter.entryAcceptableLoop, resetHeuristic, reset, Filter.clear, List.replicate_succ']

/-- **C15 is false of the code**: the counter `n_filter_resets_` is never incremented, so with `max_filter_resets = 1` the
heuristic resets the filter any number of times (without any explicit reset of the acceptor). -/
theorem ls_filter_resets_unbounded :
    ∃ c : Cfg ℚ, c.max_filter_resets = 1 ∧ ∀ n : Nat, ∃ (ops : List (Op ℚ)) (s : St ℚ),
      NoReset ops ∧ run c exInit ops = some s ∧ heuristicResets s = n + 1 := by
  refine ⟨exCfg, rfl, ?_⟩
  have happ : ∀ (c : Cfg ℚ) (l1 l2 : List (Op ℚ)) (q : St ℚ),
      run c q (l1 ++ l2) = (run c q l1).bind (fun q' => run c q' l2) := by
    intro c l1 l2
    induction l1 with
    | nil => intro q; rfl
    | cons o os ih =>
      intro q
      simp only [List.cons_append, run]
      cases step c q o with
      | none => rfl
      | some r => exact ih r.2
  have hnr : NoReset round15 := by intro o ho; simp [round15] at ho; rcases ho with h | h | h | h | h <;> simp [h]
  have key : ∀ n : Nat, ∃ ops, NoReset ops ∧ run exCfg exInit ops = some (afterRounds n) := by
    intro n
    induction n with
    | zero => exact ⟨round15, hnr, round_first⟩
    | succ n ih =>
      obtain ⟨ops, h1, h2⟩ := ih
      refine ⟨ops ++ round15, ?_, by rw [happ, h2]; exact round_next n⟩
      intro o ho
      rcases List.mem_append.1 ho with h | h
      · exact h1 o h
      · exact hnr o h
  intro n
  obtain ⟨ops, h1, h2⟩ := key n
  exact ⟨ops, _, h1, h2, by simp [heuristicResets, afterRounds]⟩

/-- What does hold (**C15, partial**): with `max_filter_resets = 0` the heuristic never resets the filter, and in general every
reset by the heuristic is reported (tag `F+`), i.e. no call other than an explicit reset or a reported heuristic reset makes the
filter forget: the filter after the call still rejects what the recorded entries rejected. Missing: the bound itself. -/
theorem ls_filter_resets_partial (c : Cfg K) (h0 : c.max_filter_resets ≤ 0)
    (rt rb rg wt wb wg : K) (it : Int) (ops : List (Op K)) (s : St K)
    (hr : run c (init rt rb rg wt wb wg it) ops = some s) : heuristicResets s = 0 := by
  have hstep : ∀ (s1 s2 : St K) (o : Op K) (b : Bool), step c s1 o = some (b, s2) →
      heuristicResets s2 = heuristicResets s1 := by
    intro s1 s2 o b h
    unfold heuristicResets
    cases o with
    | initLS w t b g =>
      simp only [step, Option.some.injEq, Prod.mk.injEq] at h; rw [← h.2]; unfold initThisLineSearch; split <;> rfl
    | check a t b =>
      have h : checkAcceptability c s1 a t b = some (_, s2) := h
      unfold checkAcceptability at h
      have hI := initThetaLimits_frame c s1
      have hT := iterateTest_frame c (initThetaLimits c s1) a t b
      simp only [] at h
      split at h
      · simp only [Option.some.injEq, Prod.mk.injEq] at h; rw [← h.2]; simp [hI, List.count_append]
      · split at h
        · simp only [Option.some.injEq, Prod.mk.injEq] at h; rw [← h.2]; simp [hI, hT]
        · split at h
          · simp at h
          · simp only [Option.some.injEq, Prod.mk.injEq] at h; rw [← h.2]; simp [hI, hT]
          · simp only [Option.some.injEq, Prod.mk.injEq] at h; rw [← h.2]
            unfold resetHeuristic
            rw [if_neg (not_lt.2 h0)]; simp [hI, hT]
    | update a b =>
      simp only [step, updateForNextIteration, Option.map_eq_some_iff] at h
      obtain ⟨⟨ch, q⟩, h1, h2⟩ := h
      simp only [Prod.mk.injEq, true_and] at h2
      rw [← h2.2]
      split at h1
      · simp only [augmentFilter, Option.map_map, Option.map_eq_some_iff] at h1
        obtain ⟨f, _, h1⟩ := h1
        simp only [Function.comp, Prod.mk.injEq] at h1
        rw [← h1.2]; simp
      · simp only [Option.some.injEq, Prod.mk.injEq] at h1; rw [← h1.2]; simp
    | prepareResto =>
      simp only [step, prepareRestoPhaseStart, augmentFilter, Option.map_map, Option.map_eq_some_iff] at h
      obtain ⟨f, _, h1⟩ := h
      simp only [Function.comp, Prod.mk.injEq] at h1
      rw [← h1.2]
    | startWD t b g => simp only [step, Option.some.injEq, Prod.mk.injEq] at h; rw [← h.2]; rfl
    | stopWD => simp only [step, Option.some.injEq, Prod.mk.injEq] at h; rw [← h.2]; rfl
    | reset => simp only [step, Option.some.injEq, Prod.mk.injEq] at h; rw [← h.2]; rfl
    | nextIter => simp only [step, Option.some.injEq, Prod.mk.injEq] at h; rw [← h.2]
  have : ∀ (ops : List (Op K)) (q s : St K), run c q ops = some s → heuristicResets s = heuristicResets q := by
    intro ops
    induction ops with
    | nil => intro q s h; simp only [run, Option.some.injEq] at h; rw [h]
    | cons o os ih =>
      intro q s h
      simp only [run, Option.bind_eq_some_iff] at h
      obtain ⟨⟨b, q'⟩, h1, h2⟩ := h
      rw [ih _ _ h2, hstep _ _ _ _ h1]
  rw [this _ _ _ hr]
  rfl

/-- The resets by the heuristic are the only silent loss of filter information: see `check_filter`; here for one call. -/
theorem ls_reset_is_reported (c : Cfg K) (s s' : St K) (α θ φ : K) (r : Bool)
    (h : step c s (.check α θ φ) = some (r, s')) :
    (s'.filter = s.filter ∧ heuristicResets s' = heuristicResets s) ∨
    (s'.filter = [] ∧ heuristicResets s' = heuristicResets s + 1) :=
  (check_filter c s s' α θ φ r h).1

end Verif.FilterLS
