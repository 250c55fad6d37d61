import Verif.Proof.CalcQuantRun
import Verif.Model.CalcQuantTable
import Verif.Proof.CalcQuantMeaning
import Mathlib.Algebra.Order.Field.Rat
import Mathlib.Data.Rat.Defs
import Mathlib.Tactic.NormNum

/-! # C56: calculated quantities are up to date -/

set_option linter.unusedVariables false
set_option linter.constructorNameAsVariable false

namespace Verif.CQ

theorem steps_quiet {V : Type} (I : Interp V) (T : Name → QDef Name) : ∀ (as : List (Act Name V)) (st : St Name V),
    (∀ a ∈ as, a.quiet) → (∀ q sd, st.cache q sd = []) → ∀ q sd, (steps I T depth st as).cache q sd = [] := by
  intro as
  induction as with
  | nil => intro st _ h; exact h
  | cons a as ih =>
    intro st hq h
    refine ih _ (fun b hb => hq b (by simp [hb])) ?_
    have ha := hq a (by simp)
    intro q sd
    cases a with
    | query => exact ha.elim
    | setIt => exact h q sd
    | setGl => exact h q sd
    | make => exact h q sd
    | putIt sd' c t => simp only [step]; split <;> exact h q sd
    | putGl g t => simp only [step]; split <;> exact h q sd
    | forget q' sd' i => simp only [step]; split <;> simp [h]

/-- Functions that the analysis accepts are always fresh. -/
theorem fresh_of_ok (cfg : Cfg) (fixed : List Glob) (q : Name) (h : okB (table cfg) depth fixed depth q = true) :
    AlwaysFresh (table cfg) depth fixed q := by
  intro V I heq setup acts hs ha sd args st hargs
  have ho := ok_of_okB _ _ _ _ _ h
  have h0 := Inv.steps I (table cfg) depth depth [] (fun _ => I.dflt) Name.ctorIdx (calls_before cfg) rank_lt heq setup
    (St.init I.dflt) (Inv.init I (table cfg) depth depth []) (by simp)
  have hc := steps_quiet I (table cfg) setup (St.init I.dflt) hs (fun _ _ => rfl)
  have h1 : Inv I (table cfg) depth depth fixed (((steps I (table cfg) depth (St.init I.dflt) setup).view .curr).gl)
      (steps I (table cfg) depth (St.init I.dflt) setup) :=
    ⟨h0.pos, h0.pool0, h0.it, h0.gl, fun _ _ => rfl, h0.nev, h0.res, fun q sd _ e he => by rw [hc q sd] at he; simp at he⟩
  have h2 := Inv.steps I (table cfg) depth depth fixed _ Name.ctorIdx (calls_before cfg) rank_lt heq acts _ h1 ha
  exact query_fresh I (table cfg) depth depth fixed _ Name.ctorIdx (calls_before cfg) rank_lt heq st h2 q ho sd args hargs

theorem Name.mem_all : ∀ q : Name, q ∈ Name.all := by intro q; cases q <;> decide

/-- The bounds. -/
abbrev bounds : List Glob := [.xL, .xU, .dL, .dU]

/-- C56. While the bounds stay the same and no slack is adjusted, every function of the class returns the up-to-date value in every history, if the
objective does not depend on the barrier parameter (that is, outside the restoration phase). -/
theorem all_fresh (damp xScaling : Bool) (q : Name) : AlwaysFresh (table ⟨false, damp, xScaling, true⟩) depth bounds q := by
  refine fresh_of_ok _ _ q ?_
  have : ∀ q ∈ Name.all, okB (table ⟨false, damp, xScaling, true⟩) depth bounds depth q = true := by
    revert damp xScaling; decide +kernel
  exact this q (Name.mem_all q)

/-- Functions whose caches do not know that the gradient of the objective depends on the barrier parameter. -/
def muBlind : List Name := [.gradLagX, .gradLagDampX, .dualInf, .unscDualInf, .nlpError, .unscNlpError, .barrierError, .pdError]

/-- In the restoration phase the same holds for all functions outside `muBlind`. -/
theorem all_fresh_restoration (damp xScaling : Bool) (q : Name) (hq : q ∉ muBlind) :
    AlwaysFresh (table ⟨true, damp, xScaling, true⟩) depth bounds q := by
  refine fresh_of_ok _ _ q ?_
  have : ∀ q ∈ Name.all, q ∉ muBlind → okB (table ⟨true, damp, xScaling, true⟩) depth bounds depth q = true := by
    revert damp xScaling; decide +kernel
  exact this q (Name.mem_all q) hq

/-- In the restoration phase, while the barrier parameter stays the same, all functions are up to date. -/
theorem all_fresh_restoration_fixed_mu (damp xScaling : Bool) (q : Name) :
    AlwaysFresh (table ⟨true, damp, xScaling, true⟩) depth (.mu :: bounds) q := by
  refine fresh_of_ok _ _ q ?_
  have : ∀ q ∈ Name.all, okB (table ⟨true, damp, xScaling, true⟩) depth (.mu :: bounds) depth q = true := by
    revert damp xScaling; decide +kernel
  exact this q (Name.mem_all q)

/-- Functions that read slacks or bounds. -/
def boundReaders : List Name :=
  [.slackXL, .slackXU, .slackSL, .slackSU, .barrierObj, .gradBarrierX, .gradBarrierS, .nlpConstrViol, .unscNlpConstrViol, .complXL, .complXU, .complSL,
   .complSU, .relComplXL, .relComplXU, .relComplSL, .relComplSU, .complementarity, .unscComplementarity, .centrality, .nlpError, .unscNlpError,
   .barrierError, .pdError, .primalFrac, .currPrimalFrac, .uncSlackFrac, .sigmaX, .sigmaS, .avrgCompl, .gradBarrTDelta]

/-- The other functions are up to date in every history without exception (also when bounds change and slacks are adjusted), except those of
`muBlind` when the objective depends on the barrier parameter. -/
theorem boundless_fresh (cfg : Cfg) (q : Name) (hq : q ∉ boundReaders) (hm : cfg.objMu = true → q ∉ muBlind) :
    AlwaysFresh (table cfg) depth [] q := by
  refine fresh_of_ok _ _ q ?_
  have : ∀ q ∈ Name.all, q ∉ boundReaders → (cfg.objMu = true → q ∉ muBlind) → okB (table cfg) depth [] depth q = true := by
    clear hm hq
    obtain ⟨a, b, c, d⟩ := cfg
    revert a b c d; decide +kernel
  exact this q (Name.mem_all q) hq hm

/-- With slack adjustments: all functions are up to date while bounds, barrier parameter and the multipliers of the current point stay the same. -/
theorem all_fresh_adjusting (cfg : Cfg) (q : Name) :
    AlwaysFresh (table cfg) depth (.mu :: .czL :: .czU :: .cvL :: .cvU :: bounds) q := by
  refine fresh_of_ok _ _ q ?_
  have : ∀ q ∈ Name.all, okB (table cfg) depth (.mu :: .czL :: .czU :: .cvL :: .cvU :: bounds) depth q = true := by
    obtain ⟨a, b, c, d⟩ := cfg
    revert a b c d; decide +kernel
  exact this q (Name.mem_all q)

/-- C56. The value computed from scratch is the intended expression in the iterate, for every function of the class. -/
theorem fresh_meaning {V : Type} (I : Interp V) (cfg : Cfg) (w : View V) (args : List V) (q : Name) :
    fresh I (table cfg) depth w q args = Meaning.value I cfg w (fun i => args.getD i I.dflt) q := by
  cases q
  · exact MeaningProof.m_slackXL I cfg w args
  · exact MeaningProof.m_slackXU I cfg w args
  · exact MeaningProof.m_slackSL I cfg w args
  · exact MeaningProof.m_slackSU I cfg w args
  · exact MeaningProof.m_f I cfg w args
  · exact MeaningProof.m_unscF I cfg w args
  · exact MeaningProof.m_gradF I cfg w args
  · exact MeaningProof.m_barrierObj I cfg w args
  · exact MeaningProof.m_gradBarrierX I cfg w args
  · exact MeaningProof.m_kappaDampX I cfg w args
  · exact MeaningProof.m_gradBarrierS I cfg w args
  · exact MeaningProof.m_kappaDampS I cfg w args
  · exact MeaningProof.m_c I cfg w args
  · exact MeaningProof.m_unscC I cfg w args
  · exact MeaningProof.m_d I cfg w args
  · exact MeaningProof.m_unscD I cfg w args
  · exact MeaningProof.m_dMinusS I cfg w args
  · exact MeaningProof.m_jacC I cfg w args
  · exact MeaningProof.m_jacD I cfg w args
  · exact MeaningProof.m_jacCVec I cfg w args
  · exact MeaningProof.m_jacDVec I cfg w args
  · exact MeaningProof.m_jacCTVec I cfg w args
  · exact MeaningProof.m_jacDTVec I cfg w args
  · exact MeaningProof.m_jacCTyc I cfg w args
  · exact MeaningProof.m_jacDTyd I cfg w args
  · exact MeaningProof.m_primalInf I cfg w args
  · exact MeaningProof.m_constrViol I cfg w args
  · exact MeaningProof.m_nlpConstrViol I cfg w args
  · exact MeaningProof.m_unscNlpConstrViol I cfg w args
  · exact MeaningProof.m_unscOrigXLU I cfg w args
  · exact MeaningProof.m_unscOrigXL I cfg w args
  · exact MeaningProof.m_unscOrigXU I cfg w args
  · exact MeaningProof.m_unscOrigBounds I cfg w args
  · exact MeaningProof.m_origXL I cfg w args
  · exact MeaningProof.m_origXU I cfg w args
  · exact MeaningProof.m_origBounds I cfg w args
  · exact MeaningProof.m_hessian I cfg w args
  · exact MeaningProof.m_gradLagX I cfg w args
  · exact MeaningProof.m_gradLagS I cfg w args
  · exact MeaningProof.m_gradLagDampX I cfg w args
  · exact MeaningProof.m_gradLagDampS I cfg w args
  · exact MeaningProof.m_complXL I cfg w args
  · exact MeaningProof.m_complXU I cfg w args
  · exact MeaningProof.m_complSL I cfg w args
  · exact MeaningProof.m_complSU I cfg w args
  · exact MeaningProof.m_relComplXL I cfg w args
  · exact MeaningProof.m_relComplXU I cfg w args
  · exact MeaningProof.m_relComplSL I cfg w args
  · exact MeaningProof.m_relComplSU I cfg w args
  · exact MeaningProof.m_dualInf I cfg w args
  · exact MeaningProof.m_unscDualInf I cfg w args
  · exact MeaningProof.m_complementarity I cfg w args
  · exact MeaningProof.m_unscComplementarity I cfg w args
  · exact MeaningProof.m_centrality I cfg w args
  · exact MeaningProof.m_nlpError I cfg w args
  · exact MeaningProof.m_unscNlpError I cfg w args
  · exact MeaningProof.m_barrierError I cfg w args
  · exact MeaningProof.m_pdError I cfg w args
  · exact MeaningProof.m_primalFrac I cfg w args
  · exact MeaningProof.m_currPrimalFrac I cfg w args
  · exact MeaningProof.m_uncDualFrac I cfg w args
  · exact MeaningProof.m_dualFrac I cfg w args
  · exact MeaningProof.m_currDualFrac I cfg w args
  · exact MeaningProof.m_uncSlackFrac I cfg w args
  · exact MeaningProof.m_sigmaX I cfg w args
  · exact MeaningProof.m_sigmaS I cfg w args
  · exact MeaningProof.m_avrgCompl I cfg w args
  · exact MeaningProof.m_gradBarrTDelta I cfg w args

/-! ## What fails -/

/-- Operations for a problem with one variable, one inequality and one equality; vectors are numbers. -/
def exI : Interp ℚ where
  op f a := match f, a with
    | "CalcSlack_L", [x, b] => x - b
    | "CalculateSafeSlack", [s, b, z, mu] =>
      let smin := min 1 mu / 2 ^ 52
      if s < smin then min (max (mu / z) smin) (max 1 |b| / 2 ^ 39 + max s 0) else s
    | "f_mu", [x, mu] => mu * x
    | "grad_f_mu", [x, mu] => mu
    | "f", [x] => 2 * x
    | "grad_f", [x] => 2
    | "d", [x] => x
    | "grad_lag_x", [g, jc, jd, zL, zU] => g + jc + jd - zL + zU
    | "grad_lag_s", [yd, vL, vU] => vU - vL - yd
    | "CalcNormOfType", [_, a, b] => max |a| |b|
    | "nlp_constraint_violation", [_, c, d, dL, dU] => max |c| (max (dL - d) (d - dU))
    | "nlp_error", [_, a, b, c] => max a (max b c)
    | _, _ => 0
  eqv a b := decide (a = b)
  dflt := 0

/-- The value returned by a call after a history. -/
def answer (cfg : Cfg) (acts : List (Act Name ℚ)) (q : Name) (sd : Side) (args : List Nat) : Option ℚ :=
  (step exI (table cfg) depth (steps exI (table cfg) depth (St.init 0) acts) (.query q sd args)).2

/-- The up-to-date value. -/
def wanted (cfg : Cfg) (acts : List (Act Name ℚ)) (q : Name) (sd : Side) (args : List Nat) : Option ℚ :=
  let st := steps exI (table cfg) depth (St.init 0) acts
  some (fresh exI (table cfg) depth (st.view sd) q (args.map st.pool))

/-- After a change of the bounds at the same point the old slack is returned. -/
theorem slack_ignores_new_bounds :
    let acts := [.setIt .curr .x 1, .query .slackXL .curr [], .setGl .xL (-1)]
    answer ⟨false, true, true, true⟩ acts .slackXL .curr [] = some 1 ∧ wanted ⟨false, true, true, true⟩ acts .slackXL .curr [] = some 2 := by
  decide +kernel

/-- The same for the constraint violation of the original problem. -/
theorem violation_ignores_new_bounds :
    let acts := [.setIt .curr .x 1, .query .nlpConstrViol .curr [0], .setGl .dL 4]
    answer ⟨false, true, true, true⟩ acts .nlpConstrViol .curr [0] = some 1 ∧
      wanted ⟨false, true, true, true⟩ acts .nlpConstrViol .curr [0] = some 3 := by
  decide +kernel

/-- An adjusted slack is not adjusted again when the barrier parameter changes. -/
theorem adjusted_slack_ignores_mu :
    let acts := [.setIt .curr .zL 1, .setGl .mu 1, .query .slackXL .curr [], .setGl .mu (1 / 2 ^ 45)]
    answer ⟨false, true, true, false⟩ acts .slackXL .curr [] = some (1 / 2 ^ 39) ∧
      wanted ⟨false, true, true, false⟩ acts .slackXL .curr [] = some (1 / 2 ^ 45) := by
  decide +kernel

/-- An adjusted slack is not adjusted again when the multiplier changes. -/
theorem adjusted_slack_ignores_multiplier :
    let acts := [.setIt .curr .zL 1, .setGl .mu 1, .query .slackXL .curr [], .setIt .curr .zL (2 ^ 45)]
    answer ⟨false, true, true, false⟩ acts .slackXL .curr [] = some (1 / 2 ^ 39) ∧
      wanted ⟨false, true, true, false⟩ acts .slackXL .curr [] = some (1 / 2 ^ 45) := by
  decide +kernel

/-- In the restoration phase the dual infeasibility, and with it the error of the barrier problem (though its own dependencies name the barrier
parameter), keep the old value when the barrier parameter changes; the objective value and its gradient do not. -/
theorem dual_infeasibility_ignores_mu :
    let acts := [.setIt .curr .x 1, .setGl .mu 1, .query .barrierError .curr [], .setGl .mu (1 / 2)]
    let cfg : Cfg := ⟨true, true, true, true⟩
    answer cfg acts .gradF .curr [] = some (1 / 2) ∧
    answer cfg acts .dualInf .curr [0] = some 1 ∧ wanted cfg acts .dualInf .curr [0] = some (1 / 2) ∧
    answer cfg acts .barrierError .curr [] = some 1 ∧ wanted cfg acts .barrierError .curr [] = some (1 / 2) := by
  decide +kernel

/-- Number of objects created by a history. -/
def created (cfg : Cfg) (acts : List (Act Name ℚ)) : Nat := (steps exI (table cfg) depth (St.init 0) acts).next

/-- A second call at the same point creates nothing for `curr_nlp_error`, but `curr_barrier_error` and `curr_compl_s_L` are computed again: the result of the
former is stored without the scalar dependency with which it is looked up, that of the latter is not stored.  (Not wrong, only slow.) -/
theorem stored_but_never_found :
    let cfg : Cfg := ⟨false, true, true, true⟩
    created cfg [.query .nlpError .curr [], .query .nlpError .curr []] = created cfg [.query .nlpError .curr []] ∧
    created cfg [.query .barrierError .curr []] < created cfg [.query .barrierError .curr [], .query .barrierError .curr []] ∧
    created cfg [.query .complXL .curr [], .query .complXL .curr []] = created cfg [.query .complXL .curr []] ∧
    created cfg [.query .complSL .curr []] < created cfg [.query .complSL .curr [], .query .complSL .curr []] := by
  decide +kernel

/-- The theorems speak about real look-ups: after `AcceptTrialPoint` (the current point gets the objects of the trial point) the value computed for the trial
point is found (nothing is created), and it is right; a changed point gives a new value. -/
example :
    let cfg : Cfg := ⟨false, true, true, true⟩
    let a := [.setGl .xL (-3), .setIt .trial .x 5, .query .slackXL .trial [], .putIt .curr .x 2]
    created cfg (a ++ [.query .slackXL .curr []]) = created cfg a ∧ answer cfg a .slackXL .curr [] = some 8 ∧
    answer cfg (a ++ [.query .slackXL .curr [], .setIt .curr .x 6]) .slackXL .curr [] = some 9 := by
  decide +kernel

/-- So the unrestricted statement is false. -/
theorem not_always_fresh :
    ¬ (∀ q, AlwaysFresh (table ⟨false, true, true, true⟩) depth [] q) ∧
    ¬ (∀ q, AlwaysFresh (table ⟨true, true, true, true⟩) depth bounds q) ∧
    ¬ (∀ q, AlwaysFresh (table ⟨false, true, true, false⟩) depth bounds q) := by
  refine ⟨fun h => ?_, fun h => ?_, fun h => ?_⟩
  · have := h .slackXL ℚ exI (by simp [exI]) [] [.setIt .curr .x 1, .query .slackXL .curr [], .setGl .xL (-1)] (by simp) (by simp) .curr []
    revert this; decide +kernel
  · have := h .dualInf ℚ exI (by simp [exI]) [] [.setIt .curr .x 1, .setGl .mu 1, .query .dualInf .curr [0], .setGl .mu (1 / 2)] (by simp)
      (by simp [Act.keeps]) .curr [0]
    revert this; decide +kernel
  · have := h .slackXL ℚ exI (by simp [exI]) [] [.setIt .curr .zL 1, .setGl .mu 1, .query .slackXL .curr [], .setGl .mu (1 / 2 ^ 45)] (by simp)
      (by simp [Act.keeps]) .curr []
    revert this; decide +kernel

end Verif.CQ
