import Verif.Proof.CalcQuantRun
import Verif.Model.CalcQuantTable
import Verif.Spec.CalcQuantMeaning

/-! # The table computes the intended expressions -/

set_option linter.unusedVariables false
set_option linter.unusedSimpArgs false
set_option linter.constructorNameAsVariable false

namespace Verif.CQ

/-- More than the longest chain of calls (68 functions, each calls earlier ones only). -/
abbrev depth : Nat := 68

theorem calls_before (cfg : Cfg) : ∀ q, ∀ c ∈ (table cfg q).calls, c.ctorIdx < q.ctorIdx := by
  obtain ⟨a, b, c, d⟩ := cfg
  intro q
  cases q <;> revert a b c d <;> decide

theorem rank_lt : ∀ q : Name, q.ctorIdx < depth := by intro q; cases q <;> decide

theorem unf {V : Type} (I : Interp V) (cfg : Cfg) (w : View V) (q : Name) (args : List V) :
    fresh I (table cfg) depth w q args =
      (evalI I (fresh I (table cfg) depth w) w args [] ((table cfg q).pre ++ (table cfg q).body)).getLastD I.dflt :=
  fresh_unfold I (table cfg) Name.ctorIdx (calls_before cfg) depth rank_lt w q args

namespace MeaningProof

variable {V : Type} (I : Interp V) (cfg : Cfg) (w : View V) (args : List V)

/-- The value from scratch, not unfolded further by the simplifier. -/
def F (q : Name) (args : List V) : V := fresh I (table cfg) depth w q args

theorem unfF (q : Name) (args : List V) :
    F I cfg w q args = (evalI I (F I cfg w) w args [] ((table cfg q).pre ++ (table cfg q).body)).getLastD I.dflt := unf I cfg w q args

theorem m_slackXL : F I cfg w .slackXL args = Meaning.value I cfg w (fun i => args.getD i I.dflt) .slackXL := by
  rw [unfF]
  cases hsafe : cfg.safe <;>
  simp [table, q_slackXL, evalI, regV, View.read, Meaning.value, hsafe, Meaning.o, Meaning.safeSlack, Meaning.sxL, Meaning.sxU, Meaning.ssL, Meaning.ssU, Meaning.obj, Meaning.gradObj, Meaning.hess, Meaning.cOf, Meaning.dOf, Meaning.Jc, Meaning.Jd, Meaning.dms, Meaning.gLx, Meaning.gLs, Meaning.cxL, Meaning.cxU, Meaning.csL, Meaning.csU, Meaning.primal, Meaning.dual, Meaning.comp, Meaning.viol, Meaning.unscViol, Meaning.unscDual, Meaning.unscComp, Meaning.scaling, Meaning.gbx, Meaning.gbs, Meaning.xLU, Meaning.oxL, Meaning.oxU, Meaning.normMax, Meaning.norm1, Meaning.muTarget, Meaning.primFrac, Meaning.dFrac]

theorem m_slackXU : F I cfg w .slackXU args = Meaning.value I cfg w (fun i => args.getD i I.dflt) .slackXU := by
  rw [unfF]
  cases hsafe : cfg.safe <;>
  simp [table, q_slackXU, evalI, regV, View.read, Meaning.value, hsafe, Meaning.o, Meaning.safeSlack, Meaning.sxL, Meaning.sxU, Meaning.ssL, Meaning.ssU, Meaning.obj, Meaning.gradObj, Meaning.hess, Meaning.cOf, Meaning.dOf, Meaning.Jc, Meaning.Jd, Meaning.dms, Meaning.gLx, Meaning.gLs, Meaning.cxL, Meaning.cxU, Meaning.csL, Meaning.csU, Meaning.primal, Meaning.dual, Meaning.comp, Meaning.viol, Meaning.unscViol, Meaning.unscDual, Meaning.unscComp, Meaning.scaling, Meaning.gbx, Meaning.gbs, Meaning.xLU, Meaning.oxL, Meaning.oxU, Meaning.normMax, Meaning.norm1, Meaning.muTarget, Meaning.primFrac, Meaning.dFrac]

theorem m_slackSL : F I cfg w .slackSL args = Meaning.value I cfg w (fun i => args.getD i I.dflt) .slackSL := by
  rw [unfF]
  cases hsafe : cfg.safe <;>
  simp [table, q_slackSL, evalI, regV, View.read, Meaning.value, hsafe, Meaning.o, Meaning.safeSlack, Meaning.sxL, Meaning.sxU, Meaning.ssL, Meaning.ssU, Meaning.obj, Meaning.gradObj, Meaning.hess, Meaning.cOf, Meaning.dOf, Meaning.Jc, Meaning.Jd, Meaning.dms, Meaning.gLx, Meaning.gLs, Meaning.cxL, Meaning.cxU, Meaning.csL, Meaning.csU, Meaning.primal, Meaning.dual, Meaning.comp, Meaning.viol, Meaning.unscViol, Meaning.unscDual, Meaning.unscComp, Meaning.scaling, Meaning.gbx, Meaning.gbs, Meaning.xLU, Meaning.oxL, Meaning.oxU, Meaning.normMax, Meaning.norm1, Meaning.muTarget, Meaning.primFrac, Meaning.dFrac]

theorem m_slackSU : F I cfg w .slackSU args = Meaning.value I cfg w (fun i => args.getD i I.dflt) .slackSU := by
  rw [unfF]
  cases hsafe : cfg.safe <;>
  simp [table, q_slackSU, evalI, regV, View.read, Meaning.value, hsafe, Meaning.o, Meaning.safeSlack, Meaning.sxL, Meaning.sxU, Meaning.ssL, Meaning.ssU, Meaning.obj, Meaning.gradObj, Meaning.hess, Meaning.cOf, Meaning.dOf, Meaning.Jc, Meaning.Jd, Meaning.dms, Meaning.gLx, Meaning.gLs, Meaning.cxL, Meaning.cxU, Meaning.csL, Meaning.csU, Meaning.primal, Meaning.dual, Meaning.comp, Meaning.viol, Meaning.unscViol, Meaning.unscDual, Meaning.unscComp, Meaning.scaling, Meaning.gbx, Meaning.gbs, Meaning.xLU, Meaning.oxL, Meaning.oxU, Meaning.normMax, Meaning.norm1, Meaning.muTarget, Meaning.primFrac, Meaning.dFrac]

theorem m_f : F I cfg w .f args = Meaning.value I cfg w (fun i => args.getD i I.dflt) .f := by
  rw [unfF]
  cases hobjMu : cfg.objMu <;>
  simp [table, q_f, evalI, regV, View.read, Meaning.value, hobjMu, Meaning.o, Meaning.safeSlack, Meaning.sxL, Meaning.sxU, Meaning.ssL, Meaning.ssU, Meaning.obj, Meaning.gradObj, Meaning.hess, Meaning.cOf, Meaning.dOf, Meaning.Jc, Meaning.Jd, Meaning.dms, Meaning.gLx, Meaning.gLs, Meaning.cxL, Meaning.cxU, Meaning.csL, Meaning.csU, Meaning.primal, Meaning.dual, Meaning.comp, Meaning.viol, Meaning.unscViol, Meaning.unscDual, Meaning.unscComp, Meaning.scaling, Meaning.gbx, Meaning.gbs, Meaning.xLU, Meaning.oxL, Meaning.oxU, Meaning.normMax, Meaning.norm1, Meaning.muTarget, Meaning.primFrac, Meaning.dFrac]

theorem m_unscF : F I cfg w .unscF args = Meaning.value I cfg w (fun i => args.getD i I.dflt) .unscF := by
  rw [unfF]
  simp [table, q_unscF, evalI, regV, View.read, Meaning.value, m_f, Meaning.o, Meaning.safeSlack, Meaning.sxL, Meaning.sxU, Meaning.ssL, Meaning.ssU, Meaning.obj, Meaning.gradObj, Meaning.hess, Meaning.cOf, Meaning.dOf, Meaning.Jc, Meaning.Jd, Meaning.dms, Meaning.gLx, Meaning.gLs, Meaning.cxL, Meaning.cxU, Meaning.csL, Meaning.csU, Meaning.primal, Meaning.dual, Meaning.comp, Meaning.viol, Meaning.unscViol, Meaning.unscDual, Meaning.unscComp, Meaning.scaling, Meaning.gbx, Meaning.gbs, Meaning.xLU, Meaning.oxL, Meaning.oxU, Meaning.normMax, Meaning.norm1, Meaning.muTarget, Meaning.primFrac, Meaning.dFrac]

theorem m_gradF : F I cfg w .gradF args = Meaning.value I cfg w (fun i => args.getD i I.dflt) .gradF := by
  rw [unfF]
  cases hobjMu : cfg.objMu <;>
  simp [table, q_gradF, evalI, regV, View.read, Meaning.value, hobjMu, Meaning.o, Meaning.safeSlack, Meaning.sxL, Meaning.sxU, Meaning.ssL, Meaning.ssU, Meaning.obj, Meaning.gradObj, Meaning.hess, Meaning.cOf, Meaning.dOf, Meaning.Jc, Meaning.Jd, Meaning.dms, Meaning.gLx, Meaning.gLs, Meaning.cxL, Meaning.cxU, Meaning.csL, Meaning.csU, Meaning.primal, Meaning.dual, Meaning.comp, Meaning.viol, Meaning.unscViol, Meaning.unscDual, Meaning.unscComp, Meaning.scaling, Meaning.gbx, Meaning.gbs, Meaning.xLU, Meaning.oxL, Meaning.oxU, Meaning.normMax, Meaning.norm1, Meaning.muTarget, Meaning.primFrac, Meaning.dFrac]

theorem m_barrierObj : F I cfg w .barrierObj args = Meaning.value I cfg w (fun i => args.getD i I.dflt) .barrierObj := by
  rw [unfF]
  simp [table, q_barrierObj, evalI, regV, View.read, Meaning.value, m_f, m_slackSL, m_slackSU, m_slackXL, m_slackXU, Meaning.o, Meaning.safeSlack, Meaning.sxL, Meaning.sxU, Meaning.ssL, Meaning.ssU, Meaning.obj, Meaning.gradObj, Meaning.hess, Meaning.cOf, Meaning.dOf, Meaning.Jc, Meaning.Jd, Meaning.dms, Meaning.gLx, Meaning.gLs, Meaning.cxL, Meaning.cxU, Meaning.csL, Meaning.csU, Meaning.primal, Meaning.dual, Meaning.comp, Meaning.viol, Meaning.unscViol, Meaning.unscDual, Meaning.unscComp, Meaning.scaling, Meaning.gbx, Meaning.gbs, Meaning.xLU, Meaning.oxL, Meaning.oxU, Meaning.normMax, Meaning.norm1, Meaning.muTarget, Meaning.primFrac, Meaning.dFrac]

theorem m_gradBarrierX : F I cfg w .gradBarrierX args = Meaning.value I cfg w (fun i => args.getD i I.dflt) .gradBarrierX := by
  rw [unfF]
  simp [table, q_gradBarrierX, evalI, regV, View.read, Meaning.value, m_gradF, m_slackXL, m_slackXU, Meaning.o, Meaning.safeSlack, Meaning.sxL, Meaning.sxU, Meaning.ssL, Meaning.ssU, Meaning.obj, Meaning.gradObj, Meaning.hess, Meaning.cOf, Meaning.dOf, Meaning.Jc, Meaning.Jd, Meaning.dms, Meaning.gLx, Meaning.gLs, Meaning.cxL, Meaning.cxU, Meaning.csL, Meaning.csU, Meaning.primal, Meaning.dual, Meaning.comp, Meaning.viol, Meaning.unscViol, Meaning.unscDual, Meaning.unscComp, Meaning.scaling, Meaning.gbx, Meaning.gbs, Meaning.xLU, Meaning.oxL, Meaning.oxU, Meaning.normMax, Meaning.norm1, Meaning.muTarget, Meaning.primFrac, Meaning.dFrac]

theorem m_kappaDampX : F I cfg w .kappaDampX args = Meaning.value I cfg w (fun i => args.getD i I.dflt) .kappaDampX := by
  rw [unfF]
  simp [table, q_kappaDampX, evalI, regV, View.read, Meaning.value, Meaning.o, Meaning.safeSlack, Meaning.sxL, Meaning.sxU, Meaning.ssL, Meaning.ssU, Meaning.obj, Meaning.gradObj, Meaning.hess, Meaning.cOf, Meaning.dOf, Meaning.Jc, Meaning.Jd, Meaning.dms, Meaning.gLx, Meaning.gLs, Meaning.cxL, Meaning.cxU, Meaning.csL, Meaning.csU, Meaning.primal, Meaning.dual, Meaning.comp, Meaning.viol, Meaning.unscViol, Meaning.unscDual, Meaning.unscComp, Meaning.scaling, Meaning.gbx, Meaning.gbs, Meaning.xLU, Meaning.oxL, Meaning.oxU, Meaning.normMax, Meaning.norm1, Meaning.muTarget, Meaning.primFrac, Meaning.dFrac]

theorem m_gradBarrierS : F I cfg w .gradBarrierS args = Meaning.value I cfg w (fun i => args.getD i I.dflt) .gradBarrierS := by
  rw [unfF]
  simp [table, q_gradBarrierS, evalI, regV, View.read, Meaning.value, m_slackSL, m_slackSU, Meaning.o, Meaning.safeSlack, Meaning.sxL, Meaning.sxU, Meaning.ssL, Meaning.ssU, Meaning.obj, Meaning.gradObj, Meaning.hess, Meaning.cOf, Meaning.dOf, Meaning.Jc, Meaning.Jd, Meaning.dms, Meaning.gLx, Meaning.gLs, Meaning.cxL, Meaning.cxU, Meaning.csL, Meaning.csU, Meaning.primal, Meaning.dual, Meaning.comp, Meaning.viol, Meaning.unscViol, Meaning.unscDual, Meaning.unscComp, Meaning.scaling, Meaning.gbx, Meaning.gbs, Meaning.xLU, Meaning.oxL, Meaning.oxU, Meaning.normMax, Meaning.norm1, Meaning.muTarget, Meaning.primFrac, Meaning.dFrac]

theorem m_kappaDampS : F I cfg w .kappaDampS args = Meaning.value I cfg w (fun i => args.getD i I.dflt) .kappaDampS := by
  rw [unfF]
  simp [table, q_kappaDampS, evalI, regV, View.read, Meaning.value, Meaning.o, Meaning.safeSlack, Meaning.sxL, Meaning.sxU, Meaning.ssL, Meaning.ssU, Meaning.obj, Meaning.gradObj, Meaning.hess, Meaning.cOf, Meaning.dOf, Meaning.Jc, Meaning.Jd, Meaning.dms, Meaning.gLx, Meaning.gLs, Meaning.cxL, Meaning.cxU, Meaning.csL, Meaning.csU, Meaning.primal, Meaning.dual, Meaning.comp, Meaning.viol, Meaning.unscViol, Meaning.unscDual, Meaning.unscComp, Meaning.scaling, Meaning.gbx, Meaning.gbs, Meaning.xLU, Meaning.oxL, Meaning.oxU, Meaning.normMax, Meaning.norm1, Meaning.muTarget, Meaning.primFrac, Meaning.dFrac]

theorem m_c : F I cfg w .c args = Meaning.value I cfg w (fun i => args.getD i I.dflt) .c := by
  rw [unfF]
  simp [table, q_c, evalI, regV, View.read, Meaning.value, Meaning.o, Meaning.safeSlack, Meaning.sxL, Meaning.sxU, Meaning.ssL, Meaning.ssU, Meaning.obj, Meaning.gradObj, Meaning.hess, Meaning.cOf, Meaning.dOf, Meaning.Jc, Meaning.Jd, Meaning.dms, Meaning.gLx, Meaning.gLs, Meaning.cxL, Meaning.cxU, Meaning.csL, Meaning.csU, Meaning.primal, Meaning.dual, Meaning.comp, Meaning.viol, Meaning.unscViol, Meaning.unscDual, Meaning.unscComp, Meaning.scaling, Meaning.gbx, Meaning.gbs, Meaning.xLU, Meaning.oxL, Meaning.oxU, Meaning.normMax, Meaning.norm1, Meaning.muTarget, Meaning.primFrac, Meaning.dFrac]

theorem m_unscC : F I cfg w .unscC args = Meaning.value I cfg w (fun i => args.getD i I.dflt) .unscC := by
  rw [unfF]
  simp [table, q_unscC, evalI, regV, View.read, Meaning.value, m_c, Meaning.o, Meaning.safeSlack, Meaning.sxL, Meaning.sxU, Meaning.ssL, Meaning.ssU, Meaning.obj, Meaning.gradObj, Meaning.hess, Meaning.cOf, Meaning.dOf, Meaning.Jc, Meaning.Jd, Meaning.dms, Meaning.gLx, Meaning.gLs, Meaning.cxL, Meaning.cxU, Meaning.csL, Meaning.csU, Meaning.primal, Meaning.dual, Meaning.comp, Meaning.viol, Meaning.unscViol, Meaning.unscDual, Meaning.unscComp, Meaning.scaling, Meaning.gbx, Meaning.gbs, Meaning.xLU, Meaning.oxL, Meaning.oxU, Meaning.normMax, Meaning.norm1, Meaning.muTarget, Meaning.primFrac, Meaning.dFrac]

theorem m_d : F I cfg w .d args = Meaning.value I cfg w (fun i => args.getD i I.dflt) .d := by
  rw [unfF]
  simp [table, q_d, evalI, regV, View.read, Meaning.value, Meaning.o, Meaning.safeSlack, Meaning.sxL, Meaning.sxU, Meaning.ssL, Meaning.ssU, Meaning.obj, Meaning.gradObj, Meaning.hess, Meaning.cOf, Meaning.dOf, Meaning.Jc, Meaning.Jd, Meaning.dms, Meaning.gLx, Meaning.gLs, Meaning.cxL, Meaning.cxU, Meaning.csL, Meaning.csU, Meaning.primal, Meaning.dual, Meaning.comp, Meaning.viol, Meaning.unscViol, Meaning.unscDual, Meaning.unscComp, Meaning.scaling, Meaning.gbx, Meaning.gbs, Meaning.xLU, Meaning.oxL, Meaning.oxU, Meaning.normMax, Meaning.norm1, Meaning.muTarget, Meaning.primFrac, Meaning.dFrac]

theorem m_unscD : F I cfg w .unscD args = Meaning.value I cfg w (fun i => args.getD i I.dflt) .unscD := by
  rw [unfF]
  simp [table, q_unscD, evalI, regV, View.read, Meaning.value, m_d, Meaning.o, Meaning.safeSlack, Meaning.sxL, Meaning.sxU, Meaning.ssL, Meaning.ssU, Meaning.obj, Meaning.gradObj, Meaning.hess, Meaning.cOf, Meaning.dOf, Meaning.Jc, Meaning.Jd, Meaning.dms, Meaning.gLx, Meaning.gLs, Meaning.cxL, Meaning.cxU, Meaning.csL, Meaning.csU, Meaning.primal, Meaning.dual, Meaning.comp, Meaning.viol, Meaning.unscViol, Meaning.unscDual, Meaning.unscComp, Meaning.scaling, Meaning.gbx, Meaning.gbs, Meaning.xLU, Meaning.oxL, Meaning.oxU, Meaning.normMax, Meaning.norm1, Meaning.muTarget, Meaning.primFrac, Meaning.dFrac]

theorem m_dMinusS : F I cfg w .dMinusS args = Meaning.value I cfg w (fun i => args.getD i I.dflt) .dMinusS := by
  rw [unfF]
  simp [table, q_dMinusS, evalI, regV, View.read, Meaning.value, m_d, Meaning.o, Meaning.safeSlack, Meaning.sxL, Meaning.sxU, Meaning.ssL, Meaning.ssU, Meaning.obj, Meaning.gradObj, Meaning.hess, Meaning.cOf, Meaning.dOf, Meaning.Jc, Meaning.Jd, Meaning.dms, Meaning.gLx, Meaning.gLs, Meaning.cxL, Meaning.cxU, Meaning.csL, Meaning.csU, Meaning.primal, Meaning.dual, Meaning.comp, Meaning.viol, Meaning.unscViol, Meaning.unscDual, Meaning.unscComp, Meaning.scaling, Meaning.gbx, Meaning.gbs, Meaning.xLU, Meaning.oxL, Meaning.oxU, Meaning.normMax, Meaning.norm1, Meaning.muTarget, Meaning.primFrac, Meaning.dFrac]

theorem m_jacC : F I cfg w .jacC args = Meaning.value I cfg w (fun i => args.getD i I.dflt) .jacC := by
  rw [unfF]
  simp [table, q_jacC, evalI, regV, View.read, Meaning.value, Meaning.o, Meaning.safeSlack, Meaning.sxL, Meaning.sxU, Meaning.ssL, Meaning.ssU, Meaning.obj, Meaning.gradObj, Meaning.hess, Meaning.cOf, Meaning.dOf, Meaning.Jc, Meaning.Jd, Meaning.dms, Meaning.gLx, Meaning.gLs, Meaning.cxL, Meaning.cxU, Meaning.csL, Meaning.csU, Meaning.primal, Meaning.dual, Meaning.comp, Meaning.viol, Meaning.unscViol, Meaning.unscDual, Meaning.unscComp, Meaning.scaling, Meaning.gbx, Meaning.gbs, Meaning.xLU, Meaning.oxL, Meaning.oxU, Meaning.normMax, Meaning.norm1, Meaning.muTarget, Meaning.primFrac, Meaning.dFrac]

theorem m_jacD : F I cfg w .jacD args = Meaning.value I cfg w (fun i => args.getD i I.dflt) .jacD := by
  rw [unfF]
  simp [table, q_jacD, evalI, regV, View.read, Meaning.value, Meaning.o, Meaning.safeSlack, Meaning.sxL, Meaning.sxU, Meaning.ssL, Meaning.ssU, Meaning.obj, Meaning.gradObj, Meaning.hess, Meaning.cOf, Meaning.dOf, Meaning.Jc, Meaning.Jd, Meaning.dms, Meaning.gLx, Meaning.gLs, Meaning.cxL, Meaning.cxU, Meaning.csL, Meaning.csU, Meaning.primal, Meaning.dual, Meaning.comp, Meaning.viol, Meaning.unscViol, Meaning.unscDual, Meaning.unscComp, Meaning.scaling, Meaning.gbx, Meaning.gbs, Meaning.xLU, Meaning.oxL, Meaning.oxU, Meaning.normMax, Meaning.norm1, Meaning.muTarget, Meaning.primFrac, Meaning.dFrac]

theorem m_jacCVec : F I cfg w .jacCVec args = Meaning.value I cfg w (fun i => args.getD i I.dflt) .jacCVec := by
  rw [unfF]
  simp [table, q_jacCVec, evalI, regV, View.read, Meaning.value, m_jacC, Meaning.o, Meaning.safeSlack, Meaning.sxL, Meaning.sxU, Meaning.ssL, Meaning.ssU, Meaning.obj, Meaning.gradObj, Meaning.hess, Meaning.cOf, Meaning.dOf, Meaning.Jc, Meaning.Jd, Meaning.dms, Meaning.gLx, Meaning.gLs, Meaning.cxL, Meaning.cxU, Meaning.csL, Meaning.csU, Meaning.primal, Meaning.dual, Meaning.comp, Meaning.viol, Meaning.unscViol, Meaning.unscDual, Meaning.unscComp, Meaning.scaling, Meaning.gbx, Meaning.gbs, Meaning.xLU, Meaning.oxL, Meaning.oxU, Meaning.normMax, Meaning.norm1, Meaning.muTarget, Meaning.primFrac, Meaning.dFrac]

theorem m_jacDVec : F I cfg w .jacDVec args = Meaning.value I cfg w (fun i => args.getD i I.dflt) .jacDVec := by
  rw [unfF]
  simp [table, q_jacDVec, evalI, regV, View.read, Meaning.value, m_jacD, Meaning.o, Meaning.safeSlack, Meaning.sxL, Meaning.sxU, Meaning.ssL, Meaning.ssU, Meaning.obj, Meaning.gradObj, Meaning.hess, Meaning.cOf, Meaning.dOf, Meaning.Jc, Meaning.Jd, Meaning.dms, Meaning.gLx, Meaning.gLs, Meaning.cxL, Meaning.cxU, Meaning.csL, Meaning.csU, Meaning.primal, Meaning.dual, Meaning.comp, Meaning.viol, Meaning.unscViol, Meaning.unscDual, Meaning.unscComp, Meaning.scaling, Meaning.gbx, Meaning.gbs, Meaning.xLU, Meaning.oxL, Meaning.oxU, Meaning.normMax, Meaning.norm1, Meaning.muTarget, Meaning.primFrac, Meaning.dFrac]

theorem m_jacCTVec : F I cfg w .jacCTVec args = Meaning.value I cfg w (fun i => args.getD i I.dflt) .jacCTVec := by
  rw [unfF]
  simp [table, q_jacCTVec, evalI, regV, View.read, Meaning.value, m_jacC, Meaning.o, Meaning.safeSlack, Meaning.sxL, Meaning.sxU, Meaning.ssL, Meaning.ssU, Meaning.obj, Meaning.gradObj, Meaning.hess, Meaning.cOf, Meaning.dOf, Meaning.Jc, Meaning.Jd, Meaning.dms, Meaning.gLx, Meaning.gLs, Meaning.cxL, Meaning.cxU, Meaning.csL, Meaning.csU, Meaning.primal, Meaning.dual, Meaning.comp, Meaning.viol, Meaning.unscViol, Meaning.unscDual, Meaning.unscComp, Meaning.scaling, Meaning.gbx, Meaning.gbs, Meaning.xLU, Meaning.oxL, Meaning.oxU, Meaning.normMax, Meaning.norm1, Meaning.muTarget, Meaning.primFrac, Meaning.dFrac]

theorem m_jacDTVec : F I cfg w .jacDTVec args = Meaning.value I cfg w (fun i => args.getD i I.dflt) .jacDTVec := by
  rw [unfF]
  simp [table, q_jacDTVec, evalI, regV, View.read, Meaning.value, m_jacD, Meaning.o, Meaning.safeSlack, Meaning.sxL, Meaning.sxU, Meaning.ssL, Meaning.ssU, Meaning.obj, Meaning.gradObj, Meaning.hess, Meaning.cOf, Meaning.dOf, Meaning.Jc, Meaning.Jd, Meaning.dms, Meaning.gLx, Meaning.gLs, Meaning.cxL, Meaning.cxU, Meaning.csL, Meaning.csU, Meaning.primal, Meaning.dual, Meaning.comp, Meaning.viol, Meaning.unscViol, Meaning.unscDual, Meaning.unscComp, Meaning.scaling, Meaning.gbx, Meaning.gbs, Meaning.xLU, Meaning.oxL, Meaning.oxU, Meaning.normMax, Meaning.norm1, Meaning.muTarget, Meaning.primFrac, Meaning.dFrac]

theorem m_jacCTyc : F I cfg w .jacCTyc args = Meaning.value I cfg w (fun i => args.getD i I.dflt) .jacCTyc := by
  rw [unfF]
  simp [table, q_jacCTyc, evalI, regV, View.read, Meaning.value, m_jacCTVec, Meaning.o, Meaning.safeSlack, Meaning.sxL, Meaning.sxU, Meaning.ssL, Meaning.ssU, Meaning.obj, Meaning.gradObj, Meaning.hess, Meaning.cOf, Meaning.dOf, Meaning.Jc, Meaning.Jd, Meaning.dms, Meaning.gLx, Meaning.gLs, Meaning.cxL, Meaning.cxU, Meaning.csL, Meaning.csU, Meaning.primal, Meaning.dual, Meaning.comp, Meaning.viol, Meaning.unscViol, Meaning.unscDual, Meaning.unscComp, Meaning.scaling, Meaning.gbx, Meaning.gbs, Meaning.xLU, Meaning.oxL, Meaning.oxU, Meaning.normMax, Meaning.norm1, Meaning.muTarget, Meaning.primFrac, Meaning.dFrac]

theorem m_jacDTyd : F I cfg w .jacDTyd args = Meaning.value I cfg w (fun i => args.getD i I.dflt) .jacDTyd := by
  rw [unfF]
  simp [table, q_jacDTyd, evalI, regV, View.read, Meaning.value, m_jacDTVec, Meaning.o, Meaning.safeSlack, Meaning.sxL, Meaning.sxU, Meaning.ssL, Meaning.ssU, Meaning.obj, Meaning.gradObj, Meaning.hess, Meaning.cOf, Meaning.dOf, Meaning.Jc, Meaning.Jd, Meaning.dms, Meaning.gLx, Meaning.gLs, Meaning.cxL, Meaning.cxU, Meaning.csL, Meaning.csU, Meaning.primal, Meaning.dual, Meaning.comp, Meaning.viol, Meaning.unscViol, Meaning.unscDual, Meaning.unscComp, Meaning.scaling, Meaning.gbx, Meaning.gbs, Meaning.xLU, Meaning.oxL, Meaning.oxU, Meaning.normMax, Meaning.norm1, Meaning.muTarget, Meaning.primFrac, Meaning.dFrac]

theorem m_primalInf : F I cfg w .primalInf args = Meaning.value I cfg w (fun i => args.getD i I.dflt) .primalInf := by
  rw [unfF]
  simp [table, q_primalInf, evalI, regV, View.read, Meaning.value, m_c, m_dMinusS, Meaning.o, Meaning.safeSlack, Meaning.sxL, Meaning.sxU, Meaning.ssL, Meaning.ssU, Meaning.obj, Meaning.gradObj, Meaning.hess, Meaning.cOf, Meaning.dOf, Meaning.Jc, Meaning.Jd, Meaning.dms, Meaning.gLx, Meaning.gLs, Meaning.cxL, Meaning.cxU, Meaning.csL, Meaning.csU, Meaning.primal, Meaning.dual, Meaning.comp, Meaning.viol, Meaning.unscViol, Meaning.unscDual, Meaning.unscComp, Meaning.scaling, Meaning.gbx, Meaning.gbs, Meaning.xLU, Meaning.oxL, Meaning.oxU, Meaning.normMax, Meaning.norm1, Meaning.muTarget, Meaning.primFrac, Meaning.dFrac]

theorem m_constrViol : F I cfg w .constrViol args = Meaning.value I cfg w (fun i => args.getD i I.dflt) .constrViol := by
  rw [unfF]
  simp [table, q_constrViol, evalI, regV, View.read, Meaning.value, m_primalInf, Meaning.o, Meaning.safeSlack, Meaning.sxL, Meaning.sxU, Meaning.ssL, Meaning.ssU, Meaning.obj, Meaning.gradObj, Meaning.hess, Meaning.cOf, Meaning.dOf, Meaning.Jc, Meaning.Jd, Meaning.dms, Meaning.gLx, Meaning.gLs, Meaning.cxL, Meaning.cxU, Meaning.csL, Meaning.csU, Meaning.primal, Meaning.dual, Meaning.comp, Meaning.viol, Meaning.unscViol, Meaning.unscDual, Meaning.unscComp, Meaning.scaling, Meaning.gbx, Meaning.gbs, Meaning.xLU, Meaning.oxL, Meaning.oxU, Meaning.normMax, Meaning.norm1, Meaning.muTarget, Meaning.primFrac, Meaning.dFrac]

theorem m_nlpConstrViol : F I cfg w .nlpConstrViol args = Meaning.value I cfg w (fun i => args.getD i I.dflt) .nlpConstrViol := by
  rw [unfF]
  simp [table, q_nlpConstrViol, evalI, regV, View.read, Meaning.value, m_c, m_d, Meaning.o, Meaning.safeSlack, Meaning.sxL, Meaning.sxU, Meaning.ssL, Meaning.ssU, Meaning.obj, Meaning.gradObj, Meaning.hess, Meaning.cOf, Meaning.dOf, Meaning.Jc, Meaning.Jd, Meaning.dms, Meaning.gLx, Meaning.gLs, Meaning.cxL, Meaning.cxU, Meaning.csL, Meaning.csU, Meaning.primal, Meaning.dual, Meaning.comp, Meaning.viol, Meaning.unscViol, Meaning.unscDual, Meaning.unscComp, Meaning.scaling, Meaning.gbx, Meaning.gbs, Meaning.xLU, Meaning.oxL, Meaning.oxU, Meaning.normMax, Meaning.norm1, Meaning.muTarget, Meaning.primFrac, Meaning.dFrac]

theorem m_unscNlpConstrViol : F I cfg w .unscNlpConstrViol args = Meaning.value I cfg w (fun i => args.getD i I.dflt) .unscNlpConstrViol := by
  rw [unfF]
  simp [table, q_unscNlpConstrViol, evalI, regV, View.read, Meaning.value, m_d, m_unscC, Meaning.o, Meaning.safeSlack, Meaning.sxL, Meaning.sxU, Meaning.ssL, Meaning.ssU, Meaning.obj, Meaning.gradObj, Meaning.hess, Meaning.cOf, Meaning.dOf, Meaning.Jc, Meaning.Jd, Meaning.dms, Meaning.gLx, Meaning.gLs, Meaning.cxL, Meaning.cxU, Meaning.csL, Meaning.csU, Meaning.primal, Meaning.dual, Meaning.comp, Meaning.viol, Meaning.unscViol, Meaning.unscDual, Meaning.unscComp, Meaning.scaling, Meaning.gbx, Meaning.gbs, Meaning.xLU, Meaning.oxL, Meaning.oxU, Meaning.normMax, Meaning.norm1, Meaning.muTarget, Meaning.primFrac, Meaning.dFrac]

theorem m_unscOrigXLU : F I cfg w .unscOrigXLU args = Meaning.value I cfg w (fun i => args.getD i I.dflt) .unscOrigXLU := by
  rw [unfF]
  simp [table, q_unscOrigXLU, evalI, regV, View.read, Meaning.value, Meaning.o, Meaning.safeSlack, Meaning.sxL, Meaning.sxU, Meaning.ssL, Meaning.ssU, Meaning.obj, Meaning.gradObj, Meaning.hess, Meaning.cOf, Meaning.dOf, Meaning.Jc, Meaning.Jd, Meaning.dms, Meaning.gLx, Meaning.gLs, Meaning.cxL, Meaning.cxU, Meaning.csL, Meaning.csU, Meaning.primal, Meaning.dual, Meaning.comp, Meaning.viol, Meaning.unscViol, Meaning.unscDual, Meaning.unscComp, Meaning.scaling, Meaning.gbx, Meaning.gbs, Meaning.xLU, Meaning.oxL, Meaning.oxU, Meaning.normMax, Meaning.norm1, Meaning.muTarget, Meaning.primFrac, Meaning.dFrac]

theorem m_unscOrigXL : F I cfg w .unscOrigXL args = Meaning.value I cfg w (fun i => args.getD i I.dflt) .unscOrigXL := by
  rw [unfF]
  simp [table, q_unscOrigXL, evalI, regV, View.read, Meaning.value, m_unscOrigXLU, Meaning.o, Meaning.safeSlack, Meaning.sxL, Meaning.sxU, Meaning.ssL, Meaning.ssU, Meaning.obj, Meaning.gradObj, Meaning.hess, Meaning.cOf, Meaning.dOf, Meaning.Jc, Meaning.Jd, Meaning.dms, Meaning.gLx, Meaning.gLs, Meaning.cxL, Meaning.cxU, Meaning.csL, Meaning.csU, Meaning.primal, Meaning.dual, Meaning.comp, Meaning.viol, Meaning.unscViol, Meaning.unscDual, Meaning.unscComp, Meaning.scaling, Meaning.gbx, Meaning.gbs, Meaning.xLU, Meaning.oxL, Meaning.oxU, Meaning.normMax, Meaning.norm1, Meaning.muTarget, Meaning.primFrac, Meaning.dFrac]

theorem m_unscOrigXU : F I cfg w .unscOrigXU args = Meaning.value I cfg w (fun i => args.getD i I.dflt) .unscOrigXU := by
  rw [unfF]
  simp [table, q_unscOrigXU, evalI, regV, View.read, Meaning.value, m_unscOrigXLU, Meaning.o, Meaning.safeSlack, Meaning.sxL, Meaning.sxU, Meaning.ssL, Meaning.ssU, Meaning.obj, Meaning.gradObj, Meaning.hess, Meaning.cOf, Meaning.dOf, Meaning.Jc, Meaning.Jd, Meaning.dms, Meaning.gLx, Meaning.gLs, Meaning.cxL, Meaning.cxU, Meaning.csL, Meaning.csU, Meaning.primal, Meaning.dual, Meaning.comp, Meaning.viol, Meaning.unscViol, Meaning.unscDual, Meaning.unscComp, Meaning.scaling, Meaning.gbx, Meaning.gbs, Meaning.xLU, Meaning.oxL, Meaning.oxU, Meaning.normMax, Meaning.norm1, Meaning.muTarget, Meaning.primFrac, Meaning.dFrac]

theorem m_unscOrigBounds : F I cfg w .unscOrigBounds args = Meaning.value I cfg w (fun i => args.getD i I.dflt) .unscOrigBounds := by
  rw [unfF]
  simp [table, q_unscOrigBounds, evalI, regV, View.read, Meaning.value, m_unscOrigXLU, Meaning.o, Meaning.safeSlack, Meaning.sxL, Meaning.sxU, Meaning.ssL, Meaning.ssU, Meaning.obj, Meaning.gradObj, Meaning.hess, Meaning.cOf, Meaning.dOf, Meaning.Jc, Meaning.Jd, Meaning.dms, Meaning.gLx, Meaning.gLs, Meaning.cxL, Meaning.cxU, Meaning.csL, Meaning.csU, Meaning.primal, Meaning.dual, Meaning.comp, Meaning.viol, Meaning.unscViol, Meaning.unscDual, Meaning.unscComp, Meaning.scaling, Meaning.gbx, Meaning.gbs, Meaning.xLU, Meaning.oxL, Meaning.oxU, Meaning.normMax, Meaning.norm1, Meaning.muTarget, Meaning.primFrac, Meaning.dFrac]

theorem m_origXL : F I cfg w .origXL args = Meaning.value I cfg w (fun i => args.getD i I.dflt) .origXL := by
  rw [unfF]
  cases hxScaling : cfg.xScaling <;>
  simp [table, q_origXL, evalI, regV, View.read, Meaning.value, m_unscOrigXL, hxScaling, Meaning.o, Meaning.safeSlack, Meaning.sxL, Meaning.sxU, Meaning.ssL, Meaning.ssU, Meaning.obj, Meaning.gradObj, Meaning.hess, Meaning.cOf, Meaning.dOf, Meaning.Jc, Meaning.Jd, Meaning.dms, Meaning.gLx, Meaning.gLs, Meaning.cxL, Meaning.cxU, Meaning.csL, Meaning.csU, Meaning.primal, Meaning.dual, Meaning.comp, Meaning.viol, Meaning.unscViol, Meaning.unscDual, Meaning.unscComp, Meaning.scaling, Meaning.gbx, Meaning.gbs, Meaning.xLU, Meaning.oxL, Meaning.oxU, Meaning.normMax, Meaning.norm1, Meaning.muTarget, Meaning.primFrac, Meaning.dFrac]

theorem m_origXU : F I cfg w .origXU args = Meaning.value I cfg w (fun i => args.getD i I.dflt) .origXU := by
  rw [unfF]
  cases hxScaling : cfg.xScaling <;>
  simp [table, q_origXU, evalI, regV, View.read, Meaning.value, m_unscOrigXU, hxScaling, Meaning.o, Meaning.safeSlack, Meaning.sxL, Meaning.sxU, Meaning.ssL, Meaning.ssU, Meaning.obj, Meaning.gradObj, Meaning.hess, Meaning.cOf, Meaning.dOf, Meaning.Jc, Meaning.Jd, Meaning.dms, Meaning.gLx, Meaning.gLs, Meaning.cxL, Meaning.cxU, Meaning.csL, Meaning.csU, Meaning.primal, Meaning.dual, Meaning.comp, Meaning.viol, Meaning.unscViol, Meaning.unscDual, Meaning.unscComp, Meaning.scaling, Meaning.gbx, Meaning.gbs, Meaning.xLU, Meaning.oxL, Meaning.oxU, Meaning.normMax, Meaning.norm1, Meaning.muTarget, Meaning.primFrac, Meaning.dFrac]

theorem m_origBounds : F I cfg w .origBounds args = Meaning.value I cfg w (fun i => args.getD i I.dflt) .origBounds := by
  rw [unfF]
  cases hxScaling : cfg.xScaling <;>
  simp [table, q_origBounds, evalI, regV, View.read, Meaning.value, m_origXL, m_origXU, m_unscOrigBounds, hxScaling, Meaning.o, Meaning.safeSlack, Meaning.sxL, Meaning.sxU, Meaning.ssL, Meaning.ssU, Meaning.obj, Meaning.gradObj, Meaning.hess, Meaning.cOf, Meaning.dOf, Meaning.Jc, Meaning.Jd, Meaning.dms, Meaning.gLx, Meaning.gLs, Meaning.cxL, Meaning.cxU, Meaning.csL, Meaning.csU, Meaning.primal, Meaning.dual, Meaning.comp, Meaning.viol, Meaning.unscViol, Meaning.unscDual, Meaning.unscComp, Meaning.scaling, Meaning.gbx, Meaning.gbs, Meaning.xLU, Meaning.oxL, Meaning.oxU, Meaning.normMax, Meaning.norm1, Meaning.muTarget, Meaning.primFrac, Meaning.dFrac]

theorem m_hessian : F I cfg w .hessian args = Meaning.value I cfg w (fun i => args.getD i I.dflt) .hessian := by
  rw [unfF]
  cases hobjMu : cfg.objMu <;>
  simp [table, q_hessian, evalI, regV, View.read, Meaning.value, hobjMu, Meaning.o, Meaning.safeSlack, Meaning.sxL, Meaning.sxU, Meaning.ssL, Meaning.ssU, Meaning.obj, Meaning.gradObj, Meaning.hess, Meaning.cOf, Meaning.dOf, Meaning.Jc, Meaning.Jd, Meaning.dms, Meaning.gLx, Meaning.gLs, Meaning.cxL, Meaning.cxU, Meaning.csL, Meaning.csU, Meaning.primal, Meaning.dual, Meaning.comp, Meaning.viol, Meaning.unscViol, Meaning.unscDual, Meaning.unscComp, Meaning.scaling, Meaning.gbx, Meaning.gbs, Meaning.xLU, Meaning.oxL, Meaning.oxU, Meaning.normMax, Meaning.norm1, Meaning.muTarget, Meaning.primFrac, Meaning.dFrac]

theorem m_gradLagX : F I cfg w .gradLagX args = Meaning.value I cfg w (fun i => args.getD i I.dflt) .gradLagX := by
  rw [unfF]
  simp [table, q_gradLagX, evalI, regV, View.read, Meaning.value, m_gradF, m_jacCTyc, m_jacDTyd, Meaning.o, Meaning.safeSlack, Meaning.sxL, Meaning.sxU, Meaning.ssL, Meaning.ssU, Meaning.obj, Meaning.gradObj, Meaning.hess, Meaning.cOf, Meaning.dOf, Meaning.Jc, Meaning.Jd, Meaning.dms, Meaning.gLx, Meaning.gLs, Meaning.cxL, Meaning.cxU, Meaning.csL, Meaning.csU, Meaning.primal, Meaning.dual, Meaning.comp, Meaning.viol, Meaning.unscViol, Meaning.unscDual, Meaning.unscComp, Meaning.scaling, Meaning.gbx, Meaning.gbs, Meaning.xLU, Meaning.oxL, Meaning.oxU, Meaning.normMax, Meaning.norm1, Meaning.muTarget, Meaning.primFrac, Meaning.dFrac]

theorem m_gradLagS : F I cfg w .gradLagS args = Meaning.value I cfg w (fun i => args.getD i I.dflt) .gradLagS := by
  rw [unfF]
  simp [table, q_gradLagS, evalI, regV, View.read, Meaning.value, Meaning.o, Meaning.safeSlack, Meaning.sxL, Meaning.sxU, Meaning.ssL, Meaning.ssU, Meaning.obj, Meaning.gradObj, Meaning.hess, Meaning.cOf, Meaning.dOf, Meaning.Jc, Meaning.Jd, Meaning.dms, Meaning.gLx, Meaning.gLs, Meaning.cxL, Meaning.cxU, Meaning.csL, Meaning.csU, Meaning.primal, Meaning.dual, Meaning.comp, Meaning.viol, Meaning.unscViol, Meaning.unscDual, Meaning.unscComp, Meaning.scaling, Meaning.gbx, Meaning.gbs, Meaning.xLU, Meaning.oxL, Meaning.oxU, Meaning.normMax, Meaning.norm1, Meaning.muTarget, Meaning.primFrac, Meaning.dFrac]

theorem m_gradLagDampX : F I cfg w .gradLagDampX args = Meaning.value I cfg w (fun i => args.getD i I.dflt) .gradLagDampX := by
  rw [unfF]
  cases hdamp : cfg.damp <;>
  simp [table, q_gradLagDampX, evalI, regV, View.read, Meaning.value, m_gradLagX, hdamp, Meaning.o, Meaning.safeSlack, Meaning.sxL, Meaning.sxU, Meaning.ssL, Meaning.ssU, Meaning.obj, Meaning.gradObj, Meaning.hess, Meaning.cOf, Meaning.dOf, Meaning.Jc, Meaning.Jd, Meaning.dms, Meaning.gLx, Meaning.gLs, Meaning.cxL, Meaning.cxU, Meaning.csL, Meaning.csU, Meaning.primal, Meaning.dual, Meaning.comp, Meaning.viol, Meaning.unscViol, Meaning.unscDual, Meaning.unscComp, Meaning.scaling, Meaning.gbx, Meaning.gbs, Meaning.xLU, Meaning.oxL, Meaning.oxU, Meaning.normMax, Meaning.norm1, Meaning.muTarget, Meaning.primFrac, Meaning.dFrac]

theorem m_gradLagDampS : F I cfg w .gradLagDampS args = Meaning.value I cfg w (fun i => args.getD i I.dflt) .gradLagDampS := by
  rw [unfF]
  cases hdamp : cfg.damp <;>
  simp [table, q_gradLagDampS, evalI, regV, View.read, Meaning.value, m_gradLagS, hdamp, Meaning.o, Meaning.safeSlack, Meaning.sxL, Meaning.sxU, Meaning.ssL, Meaning.ssU, Meaning.obj, Meaning.gradObj, Meaning.hess, Meaning.cOf, Meaning.dOf, Meaning.Jc, Meaning.Jd, Meaning.dms, Meaning.gLx, Meaning.gLs, Meaning.cxL, Meaning.cxU, Meaning.csL, Meaning.csU, Meaning.primal, Meaning.dual, Meaning.comp, Meaning.viol, Meaning.unscViol, Meaning.unscDual, Meaning.unscComp, Meaning.scaling, Meaning.gbx, Meaning.gbs, Meaning.xLU, Meaning.oxL, Meaning.oxU, Meaning.normMax, Meaning.norm1, Meaning.muTarget, Meaning.primFrac, Meaning.dFrac]

theorem m_complXL : F I cfg w .complXL args = Meaning.value I cfg w (fun i => args.getD i I.dflt) .complXL := by
  rw [unfF]
  simp [table, q_complXL, evalI, regV, View.read, Meaning.value, m_slackXL, Meaning.o, Meaning.safeSlack, Meaning.sxL, Meaning.sxU, Meaning.ssL, Meaning.ssU, Meaning.obj, Meaning.gradObj, Meaning.hess, Meaning.cOf, Meaning.dOf, Meaning.Jc, Meaning.Jd, Meaning.dms, Meaning.gLx, Meaning.gLs, Meaning.cxL, Meaning.cxU, Meaning.csL, Meaning.csU, Meaning.primal, Meaning.dual, Meaning.comp, Meaning.viol, Meaning.unscViol, Meaning.unscDual, Meaning.unscComp, Meaning.scaling, Meaning.gbx, Meaning.gbs, Meaning.xLU, Meaning.oxL, Meaning.oxU, Meaning.normMax, Meaning.norm1, Meaning.muTarget, Meaning.primFrac, Meaning.dFrac]

theorem m_complXU : F I cfg w .complXU args = Meaning.value I cfg w (fun i => args.getD i I.dflt) .complXU := by
  rw [unfF]
  simp [table, q_complXU, evalI, regV, View.read, Meaning.value, m_slackXU, Meaning.o, Meaning.safeSlack, Meaning.sxL, Meaning.sxU, Meaning.ssL, Meaning.ssU, Meaning.obj, Meaning.gradObj, Meaning.hess, Meaning.cOf, Meaning.dOf, Meaning.Jc, Meaning.Jd, Meaning.dms, Meaning.gLx, Meaning.gLs, Meaning.cxL, Meaning.cxU, Meaning.csL, Meaning.csU, Meaning.primal, Meaning.dual, Meaning.comp, Meaning.viol, Meaning.unscViol, Meaning.unscDual, Meaning.unscComp, Meaning.scaling, Meaning.gbx, Meaning.gbs, Meaning.xLU, Meaning.oxL, Meaning.oxU, Meaning.normMax, Meaning.norm1, Meaning.muTarget, Meaning.primFrac, Meaning.dFrac]

theorem m_complSL : F I cfg w .complSL args = Meaning.value I cfg w (fun i => args.getD i I.dflt) .complSL := by
  rw [unfF]
  simp [table, q_complSL, evalI, regV, View.read, Meaning.value, m_slackSL, Meaning.o, Meaning.safeSlack, Meaning.sxL, Meaning.sxU, Meaning.ssL, Meaning.ssU, Meaning.obj, Meaning.gradObj, Meaning.hess, Meaning.cOf, Meaning.dOf, Meaning.Jc, Meaning.Jd, Meaning.dms, Meaning.gLx, Meaning.gLs, Meaning.cxL, Meaning.cxU, Meaning.csL, Meaning.csU, Meaning.primal, Meaning.dual, Meaning.comp, Meaning.viol, Meaning.unscViol, Meaning.unscDual, Meaning.unscComp, Meaning.scaling, Meaning.gbx, Meaning.gbs, Meaning.xLU, Meaning.oxL, Meaning.oxU, Meaning.normMax, Meaning.norm1, Meaning.muTarget, Meaning.primFrac, Meaning.dFrac]

theorem m_complSU : F I cfg w .complSU args = Meaning.value I cfg w (fun i => args.getD i I.dflt) .complSU := by
  rw [unfF]
  simp [table, q_complSU, evalI, regV, View.read, Meaning.value, m_slackSU, Meaning.o, Meaning.safeSlack, Meaning.sxL, Meaning.sxU, Meaning.ssL, Meaning.ssU, Meaning.obj, Meaning.gradObj, Meaning.hess, Meaning.cOf, Meaning.dOf, Meaning.Jc, Meaning.Jd, Meaning.dms, Meaning.gLx, Meaning.gLs, Meaning.cxL, Meaning.cxU, Meaning.csL, Meaning.csU, Meaning.primal, Meaning.dual, Meaning.comp, Meaning.viol, Meaning.unscViol, Meaning.unscDual, Meaning.unscComp, Meaning.scaling, Meaning.gbx, Meaning.gbs, Meaning.xLU, Meaning.oxL, Meaning.oxU, Meaning.normMax, Meaning.norm1, Meaning.muTarget, Meaning.primFrac, Meaning.dFrac]

theorem m_relComplXL : F I cfg w .relComplXL args = Meaning.value I cfg w (fun i => args.getD i I.dflt) .relComplXL := by
  rw [unfF]
  simp [table, q_relComplXL, evalI, regV, View.read, Meaning.value, m_complXL, m_slackXL, Meaning.o, Meaning.safeSlack, Meaning.sxL, Meaning.sxU, Meaning.ssL, Meaning.ssU, Meaning.obj, Meaning.gradObj, Meaning.hess, Meaning.cOf, Meaning.dOf, Meaning.Jc, Meaning.Jd, Meaning.dms, Meaning.gLx, Meaning.gLs, Meaning.cxL, Meaning.cxU, Meaning.csL, Meaning.csU, Meaning.primal, Meaning.dual, Meaning.comp, Meaning.viol, Meaning.unscViol, Meaning.unscDual, Meaning.unscComp, Meaning.scaling, Meaning.gbx, Meaning.gbs, Meaning.xLU, Meaning.oxL, Meaning.oxU, Meaning.normMax, Meaning.norm1, Meaning.muTarget, Meaning.primFrac, Meaning.dFrac]

theorem m_relComplXU : F I cfg w .relComplXU args = Meaning.value I cfg w (fun i => args.getD i I.dflt) .relComplXU := by
  rw [unfF]
  simp [table, q_relComplXU, evalI, regV, View.read, Meaning.value, m_complXU, m_slackXU, Meaning.o, Meaning.safeSlack, Meaning.sxL, Meaning.sxU, Meaning.ssL, Meaning.ssU, Meaning.obj, Meaning.gradObj, Meaning.hess, Meaning.cOf, Meaning.dOf, Meaning.Jc, Meaning.Jd, Meaning.dms, Meaning.gLx, Meaning.gLs, Meaning.cxL, Meaning.cxU, Meaning.csL, Meaning.csU, Meaning.primal, Meaning.dual, Meaning.comp, Meaning.viol, Meaning.unscViol, Meaning.unscDual, Meaning.unscComp, Meaning.scaling, Meaning.gbx, Meaning.gbs, Meaning.xLU, Meaning.oxL, Meaning.oxU, Meaning.normMax, Meaning.norm1, Meaning.muTarget, Meaning.primFrac, Meaning.dFrac]

theorem m_relComplSL : F I cfg w .relComplSL args = Meaning.value I cfg w (fun i => args.getD i I.dflt) .relComplSL := by
  rw [unfF]
  simp [table, q_relComplSL, evalI, regV, View.read, Meaning.value, m_complSL, m_slackSL, Meaning.o, Meaning.safeSlack, Meaning.sxL, Meaning.sxU, Meaning.ssL, Meaning.ssU, Meaning.obj, Meaning.gradObj, Meaning.hess, Meaning.cOf, Meaning.dOf, Meaning.Jc, Meaning.Jd, Meaning.dms, Meaning.gLx, Meaning.gLs, Meaning.cxL, Meaning.cxU, Meaning.csL, Meaning.csU, Meaning.primal, Meaning.dual, Meaning.comp, Meaning.viol, Meaning.unscViol, Meaning.unscDual, Meaning.unscComp, Meaning.scaling, Meaning.gbx, Meaning.gbs, Meaning.xLU, Meaning.oxL, Meaning.oxU, Meaning.normMax, Meaning.norm1, Meaning.muTarget, Meaning.primFrac, Meaning.dFrac]

theorem m_relComplSU : F I cfg w .relComplSU args = Meaning.value I cfg w (fun i => args.getD i I.dflt) .relComplSU := by
  rw [unfF]
  simp [table, q_relComplSU, evalI, regV, View.read, Meaning.value, m_complSU, m_slackSU, Meaning.o, Meaning.safeSlack, Meaning.sxL, Meaning.sxU, Meaning.ssL, Meaning.ssU, Meaning.obj, Meaning.gradObj, Meaning.hess, Meaning.cOf, Meaning.dOf, Meaning.Jc, Meaning.Jd, Meaning.dms, Meaning.gLx, Meaning.gLs, Meaning.cxL, Meaning.cxU, Meaning.csL, Meaning.csU, Meaning.primal, Meaning.dual, Meaning.comp, Meaning.viol, Meaning.unscViol, Meaning.unscDual, Meaning.unscComp, Meaning.scaling, Meaning.gbx, Meaning.gbs, Meaning.xLU, Meaning.oxL, Meaning.oxU, Meaning.normMax, Meaning.norm1, Meaning.muTarget, Meaning.primFrac, Meaning.dFrac]

theorem m_dualInf : F I cfg w .dualInf args = Meaning.value I cfg w (fun i => args.getD i I.dflt) .dualInf := by
  rw [unfF]
  simp [table, q_dualInf, evalI, regV, View.read, Meaning.value, m_gradLagS, m_gradLagX, Meaning.o, Meaning.safeSlack, Meaning.sxL, Meaning.sxU, Meaning.ssL, Meaning.ssU, Meaning.obj, Meaning.gradObj, Meaning.hess, Meaning.cOf, Meaning.dOf, Meaning.Jc, Meaning.Jd, Meaning.dms, Meaning.gLx, Meaning.gLs, Meaning.cxL, Meaning.cxU, Meaning.csL, Meaning.csU, Meaning.primal, Meaning.dual, Meaning.comp, Meaning.viol, Meaning.unscViol, Meaning.unscDual, Meaning.unscComp, Meaning.scaling, Meaning.gbx, Meaning.gbs, Meaning.xLU, Meaning.oxL, Meaning.oxU, Meaning.normMax, Meaning.norm1, Meaning.muTarget, Meaning.primFrac, Meaning.dFrac]

theorem m_unscDualInf : F I cfg w .unscDualInf args = Meaning.value I cfg w (fun i => args.getD i I.dflt) .unscDualInf := by
  rw [unfF]
  simp [table, q_unscDualInf, evalI, regV, View.read, Meaning.value, m_gradLagS, m_gradLagX, Meaning.o, Meaning.safeSlack, Meaning.sxL, Meaning.sxU, Meaning.ssL, Meaning.ssU, Meaning.obj, Meaning.gradObj, Meaning.hess, Meaning.cOf, Meaning.dOf, Meaning.Jc, Meaning.Jd, Meaning.dms, Meaning.gLx, Meaning.gLs, Meaning.cxL, Meaning.cxU, Meaning.csL, Meaning.csU, Meaning.primal, Meaning.dual, Meaning.comp, Meaning.viol, Meaning.unscViol, Meaning.unscDual, Meaning.unscComp, Meaning.scaling, Meaning.gbx, Meaning.gbs, Meaning.xLU, Meaning.oxL, Meaning.oxU, Meaning.normMax, Meaning.norm1, Meaning.muTarget, Meaning.primFrac, Meaning.dFrac]

theorem m_complementarity : F I cfg w .complementarity args = Meaning.value I cfg w (fun i => args.getD i I.dflt) .complementarity := by
  rw [unfF]
  simp [table, q_complementarity, evalI, regV, View.read, Meaning.value, m_complSL, m_complSU, m_complXL, m_complXU, Meaning.o, Meaning.safeSlack, Meaning.sxL, Meaning.sxU, Meaning.ssL, Meaning.ssU, Meaning.obj, Meaning.gradObj, Meaning.hess, Meaning.cOf, Meaning.dOf, Meaning.Jc, Meaning.Jd, Meaning.dms, Meaning.gLx, Meaning.gLs, Meaning.cxL, Meaning.cxU, Meaning.csL, Meaning.csU, Meaning.primal, Meaning.dual, Meaning.comp, Meaning.viol, Meaning.unscViol, Meaning.unscDual, Meaning.unscComp, Meaning.scaling, Meaning.gbx, Meaning.gbs, Meaning.xLU, Meaning.oxL, Meaning.oxU, Meaning.normMax, Meaning.norm1, Meaning.muTarget, Meaning.primFrac, Meaning.dFrac]

theorem m_unscComplementarity : F I cfg w .unscComplementarity args = Meaning.value I cfg w (fun i => args.getD i I.dflt) .unscComplementarity := by
  rw [unfF]
  simp [table, q_unscComplementarity, evalI, regV, View.read, Meaning.value, m_complementarity, Meaning.o, Meaning.safeSlack, Meaning.sxL, Meaning.sxU, Meaning.ssL, Meaning.ssU, Meaning.obj, Meaning.gradObj, Meaning.hess, Meaning.cOf, Meaning.dOf, Meaning.Jc, Meaning.Jd, Meaning.dms, Meaning.gLx, Meaning.gLs, Meaning.cxL, Meaning.cxU, Meaning.csL, Meaning.csU, Meaning.primal, Meaning.dual, Meaning.comp, Meaning.viol, Meaning.unscViol, Meaning.unscDual, Meaning.unscComp, Meaning.scaling, Meaning.gbx, Meaning.gbs, Meaning.xLU, Meaning.oxL, Meaning.oxU, Meaning.normMax, Meaning.norm1, Meaning.muTarget, Meaning.primFrac, Meaning.dFrac]

theorem m_centrality : F I cfg w .centrality args = Meaning.value I cfg w (fun i => args.getD i I.dflt) .centrality := by
  rw [unfF]
  simp [table, q_centrality, evalI, regV, View.read, Meaning.value, m_complSL, m_complSU, m_complXL, m_complXU, Meaning.o, Meaning.safeSlack, Meaning.sxL, Meaning.sxU, Meaning.ssL, Meaning.ssU, Meaning.obj, Meaning.gradObj, Meaning.hess, Meaning.cOf, Meaning.dOf, Meaning.Jc, Meaning.Jd, Meaning.dms, Meaning.gLx, Meaning.gLs, Meaning.cxL, Meaning.cxU, Meaning.csL, Meaning.csU, Meaning.primal, Meaning.dual, Meaning.comp, Meaning.viol, Meaning.unscViol, Meaning.unscDual, Meaning.unscComp, Meaning.scaling, Meaning.gbx, Meaning.gbs, Meaning.xLU, Meaning.oxL, Meaning.oxU, Meaning.normMax, Meaning.norm1, Meaning.muTarget, Meaning.primFrac, Meaning.dFrac]

theorem m_nlpError : F I cfg w .nlpError args = Meaning.value I cfg w (fun i => args.getD i I.dflt) .nlpError := by
  rw [unfF]
  simp [table, q_nlpError, evalI, regV, View.read, Meaning.value, m_complementarity, m_dualInf, m_nlpConstrViol, Meaning.o, Meaning.safeSlack, Meaning.sxL, Meaning.sxU, Meaning.ssL, Meaning.ssU, Meaning.obj, Meaning.gradObj, Meaning.hess, Meaning.cOf, Meaning.dOf, Meaning.Jc, Meaning.Jd, Meaning.dms, Meaning.gLx, Meaning.gLs, Meaning.cxL, Meaning.cxU, Meaning.csL, Meaning.csU, Meaning.primal, Meaning.dual, Meaning.comp, Meaning.viol, Meaning.unscViol, Meaning.unscDual, Meaning.unscComp, Meaning.scaling, Meaning.gbx, Meaning.gbs, Meaning.xLU, Meaning.oxL, Meaning.oxU, Meaning.normMax, Meaning.norm1, Meaning.muTarget, Meaning.primFrac, Meaning.dFrac]

theorem m_unscNlpError : F I cfg w .unscNlpError args = Meaning.value I cfg w (fun i => args.getD i I.dflt) .unscNlpError := by
  rw [unfF]
  simp [table, q_unscNlpError, evalI, regV, View.read, Meaning.value, m_unscComplementarity, m_unscDualInf, m_unscNlpConstrViol, Meaning.o, Meaning.safeSlack, Meaning.sxL, Meaning.sxU, Meaning.ssL, Meaning.ssU, Meaning.obj, Meaning.gradObj, Meaning.hess, Meaning.cOf, Meaning.dOf, Meaning.Jc, Meaning.Jd, Meaning.dms, Meaning.gLx, Meaning.gLs, Meaning.cxL, Meaning.cxU, Meaning.csL, Meaning.csU, Meaning.primal, Meaning.dual, Meaning.comp, Meaning.viol, Meaning.unscViol, Meaning.unscDual, Meaning.unscComp, Meaning.scaling, Meaning.gbx, Meaning.gbs, Meaning.xLU, Meaning.oxL, Meaning.oxU, Meaning.normMax, Meaning.norm1, Meaning.muTarget, Meaning.primFrac, Meaning.dFrac]

theorem m_barrierError : F I cfg w .barrierError args = Meaning.value I cfg w (fun i => args.getD i I.dflt) .barrierError := by
  rw [unfF]
  simp [table, q_barrierError, evalI, regV, View.read, Meaning.value, m_complementarity, m_dualInf, m_primalInf, Meaning.o, Meaning.safeSlack, Meaning.sxL, Meaning.sxU, Meaning.ssL, Meaning.ssU, Meaning.obj, Meaning.gradObj, Meaning.hess, Meaning.cOf, Meaning.dOf, Meaning.Jc, Meaning.Jd, Meaning.dms, Meaning.gLx, Meaning.gLs, Meaning.cxL, Meaning.cxU, Meaning.csL, Meaning.csU, Meaning.primal, Meaning.dual, Meaning.comp, Meaning.viol, Meaning.unscViol, Meaning.unscDual, Meaning.unscComp, Meaning.scaling, Meaning.gbx, Meaning.gbs, Meaning.xLU, Meaning.oxL, Meaning.oxU, Meaning.normMax, Meaning.norm1, Meaning.muTarget, Meaning.primFrac, Meaning.dFrac]

theorem m_pdError : F I cfg w .pdError args = Meaning.value I cfg w (fun i => args.getD i I.dflt) .pdError := by
  rw [unfF]
  simp [table, q_pdError, evalI, regV, View.read, Meaning.value, m_complementarity, m_dualInf, m_primalInf, Meaning.o, Meaning.safeSlack, Meaning.sxL, Meaning.sxU, Meaning.ssL, Meaning.ssU, Meaning.obj, Meaning.gradObj, Meaning.hess, Meaning.cOf, Meaning.dOf, Meaning.Jc, Meaning.Jd, Meaning.dms, Meaning.gLx, Meaning.gLs, Meaning.cxL, Meaning.cxU, Meaning.csL, Meaning.csU, Meaning.primal, Meaning.dual, Meaning.comp, Meaning.viol, Meaning.unscViol, Meaning.unscDual, Meaning.unscComp, Meaning.scaling, Meaning.gbx, Meaning.gbs, Meaning.xLU, Meaning.oxL, Meaning.oxU, Meaning.normMax, Meaning.norm1, Meaning.muTarget, Meaning.primFrac, Meaning.dFrac]

theorem m_primalFrac : F I cfg w .primalFrac args = Meaning.value I cfg w (fun i => args.getD i I.dflt) .primalFrac := by
  rw [unfF]
  simp [table, q_primalFrac, evalI, regV, View.read, Meaning.value, m_slackSL, m_slackSU, m_slackXL, m_slackXU, Meaning.o, Meaning.safeSlack, Meaning.sxL, Meaning.sxU, Meaning.ssL, Meaning.ssU, Meaning.obj, Meaning.gradObj, Meaning.hess, Meaning.cOf, Meaning.dOf, Meaning.Jc, Meaning.Jd, Meaning.dms, Meaning.gLx, Meaning.gLs, Meaning.cxL, Meaning.cxU, Meaning.csL, Meaning.csU, Meaning.primal, Meaning.dual, Meaning.comp, Meaning.viol, Meaning.unscViol, Meaning.unscDual, Meaning.unscComp, Meaning.scaling, Meaning.gbx, Meaning.gbs, Meaning.xLU, Meaning.oxL, Meaning.oxU, Meaning.normMax, Meaning.norm1, Meaning.muTarget, Meaning.primFrac, Meaning.dFrac]

theorem m_currPrimalFrac : F I cfg w .currPrimalFrac args = Meaning.value I cfg w (fun i => args.getD i I.dflt) .currPrimalFrac := by
  rw [unfF]
  simp [table, q_currPrimalFrac, evalI, regV, View.read, Meaning.value, m_primalFrac, Meaning.o, Meaning.safeSlack, Meaning.sxL, Meaning.sxU, Meaning.ssL, Meaning.ssU, Meaning.obj, Meaning.gradObj, Meaning.hess, Meaning.cOf, Meaning.dOf, Meaning.Jc, Meaning.Jd, Meaning.dms, Meaning.gLx, Meaning.gLs, Meaning.cxL, Meaning.cxU, Meaning.csL, Meaning.csU, Meaning.primal, Meaning.dual, Meaning.comp, Meaning.viol, Meaning.unscViol, Meaning.unscDual, Meaning.unscComp, Meaning.scaling, Meaning.gbx, Meaning.gbs, Meaning.xLU, Meaning.oxL, Meaning.oxU, Meaning.normMax, Meaning.norm1, Meaning.muTarget, Meaning.primFrac, Meaning.dFrac]

theorem m_uncDualFrac : F I cfg w .uncDualFrac args = Meaning.value I cfg w (fun i => args.getD i I.dflt) .uncDualFrac := by
  rw [unfF]
  simp [table, q_uncDualFrac, evalI, regV, View.read, Meaning.value, Meaning.o, Meaning.safeSlack, Meaning.sxL, Meaning.sxU, Meaning.ssL, Meaning.ssU, Meaning.obj, Meaning.gradObj, Meaning.hess, Meaning.cOf, Meaning.dOf, Meaning.Jc, Meaning.Jd, Meaning.dms, Meaning.gLx, Meaning.gLs, Meaning.cxL, Meaning.cxU, Meaning.csL, Meaning.csU, Meaning.primal, Meaning.dual, Meaning.comp, Meaning.viol, Meaning.unscViol, Meaning.unscDual, Meaning.unscComp, Meaning.scaling, Meaning.gbx, Meaning.gbs, Meaning.xLU, Meaning.oxL, Meaning.oxU, Meaning.normMax, Meaning.norm1, Meaning.muTarget, Meaning.primFrac, Meaning.dFrac]

theorem m_dualFrac : F I cfg w .dualFrac args = Meaning.value I cfg w (fun i => args.getD i I.dflt) .dualFrac := by
  rw [unfF]
  simp [table, q_dualFrac, evalI, regV, View.read, Meaning.value, Meaning.o, Meaning.safeSlack, Meaning.sxL, Meaning.sxU, Meaning.ssL, Meaning.ssU, Meaning.obj, Meaning.gradObj, Meaning.hess, Meaning.cOf, Meaning.dOf, Meaning.Jc, Meaning.Jd, Meaning.dms, Meaning.gLx, Meaning.gLs, Meaning.cxL, Meaning.cxU, Meaning.csL, Meaning.csU, Meaning.primal, Meaning.dual, Meaning.comp, Meaning.viol, Meaning.unscViol, Meaning.unscDual, Meaning.unscComp, Meaning.scaling, Meaning.gbx, Meaning.gbs, Meaning.xLU, Meaning.oxL, Meaning.oxU, Meaning.normMax, Meaning.norm1, Meaning.muTarget, Meaning.primFrac, Meaning.dFrac]

theorem m_currDualFrac : F I cfg w .currDualFrac args = Meaning.value I cfg w (fun i => args.getD i I.dflt) .currDualFrac := by
  rw [unfF]
  simp [table, q_currDualFrac, evalI, regV, View.read, Meaning.value, m_dualFrac, Meaning.o, Meaning.safeSlack, Meaning.sxL, Meaning.sxU, Meaning.ssL, Meaning.ssU, Meaning.obj, Meaning.gradObj, Meaning.hess, Meaning.cOf, Meaning.dOf, Meaning.Jc, Meaning.Jd, Meaning.dms, Meaning.gLx, Meaning.gLs, Meaning.cxL, Meaning.cxU, Meaning.csL, Meaning.csU, Meaning.primal, Meaning.dual, Meaning.comp, Meaning.viol, Meaning.unscViol, Meaning.unscDual, Meaning.unscComp, Meaning.scaling, Meaning.gbx, Meaning.gbs, Meaning.xLU, Meaning.oxL, Meaning.oxU, Meaning.normMax, Meaning.norm1, Meaning.muTarget, Meaning.primFrac, Meaning.dFrac]

theorem m_uncSlackFrac : F I cfg w .uncSlackFrac args = Meaning.value I cfg w (fun i => args.getD i I.dflt) .uncSlackFrac := by
  rw [unfF]
  simp [table, q_uncSlackFrac, evalI, regV, View.read, Meaning.value, m_slackSL, m_slackSU, m_slackXL, m_slackXU, Meaning.o, Meaning.safeSlack, Meaning.sxL, Meaning.sxU, Meaning.ssL, Meaning.ssU, Meaning.obj, Meaning.gradObj, Meaning.hess, Meaning.cOf, Meaning.dOf, Meaning.Jc, Meaning.Jd, Meaning.dms, Meaning.gLx, Meaning.gLs, Meaning.cxL, Meaning.cxU, Meaning.csL, Meaning.csU, Meaning.primal, Meaning.dual, Meaning.comp, Meaning.viol, Meaning.unscViol, Meaning.unscDual, Meaning.unscComp, Meaning.scaling, Meaning.gbx, Meaning.gbs, Meaning.xLU, Meaning.oxL, Meaning.oxU, Meaning.normMax, Meaning.norm1, Meaning.muTarget, Meaning.primFrac, Meaning.dFrac]

theorem m_sigmaX : F I cfg w .sigmaX args = Meaning.value I cfg w (fun i => args.getD i I.dflt) .sigmaX := by
  rw [unfF]
  simp [table, q_sigmaX, evalI, regV, View.read, Meaning.value, m_slackXL, m_slackXU, Meaning.o, Meaning.safeSlack, Meaning.sxL, Meaning.sxU, Meaning.ssL, Meaning.ssU, Meaning.obj, Meaning.gradObj, Meaning.hess, Meaning.cOf, Meaning.dOf, Meaning.Jc, Meaning.Jd, Meaning.dms, Meaning.gLx, Meaning.gLs, Meaning.cxL, Meaning.cxU, Meaning.csL, Meaning.csU, Meaning.primal, Meaning.dual, Meaning.comp, Meaning.viol, Meaning.unscViol, Meaning.unscDual, Meaning.unscComp, Meaning.scaling, Meaning.gbx, Meaning.gbs, Meaning.xLU, Meaning.oxL, Meaning.oxU, Meaning.normMax, Meaning.norm1, Meaning.muTarget, Meaning.primFrac, Meaning.dFrac]

theorem m_sigmaS : F I cfg w .sigmaS args = Meaning.value I cfg w (fun i => args.getD i I.dflt) .sigmaS := by
  rw [unfF]
  simp [table, q_sigmaS, evalI, regV, View.read, Meaning.value, m_slackSL, m_slackSU, Meaning.o, Meaning.safeSlack, Meaning.sxL, Meaning.sxU, Meaning.ssL, Meaning.ssU, Meaning.obj, Meaning.gradObj, Meaning.hess, Meaning.cOf, Meaning.dOf, Meaning.Jc, Meaning.Jd, Meaning.dms, Meaning.gLx, Meaning.gLs, Meaning.cxL, Meaning.cxU, Meaning.csL, Meaning.csU, Meaning.primal, Meaning.dual, Meaning.comp, Meaning.viol, Meaning.unscViol, Meaning.unscDual, Meaning.unscComp, Meaning.scaling, Meaning.gbx, Meaning.gbs, Meaning.xLU, Meaning.oxL, Meaning.oxU, Meaning.normMax, Meaning.norm1, Meaning.muTarget, Meaning.primFrac, Meaning.dFrac]

theorem m_avrgCompl : F I cfg w .avrgCompl args = Meaning.value I cfg w (fun i => args.getD i I.dflt) .avrgCompl := by
  rw [unfF]
  simp [table, q_avrgCompl, evalI, regV, View.read, Meaning.value, m_slackSL, m_slackSU, m_slackXL, m_slackXU, Meaning.o, Meaning.safeSlack, Meaning.sxL, Meaning.sxU, Meaning.ssL, Meaning.ssU, Meaning.obj, Meaning.gradObj, Meaning.hess, Meaning.cOf, Meaning.dOf, Meaning.Jc, Meaning.Jd, Meaning.dms, Meaning.gLx, Meaning.gLs, Meaning.cxL, Meaning.cxU, Meaning.csL, Meaning.csU, Meaning.primal, Meaning.dual, Meaning.comp, Meaning.viol, Meaning.unscViol, Meaning.unscDual, Meaning.unscComp, Meaning.scaling, Meaning.gbx, Meaning.gbs, Meaning.xLU, Meaning.oxL, Meaning.oxU, Meaning.normMax, Meaning.norm1, Meaning.muTarget, Meaning.primFrac, Meaning.dFrac]

theorem m_gradBarrTDelta : F I cfg w .gradBarrTDelta args = Meaning.value I cfg w (fun i => args.getD i I.dflt) .gradBarrTDelta := by
  rw [unfF]
  simp [table, q_gradBarrTDelta, evalI, regV, View.read, Meaning.value, m_gradBarrierS, m_gradBarrierX, Meaning.o, Meaning.safeSlack, Meaning.sxL, Meaning.sxU, Meaning.ssL, Meaning.ssU, Meaning.obj, Meaning.gradObj, Meaning.hess, Meaning.cOf, Meaning.dOf, Meaning.Jc, Meaning.Jd, Meaning.dms, Meaning.gLx, Meaning.gLs, Meaning.cxL, Meaning.cxU, Meaning.csL, Meaning.csU, Meaning.primal, Meaning.dual, Meaning.comp, Meaning.viol, Meaning.unscViol, Meaning.unscDual, Meaning.unscComp, Meaning.scaling, Meaning.gbx, Meaning.gbs, Meaning.xLU, Meaning.oxL, Meaning.oxU, Meaning.normMax, Meaning.norm1, Meaning.muTarget, Meaning.primFrac, Meaning.dFrac]

end MeaningProof

end Verif.CQ
