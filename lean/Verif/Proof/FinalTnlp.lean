import Verif.Spec.FinalTnlp
import Verif.Model.FinalTnlp
import Verif.Proof.CurrIter4
import Verif.Props.CurrIter
import Verif.Props.KktErr2

/-! # The arrays of `finalize_solution` are those of `get_curr_iterate` -/

set_option linter.unusedSectionVars false
set_option linter.unusedVariables false
set_option linter.unusedSimpArgs false

namespace Verif.FinalTnlp
open Verif Verif.Matrix Verif.Adapter Verif.CurrIter Finset
open Verif.Scaling hiding evalC evalD

section
variable {K : Type} [Field K] [LinearOrder K] [IsStrictOrderedRing K] {t : Fixed} {loInf upInf : Num} {xb gb : List (Num × Num)} {deps : List Nat} {s : Spaces}
  {U : User K} {of df : K} {dx dc dd : Option (List K)} {hom : List K → Option K} {q : Curr K}

theorem resorts_passes {st : Alg.SolverReturn} (h : resorts st = true) : Alg.passesValues st = true := by
  cases st <;> simp_all [resorts, Alg.passesValues]

theorem resorts_iff (st : Alg.SolverReturn) : resorts st = true ↔ st ∈ iterateCodes := by cases st <;> decide

theorem passes_iff (st : Alg.SolverReturn) : Alg.passesValues st = true ↔ st ∈ iterateCodes ∨ st ∈ timeCodes := by cases st <;> decide

variable (H : Sit t loInf upInf xb gb deps s U of df dx dc dd hom q)
include H

theorem fin_c : (determine of df dx dc dd).unapplyC (Scaling.evalC (innerProb U s) (determine of df dx dc dd) q.pt.x) = currC (innerProb U s) (determine of df dx dc dd) q false := by
  rw [currC_false H]
  unfold Scaling.evalC Scal.unapplyC Scal.applyC
  rw [det_rowC]
  exact optDiv_optMul H.facC ((prob_ok H).c _)

theorem fin_d : (determine of df dx dc dd).unapplyD (Scaling.evalD (innerProb U s) (determine of df dx dc dd) q.pt.x) = currD (innerProb U s) (determine of df dx dc dd) q false := by
  rw [currD_false H]
  unfold Scaling.evalD Scal.unapplyD Scal.applyD
  rw [det_rowD]
  exact optDiv_optMul H.facD ((prob_ok H).d _)

theorem deliver_eq {st : Alg.SolverReturn} (hst : resorts st = true) (relaxed : Bool) (oL oU : List K) (gOk jOk : Bool) (mem : Arr K) (x0 : Nat → K) :
    let D := deliver s U (determine of df dx dc dd) hom st false relaxed oL oU gOk jOk q.pt mem
    getCurrIterate s U (determine of df dx dc dd) hom q .ready gOk jOk false s.nFull s.mFull
      ⟨some x0, some mem.zL, some mem.zU, some (if s.pc.length + nFix s + s.pd.length < s.mFull then fun _ => 0 else mem.g), some mem.lam⟩ =
      .yes ⟨some D.x, some D.zL, some D.zU, some D.g, some D.lam⟩ := by
  intro D
  have hp := resorts_passes hst
  have eX : currX (determine of df dx dc dd) q false = (determine of df dx dc dd).unapplyX q.pt.x := currX_false
  have eYc : currYc (determine of df dx dc dd) q false = (unscalePoint (innerProb U s) (determine of df dx dc dd) hom q.pt).yc := currYc_false _
  have eYd : currYd (determine of df dx dc dd) q false = (unscalePoint (innerProb U s) (determine of df dx dc dd) hom q.pt).yd := currYd_false _
  have eZL : currZ (determine of df dx dc dd) hom (innerProb U s).PxL q.pt.zL false = (unscalePoint (innerProb U s) (determine of df dx dc dd) hom q.pt).zL := currZ_false _ _
  have eZU : currZ (determine of df dx dc dd) hom (innerProb U s).PxU q.pt.zU false = (unscalePoint (innerProb U s) (determine of df dx dc dd) hom q.pt).zU := currZ_false _ _
  have hfin : finalize (innerProb U s) (determine of df dx dc dd) hom false relaxed oL oU (selected st q.pt) (selectedCon s U (determine of df dx dc dd) st q.pt).1
      (selectedCon s U (determine of df dx dc dd) st q.pt).2 0 =
      ⟨⟨currX (determine of df dx dc dd) q false, currYc (determine of df dx dc dd) q false, currYd (determine of df dx dc dd) q false,
        currZ (determine of df dx dc dd) hom (innerProb U s).PxL q.pt.zL false, currZ (determine of df dx dc dd) hom (innerProb U s).PxU q.pt.zU false⟩,
        currC (innerProb U s) (determine of df dx dc dd) q false, currD (innerProb U s) (determine of df dx dc dd) q false, (determine of df dx dc dd).unapplyObj 0⟩ := by
    rw [eX, eYc, eYd, eZL, eZU, ← fin_c H, ← fin_d H]
    unfold finalize selected selectedCon
    simp only [hp, if_true]
    rfl
  have hD : D = adapterFinal s U st gOk jOk (finalize (innerProb U s) (determine of df dx dc dd) hom false relaxed oL oU (selected st q.pt)
      (selectedCon s U (determine of df dx dc dd) st q.pt).1 (selectedCon s U (determine of df dx dc dd) st q.pt).2 0) mem := rfl
  rw [hfin] at hD
  have lc := len_currC H false
  have ld := len_currD H false
  have hg : iterG s U (determine of df dx dc dd) q false (if s.pc.length + nFix s + s.pd.length < s.mFull then fun _ => 0 else mem.g) = D.g := by
    rw [hD]
    unfold iterG adapterFinal
    simp [lc, ld]
  have hz : iterZ s U (determine of df dx dc dd) hom q gOk jOk false mem.zL mem.zU = (D.zL, D.zU) := by
    rw [hD]
    unfold iterZ adapterFinal
    simp [hst]
  have hx : resortX s (setFixed s U.xl U.fullX0) (vec (currX (determine of df dx dc dd) q false)) true = D.x := by
    rw [hD]; rfl
  have hl : resortG s (U.rhs s) false (vec (currYc (determine of df dx dc dd) q false)) (vec (currYd (determine of df dx dc dd) q false)) mem.lam = D.lam := by
    rw [hD]; rfl
  unfold getCurrIterate
  simp only [ne_eq, not_true_eq_false, false_and, if_false, Option.map_some, hx, hg, hz, hl]
end

end Verif.FinalTnlp
