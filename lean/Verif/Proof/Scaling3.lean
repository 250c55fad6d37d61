import Verif.Proof.Scaling2

set_option linter.unusedSectionVars false
set_option linter.unusedVariables false
set_option linter.unusedSimpArgs false

namespace Verif.Scaling
open Verif.Matrix Finset

variable {K : Type} [Field K] [LinearOrder K]

theorem clipSide_ok {hom : List K → Option K} (hh : HomOK hom) {r : Nat} {pos : List Nat} (hw : ∀ p ∈ pos, p < r) (hn : pos.Nodup)
    (m : K → K → K) (orig x : List K) (ho : orig.length = pos.length) (hx : x.length = r) :
    (clipSide hom (.expansion r pos) m orig x).length = r ∧
    (∀ i, i < r → i ∉ pos → (clipSide hom (.expansion r pos) m orig x).getD i 0 = x.getD i 0) ∧
    (∀ k, k < pos.length → (clipSide hom (.expansion r pos) m orig x).getD (pos.getD k 0) 0 =
      m (x.getD (pos.getD k 0) 0) (orig.getD k 0)) := by
  unfold clipSide
  have h1 := exp_trans_get hh hw 1 x 0 orig hx ho
  have h2 := exp_mult_get hh hw (-1) _ 1 x h1.1 hx
  have hz : (List.zipWith m ((Mat.expansion r pos).transMult hom 1 x 0 orig) orig).length = pos.length := by simp [h1.1, ho]
  have h3 := exp_mult_get hh hw 1 _ 1 _ hz h2.1
  refine ⟨h3.1, fun i hi hni => ?_, fun k hk => ?_⟩
  · rw [h3.2 i hi, h2.2 i hi, sum_none hni, sum_none hni]; simp
  · have hlt : pos.getD k 0 < r := hw _ (getD_mem hk)
    rw [h3.2 _ hlt, h2.2 _ hlt, sum_pick hn hk, sum_pick hn hk, getD_zipWith _ _ _ _ 0 0 (by rw [h1.1]; exact hk) (by omega),
      h1.2 k hk]
    ring_nf

end Verif.Scaling
