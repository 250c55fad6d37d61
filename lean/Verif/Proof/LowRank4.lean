import Verif.Proof.LowRank3
import Verif.Proof.Inertia2

/-! # The number of negative eigenvalues reported by `LowRankAugSystemSolver` -/

set_option linter.unusedSectionVars false

namespace Verif.LowRank
open _root_.Matrix Finset

variable {K X C D L B : Type} [Field K] [LinearOrder K] [IsStrictOrderedRing K] [Fintype X] [Fintype C] [Fintype D] [Fintype L]
variable [DecidableEq X] [DecidableEq C] [DecidableEq D] [DecidableEq L]

theorem negCount_iff {ι : Type} [Fintype ι] (M : Matrix ι ι K) (n : Nat) : NegCount M n ↔ NegIdx (qf M) n := Iff.rfl

theorem good_count {E : Env K X C D B} (hE : Contract E) {H : Heap K X C D L} {c : Call K} {st : St K X C D}
    (hS : (H.lrw c.W).Selects) (hf : c.Wfac = 0 ∨ c.Wfac = 1) (hg : Good E H c st) {w : X → K} (hw : st.wdiag = some w) {n : Nat}
    (hc : NegCount (kmat (innerSys H c w c.Wfac)) n) : NegCount (kmat (c.sys H)) n := by
  obtain ⟨w', e1, e2, hV, hU⟩ := hg
  rw [e1] at hw
  cases hw
  rcases hf with hf | hf
  · rw [kmat_zero H c hf w]; exact hc
  · obtain ⟨p, m, V, Vt, U, Ut, Cm, k1, k2, ⟨J1, hJ1, hM1⟩, k3, k4, hC, k5, ⟨J, hJ, hM⟩, _⟩ := good_pack hE hV hU
    rw [hf] at hc
    have hA := inner_symm H c w 1
    rw [kmat_one H c hS hf e2, ← k2, ← k4, negCount_iff]
    exact negIdx_sub (symm_add hA V) (smw_cols hA k1 k3 hC) (lower_pos hJ hM) (negIdx_add hA k1 (lower_pos hJ1 hM1) ((negCount_iff _ _).1 hc))

theorem negCount_unique {ι : Type} [Fintype ι] {M : Matrix ι ι K} {n m : Nat} (h : NegCount M n) (h' : NegCount M m) : n = m :=
  NegIdx.unique ((negCount_iff _ _).1 h) ((negCount_iff _ _).1 h')
end Verif.LowRank
