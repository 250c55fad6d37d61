import Verif.Proof.LowRankSSEx

/-! # C64: augmented systems with a limited-memory Hessian, extended system -/

set_option linter.unusedSectionVars false
set_option linter.unusedVariables false

namespace Verif.LowRank.SS
open _root_.Matrix Finset
open Verif.AugSolve (Status)

section General
variable {K X C D L B : Type} {r : Nat} [Field K] [Fintype X] [Fintype C] [Fintype D] [Fintype L]
variable [DecidableEq K] [DecidableEq X] [DecidableEq C] [DecidableEq D] [DecidableEq L]

/-- elimination for any `δc`: see `delta_c_wrong` for what this means. -/
theorem solution_delta {E : Env K X (C ⊕ Fin r) D B} (hE : Exact E) {H : Heap K X C D L} (hO : OneSpace H)
    {st : SSt K X C L r} {b : B} (hr : SRun E H st b) {c : Call K} (hc : c.OK) (hS : (H.lrw c.W).Selects)
    (hf : c.Wfac = 0 ∨ c.Wfac = 1) (h1 : 1 + c.δc ≠ 0) (h2 : 1 - c.δc ≠ 0)
    {rhs sol : Quad K X C D} {chk : Bool} {neg : Int} {st' : SSt K X C L r} {b' : B}
    (e : st.solve E H c rhs chk neg b = some (.success, sol, st', b')) : Solves (c.sysDelta H) sol rhs := by
  obtain ⟨st1, g, _, _, _, hq⟩ := ss_solve hO (srun_inv hO hr) hc e
  unfold SSt.finish at hq
  simp only [Prod.mk.injEq] at hq
  rw [hq.2.1]
  exact ext_solves g hS hf h1 h2 (hE _ _ _ _ _ _ hq.1.symm 0 Nat.zero_lt_one)

theorem elem2_one (W : LRW K X L) : W.elem2 1 1 = W.elem := by
  funext i j
  cases W <;> simp [LRW.elem2, LRW.elem]

/-- **C64.** In every history of calls (successful or not) with Hessians of one matrix space and without perturbation of the equalities,
a successful call returns the solution of the augmented system with the full limited-memory Hessian. -/
theorem solution_solves {E : Env K X (C ⊕ Fin r) D B} (hE : Exact E) {H : Heap K X C D L} (hO : OneSpace H)
    {st : SSt K X C L r} {b : B} (hr : SRun E H st b) {c : Call K} (hc : c.OK) (hS : (H.lrw c.W).Selects)
    (hf : c.Wfac = 0 ∨ c.Wfac = 1) (hδ : c.δc = 0)
    {rhs sol : Quad K X C D} {chk : Bool} {neg : Int} {st' : SSt K X C L r} {b' : B}
    (e : st.solve E H c rhs chk neg b = some (.success, sol, st', b')) : Solves (c.sys H) sol rhs := by
  have h := solution_delta hE hO hr hc hS hf (by rw [hδ]; simp) (by rw [hδ]; simp) e
  have : c.sysDelta H = c.sys H := by
    unfold Call.sysDelta
    rw [hδ]
    simp only [add_zero, sub_zero, div_one, elem2_one]
    unfold Call.sys
    simp [hδ]
  rw [← this]; exact h

/-- **C64.** The call is defined if V and U (where present) have columns, together at most `max_rank`, and the diagonal is reduced
whenever there is a `P_LowRank`. -/
theorem solve_defined {E : Env K X (C ⊕ Fin r) D B} {H : Heap K X C D L} (hO : OneSpace H)
    {st : SSt K X C L r} {b : B} (hr : SRun E H st b) (c : Call K) (rhs : Quad K X C D) (chk : Bool) (neg : Int)
    (hW : ∀ P B0 V U, H.lrw c.W ≠ .projected P B0 V U)
    (hV : ∀ V, vOf (H.lrw c.W) 1 = some V → 0 < V.n) (hU : ∀ U, uOf (H.lrw c.W) 1 = some U → 0 < U.n)
    (hle : ncols (vOf (H.lrw c.W) 1) + ncols (uOf (H.lrw c.W) 1) ≤ r) : (st.solve E H c rhs chk neg b).isSome := by
  have hd : ∃ w, diagOf (H.lrw c.W) c.Wfac = some w := by
    cases hw : H.lrw c.W with
    | plain B0 V U => exact ⟨_, rfl⟩
    | reduced P B0 V U => exact ⟨_, rfl⟩
    | projected P B0 V U => exact absurd hw (hW _ _ _ _)
  obtain ⟨w, hd⟩ := hd
  have hm := (srun_inv hO hr).1
  have hv : vOf (H.lrw c.W) c.Wfac = none ∨ vOf (H.lrw c.W) c.Wfac = vOf (H.lrw c.W) 1 := by
    by_cases h : c.Wfac = 1
    · right; rw [h]
    · left; simp [vOf, h]
  have hu : uOf (H.lrw c.W) c.Wfac = none ∨ uOf (H.lrw c.W) c.Wfac = uOf (H.lrw c.W) 1 := by
    by_cases h : c.Wfac = 1
    · right; rw [h]
    · left; simp [uOf, h]
  have hle' : ncols (vOf (H.lrw c.W) c.Wfac) + ncols (uOf (H.lrw c.W) c.Wfac) ≤ r := by
    refine le_trans (Nat.add_le_add ?_ ?_) hle
    · rcases hv with h | h <;> rw [h]; exact Nat.zero_le _
    · rcases hu with h | h <;> rw [h]; exact Nat.zero_le _
  have hup : ∀ st1 : SSt K X C L r, st1.made = st.made → (st1.update H c).isSome := by
    intro st1 e1
    unfold SSt.update
    have hm1 : Made H st1 := by intro P hP; exact hm P (e1 ▸ hP)
    simp only [made_proj hm1, rowsV_eq, rowsU_eq, hd]
    rw [if_neg, if_neg (not_lt.2 hle')]
    · rfl
    · rw [Bool.or_eq_true, Bool.and_eq_true, Bool.and_eq_true, beq_iff_eq, beq_iff_eq]
      rintro (⟨h1, h2⟩ | ⟨h1, h2⟩)
      · obtain ⟨V, hVe⟩ := Option.isSome_iff_exists.1 h1
        have h3 : vOf (H.lrw c.W) 1 = some V := by
          rcases hv with h | h
          · rw [h] at hVe; cases hVe
          · rw [← h]; exact hVe
        have := hV V h3
        rw [hVe] at h2
        simp only [ncols] at h2; omega
      · obtain ⟨U, hUe⟩ := Option.isSome_iff_exists.1 h1
        have h3 : uOf (H.lrw c.W) 1 = some U := by
          rcases hu with h | h
          · rw [h] at hUe; cases hUe
          · rw [← h]; exact hUe
        have := hU U h3
        rw [hUe] at h2
        have h4 : ncols (some U) = U.n := rfl
        omega
  unfold SSt.solve
  simp only
  split_ifs with h1 h2 h2
  all_goals
    first
    | rfl
    | (obtain ⟨s, hs⟩ := Option.isSome_iff_exists.1 (hup { st with wdiag := some E.junk } rfl)
       rw [hs]; rfl)
    | (obtain ⟨s, hs⟩ := Option.isSome_iff_exists.1 (hup st rfl)
       rw [hs]; rfl)
end General

section Ordered
variable {K X C D L B : Type} {r : Nat} [Field K] [LinearOrder K] [IsStrictOrderedRing K] [Fintype X] [Fintype C] [Fintype D] [Fintype L]
variable [DecidableEq X] [DecidableEq C] [DecidableEq D] [DecidableEq L]

/-- **C64.** If the linear solver reports the true number of negative eigenvalues of the extended system, the number reported after a
successful call is the true number for the original system with the full Hessian. -/
theorem inertia_correct {E : Env K X (C ⊕ Fin r) D B} (hm : CountsNeg E) {H : Heap K X C D L} (hO : OneSpace H)
    {st : SSt K X C L r} {b : B} (hr : SRun E H st b) {c : Call K} (hc : c.OK) (hS : (H.lrw c.W).Selects)
    (hf : c.Wfac = 0 ∨ c.Wfac = 1) (hδ : c.δc = 0)
    {rhs sol : Quad K X C D} {chk : Bool} {neg : Int} {st' : SSt K X C L r} {b' : B}
    (e : st.solve E H c rhs chk neg b = some (.success, sol, st', b')) :
    ∃ n : Nat, NegCount (kmat (c.sys H)) n ∧ (∀ m, NegCount (kmat (c.sys H)) m → m = n) ∧ st'.numNeg = n := by
  obtain ⟨st1, g, _, _, _, hq⟩ := ss_solve hO (srun_inv hO hr) hc e
  unfold SSt.finish at hq
  simp only [Prod.mk.injEq, hm.1, if_true] at hq
  obtain ⟨n, hn, hn'⟩ := hm.2 _ _ _ _ _ hq.1.symm
  obtain ⟨j, hj, hj'⟩ := ext_count g hS hf (by rw [hδ]; linarith [zero_lt_one (α := K)]) (by rw [hδ]; exact zero_lt_one) hn
  have : c.sysDelta H = c.sys H := by
    unfold Call.sysDelta
    rw [hδ]
    simp only [add_zero, sub_zero, div_one, elem2_one]
    unfold Call.sys
    simp [hδ]
  rw [this] at hj
  refine ⟨j, hj, fun m hm => negCount_unique hm hj, ?_⟩
  rw [hq.2.2.1]
  show E.negEvals _ - st1.corr = (j : Int)
  rw [hn']
  exact hj'

/-- **C64.** The check for the number of negative eigenvalues is that of the caller: the linear solver is asked for `neg` plus the number of
columns of V, and a matrix with `neg + nV` negative eigenvalues is one where the original system has `neg`. -/
theorem asks_right_inertia {E : Env K X (C ⊕ Fin r) D B} {H : Heap K X C D L} (hO : OneSpace H)
    {st : SSt K X C L r} {b : B} (hr : SRun E H st b) {c : Call K} (hc : c.OK) (hS : (H.lrw c.W).Selects)
    (hf : c.Wfac = 0 ∨ c.Wfac = 1) (hδ : c.δc = 0) {rhs : Quad K X C D} {chk : Bool} {neg : Int} {q}
    (e : st.solve E H c rhs chk neg b = some q) :
    ∃ (a : Sys K X (C ⊕ Fin r) D) (rhsE : Quad K X (C ⊕ Fin r) D) (m : Int),
      q.1 = (E.solve a 1 (fun _ => rhsE) (if E.inertia then chk else false) m b).1 ∧
      (∀ n, NegCount (kmat a) n → ((n : Int) = m ↔ ∃ j : Nat, NegCount (kmat (c.sys H)) j ∧ (j : Int) = neg)) := by
  obtain ⟨st1, g, _, _, _, hq⟩ := ss_solve hO (srun_inv hO hr) hc e
  refine ⟨st1.extSys E H c, ⟨rhs.x, rhs.s, Sum.elim rhs.c fun _ => 0, rhs.d⟩, neg + st1.corr, by rw [hq]; rfl, fun n hn => ?_⟩
  obtain ⟨j, hj, hj'⟩ := ext_count g hS hf (by rw [hδ]; linarith [zero_lt_one (α := K)]) (by rw [hδ]; exact zero_lt_one) hn
  have : c.sysDelta H = c.sys H := by
    unfold Call.sysDelta
    rw [hδ]
    simp only [add_zero, sub_zero, div_one, elem2_one]
    unfold Call.sys
    simp [hδ]
  rw [this] at hj
  constructor
  · intro h; exact ⟨j, hj, by omega⟩
  · rintro ⟨j', h1, h2⟩
    have := negCount_unique h1 hj
    omega
end Ordered

/-! ## Examples -/

theorem ex_run : SRun exEnv exHeap exStart 0 := SRun.new false 0 0 0

theorem ex_success : ((exStart.solve exEnv exHeap (exCall 1 0) (exQuad 10) true 0 0).map fun q => (q.1, q.2.1.x 0)) = some (.success, 5) := by
  decide +kernel

theorem ex_success2 : ((exStart.solve exEnv exHeap (exCall 2 0) (exQuad 3) true 0 0).map fun q => (q.1, q.2.1.x 0)) = some (.success, -1) := by
  decide +kernel

theorem ex_success' : ∃ sol st' b', exStart.solve exEnv exHeap (exCall 1 0) (exQuad 10) true 0 0 = some (.success, sol, st', b') := by
  have := ex_success
  rw [Option.map_eq_some_iff] at this
  obtain ⟨q, hq, e⟩ := this
  refine ⟨q.2.1, q.2.2.1, q.2.2.2, hq.trans ?_⟩
  rw [← (Prod.mk.inj e).1]

theorem ex_selects (t : Nat) : (exHeap.lrw t).Selects := by
  simp only [exHeap]
  split_ifs <;> trivial

/-- the hypotheses are met: Hessian `1 + 1`. -/
example : ∃ (sol : Quad ℚ (Fin 1) (Fin 0) (Fin 0)) (st' : SSt ℚ (Fin 1) (Fin 0) (Fin 1) 1), Solves ((exCall 1 0).sys exHeap) sol (exQuad 10) ∧
    ∃ n : Nat, NegCount (kmat ((exCall 1 0).sys exHeap)) n ∧ st'.numNeg = n := by
  obtain ⟨sol, st', b', e⟩ := ex_success'
  obtain ⟨n, h1, _, h2⟩ := inertia_correct exEnv_counts exHeap_one ex_run (exCall_ok _ _) (ex_selects _) (Or.inr rfl) rfl e
  exact ⟨sol, st', solution_solves exEnv_exact exHeap_one ex_run (exCall_ok _ _) (ex_selects _) (Or.inr rfl) rfl e, n, h1, h2⟩

/-- and those of `solve_defined`. -/
example : (exStart.solve exEnv exHeap (exCall 2 0) (exQuad 3) true 0 0).isSome :=
  solve_defined exHeap_one ex_run _ _ _ _ (by intro P B0 V U h; simp only [exHeap, exCall] at h; exact absurd h (by simp))
    (by intro V h; simp [exHeap, exCall, vOf] at h) (by intro U h; simp [exHeap, exCall, uOf] at h; rw [← h]; exact Nat.one_pos)
    (by simp [exHeap, exCall, vOf, uOf, ncols])

/-! ## What does not hold -/

/-- **C64, negation.** `delta_c`, a perturbation of the equality constraints, is also applied to the rows for V and U
(IpLowRankSSAugSystemSolver.cpp:190-195): the system solved has the Hessian `B0 + V Vᵀ / (1 + δc) - U Uᵀ / (1 - δc)` (`solution_delta`).
For Hessian `1 + 1`, no constraints, `δc = 1/2` and right-hand side 10 the solver returns 6, the solution is 5. -/
theorem delta_c_wrong : ((exStart.solve exEnv exHeap (exCall 1 (1 / 2)) (exQuad 10) true 0 0).map fun q => (q.1, q.2.1.x 0)) =
    some (.success, 6) ∧ ∀ sol, Solves ((exCall 1 (1 / 2)).sys exHeap) sol (exQuad 10) → sol.x 0 = 5 := by
  refine ⟨by decide +kernel, fun sol hs => ?_⟩
  have h1 := hs.x 0
  have hW : ((exCall 1 (1 / 2)).sys exHeap).W 0 0 = 2 := by decide +kernel
  simp only [Finset.univ_unique, Fin.default_eq_zero, Fin.isValue, Finset.sum_singleton, Finset.univ_eq_empty, Finset.sum_empty, add_zero] at h1
  rw [hW] at h1
  have : ((exCall 1 (1 / 2)).sys exHeap).Wfac = 1 ∧ val ((exCall 1 (1 / 2)).sys exHeap).Dx 0 = 0 ∧ ((exCall 1 (1 / 2)).sys exHeap).δx = 0 ∧
      (exQuad 10).x 0 = 10 := ⟨rfl, rfl, rfl, rfl⟩
  rw [this.1, this.2.1, this.2.2.1, this.2.2.2] at h1
  linarith

section Undefined
variable {K X C D L B : Type} {r : Nat} [Field K] [Fintype X] [Fintype C] [Fintype D] [Fintype L] [DecidableEq K] [DecidableEq X]
variable [DecidableEq C] [DecidableEq D] [DecidableEq L]

theorem solve_none {E : Env K X (C ⊕ Fin r) D B} {H : Heap K X C D L} {st : SSt K X C L r} {b : B} {c : Call K} {rhs : Quad K X C D}
    {chk : Bool} {neg : Int} (hch : (st.first || requiresChange c st.tags) = true)
    (h : ∀ st1 : SSt K X C L r, st1.made = st.made → st1.update H c = none) : st.solve E H c rhs chk neg b = none := by
  unfold SSt.solve
  simp only
  have f1 : (if st.first then { st with wdiag := some E.junk } else st).first = st.first := by split_ifs <;> rfl
  have t1 : (if st.first then { st with wdiag := some E.junk } else st).tags = st.tags := by split_ifs <;> rfl
  have m1 : (if st.first then { st with wdiag := some E.junk } else st).made = st.made := by split_ifs <;> rfl
  rw [f1, t1, if_pos hch, h _ m1]

/-- **C64, negation.** The expansion matrix is taken from the first Hessian: after a Hessian of a space without `P_LowRank`, one of a space
with `P_LowRank` gives vectors of the wrong dimension to the linear solver (IpLowRankSSAugSystemSolver.cpp:242-250).  This
happens after a restoration phase (whose space has no `P_LowRank`, IpRestoIpoptNLP.cpp:296-306, and which uses the same solver object,
IpAlgBuilder.cpp:881) if the list of nonlinear variables is given. -/
theorem other_space_undefined {E : Env K X (C ⊕ Fin r) D B} {H : Heap K X C D L} {st : SSt K X C L r} {b : B} {c : Call K}
    {rhs : Quad K X C D} {chk : Bool} {neg : Int} (hch : requiresChange c st.tags = true) (hm : st.made = some none) {P B0 V U}
    (hW : H.lrw c.W = .reduced P B0 (some V) U) (hf : c.Wfac = 1) : st.solve E H c rhs chk neg b = none := by
  refine solve_none (by rw [hch]; simp) fun st1 e1 => ?_
  unfold SSt.update
  have : rowsV (none : Option (X → L → K)) (.reduced P B0 (some V) U) 1 = none := by simp [rowsV, expandWith]
  simp only [e1, hm, Option.getD_some, hW, hf, this]
  cases diagOf (LRW.reduced P B0 (some V) U) (1 : K) <;> rfl

/-- **C64, negation.** The test for too many columns never fails if there are columns (`ASSERT_EXCEPTION(irank + nV, ...)`,
IpLowRankSSAugSystemSolver.cpp:307, 328): more columns than `max_rank` are written beyond the end of the arrays. -/
theorem too_many_columns_undefined {E : Env K X (C ⊕ Fin r) D B} {H : Heap K X C D L} {st : SSt K X C L r} {b : B} {c : Call K}
    {rhs : Quad K X C D} {chk : Bool} {neg : Int} (hfirst : st.first = true) (hm : st.made = none) (hf : c.Wfac = 1)
    (hle : r < ncols (vOf (H.lrw c.W) 1) + ncols (uOf (H.lrw c.W) 1)) : st.solve E H c rhs chk neg b = none := by
  refine solve_none (by rw [hfirst]; simp) fun st1 e1 => ?_
  unfold SSt.update
  rw [e1, hm]
  simp only [Option.getD_none, hf, rowsV_eq, rowsU_eq]
  cases diagOf (H.lrw c.W) 1 with
  | none => rfl
  | some w =>
    simp only [hle, if_true]
    split_ifs <;> rfl
end Undefined
end Verif.LowRank.SS
