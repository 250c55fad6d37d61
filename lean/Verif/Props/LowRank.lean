import Verif.Proof.LowRankEx

/-! # C63: augmented systems with a limited-memory Hessian, Sherman-Morrison formula -/

set_option linter.unusedSectionVars false

namespace Verif.LowRank
open Finset
open Verif.AugSolve (Status)

section General
variable {K X C D L B : Type} [Field K] [Fintype X] [Fintype C] [Fintype D] [Fintype L]
variable [DecidableEq K] [DecidableEq X] [DecidableEq C] [DecidableEq D] [DecidableEq L]

/-- **C63.** Whatever happened before to the solver object: if `Solve` reports success, the vectors it returns solve the augmented system
with the full limited-memory Hessian `B0 + V Vᵀ - U Uᵀ` (in the three forms such a matrix can have), although only systems with a diagonal
Hessian were given to the linear solver.  Excluded: calls that go back to earlier arguments right after a failure (`Revisit`), factors
other than 0 and 1. -/
theorem solution_solves {E : Env K X C D B} (hE : Contract E) {H : Heap K X C D L} {h : List (Call K × Status)} {st : St K X C D} {b : B}
    (hr : Run E H h st b) {c : Call K} (hc : c.OK) (hS : (H.lrw c.W).Selects) (hf : c.Wfac = 0 ∨ c.Wfac = 1) (hrev : ¬ Revisit c h)
    {rhs sol0 sol : Quad K X C D} {chk : Bool} {neg : Int} {st' : St K X C D} {b' : B}
    (e : st.solve E H c rhs sol0 chk neg b = some (.success, sol, st', b')) : Solves (c.sys H) sol rhs := by
  obtain ⟨st1, b1, hg, e1⟩ := solve_success hE (run_inv hE hr) hc hrev e
  obtain ⟨e2, e3⟩ := finish_success e1
  obtain ⟨w, hw, _⟩ := id hg
  rw [hw, Option.getD_some] at e2 e3
  rw [e3]
  exact good_solves hE hS hf hg rhs hw (hE.solve _ _ _ _ _ _ e2 0 Nat.one_pos)

/-- **C63.** The first call with some arguments since the initialisation is never excluded, nor is any call if no call failed. -/
theorem not_revisit {c : Call K} {h : List (Call K × Status)} (hh : (∀ p ∈ h, p.1 ≠ c) ∨ ∀ p ∈ h, p.2 = .success) : ¬ Revisit c h := by
  rintro ⟨pre, p, mid, e, post, rfl, h1, _, h3, _⟩
  rcases hh with hh | hh
  · exact hh p (by simp) h1
  · exact h3 (hh e (by simp))

/-- **C63.** The code never gives a diagonal of the wrong dimension to the linear solver, if the diagonal is reduced whenever there is a
`P_LowRank`, as in all Hessians that Ipopt creates. -/
theorem solve_defined (E : Env K X C D B) (H : Heap K X C D L) (c : Call K) (rhs sol0 : Quad K X C D) (chk : Bool) (neg : Int)
    (st : St K X C D) (b : B) (hW : ∀ P B0 V U, H.lrw c.W ≠ .projected P B0 V U) : (st.solve E H c rhs sol0 chk neg b).isSome := by
  have hd : ∃ w, diagOf (H.lrw c.W) c.Wfac = some w := by
    cases hw : H.lrw c.W with
    | plain B0 V U => exact ⟨_, rfl⟩
    | reduced P B0 V U => exact ⟨_, rfl⟩
    | projected P B0 V U => exact absurd hw (hW _ _ _ _)
  obtain ⟨w, hd⟩ := hd
  have hu : ∀ chk st, (update E H c chk neg st b).isSome := by
    intro chk st
    unfold update
    rw [hd]
    simp only
    split_ifs <;> rfl
  unfold St.solve
  simp only
  split_ifs
  · obtain ⟨r, hr⟩ := Option.isSome_iff_exists.1 (hu true { st with wdiag := some E.junk })
    all_goals
      generalize ht : update E H c _ neg _ b = t
      cases t with
      | none => exact absurd (ht ▸ hu _ _) (by simp)
      | some r => simp only; split_ifs <;> rfl
  all_goals
    first
    | rfl
    | (generalize ht : update E H c _ neg _ b = t
       cases t with
       | none => exact absurd (ht ▸ hu _ _) (by simp)
       | some r => simp only; split_ifs <;> rfl)
end General

section Ordered
variable {K X C D L B : Type} [Field K] [LinearOrder K] [IsStrictOrderedRing K] [Fintype X] [Fintype C] [Fintype D] [Fintype L]
variable [DecidableEq X] [DecidableEq C] [DecidableEq D] [DecidableEq L]

/-- **C63.** If the linear solver certifies positive curvature of the system with the diagonal Hessian, a successful call certifies positive
curvature of the system with the full Hessian: subtracting `U Uᵀ` is only accepted if it does not destroy it. -/
theorem curvature_positive {E : Env K X C D B} (hE : Contract E) {m : Int} (hm : Certifies E m) {H : Heap K X C D L}
    {h : List (Call K × Status)} {st : St K X C D} {b : B}
    (hr : Run E H h st b) {c : Call K} (hc : c.OK) (hS : (H.lrw c.W).Selects) (hf : c.Wfac = 0 ∨ c.Wfac = 1) (hrev : ¬ Revisit c h)
    {rhs sol0 sol : Quad K X C D} {st' : St K X C D} {b' : B}
    (e : st.solve E H c rhs sol0 true m b = some (.success, sol, st', b')) : Curv (c.sys H) := by
  obtain ⟨st1, b1, hg, e1⟩ := solve_success hE (run_inv hE hr) hc hrev e
  rw [hm.1, if_pos rfl] at e1
  obtain ⟨e2, _⟩ := finish_success e1
  obtain ⟨w, hw, _⟩ := id hg
  rw [hw, Option.getD_some] at e2
  exact good_curv hE hS hf hg hw (hm.2 _ _ _ e2)

/-- **C63.** If the linear solver reports the true number of negative eigenvalues of the system with the diagonal Hessian, the number
reported after a successful call is the true number for the system with the full Hessian. -/
theorem inertia_correct {E : Env K X C D B} (hE : Contract E) (hm : CountsNeg E) {H : Heap K X C D L}
    {h : List (Call K × Status)} {st : St K X C D} {b : B}
    (hr : Run E H h st b) {c : Call K} (hc : c.OK) (hS : (H.lrw c.W).Selects) (hf : c.Wfac = 0 ∨ c.Wfac = 1) (hrev : ¬ Revisit c h)
    {rhs sol0 sol : Quad K X C D} {chk : Bool} {neg : Int} {st' : St K X C D} {b' : B}
    (e : st.solve E H c rhs sol0 chk neg b = some (.success, sol, st', b')) :
    ∃ n : Nat, NegCount (kmat (c.sys H)) n ∧ (∀ m, NegCount (kmat (c.sys H)) m → m = n) ∧ st'.numNeg = n := by
  obtain ⟨st1, b1, hg, e1⟩ := solve_success hE (run_inv hE hr) hc hrev e
  rw [if_pos hm.1] at e1
  obtain ⟨e2, _⟩ := finish_success e1
  obtain ⟨n, hn, hn'⟩ := hm.2 _ _ _ _ _ e2
  obtain ⟨w, hw, _⟩ := id hg
  have hc := good_count hE hS hf hg hw (by rw [hw, Option.getD_some] at hn; exact hn)
  refine ⟨n, hc, fun m hm => negCount_unique hm hc, ?_⟩
  unfold finish at e1
  simp only [e2, ne_eq, not_true_eq_false, if_false, hm.1, if_true, Prod.mk.injEq] at e1
  rw [← e1.2.2.1]
  exact hn'
end Ordered

/-! ## Examples -/

/-- a first call with both V and U succeeds: the hypotheses of the theorems are met; the Hessian is `1 + 9/16 - 9/16`. -/
theorem ex_run : Run exEnv exHeap [] exStart 0 := Run.new false 0 0

theorem ex_success : ((exStart.solve exEnv exHeap (exCall 1 1 0) (exQuad 5) (exQuad 0) true 0 0).map fun r => (r.1, r.2.1.x 0)) =
    some (.success, 5) := by decide +kernel

theorem ex_success' : ∃ sol st' b', exStart.solve exEnv exHeap (exCall 1 1 0) (exQuad 5) (exQuad 0) true 0 0 = some (.success, sol, st', b') := by
  have := ex_success
  rw [Option.map_eq_some_iff] at this
  obtain ⟨r, hr, e⟩ := this
  refine ⟨r.2.1, r.2.2.1, r.2.2.2, hr.trans ?_⟩
  rw [← (Prod.mk.inj e).1]

example : ∃ st' : St ℚ (Fin 1) (Fin 0) (Fin 0), ∃ n : Nat, NegCount (kmat ((exCall 1 1 0).sys exHeap)) n ∧ st'.numNeg = n := by
  obtain ⟨sol, st', b', e⟩ := ex_success'
  have hS : (exHeap.lrw (exCall 1 1 0).W).Selects := trivial
  obtain ⟨n, h1, _, h2⟩ := inertia_correct exEnv_contract exEnv_counts ex_run (exCall_ok _ _ _) hS (Or.inr rfl) (not_revisit (Or.inr (by simp))) e
  exact ⟨st', n, h1, h2⟩

example : ∃ sol, Solves ((exCall 1 1 0).sys exHeap) sol (exQuad 5) ∧ Curv ((exCall 1 1 0).sys exHeap) := by
  obtain ⟨sol, st', b', e⟩ := ex_success'
  have hS : (exHeap.lrw (exCall 1 1 0).W).Selects := trivial
  exact ⟨sol, solution_solves exEnv_contract ex_run (exCall_ok _ _ _) hS (Or.inr rfl) (not_revisit (Or.inr (by simp))) e,
    curvature_positive exEnv_contract exEnv_certifies ex_run (exCall_ok _ _ _) hS (Or.inr rfl) (not_revisit (Or.inr (by simp))) e⟩

/-! ## What does not hold -/

/-- the state after a successful call with Hessian 1 and a failed one with Hessian `1/4 - 1`. -/
noncomputable def exState (n : Nat) : Option (Status × Quad ℚ (Fin 1) (Fin 0) (Fin 0) × St ℚ (Fin 1) (Fin 0) (Fin 0) × Int) :=
  match n with
  | 0 => exStart.solve exEnv exHeap (exCall 3 1 0) (exQuad 1) (exQuad 0) true 0 0
  | n + 1 =>
    match exState n with
    | none => none
    | some r => r.2.2.1.solve exEnv exHeap (if n = 0 then exCall 2 1 0 else exCall 3 1 0) (exQuad 1) (exQuad 0) true 0 r.2.2.2

/-- **C63, negation.** After a call that failed, a call with exactly the arguments of the successful call before it can report success with
a wrong solution: the tags of the old arguments are still stored (IpLowRankAugSystemSolver.cpp:113-118), but `Wdiag_`, `Vtilde1_`,
`Utilde2_` and the factors have been overwritten.  Here 52/9 is returned for `1 * x = 1`. -/
theorem revisit_wrong : ∃ (h : List (Call ℚ × Status)) (st : St ℚ (Fin 1) (Fin 0) (Fin 0)) (c : Call ℚ) (rhs sol : Quad ℚ (Fin 1) (Fin 0) (Fin 0))
    (st' : St ℚ (Fin 1) (Fin 0) (Fin 0)) (b b' : Int), Run exEnv exHeap h st b ∧ c.OK ∧ c.Wfac = 1 ∧ (exHeap.lrw c.W).Selects ∧
    st.solve exEnv exHeap c rhs (exQuad 0) true 0 b = some (.success, sol, st', b') ∧ sol.x 0 = 52 / 9 ∧
    ¬ Solves (c.sys exHeap) sol rhs := by
  have e0 : (exState 0).map (fun r => r.1) = some .success := by decide +kernel
  have e1 : (exState 1).map (fun r => r.1) = some .wrongInertia := by decide +kernel
  have e2 : (exState 2).map (fun r => (r.1, r.2.1.x 0)) = some (.success, 52 / 9) := by decide +kernel
  rw [Option.map_eq_some_iff] at e0 e1 e2
  obtain ⟨⟨s0, q0, st0, b0⟩, h0, e0⟩ := e0
  obtain ⟨⟨s1, q1, st1, b1⟩, h1, e1⟩ := e1
  obtain ⟨⟨s2, q2, st2, b2⟩, h2, e2⟩ := e2
  have r0 : Run exEnv exHeap ([] ++ [(exCall 3 1 0, s0)]) st0 b0 := Run.solve _ _ _ _ _ ex_run (exCall_ok _ _ _) h0
  have h1' : st0.solve exEnv exHeap (exCall 2 1 0) (exQuad 1) (exQuad 0) true 0 b0 = some (s1, q1, st1, b1) := by
    have := h1
    simp only [exState] at this h0
    rw [h0] at this
    exact this
  have r1 := Run.solve _ _ _ _ _ r0 (exCall_ok _ _ _) h1'
  have h2' : st1.solve exEnv exHeap (exCall 3 1 0) (exQuad 1) (exQuad 0) true 0 b1 = some (s2, q2, st2, b2) := by
    have := h2
    unfold exState at this
    rw [h1] at this
    exact this
  simp only [Prod.mk.injEq] at e2
  refine ⟨_, st1, exCall 3 1 0, exQuad 1, q2, st2, b1, b2, r1, exCall_ok _ _ _, rfl, trivial, ?_, e2.2, ?_⟩
  · rw [← e2.1]; exact h2'
  · intro hs
    have h1 := hs.x 0
    have hW : ((exCall 3 1 0).sys exHeap).W 0 0 = 1 := by decide +kernel
    simp only [Finset.univ_unique, Fin.default_eq_zero, Fin.isValue, Finset.sum_singleton, Finset.univ_eq_empty, Finset.sum_empty, add_zero] at h1
    rw [hW, e2.2] at h1
    have : ((exCall 3 1 0).sys exHeap).Wfac = 1 ∧ val ((exCall 3 1 0).sys exHeap).Dx 0 = 0 ∧ ((exCall 3 1 0).sys exHeap).δx = 0 ∧
        (exQuad 1).x 0 = 1 := ⟨rfl, rfl, rfl, rfl⟩
    rw [this.1, this.2.1, this.2.2.1, this.2.2.2] at h1
    norm_num at h1

/-- **C63, negation.** A factor other than 0 and 1 is treated like 0 (only a debug build checks it, IpLowRankAugSystemSolver.cpp:245):
for `2 * 1 + 1` times x equal to 6 the solver returns 6. -/
theorem factor_two_wrong : ((exStart.solve exEnv exHeap (exCall 3 2 1) (exQuad 6) (exQuad 0) true 0 0).map fun r => (r.1, r.2.1.x 0)) =
    some (.success, 6) ∧ ∀ sol, Solves ((exCall 3 2 1).sys exHeap) sol (exQuad 6) → sol.x 0 = 2 := by
  refine ⟨by decide +kernel, fun sol hs => ?_⟩
  have h1 := hs.x 0
  have hW : ((exCall 3 2 1).sys exHeap).W 0 0 = 1 := by decide +kernel
  simp only [Finset.univ_unique, Fin.default_eq_zero, Fin.isValue, Finset.sum_singleton, Finset.univ_eq_empty, Finset.sum_empty, add_zero] at h1
  rw [hW] at h1
  have : ((exCall 3 2 1).sys exHeap).Wfac = 2 ∧ val ((exCall 3 2 1).sys exHeap).Dx 0 = 0 ∧ ((exCall 3 2 1).sys exHeap).δx = 1 ∧
      (exQuad 6).x 0 = 6 := ⟨rfl, rfl, rfl, rfl⟩
  rw [this.1, this.2.1, this.2.2.1, this.2.2.2] at h1
  linarith

/-- **C63, negation.** With `P_LowRank` and a full diagonal, factor 0 gives the linear solver a zero diagonal of the wrong dimension
(IpLowRankAugSystemSolver.cpp:271-276, 289). -/
theorem full_diagonal_undefined {K X C D L B : Type} [Field K] [Fintype X] [Fintype C] [Fintype D] [Fintype L] [DecidableEq K]
    [DecidableEq X] (E : Env K X C D B) (H : Heap K X C D L) (c : Call K) (rhs sol0 : Quad K X C D) (chk : Bool) (neg : Int)
    (st : St K X C D) (b : B) {P B0 V U} (hW : H.lrw c.W = .projected P B0 V U) (hf : c.Wfac = 0) (hfirst : st.first = true) :
    st.solve E H c rhs sol0 chk neg b = none := by
  have hd : diagOf (H.lrw c.W) c.Wfac = none := by rw [hW, hf]; simp [diagOf]
  unfold St.solve
  simp only [hfirst, if_true, Bool.true_or]
  have : ∀ chk st, update E H c chk neg st b = none := by
    intro chk st; unfold update; rw [hd]
  rw [this]
end Verif.LowRank
