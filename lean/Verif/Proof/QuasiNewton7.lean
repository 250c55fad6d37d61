import Verif.Proof.QuasiNewton6

/-! # The matrix handed over in every reachable state, BFGS -/

namespace Verif.QuasiNewton
open Finset Verif.Matrix

set_option linter.unusedSectionVars false
set_option linter.unusedVariables false
set_option linter.unusedSimpArgs false

section
variable {K : Type} [Field K] [LinearOrder K] [IsStrictOrderedRing K]

/-- assumptions on the numerical environment for BFGS. -/
structure EnvOK (env : Env K) : Prop where
  hom : HomOK env.hom
  sqrt : SqrtOK env
  chol : CholOK env
  back : BackOK env
  tol : 0 ≤ env.curvTol

theorem lastN_snoc_getLast {A : Type} (m : Nat) (hm : 0 < m) (all : List A) (p : A) :
    ∃ h0, lastN m (all ++ [p]) = h0 ++ [p] := by
  unfold lastN
  rw [List.drop_append]
  have : (all ++ [p]).length - m - all.length = 0 := by simp; omega
  rw [this]
  exact ⟨_, rfl⟩

/-- one accepted BFGS update with nonempty memory. -/
theorem bfgs_accept_step (cfg : Cfg K) (env : Env K) (ho : EnvOK env) (hs : cfg.sr1 = false) (hre : cfg.resto = false) (hm : 0 < cfg.maxHist)
    (hsig : cfg.sigMin ≤ cfg.sigMax) (hsp : 0 < cfg.sigMin)
    (n : Nat) (eta : K) (p : Pair K) (d b : Data K) (all : List (Pair K)) (hr : Rep cfg env d all) (d' b' : Data K)
    (he : bfgsStep cfg env eta p d b = .ok (d', b', .accept false))
    (hlen : ∀ q ∈ all ++ [p], q.s.length = n ∧ q.y.length = n) (hpos : ∀ q ∈ all ++ [p], 0 < vdot q.s q.y) :
    cfg.sigMin ≤ d'.sigma ∧ d'.sigma ≤ cfg.sigMax ∧ PosDef n (Bof d'.sigma d'.V d'.U) ∧ Secant n (Bof d'.sigma d'.V d'.U) p := by
  obtain ⟨D, L, A, J, h1, h2, h3, h4, h5, h6, h7, h8⟩ := bfgsStep_accept cfg env hs hre hm eta p d b all hr d' b' he
  obtain ⟨g1, g2⟩ := safeguard_ok cfg hsig (sigmaFormula cfg env (vdot p.s p.y) p)
  rw [← h8] at g1 g2
  obtain ⟨h0, hh0⟩ := lastN_snoc_getLast cfg.maxHist hm all p
  have hne : lastN cfg.maxHist (all ++ [p]) ≠ [] := by rw [hh0]; simp
  obtain ⟨s1, s2, s3⟩ := bfgs_accept_struct cfg env ho.hom ho.sqrt ho.chol ho.back hre n (lastN cfg.maxHist (all ++ [p])) d' p
    (fun q hq => hlen q (mem_lastN _ _ _ hq)) (hlen p (by simp)).1 (fun q hq => hpos q (mem_lastN _ _ _ hq)) h7 hne D L A J h1 h2 h3 h4
  rw [h5, h6]
  refine ⟨g1, g2, ?_, ?_⟩
  · exact bfgs_posdef_ent n _ d'.sigma (lt_of_lt_of_le hsp g1) _ _ _ _ (List.length_map ..) s1 _ _ _ _ _ s3
  · have hl : h0.length < (lastN cfg.maxHist (all ++ [p])).length := by rw [hh0]; simp
    intro i hi
    have := bfgs_secant_ent n _ d'.sigma _ _ _ _ (List.length_map ..) s1 _ _ _ _ _ s3 ⟨h0.length, hl⟩
      (fun j => by have := j.2; rw [Fin.le_def]; simp only [hh0, List.length_append, List.length_singleton] at this; simp only; omega) i hi
    unfold ce at this
    simp only [col_map_get _ _ _ hl] at this
    have hlast : (lastN cfg.maxHist (all ++ [p]))[h0.length] = p := by simp [hh0]
    rw [hlast] at this
    exact this

theorem getLast_ex {A : Type} (cs : List A) (h : cs ≠ []) : ∃ l, cs.getLast? = some l := by
  cases h' : cs.getLast? with
  | none => exact absurd (List.getLast?_eq_none_iff.1 h') h
  | some l => exact ⟨l, rfl⟩

/-- the pairs of a run have the right lengths. -/
theorem log_len (cfg : Cfg K) (env : Env K) (hh : HomOK env.hom) (hre : cfg.resto = false) (n mc md : Nat) (hP : ProjOK cfg.P n) (cs : List (Call K))
    (hcs : ∀ c ∈ cs, CallOK n mc md c) (ks : List Kind) (e : Kind × Pair K) (he : e ∈ log cfg env cs ks) :
    e.2.s.length = lmDim cfg.P n ∧ e.2.y.length = lmDim cfg.P n := by
  obtain ⟨l, hl, c, hc, h⟩ := log_mem cfg env cs ks e he
  rw [h]
  exact newPair_len cfg hre env hh n mc md hP l c (hcs l hl) (hcs c hc)

/-- an accepted BFGS update in a run, with nonempty memory. -/
theorem bfgs_run_accept (cfg : Cfg K) (env : Env K) (ho : EnvOK env) (hs : cfg.sr1 = false) (hre : cfg.resto = false) (hm : 0 < cfg.maxHist)
    (hsig : cfg.sigMin ≤ cfg.sigMax) (hsp : 0 < cfg.sigMin) (n mc md : Nat) (hP : ProjOK cfg.P n) (st0 : St K) (hst : st0.last = none)
    (cs : List (Call K)) (l c : Call K) (hl : cs.getLast? = some l) (hcs : ∀ c' ∈ cs ++ [c], CallOK n mc md c') (st1 st : St K) (ks : List Kind)
    (h1 : run cfg env st0 cs = .ok (st1, ks)) (h2 : step cfg env st1 c = .ok (st, .accept false)) :
    st.W = some (setW cfg c st.data) ∧ cfg.sigMin ≤ st.data.sigma ∧ st.data.sigma ≤ cfg.sigMax ∧
      PosDef (lmDim cfg.P n) (Bof st.data.sigma st.data.V st.data.U) ∧
      Secant (lmDim cfg.P n) (Bof st.data.sigma st.data.V st.data.U) (newPair cfg env l c) := by
  have hne : cs ≠ [] := by intro h; rw [h] at hl; cases hl
  obtain ⟨st2, ks2, h3, h4⟩ := bfgs_run_inv cfg env hs (Or.inl hre) st0 hst cs hne
  rw [h1] at h3
  cases h3
  obtain ⟨g1, g2, d, b, g3, g4⟩ := step_stored cfg env hs st1 l c (by rw [h4.last, hl]) st _ h2 rfl
  have hst := run_stored cfg env hs (Or.inl hre) st0 hst cs hne st1 ks h1
  have hcl : CallOK n mc md c := hcs c (by simp)
  have hll : CallOK n mc md l := hcs l (List.mem_append_left _ (List.mem_of_mem_getLast? hl))
  have := bfgs_accept_step cfg env ho hs hre hm hsig hsp (lmDim cfg.P n) c.eta (newPair cfg env l c) st1.data st1.backup _ h4.rep d b g3
    (by
      intro q hq
      rcases List.mem_append.1 hq with hq | hq
      · obtain ⟨k, hk, hm⟩ := stored_mem _ q hq
        exact log_len cfg env ho.hom hre n mc md hP cs (fun c' h => hcs c' (List.mem_append_left _ h)) ks _ hm
      · simp only [List.mem_singleton] at hq; subst hq
        exact newPair_len cfg hre env ho.hom n mc md hP l c hll hcl)
    (by
      intro q hq
      rcases List.mem_append.1 hq with hq | hq
      · obtain ⟨k, hk, hm⟩ := stored_mem _ q hq
        exact curv_pos env ho.sqrt ho.tol q (hst _ hm hk).1
      · simp only [List.mem_singleton] at hq; subst hq
        exact curv_pos env ho.sqrt ho.tol _ g1)
  rw [g4]
  exact ⟨rfl, this⟩

theorem bfgsStep_kind (cfg : Cfg K) (env : Env K) (eta : K) (p : Pair K) (d0 b0 d b : Data K) (k' : Kind)
    (h : bfgsStep cfg env eta p d0 b0 = .ok (d, b, k')) : k'.isReset = false := by
  have hn0 : ∀ p aug (d d' : Data K) k', bfgsMatrices cfg env eta p aug d = .ok (d', k') → k'.isReset = false := by
    intro p aug d d' k' h
    unfold bfgsMatrices at h
    simp only [bind, Except.bind] at h
    split at h
    · cases h
    · split at h
      · split at h
        · cases h
        · split at h
          · cases h; rfl
          · split at h
            · cases h
            · cases h; rfl
      · cases h
  unfold bfgsStep at h
  simp only [bind, Except.bind] at h
  split at h
  · cases h
  · split at h
    · cases h
    · split at h
      · cases h; rfl
      · split at h
        · cases h; rfl
        · split at h
          · cases h
          · next hx => cases h; exact hn0 _ _ _ _ _ hx

/-- W changes only with accepted updates and resets. -/
theorem step_W (cfg : Cfg K) (env : Env K) (st : St K) (c : Call K) (st' : St K) (k : Kind)
    (he : step cfg env st c = .ok (st', k)) (hk : ∀ u, k ≠ .accept u) :
    if k.isReset = true then st'.W = some (setW cfg c (clear cfg)) else st'.W = st.W := by
  have hf : ∀ d b k, (∀ u, k ≠ .accept u) → (finish cfg st c d b k).W = st.W := by
    intro d b k hk
    cases k <;> first | rfl | exact absurd rfl (hk _)
  have hn1 : ∀ d b k', sr1Step cfg env c.eta c.regu (newPair cfg env (st.last.getD c) c) st.data st.backup = .ok (d, b, k') → k'.isReset = false := by
    intro d b k' h
    unfold sr1Step at h
    simp only [bind, Except.bind] at h
    split at h
    · cases h
    · split at h
      · cases h; rfl
      · split at h
        · cases h
        · split at h
          · cases h; rfl
          · cases h; rfl
  have hn2 := fun d b k' => bfgsStep_kind cfg env c.eta (newPair cfg env (st.last.getD c) c) st.data st.backup d b k'
  unfold step at he
  cases hl : st.last with
  | none => rw [hl] at he; cases he; rfl
  | some l =>
    rw [hl] at he hn1 hn2
    simp only [Option.getD_some] at hn1 hn2
    simp only at he
    split at he
    · cases he; rfl
    · split at he
      · cases he; rfl
      · split at he
        · split at he
          · cases he
          · next hx => cases he; rw [hn1 _ _ _ hx]; exact hf _ _ _ hk
        · split at he
          · cases he; rfl
          · split at he
            · cases he
            · next hx => cases he; rw [hn2 _ _ _ hx]; exact hf _ _ _ hk

/-- without memory there is no low rank part. -/
theorem bfgs_U0 (cfg : Cfg K) (env : Env K) (hs : cfg.sr1 = false) (hre : cfg.resto = false) (hm : cfg.maxHist = 0)
    (st0 : St K) (hst : st0.last = none) (cs : List (Call K)) (hne : cs ≠ []) (ks : List Kind) (st : St K)
    (h : run cfg env st0 cs = .ok (st, ks)) : st.data.U = none := by
  induction cs using List.reverseRecOn generalizing st ks with
  | nil => exact absurd rfl hne
  | append_singleton cs c ih =>
    obtain ⟨st1, ks1, k, h1, h2, rfl⟩ := run_snoc_ok cfg env st0 cs c st ks h
    have hf : ∀ d b k, (finish cfg st1 c d b k).data = d := by intro d b k; cases k <;> rfl
    unfold step at h2
    by_cases hc : cs = []
    · subst hc
      cases h1
      rw [hst] at h2
      cases h2; rfl
    · have hU := ih hc ks1 st1 h1
      split at h2
      · cases h2; rfl
      · split at h2
        · cases h2; rfl
        · simp only [hs, Bool.false_eq_true, if_false] at h2
          split at h2
          · cases h2; rw [hf]; exact hU
          · split at h2
            · cases h2; rw [hf]; exact hU
            · simp only [bfgsStep, updateInternal, hm, hre, bind, Except.bind, dminBad, if_true, Bool.false_eq_true, if_false] at h2
              cases h2
              rw [hf, bfgsSigma_U]; exact hU

/-- BFGS: the matrix handed over is positive definite in every reachable state. -/
theorem bfgs_run_posdef (cfg : Cfg K) (env : Env K) (ho : EnvOK env) (hs : cfg.sr1 = false) (hre : cfg.resto = false)
    (hsig : cfg.sigMin ≤ cfg.sigMax) (hsp : 0 < cfg.sigMin) (hin : 0 < cfg.initVal) (n mc md : Nat) (hP : ProjOK cfg.P n)
    (st0 : St K) (hst : st0.last = none)
    (cs : List (Call K)) (hne : cs ≠ []) (hcs : ∀ c' ∈ cs, CallOK n mc md c') :
    ∃ st ks, run cfg env st0 cs = .ok (st, ks) ∧ ∃ W B, st.W = some W ∧ IsApprox cfg.P n W B ∧ PosDef (lmDim cfg.P n) B := by
  have hreg : cfg.regular = true := by simp [Cfg.regular, hre]
  induction cs using List.reverseRecOn with
  | nil => exact absurd rfl hne
  | append_singleton cs c ih =>
    have hcl : CallOK n mc md c := hcs c (by simp)
    have hclear : ∃ W B, some (setW cfg c (clear cfg)) = some W ∧ IsApprox cfg.P n W B ∧ PosDef (lmDim cfg.P n) B := by
      refine ⟨_, _, rfl, isApprox_setW cfg hre n c hcl.x (clear cfg), ?_⟩
      simp only [clear, hreg, if_true]
      exact posdef_diag _ _ hin
    by_cases h : cs = []
    · subst h
      obtain ⟨st', h1, h2⟩ := first_inv cfg env st0 hst c
      refine ⟨st', [.start], by simp [run, h1], ?_⟩
      unfold step at h1
      rw [hst] at h1
      cases h1
      exact hclear
    · obtain ⟨st1, ks, h1, W, B, hW, hA, hB⟩ := ih h (fun c' hc' => hcs c' (List.mem_append_left _ hc'))
      obtain ⟨st2, ks2, h3, h4⟩ := bfgs_run_inv cfg env hs (Or.inl hre) st0 hst cs h
      rw [h1] at h3
      cases h3
      obtain ⟨st', k, h5, h6, -, -, -, hu⟩ := bfgs_step_inv cfg env hs (Or.inl hre) cs h ks (run_len _ _ _ _ _ _ h1) st1 h4 c
      refine ⟨st', ks ++ [k], by rw [run_snoc, h1]; simp only []; rw [h5], ?_⟩
      obtain ⟨l, hl⟩ := getLast_ex cs h
      by_cases hk : k = .accept false
      · subst hk
        by_cases hm : 0 < cfg.maxHist
        · obtain ⟨a1, a2, a3, a4, -⟩ := bfgs_run_accept cfg env ho hs hre hm hsig hsp n mc md hP st0 hst cs l c hl hcs st1 st' ks h1 h5
          exact ⟨_, _, a1, isApprox_setW cfg hre n c hcl.x st'.data, a4⟩
        · obtain ⟨g1, g2, d, b, g3, g4⟩ := step_stored cfg env hs st1 l c (by rw [h4.last, hl]) st' _ h5 rfl
          have hm0 : cfg.maxHist = 0 := by omega
          simp only [bfgsStep, updateInternal, hm0, hre, bind, Except.bind, dminBad, if_true, Bool.false_eq_true, if_false, Except.ok.injEq,
            Prod.mk.injEq, and_true] at g3
          obtain ⟨g3, -⟩ := g3
          have hV := h4.rep.V hs
          rw [hm0, lastN_zero] at hV
          rw [g4]
          refine ⟨_, _, rfl, isApprox_setW cfg hre n c hcl.x d, ?_⟩
          obtain ⟨s1, -⟩ := safeguard_ok cfg hsig (sigmaFormula cfg env (vdot (newPair cfg env l c).s (newPair cfg env l c).y) (newPair cfg env l c))
          have hU : st1.data.U = none := bfgs_U0 cfg env hs hre hm0 st0 hst cs h ks st1 h1
          rw [← g3, bfgsSigma_V, bfgsSigma_U, hU, hV]
          have : (bfgsSigma cfg env (newPair cfg env l c) st1.data).sigma = safeguard cfg (sigmaFormula cfg env (vdot (newPair cfg env l c).s (newPair cfg env l c).y) (newPair cfg env l c)) := by
            simp [bfgsSigma, hreg]
          rw [this]
          exact posdef_diag _ _ (lt_of_lt_of_le hsp s1)
      · have hWW : st'.W = st1.W ∨ st'.W = some (setW cfg c (clear cfg)) := by
          have := step_W cfg env st1 c st' k h5 (fun u => by cases u <;> [exact hk; exact hu])
          split at this
          · exact Or.inr this
          · exact Or.inl this
        rcases hWW with hw | hw
        · exact ⟨W, B, by rw [hw, hW], hA, hB⟩
        · rw [hw]; exact hclear

end
end Verif.QuasiNewton
