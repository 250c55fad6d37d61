import Verif.Proof.QuasiNewton9

/-! # C31, C54, C55: limited-memory quasi-Newton approximation -/

namespace Verif.QuasiNewton
open Finset Verif.Matrix

set_option linter.unusedSectionVars false
set_option linter.unusedVariables false

section
variable {K : Type} [Field K] [LinearOrder K] [IsStrictOrderedRing K]

theorem getElem_of_getElem? {A : Type} {h : List A} {i : Nat} {p : A} (hp : h[i]? = some p) : ∃ hi : i < h.length, h[i] = p :=
  List.getElem?_eq_some_iff.1 hp

theorem holds_of_core (cfg : Cfg K) (hre : cfg.resto = false) (d : Data K) (h : List (Pair K)) (hc : Core cfg d h) : Holds d h := by
  have hreg : cfg.regular = true := by simp [Cfg.regular, hre]
  have hS := hc.S
  have hY := hc.Y0 hre
  obtain ⟨D, hD, hDl, hDv⟩ := hc.D
  obtain ⟨hLn, hLv⟩ := hc.L
  obtain ⟨hAn, hAv⟩ := hc.SS hreg
  simp only [hS, hY, col_opt] at hDv hLv hAv
  refine ⟨hc.mem, by rw [hS, opt_getD], by rw [hY, opt_getD], ⟨D, by rw [hD, opt_getD], hDl, ?_⟩, ⟨hLn, ?_⟩, ⟨hAn, ?_⟩⟩
  · intro i p hp
    obtain ⟨hi, rfl⟩ := getElem_of_getElem? hp
    rw [hDv i hi, col_map_get _ _ _ hi, col_map_get _ _ _ hi]
  · intro i j p q hp hq
    obtain ⟨hi, rfl⟩ := getElem_of_getElem? hp
    obtain ⟨hj, rfl⟩ := getElem_of_getElem? hq
    rw [hLv i j hi hj, col_map_get _ _ _ hi, col_map_get _ _ _ hj]
  · intro i j p q hp hq hij
    obtain ⟨hi, rfl⟩ := getElem_of_getElem? hp
    obtain ⟨hj, rfl⟩ := getElem_of_getElem? hq
    rw [hAv i j hi hij, col_map_get _ _ _ hi, col_map_get _ _ _ hj]

/-- C31: BFGS, original problem.  For every sequence of calls no call fails, and afterwards the memory holds exactly the most recent
`limited_memory_max_history` stored pairs since the last start or reset, oldest first, with all derived matrices belonging to them. -/
theorem bfgs_history (cfg : Cfg K) (env : Env K) (hs : cfg.sr1 = false) (hre : cfg.resto = false) (g : Nat) (σg : K) (ug : Bool)
    (calls : List (Call K)) (hne : calls ≠ []) :
    ∃ st ks, run cfg env (St.init g σg ug) calls = .ok (st, ks) ∧ ks.length = calls.length ∧
      Holds st.data (lastN cfg.maxHist (stored (log cfg env calls ks))) ∧ st.data.mem ≤ cfg.maxHist := by
  obtain ⟨st, ks, h1, h2⟩ := bfgs_run_inv cfg env hs (Or.inl hre) (St.init g σg ug) rfl calls hne
  have := holds_of_core cfg hre _ _ h2.rep.core
  exact ⟨st, ks, h1, run_len _ _ _ _ _ _ h1, this, by rw [this.mem]; exact lastN_le _ _⟩

/-- C31: BFGS in the restoration phase with a nonempty memory: no call fails, the memory holds exactly the most recent stored pairs; of y the
part belonging to the constraints is stored, and the whole y is recomputed as η s + that part for a common η (not η DR_x s, see
`resto_secant_fails`). -/
theorem bfgs_resto_history (cfg : Cfg K) (env : Env K) (hs : cfg.sr1 = false) (hre : cfg.resto = true) (hm : 0 < cfg.maxHist)
    (g : Nat) (σg : K) (ug : Bool) (calls : List (Call K)) (hne : calls ≠ []) :
    ∃ st ks, run cfg env (St.init g σg ug) calls = .ok (st, ks) ∧ ks.length = calls.length ∧
      let h := lastN cfg.maxHist (stored (log cfg env calls ks))
      st.data.mem = h.length ∧ st.data.mem ≤ cfg.maxHist ∧ st.data.S.getD [] = h.map (fun p => p.s) ∧
      st.data.Ypart.getD [] = h.map (fun p => p.yp) ∧
      ∃ eta, st.data.Y.getD [] = h.map (fun p => List.zipWith (fun a b => eta * a + b) p.s p.yp) := by
  obtain ⟨st, ks, h1, h2⟩ := bfgs_run_inv cfg env hs (Or.inr hm) (St.init g σg ug) rfl calls hne
  have hc := h2.rep.core
  refine ⟨st, ks, h1, run_len _ _ _ _ _ _ h1, hc.mem, by rw [hc.mem]; exact lastN_le _ _, by rw [hc.S, opt_getD], by rw [hc.Yp hre, opt_getD], ?_⟩
  have hy := hc.Yr hre
  by_cases he : lastN cfg.maxHist (stored (log cfg env calls ks)) = []
  · rw [if_pos he] at hy
    exact ⟨0, by rw [hy, he]; rfl⟩
  · rw [if_neg he] at hy
    obtain ⟨eta, hy⟩ := hy
    refine ⟨eta, ?_⟩
    rw [hy, hc.S, hc.Yp hre]
    simp only [recalcY, opt_getD, Option.getD_some]
    rw [List.zipWith_map, List.zipWith_self]

/-- C31: entry k of the log is about calls k and k+1: the change of x and of the gradient of the Lagrangian (with the new multipliers). -/
theorem log_is_of_successive_calls (cfg : Cfg K) (env : Env K) (hh : HomOK env.hom) (hre : cfg.resto = false) (n mc md : Nat) (hP : ProjOK cfg.P n)
    (calls : List (Call K)) (hcs : ∀ c ∈ calls, CallOK n mc md c) (st0 st : St K) (ks : List Kind) (h : run cfg env st0 calls = .ok (st, ks))
    (k : Nat) (l c : Call K) (hl : calls[k]? = some l) (hc : calls[k + 1]? = some c) :
    ∃ kind p, (log cfg env calls ks)[k]? = some (kind, p) ∧ ks[k + 1]? = some kind ∧ IsPair cfg.P n mc md l c p := by
  have hlen := run_len _ _ _ _ _ _ h
  obtain ⟨hk, hce⟩ := List.getElem?_eq_some_iff.1 hc
  obtain ⟨hk0, hle⟩ := List.getElem?_eq_some_iff.1 hl
  refine ⟨ks[k + 1], newPair cfg env l c, ?_, List.getElem?_eq_getElem _, ?_⟩
  · unfold log
    rw [List.getElem?_zip_eq_some, List.getElem?_zipWith]
    simp [hl, hlen, hk, hce]
  · exact newPair_isPair cfg hre env hh n mc md hP l c (hcs _ (List.mem_of_getElem? hl)) (hcs _ (List.mem_of_getElem? hc))

/-- C31: with BFGS only pairs with sufficiently positive curvature, and not belonging to a tiny step, are stored. -/
theorem bfgs_stored_curvature (cfg : Cfg K) (env : Env K) (hs : cfg.sr1 = false) (h0 : cfg.resto = false ∨ 0 < cfg.maxHist)
    (g : Nat) (σg : K) (ug : Bool) (calls : List (Call K)) (hne : calls ≠ []) (st : St K) (ks : List Kind)
    (h : run cfg env (St.init g σg ug) calls = .ok (st, ks)) (p : Pair K) (hp : p ∈ stored (log cfg env calls ks)) :
    env.curvTol * env.sqrt (vdot p.s p.s) * env.sqrt (vdot p.y p.y) < vdot p.s p.y ∧ env.tinyTol ≤ amax p.s := by
  obtain ⟨k, hk, hm⟩ := stored_mem _ p hp
  obtain ⟨h1, h2⟩ := run_stored cfg env hs h0 (St.init g σg ug) rfl calls hne st ks h _ hm hk
  unfold checkSkipping at h1
  simp only [decide_eq_false_iff_not, not_le] at h1
  exact ⟨h1, not_lt.1 h2⟩

/-- C31: a call resets the history iff the preceding calls ended with at least `limited_memory_max_skipping` successive skips. -/
theorem bfgs_reset_iff (cfg : Cfg K) (env : Env K) (hs : cfg.sr1 = false) (h0 : cfg.resto = false ∨ 0 < cfg.maxHist)
    (g : Nat) (σg : K) (ug : Bool) (calls : List (Call K)) (hne : calls ≠ []) (c : Call K) (st : St K) (ks : List Kind) (k : Kind)
    (h : run cfg env (St.init g σg ug) (calls ++ [c]) = .ok (st, ks ++ [k])) :
    (k = .reset ↔ cfg.maxSkip ≤ trailingSkips ks) ∧ k ≠ .start := by
  obtain ⟨st1, ks1, k', h1, h2, h3⟩ := run_snoc_ok cfg env _ calls c st _ h
  obtain ⟨rfl, h3'⟩ := List.append_inj' h3 rfl
  simp only [List.cons.injEq, and_true] at h3'
  subst h3'
  obtain ⟨st2, ks2, h4, h5⟩ := bfgs_run_inv cfg env hs h0 (St.init g σg ug) rfl calls hne
  rw [h1] at h4
  cases h4
  obtain ⟨st', k'', h6, h7, h8, h9, -⟩ := bfgs_step_inv cfg env hs h0 calls hne ks (run_len _ _ _ _ _ _ h1) st1 h5 c
  rw [h2] at h6
  cases h6
  exact ⟨h9, h8⟩

/-- C31: after a start or reset nothing is stored and W is the multiple `limited_memory_init_val` of the identity. -/
theorem reset_clears (cfg : Cfg K) (env : Env K) (hre : cfg.resto = false) (n : Nat) (st : St K) (c : Call K) (hx : c.x.length = n) (st' : St K) (k : Kind)
    (he : step cfg env st c = .ok (st', k)) (hk : k.isReset = true) :
    st'.skipped = 0 ∧ ∃ W, st'.W = some W ∧ IsApprox cfg.P n W (fun i j => if i = j then cfg.initVal else 0) ∧ Holds st'.data [] := by
  have hreg : cfg.regular = true := by simp [Cfg.regular, hre]
  have hd : st'.data = clear cfg ∧ st'.skipped = 0 := by
    unfold step at he
    split at he
    · cases he; exact ⟨rfl, rfl⟩
    · simp only at he
      split at he
      · cases he; exact ⟨rfl, rfl⟩
      · split at he
        · cases he; cases hk
        · split at he
          · split at he
            · cases he
            · next hx2 =>
              cases he
              exfalso
              unfold sr1Step at hx2
              simp only [bind, Except.bind] at hx2
              split at hx2
              · cases hx2
              · split at hx2
                · cases hx2; cases hk
                · split at hx2
                  · cases hx2
                  · split at hx2
                    · cases hx2; cases hk
                    · cases hx2; cases hk
          · split at he
            · cases he; cases hk
            · split at he
              · cases he
              · next hx2 =>
                cases he
                exfalso
                have := bfgsStep_kind cfg env _ _ _ _ _ _ _ hx2
                rw [hk] at this; cases this
  have hW := step_W cfg env st c st' k he (fun u h => by rw [h] at hk; cases hk)
  rw [if_pos hk] at hW
  refine ⟨hd.2, _, hW, ?_, ?_⟩
  · have := isApprox_setW cfg hre n c hx (clear cfg)
    have e : Bof (clear cfg).sigma (clear cfg).V (clear cfg).U = fun i j => if i = j then cfg.initVal else 0 := by
      funext i j; simp [Bof, clear, hreg, gram]
    rwa [e] at this
  · rw [hd.1]
    have := (rep_clear cfg env).core
    have e : lastN cfg.maxHist ([] : List (Pair K)) = [] := by simp [lastN]
    rw [e] at this
    exact holds_of_core cfg hre _ _ this

/-- C31: a skipped update leaves W as it is. -/
theorem skip_keeps_W (cfg : Cfg K) (env : Env K) (st : St K) (c : Call K) (st' : St K) (k : Kind) (he : step cfg env st c = .ok (st', k))
    (hk : k.isSkip = true) : st'.W = st.W := by
  have := step_W cfg env st c st' k he (fun u h => by rw [h] at hk; cases hk)
  have e : k.isReset = false := by cases k <;> first | rfl | cases hk
  rw [e] at this
  exact this

/-- C31: SR1, original problem: as long as an update is only undone when there is one, the memory holds the most recent pairs of the history
in which undone updates are removed.  Missing: the hypothesis `UndoOK` (see `sr1_first_undo_garbage`, `sr1_undo_resurrects`). -/
theorem sr1_history_partial (cfg : Cfg K) (env : Env K) (hs : cfg.sr1 = true) (hre : cfg.resto = false) (g : Nat) (σg : K) (ug : Bool)
    (calls : List (Call K)) (hne : calls ≠ []) (st : St K) (ks : List Kind) (h : run cfg env (St.init g σg ug) calls = .ok (st, ks))
    (hu : UndoOK ks) :
    Holds st.data (lastN cfg.maxHist (sr1Hist (log cfg env calls ks)).1) ∧ st.data.mem ≤ cfg.maxHist := by
  have hi := sr1_run_inv cfg env hs (St.init g σg ug) rfl calls hne st ks h hu
  have := holds_of_core cfg hre _ _ hi.rep.core
  exact ⟨this, by rw [this.mem]; exact lastN_le _ _⟩

/-- C31: SR1: reset iff too many skips (an undone update counts as skipped). -/
theorem sr1_reset_iff_partial (cfg : Cfg K) (env : Env K) (hs : cfg.sr1 = true) (g : Nat) (σg : K) (ug : Bool)
    (calls : List (Call K)) (hne : calls ≠ []) (c : Call K) (st : St K) (ks : List Kind) (k : Kind)
    (h : run cfg env (St.init g σg ug) (calls ++ [c]) = .ok (st, ks ++ [k])) (hu : UndoOK (ks ++ [k])) :
    k = .reset ↔ cfg.maxSkip ≤ trailingSkips ks := by
  obtain ⟨st1, ks1, k', h1, h2, h3⟩ := run_snoc_ok cfg env _ calls c st _ h
  obtain ⟨rfl, h3'⟩ := List.append_inj' h3 rfl
  simp only [List.cons.injEq, and_true] at h3'
  subst h3'
  have hi := sr1_run_inv cfg env hs (St.init g σg ug) rfl calls hne st1 ks h1 (undoOK_prefix _ _ hu)
  exact (sr1_step_inv cfg env hs calls hne ks (run_len _ _ _ _ _ _ h1) st1 hi c st k h2 hu).2

/-- C54: after an accepted BFGS update W maps the last step to the change of the gradient of the Lagrangian. -/
theorem bfgs_secant_equation (cfg : Cfg K) (env : Env K) (ho : EnvOK env) (hs : cfg.sr1 = false) (hre : cfg.resto = false) (hm : 0 < cfg.maxHist)
    (hsig : cfg.sigMin ≤ cfg.sigMax) (hsp : 0 < cfg.sigMin) (n mc md : Nat) (hP : ProjOK cfg.P n) (g : Nat) (σg : K) (ug : Bool)
    (calls : List (Call K)) (l c : Call K) (hcs : ∀ c' ∈ calls ++ [l, c], CallOK n mc md c') (st : St K) (ks : List Kind)
    (h : run cfg env (St.init g σg ug) (calls ++ [l, c]) = .ok (st, ks ++ [.accept false])) :
    ∃ W B p, st.W = some W ∧ IsApprox cfg.P n W B ∧ IsPair cfg.P n mc md l c p ∧ Secant (lmDim cfg.P n) B p := by
  have e : calls ++ [l, c] = (calls ++ [l]) ++ [c] := by simp
  rw [e] at h hcs
  obtain ⟨st1, ks1, k', h1, h2, h3⟩ := run_snoc_ok cfg env _ _ c st _ h
  obtain ⟨rfl, h3'⟩ := List.append_inj' h3 rfl
  simp only [List.cons.injEq, and_true] at h3'
  subst h3'
  have hcl : CallOK n mc md c := hcs c (by simp)
  have hll : CallOK n mc md l := hcs l (by simp)
  obtain ⟨a1, -, -, -, a5⟩ := bfgs_run_accept cfg env ho hs hre hm hsig hsp n mc md hP (St.init g σg ug) rfl (calls ++ [l]) l c (by simp) hcs st1 st ks h1 h2
  exact ⟨_, _, _, a1, isApprox_setW cfg hre n c hcl.x st.data, newPair_isPair cfg hre env ho.hom n mc md hP l c hll hcl, a5⟩

/-- C54 without a reduced space, spelled out: W (x⁺ − x) = ∇L(x⁺, y⁺) − ∇L(x, y⁺). -/
theorem bfgs_secant_full_space (cfg : Cfg K) (env : Env K) (ho : EnvOK env) (hs : cfg.sr1 = false) (hre : cfg.resto = false) (hm : 0 < cfg.maxHist)
    (hP : cfg.P = none) (hsig : cfg.sigMin ≤ cfg.sigMax) (hsp : 0 < cfg.sigMin) (n mc md : Nat) (g : Nat) (σg : K) (ug : Bool)
    (calls : List (Call K)) (l c : Call K) (hcs : ∀ c' ∈ calls ++ [l, c], CallOK n mc md c') (st : St K) (ks : List Kind)
    (h : run cfg env (St.init g σg ug) (calls ++ [l, c]) = .ok (st, ks ++ [.accept false])) :
    ∃ W, st.W = some W ∧ ∀ i, i < n →
      ∑ j ∈ range n, ent W i j * (c.x.getD j 0 - l.x.getD j 0) = lagGrad mc md c c i - lagGrad mc md l c i := by
  obtain ⟨W, B, p, h1, h2, h3, h4⟩ := bfgs_secant_equation cfg env ho hs hre hm hsig hsp n mc md (by rw [hP]; trivial) g σg ug calls l c hcs st ks h
  rw [hP] at h2 h3 h4
  simp only [IsApprox, IsPair, lmDim] at h2 h3 h4
  obtain ⟨s1, s2, s3, s4⟩ := h3
  refine ⟨W, h1, fun i hi => ?_⟩
  rw [← s4 i hi, ← h4 i hi]
  refine Finset.sum_congr rfl (fun j hj => ?_)
  have hj' := Finset.mem_range.1 hj
  rw [h2 i j hi hj', s3 j hj']

/-- C54: the same for an accepted SR1 update (also one that replaced the previous one).  Hypotheses beyond C31: σ cannot be zero, i.e. the
initialization is scalar1, scalar3 or constant, or y ≠ 0 (see `sr1_uses_uninitialised_values`). -/
theorem sr1_secant_equation_partial (cfg : Cfg K) (env : Env K) (ho : Env1OK env) (hs : cfg.sr1 = true) (hre : cfg.resto = false) (hm : 0 < cfg.maxHist)
    (hin : 0 < cfg.initVal) (n mc md : Nat) (hP : ProjOK cfg.P n) (g : Nat) (σg : K) (ug : Bool)
    (calls : List (Call K)) (l c : Call K) (hcs : ∀ c' ∈ calls ++ [l, c], CallOK n mc md c') (st : St K) (ks : List Kind) (u : Bool)
    (h : run cfg env (St.init g σg ug) (calls ++ [l, c]) = .ok (st, ks ++ [.accept u])) (hu : UndoOK (ks ++ [.accept u]))
    (hy : cfg.init = .scalar1 ∨ cfg.init = .scalar3 ∨ cfg.init = .constant ∨ ∃ y ∈ (newPair cfg env l c).y, y ≠ 0) :
    ∃ W B p, st.W = some W ∧ IsApprox cfg.P n W B ∧ IsPair cfg.P n mc md l c p ∧ Secant (lmDim cfg.P n) B p := by
  have e : calls ++ [l, c] = (calls ++ [l]) ++ [c] := by simp
  rw [e] at h hcs
  obtain ⟨st1, ks1, k', h1, h2, h3⟩ := run_snoc_ok cfg env _ _ c st _ h
  obtain ⟨rfl, h3'⟩ := List.append_inj' h3 rfl
  simp only [List.cons.injEq, and_true] at h3'
  subst h3'
  have hcl : CallOK n mc md c := hcs c (by simp)
  have hll : CallOK n mc md l := hcs l (by simp)
  obtain ⟨a1, -, a5⟩ := sr1_run_accept cfg env ho hs hre hm hin n mc md hP (St.init g σg ug) rfl (calls ++ [l]) l c (by simp) hcs st1 st ks u h1 h2 hu hy
  exact ⟨_, _, _, a1, isApprox_setW cfg hre n c hcl.x st.data, newPair_isPair cfg hre env ho.hom n mc md hP l c hll hcl, a5⟩

/-- C55: with BFGS the matrix handed to the linear solver is symmetric positive definite (on the space of the approximation) after every
call, whatever was skipped, reset or failed before. -/
theorem bfgs_positive_definite (cfg : Cfg K) (env : Env K) (ho : EnvOK env) (hs : cfg.sr1 = false) (hre : cfg.resto = false)
    (hsig : cfg.sigMin ≤ cfg.sigMax) (hsp : 0 < cfg.sigMin) (hin : 0 < cfg.initVal) (n mc md : Nat) (hP : ProjOK cfg.P n)
    (g : Nat) (σg : K) (ug : Bool) (calls : List (Call K)) (hne : calls ≠ []) (hcs : ∀ c ∈ calls, CallOK n mc md c) :
    ∃ st ks, run cfg env (St.init g σg ug) calls = .ok (st, ks) ∧ ∃ W B, st.W = some W ∧ IsApprox cfg.P n W B ∧ PosDef (lmDim cfg.P n) B :=
  bfgs_run_posdef cfg env ho hs hre hsig hsp hin n mc md hP (St.init g σg ug) rfl calls hne hcs

/-- C55: hence xᵀ W x ≥ 0 for all x, and > 0 for all x ≠ 0 if the approximation works on the full space. -/
theorem bfgs_curvature (cfg : Cfg K) (env : Env K) (ho : EnvOK env) (hs : cfg.sr1 = false) (hre : cfg.resto = false)
    (hsig : cfg.sigMin ≤ cfg.sigMax) (hsp : 0 < cfg.sigMin) (hin : 0 < cfg.initVal) (n mc md : Nat) (hP : ProjOK cfg.P n)
    (g : Nat) (σg : K) (ug : Bool) (calls : List (Call K)) (hne : calls ≠ []) (hcs : ∀ c ∈ calls, CallOK n mc md c) :
    ∃ st ks, run cfg env (St.init g σg ug) calls = .ok (st, ks) ∧ ∃ W, st.W = some W ∧ ∀ x : Nat → K,
      0 ≤ ∑ i ∈ range n, ∑ j ∈ range n, x i * ent W i j * x j ∧
      (cfg.P = none → (∃ i, i < n ∧ x i ≠ 0) → 0 < ∑ i ∈ range n, ∑ j ∈ range n, x i * ent W i j * x j) := by
  obtain ⟨st, ks, h1, W, B, h2, h3, -, h4⟩ := bfgs_positive_definite cfg env ho hs hre hsig hsp hin n mc md hP g σg ug calls hne hcs
  refine ⟨st, ks, h1, W, h2, fun x => ?_⟩
  have h5 : ∀ z : Nat → K, 0 ≤ ∑ i ∈ range (lmDim cfg.P n), ∑ j ∈ range (lmDim cfg.P n), z i * B i j * z j := by
    intro z
    by_cases hz : ∃ i, i < lmDim cfg.P n ∧ z i ≠ 0
    · exact (h4 z hz).le
    · push Not at hz
      rw [Finset.sum_eq_zero]
      intro i hi
      exact Finset.sum_eq_zero (fun j _ => by rw [hz i (Finset.mem_range.1 hi)]; simp)
  cases hPP : cfg.P with
  | none =>
    rw [hPP] at h3 h4 h5
    simp only [IsApprox, lmDim] at h3 h4 h5
    have e : ∑ i ∈ range n, ∑ j ∈ range n, x i * ent W i j * x j = ∑ i ∈ range n, ∑ j ∈ range n, x i * B i j * x j :=
      Finset.sum_congr rfl (fun i hi => Finset.sum_congr rfl (fun j hj => by rw [h3 i j (Finset.mem_range.1 hi) (Finset.mem_range.1 hj)]))
    rw [e]
    exact ⟨h5 x, fun _ hx => h4 x hx⟩
  | some P =>
    rw [hPP] at h3 h5
    simp only [IsApprox, lmDim] at h3 h5
    refine ⟨?_, fun h => by cases h⟩
    have e : ∑ i ∈ range n, ∑ j ∈ range n, x i * ent W i j * x j =
        ∑ k ∈ range P.dims.2, ∑ l ∈ range P.dims.2, (∑ i ∈ range n, ent P i k * x i) * B k l * (∑ j ∈ range n, ent P j l * x j) := by
      have e1 : ∀ i ∈ range n, ∀ j ∈ range n, x i * ent W i j * x j =
          ∑ k ∈ range P.dims.2, ∑ l ∈ range P.dims.2, (ent P i k * x i) * B k l * (ent P j l * x j) := by
        intro i hi j hj
        rw [h3 i j (Finset.mem_range.1 hi) (Finset.mem_range.1 hj), Finset.mul_sum, Finset.sum_mul]
        refine Finset.sum_congr rfl (fun k _ => ?_)
        rw [Finset.mul_sum, Finset.sum_mul]
        exact Finset.sum_congr rfl (fun l _ => by ring)
      rw [Finset.sum_congr rfl (fun i hi => Finset.sum_congr rfl (fun j hj => e1 i hi j hj))]
      have e2 : ∀ i ∈ range n, ∑ j ∈ range n, ∑ k ∈ range P.dims.2, ∑ l ∈ range P.dims.2, (ent P i k * x i) * B k l * (ent P j l * x j) =
          ∑ k ∈ range P.dims.2, ∑ l ∈ range P.dims.2, (ent P i k * x i) * B k l * ∑ j ∈ range n, (ent P j l * x j) := by
        intro i _
        rw [Finset.sum_comm]
        refine Finset.sum_congr rfl (fun k _ => ?_)
        rw [Finset.sum_comm]
        exact Finset.sum_congr rfl (fun l _ => by rw [Finset.mul_sum])
      rw [Finset.sum_congr rfl e2, Finset.sum_comm]
      refine Finset.sum_congr rfl (fun k _ => ?_)
      rw [Finset.sum_comm]
      refine Finset.sum_congr rfl (fun l _ => ?_)
      rw [Finset.sum_mul, Finset.sum_mul]
    rw [e]
    exact h5 (fun k => ∑ i ∈ range n, ent P i k * x i)

/-- C55: the scaling of the initial matrix stays within the safeguards after every accepted BFGS update. -/
theorem bfgs_sigma_safeguarded (cfg : Cfg K) (env : Env K) (ho : EnvOK env) (hs : cfg.sr1 = false) (hre : cfg.resto = false) (hm : 0 < cfg.maxHist)
    (hsig : cfg.sigMin ≤ cfg.sigMax) (hsp : 0 < cfg.sigMin) (n mc md : Nat) (hP : ProjOK cfg.P n) (g : Nat) (σg : K) (ug : Bool)
    (calls : List (Call K)) (hne : calls ≠ []) (c : Call K) (hcs : ∀ c' ∈ calls ++ [c], CallOK n mc md c') (st : St K) (ks : List Kind)
    (h : run cfg env (St.init g σg ug) (calls ++ [c]) = .ok (st, ks ++ [.accept false])) :
    ∃ σ V U, cfg.sigMin ≤ σ ∧ σ ≤ cfg.sigMax ∧ st.W = some (match cfg.P with
      | none => .lowRank (List.replicate n σ) V U
      | some P => .lowRankP true (List.replicate P.dims.2 σ) V U P) := by
  obtain ⟨st1, ks1, k', h1, h2, h3⟩ := run_snoc_ok cfg env _ _ c st _ h
  obtain ⟨rfl, h3'⟩ := List.append_inj' h3 rfl
  simp only [List.cons.injEq, and_true] at h3'
  subst h3'
  obtain ⟨l, hl⟩ := getLast_ex calls hne
  obtain ⟨a1, a2, a3, -⟩ := bfgs_run_accept cfg env ho hs hre hm hsig hsp n mc md hP (St.init g σg ug) rfl calls l c hl hcs st1 st ks h1 h2
  refine ⟨_, st.data.V, st.data.U, a2, a3, ?_⟩
  have hreg : cfg.regular = true := by simp [Cfg.regular, hre]
  rw [a1]
  unfold setW
  simp only [hreg, if_true, (hcs c (by simp)).x, hre, Bool.not_false]
  cases cfg.P <;> rfl

end
end Verif.QuasiNewton
