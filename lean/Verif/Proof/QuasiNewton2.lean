import Verif.Proof.QuasiNewton

/-! # Histories of calls: which pairs are stored -/

namespace Verif.QuasiNewton
open Finset Verif.Matrix

set_option linter.unusedSectionVars false
set_option linter.unusedVariables false
set_option linter.unusedSimpArgs false

section
variable {K : Type} [Field K] [LinearOrder K]

/-- the column of `V` belonging to a pair: y/√(sᵀy). -/
def vOf (env : Env K) (p : Pair K) : List K := p.y.map (fun a => 1 / env.sqrt (vdot p.s p.y) * a)

theorem core_set {cfg : Cfg K} {d : Data K} {h : List (Pair K)} (hc : Core cfg d h) (σ : K) (V U : Option (List (List K))) :
    Core cfg { d with sigma := σ, V := V, U := U } h := ⟨hc.1, hc.2, hc.3, hc.4, hc.5, hc.6, hc.7, hc.8, hc.9, hc.10⟩

theorem core_sigma {cfg : Cfg K} {env : Env K} {p : Pair K} {d : Data K} {h : List (Pair K)} (hc : Core cfg d h) :
    Core cfg (bfgsSigma cfg env p d) h := by
  unfold bfgsSigma; split
  · exact core_set hc _ _ _
  · exact hc

theorem core_sr1Sigma {cfg : Cfg K} {env : Env K} {p : Pair K} {d : Data K} {h : List (Pair K)} (hc : Core cfg d h) :
    Core cfg (sr1Sigma cfg env p d) h := by
  unfold sr1Sigma; split
  · split
    · exact core_set hc _ _ _
    · exact core_set hc _ _ _
  · exact hc

theorem bfgsSigma_V (cfg : Cfg K) (env : Env K) (p : Pair K) (d : Data K) : (bfgsSigma cfg env p d).V = d.V := by
  unfold bfgsSigma; split <;> rfl
theorem bfgsSigma_U (cfg : Cfg K) (env : Env K) (p : Pair K) (d : Data K) : (bfgsSigma cfg env p d).U = d.U := by
  unfold bfgsSigma; split <;> rfl

theorem push_ne (m : Nat) (h : List (Pair K)) (p : Pair K) : push m h p ≠ [] := by unfold push; split <;> simp

theorem newV (env : Env K) (m : Nat) (h : List (Pair K)) (hm : 0 < m) (hh : h.length ≤ m) (p : Pair K) :
    extendMV (decide (h.length < m)) (opt (h.map (vOf env))) (vOf env p) = .ok (opt ((push m h p).map (vOf env))) := by
  unfold extendMV
  by_cases hl : h.length < m
  · rw [if_pos (by simpa using hl), augMV_opt, opt_ne _ (by simpa using push_ne m h p)]; simp [push, hl]
  · have hne : h ≠ [] := by intro h0; rw [h0] at hh hl; simp at hl; omega
    rw [if_neg (by simpa using hl), shiftMV_opt _ (by simpa using hne), opt_ne _ (by simpa using push_ne m h p)]
    simp [push, hl, List.map_tail]

/-- what the matrices of a BFGS update are computed from, and that nothing else changes. -/
theorem bfgsMatrices_ok (cfg : Cfg K) (env : Env K) (eta : K) (p : Pair K) (d : Data K) (h : List (Pair K)) (hm : 0 < cfg.maxHist)
    (hh : h.length ≤ cfg.maxHist) (hc : Core cfg d (push cfg.maxHist h p)) (hV : d.V = opt (h.map (vOf env))) :
    ∃ d' k, bfgsMatrices cfg env eta p (decide (h.length < cfg.maxHist)) d = .ok (d', k) ∧ (k = .chol ∨ k = .accept false) ∧
      Core cfg d' (push cfg.maxHist h p) ∧ d'.V = opt ((push cfg.maxHist h p).map (vOf env)) ∧ d'.sigma = d.sigma ∧
      d'.S = d.S ∧ d'.Y = d.Y ∧ d'.D = d.D ∧ d'.L = d.L ∧ d'.SdotS = d.SdotS ∧ d'.STDRS = d.STDRS ∧ d'.DRS = d.DRS ∧
      (k = .accept false → ∃ D L M J U, d.D = some D ∧ d.L = some L ∧ bfgsM cfg env eta d (ltilde env D L) = .ok M ∧
        env.chol M = some J ∧ d'.U = some U ∧
        bfgsU cfg env eta p.s.length d ((push cfg.maxHist h p).map (vOf env)) (ltilde env D L) (env.back J) = .ok U) := by
  have hpn := push_ne cfg.maxHist h p
  have hpp : 0 < (push cfg.maxHist h p).length := List.length_pos_iff.2 hpn
  obtain ⟨D, hD, hDl, -⟩ := hc.D
  have hDne : D ≠ [] := by intro h0; rw [h0] at hDl; simp at hDl; omega
  rw [opt_ne D hDne] at hD
  obtain ⟨L, hL, -⟩ := oat_some_of d.L (by rw [hc.L.1]; exact hpp)
  have hS := hc.S
  rw [opt_ne _ (by simpa using hpn)] at hS
  -- M can be formed
  have hMx : ∃ M, bfgsM cfg env eta { d with V := opt ((push cfg.maxHist h p).map (vOf env)) } (ltilde env D L) = .ok M := by
    unfold bfgsM
    cases hr : cfg.regular with
    | true =>
      obtain ⟨A, hA, -⟩ := oat_some_of d.SdotS (by rw [(hc.SS hr).1]; exact hpp)
      exact ⟨_, by simp only [hA, if_true]; rfl⟩
    | false =>
      obtain ⟨A, hA, -⟩ := oat_some_of d.STDRS (by rw [(hc.ST hr).1]; exact hpp)
      exact ⟨_, by simp only [hA, if_false, Bool.false_eq_true]; rfl⟩
  obtain ⟨M, hM⟩ := hMx
  have hUx : ∀ C, ∃ U, bfgsU cfg env eta p.s.length { d with V := opt ((push cfg.maxHist h p).map (vOf env)) }
      ((push cfg.maxHist h p).map (vOf env)) (ltilde env D L) C = .ok U := by
    intro C
    unfold bfgsU
    simp only [hS]
    cases hr : cfg.regular with
    | true => exact ⟨_, by simp only [if_true]; rfl⟩
    | false =>
      have hDR := hc.DR hr
      rw [opt_ne _ (by simpa using hpn)] at hDR
      exact ⟨_, by simp only [hDR, if_false, Bool.false_eq_true]; rfl⟩
  unfold bfgsMatrices
  rw [hV]
  have := newV env cfg.maxHist h hm hh p
  unfold vOf at this
  unfold vOf
  simp only [bind, Except.bind]
  rw [this]
  simp only [hD, hL]
  unfold vOf at hM hUx
  simp only [hD, hL] at hM hUx
  rw [hM]
  simp only []
  cases hJ : env.chol M with
  | none =>
    refine ⟨_, _, rfl, Or.inl rfl, ?_, rfl, rfl, rfl, rfl, rfl, rfl, rfl, rfl, rfl, by intro h; cases h⟩
    rw [← hD, ← hL]; exact core_set hc _ _ _
  | some J =>
    obtain ⟨U, hU⟩ := hUx (env.back J)
    simp only [opt_getD, hU]
    refine ⟨_, _, rfl, Or.inr rfl, ?_, rfl, rfl, rfl, rfl, rfl, rfl, rfl, rfl, rfl, fun _ => ?_⟩
    · rw [← hD, ← hL]; exact core_set hc _ _ _
    exact ⟨D, L, M, J, U, rfl, rfl, hM, hJ, rfl, hU⟩

theorem lastN_push (m : Nat) (hm : 0 < m) (l : List (Pair K)) (p : Pair K) : lastN m (l ++ [p]) = push m (lastN m l) p := by
  unfold lastN push
  by_cases h : l.length < m
  · rw [if_pos (by simp; omega), show l.length - m = 0 by omega, show (l ++ [p]).length - m = 0 by simp; omega]; simp
  · rw [if_neg (by simp; omega)]
    rw [show (l ++ [p]).length - m = l.length - m + 1 by simp; omega, List.drop_append, List.tail_drop]
    rw [show l.length - m + 1 - l.length = 0 by omega]; rfl

theorem lastN_le {A : Type} (m : Nat) (l : List A) : (lastN m l).length ≤ m := by unfold lastN; simp; omega

theorem lastN_zero {A : Type} (l : List A) : lastN 0 l = [] := by unfold lastN; simp

/-- the data represents the last `maxHist` elements of `all`, for BFGS including the columns of `V`. -/
structure Rep (cfg : Cfg K) (env : Env K) (d : Data K) (all : List (Pair K)) : Prop where
  core : Core cfg d (lastN cfg.maxHist all)
  V : cfg.sr1 = false → d.V = opt ((lastN cfg.maxHist all).map (vOf env))

theorem rep_clear (cfg : Cfg K) (env : Env K) : Rep cfg env (clear cfg) [] := by
  have e : lastN cfg.maxHist ([] : List (Pair K)) = [] := by simp [lastN]
  refine ⟨?_, fun _ => by rw [e]; rfl⟩
  rw [e]
  exact ⟨rfl, rfl, fun _ => rfl, fun _ => rfl, fun _ => by simp; rfl, ⟨[], rfl, rfl, by simp⟩, ⟨rfl, by simp⟩, fun _ => ⟨rfl, by simp⟩,
    fun _ => rfl, fun _ => ⟨rfl, by simp⟩⟩

/-- a BFGS update attempt. -/
theorem bfgsStep_ok (cfg : Cfg K) (env : Env K) (eta : K) (p : Pair K) (d b : Data K) (all : List (Pair K)) (hs : cfg.sr1 = false)
    (h0 : cfg.resto = false ∨ 0 < cfg.maxHist) (hr : Rep cfg env d all) :
    ∃ d' b' k, bfgsStep cfg env eta p d b = .ok (d', b', k) ∧
      ((k = .eta ∧ d' = d) ∨ ((k = .chol ∨ k = .accept false) ∧ Rep cfg env d' (all ++ [p]))) := by
  by_cases hm : cfg.maxHist = 0
  · have hre : cfg.resto = false := by rcases h0 with h | h <;> [exact h; omega]
    refine ⟨bfgsSigma cfg env p d, b, .accept false, ?_, Or.inr ⟨Or.inr rfl, ?_⟩⟩
    · simp [bfgsStep, updateInternal, hm, hre, bind, Except.bind, dminBad]
    · have h1 := hr.core
      have h2 := hr.V hs
      rw [hm, lastN_zero] at h1 h2
      refine ⟨?_, fun _ => ?_⟩
      · rw [hm, lastN_zero]; exact core_sigma h1
      · rw [hm, lastN_zero, bfgsSigma_V, h2]
  · have hm' : 0 < cfg.maxHist := by omega
    obtain ⟨d1, e1, c1, v1, -, -, -⟩ := updateInternal_ok cfg env eta p d _ hm' (lastN_le _ all) hr.core
    have hbad : ∃ bad, dminBad cfg.resto d1.D = .ok bad := by
      by_cases hre : cfg.resto = true
      · obtain ⟨D, hD, hDl, -⟩ := c1.D
        have hDne : D ≠ [] := by
          intro h; rw [h] at hDl
          exact push_ne cfg.maxHist (lastN cfg.maxHist all) p (List.length_eq_zero_iff.1 hDl.symm)
        rw [opt_ne D hDne] at hD
        exact ⟨_, by simp only [hre, if_true, hD, dminBad]; rfl⟩
      · exact ⟨false, by simp [hre, dminBad]⟩
    obtain ⟨bad, hbad⟩ := hbad
    unfold bfgsStep
    simp only [e1, bind, Except.bind, hbad]
    cases bad with
    | true =>
      have hre : cfg.resto = true := by
        by_contra h
        simp [h, dminBad] at hbad
      simp only [if_true, hre]
      exact ⟨_, _, .eta, rfl, Or.inl ⟨rfl, rfl⟩⟩
    | false =>
      simp only [Bool.false_eq_true, if_false, hm]
      obtain ⟨d', k, e2, hk, c2, v2, -⟩ := bfgsMatrices_ok cfg env eta p (bfgsSigma cfg env p d1) (lastN cfg.maxHist all) hm' (lastN_le _ all)
        (core_sigma c1) (by rw [bfgsSigma_V, v1, hr.V hs])
      rw [e2]
      refine ⟨_, _, k, rfl, Or.inr ⟨hk, ?_, fun _ => ?_⟩⟩
      · rw [lastN_push _ hm']; exact c2
      · rw [lastN_push _ hm']; exact v2

/-- an SR1 update attempt. -/
theorem sr1Step_ok (cfg : Cfg K) (env : Env K) (eta regu : K) (p : Pair K) (d b : Data K) (all old : List (Pair K)) (hs : cfg.sr1 = true)
    (hr : Rep cfg env d all) (hb : 0 < regu → Rep cfg env b old) (d' b' : Data K) (k : Kind)
    (he : sr1Step cfg env eta regu p d b = .ok (d', b', k)) :
    let base := if 0 < regu then old else all
    ((k = .eig (decide (0 < regu)) ∧ Rep cfg env d' base) ∨ (k = .accept (decide (0 < regu)) ∧ Rep cfg env d' (base ++ [p]))) ∧
      Rep cfg env b' base := by
  intro base
  have hbase : Rep cfg env (if decide (regu > 0) = true then b else d) base := by
    by_cases h : 0 < regu
    · simp only [base, gt_iff_lt, h, decide_true, if_true]; exact hb h
    · simp only [base, gt_iff_lt, h, decide_false, if_false, Bool.false_eq_true]; exact hr
  unfold sr1Step at he
  simp only [bind, Except.bind] at he
  generalize hd0 : (if decide (regu > 0) = true then b else d) = d0 at he hbase
  have hn : cfg.sr1 = false → False := by rw [hs]; intro h; cases h
  by_cases hm : cfg.maxHist = 0
  · simp only [updateInternal, hm, if_true] at he
    cases he
    have h1 := hbase.core
    rw [hm, lastN_zero] at h1
    refine ⟨Or.inr ⟨rfl, ?_, fun h => (hn h).elim⟩, hbase⟩
    rw [hm, lastN_zero]; exact core_sr1Sigma h1
  · have hm' : 0 < cfg.maxHist := by omega
    obtain ⟨d1, e1, c1, -, -, -, -⟩ := updateInternal_ok cfg env eta p d0 _ hm' (lastN_le _ base) hbase.core
    simp only [e1, hm, if_false] at he
    have c2 := core_sr1Sigma (env := env) (p := p) c1
    have hmat : ∀ r, sr1Matrices cfg env eta p (sr1Sigma cfg env p d1) = .ok (some r) → Core cfg r (push cfg.maxHist (lastN cfg.maxHist base) p) := by
      intro r hrr
      unfold sr1Matrices at hrr
      split at hrr
      · simp only [bind, Except.bind] at hrr
        split at hrr
        · cases hrr
        · split at hrr
          · cases hrr
          · split at hrr
            · cases hrr
            · split at hrr
              · cases hrr
              · cases hrr
                exact core_set c2 _ _ _
      · cases hrr
    cases hx : sr1Matrices cfg env eta p (sr1Sigma cfg env p d1) with
    | error e => rw [hx] at he; cases he
    | ok r =>
      rw [hx] at he
      cases r with
      | none => cases he; exact ⟨Or.inl ⟨rfl, hbase⟩, hbase⟩
      | some r =>
        cases he
        refine ⟨Or.inr ⟨rfl, ?_, fun h => (hn h).elim⟩, hbase⟩
        rw [lastN_push _ hm']; exact hmat _ hx

/-! ## Runs -/

theorem run_snoc (cfg : Cfg K) (env : Env K) (st : St K) (cs : List (Call K)) (c : Call K) :
    run cfg env st (cs ++ [c]) = (match run cfg env st cs with
      | .error e => .error e
      | .ok (st1, ks) =>
        match step cfg env st1 c with
        | .error e => .error e
        | .ok (st2, k) => .ok (st2, ks ++ [k])) := by
  induction cs generalizing st with
  | nil =>
    simp only [List.nil_append, run]
    cases step cfg env st c with
    | error e => rfl
    | ok r => rfl
  | cons a cs ih =>
    simp only [List.cons_append, run]
    cases h : step cfg env st a with
    | error e => rfl
    | ok r =>
      simp only [ih]
      cases run cfg env r.1 cs with
      | error e => rfl
      | ok r2 =>
        simp only []
        cases step cfg env r2.1 c with
        | error e => rfl
        | ok r3 => rfl

theorem run_snoc_ok (cfg : Cfg K) (env : Env K) (st : St K) (cs : List (Call K)) (c : Call K) (st' : St K) (ks : List Kind)
    (h : run cfg env st (cs ++ [c]) = .ok (st', ks)) :
    ∃ st1 ks1 k, run cfg env st cs = .ok (st1, ks1) ∧ step cfg env st1 c = .ok (st', k) ∧ ks = ks1 ++ [k] := by
  rw [run_snoc] at h
  cases h1 : run cfg env st cs with
  | error e => rw [h1] at h; cases h
  | ok r =>
    rw [h1] at h
    simp only [] at h
    cases h2 : step cfg env r.1 c with
    | error e => rw [h2] at h; cases h
    | ok r2 => rw [h2] at h; cases h; exact ⟨r.1, r.2, r2.2, rfl, h2, rfl⟩

theorem run_len (cfg : Cfg K) (env : Env K) (st : St K) (cs : List (Call K)) (st' : St K) (ks : List Kind)
    (h : run cfg env st cs = .ok (st', ks)) : ks.length = cs.length := by
  induction cs using List.reverseRecOn generalizing st' ks with
  | nil => cases h; rfl
  | append_singleton cs c ih =>
    obtain ⟨st1, ks1, k, h1, h2, rfl⟩ := run_snoc_ok cfg env st cs c st' ks h
    simp [ih _ _ h1]

theorem trailing_snoc (ks : List Kind) (k : Kind) :
    trailingSkips (ks ++ [k]) = if (k.isSkip || decide (k = .accept true)) = true then trailingSkips ks + 1 else 0 := by
  unfold trailingSkips
  rw [List.reverse_append]
  simp only [List.reverse_cons, List.reverse_nil, List.nil_append, List.singleton_append, List.takeWhile_cons]
  split <;> simp

theorem since_snoc (lg : List (Kind × Pair K)) (e : Kind × Pair K) :
    sinceReset (lg ++ [e]) = if e.1.isReset = true then [] else sinceReset lg ++ [e] := by
  unfold sinceReset
  rw [List.reverse_append]
  simp only [List.reverse_cons, List.reverse_nil, List.nil_append, List.singleton_append, List.takeWhile_cons]
  cases h : e.1.isReset <;> simp [h]

theorem stored_snoc (lg : List (Kind × Pair K)) (e : Kind × Pair K) :
    stored (lg ++ [e]) = if e.1.isReset = true then [] else if e.1.isStored = true then stored lg ++ [e.2] else stored lg := by
  unfold stored
  rw [since_snoc]
  by_cases h1 : e.1.isReset = true
  · simp [h1]
  · by_cases h2 : e.1.isStored = true
    · simp [h1, h2]
    · simp [h1, h2]

theorem log_snoc (cfg : Cfg K) (env : Env K) (cs : List (Call K)) (l c : Call K) (ks : List Kind) (k : Kind)
    (hl : cs.getLast? = some l) (hk : ks.length = cs.length) :
    log cfg env (cs ++ [c]) (ks ++ [k]) = log cfg env cs ks ++ [(k, newPair cfg env l c)] := by
  obtain ⟨cs0, rfl⟩ : ∃ cs0, cs = cs0 ++ [l] := List.getLast?_eq_some_iff.1 hl
  cases ks with
  | nil => simp at hk
  | cons k0 ks0 =>
    unfold log
    have hkl : ks0.length = cs0.length := by simpa using hk
    have e1 : (cs0 ++ [l] ++ [c]).tail = (cs0 ++ [l]).tail ++ [c] := by cases cs0 <;> simp
    have e2 : List.zipWith (newPair cfg env) (cs0 ++ [l] ++ [c]) ((cs0 ++ [l]).tail ++ [c]) =
        List.zipWith (newPair cfg env) cs0 (cs0 ++ [l]).tail ++ [newPair cfg env l c] := by
      rw [List.append_assoc, List.zipWith_append (by simp)]
      rfl
    have e3 : List.zipWith (newPair cfg env) (cs0 ++ [l]) (cs0 ++ [l]).tail = List.zipWith (newPair cfg env) cs0 (cs0 ++ [l]).tail := by
      have : (cs0 ++ [l]).tail = (cs0 ++ [l]).tail ++ [] := by simp
      rw [this, List.zipWith_append (by simp)]
      simp
    rw [e1, e2, e3]
    simp only [List.cons_append, List.tail_cons]
    rw [List.zip_append (by simp [hkl])]
    rfl

theorem log_one (cfg : Cfg K) (env : Env K) (c : Call K) (ks : List Kind) : log cfg env [c] ks = [] := by
  simp [log]

/-- what holds after every non-empty run of BFGS updates. -/
structure BInv (cfg : Cfg K) (env : Env K) (cs : List (Call K)) (ks : List Kind) (st : St K) : Prop where
  last : st.last = cs.getLast?
  skipped : st.skipped = trailingSkips ks
  rep : Rep cfg env st.data (stored (log cfg env cs ks))

/-- BFGS: every call succeeds and the invariant is kept. -/
theorem bfgs_step_inv (cfg : Cfg K) (env : Env K) (hs : cfg.sr1 = false) (h0 : cfg.resto = false ∨ 0 < cfg.maxHist)
    (cs : List (Call K)) (hne : cs ≠ []) (ks : List Kind) (hk : ks.length = cs.length) (st : St K) (hi : BInv cfg env cs ks st) (c : Call K) :
    ∃ st' k, step cfg env st c = .ok (st', k) ∧ BInv cfg env (cs ++ [c]) (ks ++ [k]) st' ∧ k ≠ .start ∧
      (k = .reset ↔ cfg.maxSkip ≤ trailingSkips ks) ∧ (∀ u, k ≠ .eig u) ∧ k ≠ .accept true := by
  obtain ⟨l, hl⟩ : ∃ l, cs.getLast? = some l := by
    cases h : cs.getLast? with
    | none => exact absurd (List.getLast?_eq_none_iff.1 h) hne
    | some l => exact ⟨l, rfl⟩
  have hlast : st.last = some l := by rw [hi.last, hl]
  have hgl : (cs ++ [c]).getLast? = some c := by simp
  unfold step
  simp only [hlast, hs]
  by_cases hsk : st.skipped ≥ cfg.maxSkip
  · rw [if_pos hsk]
    refine ⟨_, _, rfl, ⟨by simp, ?_, ?_⟩, by simp, ?_, by simp, by simp⟩
    · rw [trailing_snoc]; rfl
    · rw [log_snoc cfg env cs l c ks _ hl hk, stored_snoc]
      exact rep_clear cfg env
    · simp; rw [← hi.skipped]; exact hsk
  · rw [if_neg hsk]
    have hnr : ¬ cfg.maxSkip ≤ trailingSkips ks := by rw [← hi.skipped]; exact hsk
    have skip : ∀ k b, k.isSkip = true → k ≠ .chol → BInv cfg env (cs ++ [c]) (ks ++ [k]) (finish cfg st c st.data b k) := by
      intro k b hk1 hk2
      have hf : finish cfg st c st.data b k = ⟨st.data, b, some c, st.skipped + 1, st.W⟩ := by
        cases k <;> first | rfl | cases hk1
      rw [hf]
      refine ⟨by simp, ?_, ?_⟩
      · rw [trailing_snoc, hk1]; simp [hi.skipped]
      · rw [log_snoc cfg env cs l c ks _ hl hk, stored_snoc]
        have e1 : k.isReset = false := by cases k <;> first | rfl | cases hk1
        have e2 : k.isStored = false := by cases k <;> first | rfl | exact absurd rfl hk2 | cases hk1
        simp only [e1, e2, Bool.false_eq_true, if_false]
        exact hi.rep
    simp only [Bool.false_eq_true, if_false]
    by_cases ht : amax (newPair cfg env l c).s < env.tinyTol
    · rw [if_pos ht]
      exact ⟨_, _, rfl, skip .tiny _ rfl (by simp), by simp, by simp [hnr], by simp, by simp⟩
    · rw [if_neg ht]
      by_cases hc : checkSkipping env (newPair cfg env l c) = true
      · rw [if_pos hc]
        exact ⟨_, _, rfl, skip .curv _ rfl (by simp), by simp, by simp [hnr], by simp, by simp⟩
      · rw [if_neg hc]
        obtain ⟨d', b', k, he, hcase⟩ := bfgsStep_ok cfg env c.eta (newPair cfg env l c) st.data st.backup _ hs h0 hi.rep
        rw [he]
        refine ⟨_, _, rfl, ?_⟩
        rcases hcase with ⟨rfl, rfl⟩ | ⟨rfl | rfl, hr⟩
        · exact ⟨skip .eta _ rfl (by simp), by simp, by simp [hnr], by simp, by simp⟩
        · refine ⟨⟨by simp [finish], ?_, ?_⟩, by simp, by simp [hnr], by simp, by simp⟩
          · rw [trailing_snoc]; simp [finish, Kind.isSkip, hi.skipped]
          · rw [log_snoc cfg env cs l c ks _ hl hk, stored_snoc]; exact hr
        · refine ⟨⟨by simp [finish], ?_, ?_⟩, by simp, by simp [hnr], by simp, by simp⟩
          · rw [trailing_snoc]; simp [finish, Kind.isSkip]
          · rw [log_snoc cfg env cs l c ks _ hl hk, stored_snoc]; exact hr

theorem first_inv (cfg : Cfg K) (env : Env K) (st : St K) (h : st.last = none) (c : Call K) :
    ∃ st', step cfg env st c = .ok (st', .start) ∧ BInv cfg env [c] [.start] st' := by
  refine ⟨_, by unfold step; rw [h], rfl, rfl, ?_⟩
  rw [log_one]; exact rep_clear cfg env

theorem bfgs_run_inv (cfg : Cfg K) (env : Env K) (hs : cfg.sr1 = false) (h0 : cfg.resto = false ∨ 0 < cfg.maxHist)
    (st0 : St K) (hst : st0.last = none) (cs : List (Call K)) (hne : cs ≠ []) :
    ∃ st ks, run cfg env st0 cs = .ok (st, ks) ∧ BInv cfg env cs ks st := by
  induction cs using List.reverseRecOn with
  | nil => exact absurd rfl hne
  | append_singleton cs c ih =>
    by_cases h : cs = []
    · subst h
      obtain ⟨st', h1, h2⟩ := first_inv cfg env st0 hst c
      exact ⟨st', [.start], by simp [run, h1], h2⟩
    · obtain ⟨st, ks, h1, h2⟩ := ih h
      obtain ⟨st', k, h3, h4, -⟩ := bfgs_step_inv cfg env hs h0 cs h ks (run_len _ _ _ _ _ _ h1) st h2 c
      refine ⟨st', ks ++ [k], ?_, h4⟩
      rw [run_snoc, h1]; simp only []; rw [h3]


/-! ## SR1 -/

theorem sr1Hist_snoc (lg : List (Kind × Pair K)) (e : Kind × Pair K) : sr1Hist (lg ++ [e]) = sr1Next (sr1Hist lg) e := by
  simp [sr1Hist, List.foldl_append]

theorem sr1Hist_some (lg : List (Kind × Pair K)) :
    (∃ k ∈ ((lg.map (fun e => e.1)).reverse.takeWhile (fun k => !k.isReset)), k.isAttempt = true) → (sr1Hist lg).2.isSome = true := by
  induction lg using List.reverseRecOn with
  | nil => simp
  | append_singleton lg e ih =>
    rw [sr1Hist_snoc]
    rintro ⟨k, hk, ha⟩
    simp only [List.map_append, List.map_cons, List.map_nil, List.reverse_append, List.reverse_cons, List.reverse_nil, List.nil_append,
      List.singleton_append, List.takeWhile_cons] at hk
    obtain ⟨ek, ep⟩ := e
    have ih' : ek.isAttempt = false → (!ek.isReset) = true → (sr1Hist lg).2.isSome = true := by
      intro h1 h2
      simp only [h2, if_true, List.mem_cons] at hk
      rcases hk with rfl | hk
      · rw [h1] at ha; cases ha
      · exact ih ⟨k, hk, ha⟩
    cases ek with
    | start => simp [Kind.isReset] at hk
    | reset => simp [Kind.isReset] at hk
    | accept u => cases u <;> rfl
    | eig u => cases u <;> rfl
    | _ => exact ih' rfl rfl

theorem log_map_fst (cfg : Cfg K) (env : Env K) (cs : List (Call K)) (ks : List Kind) (hk : ks.length = cs.length) :
    (log cfg env cs ks).map (fun e => e.1) = ks.tail := by
  unfold log
  have : (fun e : Kind × Pair K => e.1) = Prod.fst := rfl
  rw [this, List.map_fst_zip]
  simp [hk]

/-- what holds after every non-empty run of SR1 updates. -/
structure SInv (cfg : Cfg K) (env : Env K) (cs : List (Call K)) (ks : List Kind) (st : St K) : Prop where
  head : ks.head? = some .start
  last : st.last = cs.getLast?
  skipped : st.skipped = trailingSkips ks
  rep : Rep cfg env st.data (sr1Hist (log cfg env cs ks)).1
  old : ∀ o, (sr1Hist (log cfg env cs ks)).2 = some o → Rep cfg env st.backup o

theorem undo_some (cfg : Cfg K) (env : Env K) (cs : List (Call K)) (ks : List Kind) (hk : ks.length = cs.length)
    (hh : ks.head? = some .start) (k : Kind) (hu : UndoOK (ks ++ [k])) (hku : k.isUndo = true) :
    (sr1Hist (log cfg env cs ks)).2.isSome = true := by
  obtain ⟨k', hk', ha⟩ := hu ks k [] rfl hku
  refine sr1Hist_some _ ⟨k', ?_, ha⟩
  rw [log_map_fst cfg env cs ks hk]
  cases ks with
  | nil => cases hh
  | cons k0 ks =>
    simp only [List.head?_cons, Option.some.injEq] at hh
    subst hh
    simp only [List.reverse_cons] at hk'
    rw [List.takeWhile_append] at hk'
    split at hk'
    · next h =>
      simp only [List.takeWhile_cons, Kind.isReset, Bool.not_true, Bool.false_eq_true, if_false, List.append_nil] at hk'
      have : (ks.reverse.takeWhile (fun k => !k.isReset)) = ks.reverse := (List.takeWhile_prefix _).eq_of_length (by simpa using h)
      rw [List.tail_cons, this]; exact hk'
    · exact hk'

theorem sr1_step_inv (cfg : Cfg K) (env : Env K) (hs : cfg.sr1 = true)
    (cs : List (Call K)) (hne : cs ≠ []) (ks : List Kind) (hk : ks.length = cs.length) (st : St K) (hi : SInv cfg env cs ks st) (c : Call K)
    (st' : St K) (k : Kind) (he : step cfg env st c = .ok (st', k))
    (hu : UndoOK (ks ++ [k])) :
    SInv cfg env (cs ++ [c]) (ks ++ [k]) st' ∧ (k = .reset ↔ cfg.maxSkip ≤ trailingSkips ks) := by
  obtain ⟨l, hl⟩ : ∃ l, cs.getLast? = some l := by
    cases h : cs.getLast? with
    | none => exact absurd (List.getLast?_eq_none_iff.1 h) hne
    | some l => exact ⟨l, rfl⟩
  have hlast : st.last = some l := by rw [hi.last, hl]
  have hhead : (ks ++ [k]).head? = some .start := by
    cases hks : ks with
    | nil => have := hi.head; rw [hks] at this; cases this
    | cons a b => have := hi.head; rw [hks] at this; simpa using this
  unfold step at he
  simp only [hlast, hs] at he
  by_cases hsk : st.skipped ≥ cfg.maxSkip
  · rw [if_pos hsk] at he
    cases he
    refine ⟨⟨hhead, by simp, by rw [trailing_snoc]; rfl, ?_, ?_⟩, ?_⟩
    · rw [log_snoc cfg env cs l c ks _ hl hk, sr1Hist_snoc]; exact rep_clear cfg env
    · rw [log_snoc cfg env cs l c ks _ hl hk, sr1Hist_snoc]; intro o ho; simp [sr1Next] at ho
    · simp; rw [← hi.skipped]; exact hsk
  · rw [if_neg hsk] at he
    have hnr : ¬ cfg.maxSkip ≤ trailingSkips ks := by rw [← hi.skipped]; exact hsk
    by_cases ht : amax (newPair cfg env l c).s < env.tinyTol
    · rw [if_pos ht] at he
      cases he
      refine ⟨⟨hhead, by simp [finish], ?_, ?_, ?_⟩, by simp [hnr]⟩
      · rw [trailing_snoc]; simp [finish, Kind.isSkip, hi.skipped]
      · rw [log_snoc cfg env cs l c ks _ hl hk, sr1Hist_snoc]; exact hi.rep
      · rw [log_snoc cfg env cs l c ks _ hl hk, sr1Hist_snoc]; exact hi.old
    · rw [if_neg ht] at he
      simp only [if_true] at he
      cases hx : sr1Step cfg env c.eta c.regu (newPair cfg env l c) st.data st.backup with
      | error e => rw [hx] at he; cases he
      | ok r =>
        obtain ⟨d', b', k'⟩ := r
        rw [hx] at he
        simp only [Except.ok.injEq, Prod.mk.injEq] at he
        obtain ⟨he1, he2⟩ := he
        subst he2
        -- the kind tells whether something was undone
        have hkk : k'.isUndo = decide (0 < c.regu) := by
          have hs1 := hx
          unfold sr1Step at hs1
          simp only [bind, Except.bind] at hs1
          split at hs1
          · cases hs1
          · split at hs1
            · cases hs1; simp only [gt_iff_lt]; cases decide (0 < c.regu) <;> rfl
            · split at hs1
              · cases hs1
              · split at hs1
                · cases hs1; simp only [gt_iff_lt]; cases decide (0 < c.regu) <;> rfl
                · cases hs1; simp only [gt_iff_lt]; cases decide (0 < c.regu) <;> rfl
        have hold : 0 < c.regu → ∃ o, (sr1Hist (log cfg env cs ks)).2 = some o := by
          intro h
          have := undo_some cfg env cs ks hk hi.head k' hu (by rw [hkk]; simpa using h)
          exact Option.isSome_iff_exists.1 this
        have hmain := sr1Step_ok cfg env c.eta c.regu (newPair cfg env l c) st.data st.backup (sr1Hist (log cfg env cs ks)).1
          ((sr1Hist (log cfg env cs ks)).2.getD []) hs hi.rep (fun h => by
            obtain ⟨o, ho⟩ := hold h
            rw [ho]; exact hi.old o ho) d' b' k' hx
        simp only at hmain
        obtain ⟨h1, h2⟩ := hmain
        rw [← he1]
        have hreset : k' ≠ .reset := by rcases h1 with ⟨h, -⟩ | ⟨h, -⟩ <;> rw [h] <;> simp
        refine ⟨⟨hhead, ?_, ?_, ?_, ?_⟩, by simp [hnr, hreset]⟩
        · rcases h1 with ⟨rfl, -⟩ | ⟨rfl, -⟩ <;> simp [finish]
        · rw [trailing_snoc]
          rcases h1 with ⟨rfl, -⟩ | ⟨rfl, -⟩
          · simp [finish, Kind.isSkip, hi.skipped]
          · by_cases h : 0 < c.regu <;> simp [finish, Kind.isSkip, hi.skipped, h]
        · rw [log_snoc cfg env cs l c ks _ hl hk, sr1Hist_snoc]
          by_cases h : 0 < c.regu
          · rcases h1 with ⟨rfl, hr⟩ | ⟨rfl, hr⟩ <;> simpa [sr1Next, finish, h] using hr
          · rcases h1 with ⟨rfl, hr⟩ | ⟨rfl, hr⟩ <;> simpa [sr1Next, finish, h] using hr
        · rw [log_snoc cfg env cs l c ks _ hl hk, sr1Hist_snoc]
          intro o ho
          by_cases h : 0 < c.regu
          · rcases h1 with ⟨rfl, hr⟩ | ⟨rfl, hr⟩ <;> simp [sr1Next, h] at ho <;> subst ho <;> simpa [finish, h] using h2
          · rcases h1 with ⟨rfl, hr⟩ | ⟨rfl, hr⟩ <;> simp [sr1Next, h] at ho <;> subst ho <;> simpa [finish, h] using h2

theorem undoOK_prefix (ks : List Kind) (k : Kind) (h : UndoOK (ks ++ [k])) : UndoOK ks := by
  intro a k' b hab hk
  exact h a k' (b ++ [k]) (by rw [hab]; simp) hk

theorem sr1_run_inv (cfg : Cfg K) (env : Env K) (hs : cfg.sr1 = true) (st0 : St K) (hst : st0.last = none) (cs : List (Call K))
    (hne : cs ≠ []) (st : St K) (ks : List Kind) (he : run cfg env st0 cs = .ok (st, ks)) (hu : UndoOK ks) : SInv cfg env cs ks st := by
  induction cs using List.reverseRecOn generalizing st ks with
  | nil => exact absurd rfl hne
  | append_singleton cs c ih =>
    obtain ⟨st1, ks1, k, h1, h2, rfl⟩ := run_snoc_ok cfg env st0 cs c st ks he
    by_cases h : cs = []
    · subst h
      cases h1
      unfold step at h2
      rw [hst] at h2
      cases h2
      refine ⟨rfl, rfl, rfl, ?_, ?_⟩
      · rw [List.nil_append, log_one]; exact rep_clear cfg env
      · rw [List.nil_append, log_one]; intro o ho; simp [sr1Hist] at ho
    · exact (sr1_step_inv cfg env hs cs h ks1 (run_len _ _ _ _ _ _ h1) st1 (ih h _ _ h1 (undoOK_prefix _ _ hu)) c st k h2 hu).1

end
end Verif.QuasiNewton
