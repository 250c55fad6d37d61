import Verif.Proof.QuasiNewton8

/-! # Accepted SR1 updates in a run -/

namespace Verif.QuasiNewton
open Finset Verif.Matrix

set_option linter.unusedSectionVars false
set_option linter.unusedVariables false
set_option linter.unusedSimpArgs false

section
variable {K : Type} [Field K] [LinearOrder K] [IsStrictOrderedRing K]

theorem amax_zero (v : List K) (h : ∀ i, i < v.length → v.getD i 0 = 0) : amax v = 0 := by
  unfold amax
  have : ∀ (l : List K), (∀ a ∈ l, a = 0) → l.foldl (fun m a => max m (if a < 0 then -a else a)) 0 = 0 := by
    intro l
    induction l with
    | nil => intro _; rfl
    | cons a l ih =>
      intro hl
      have ha := hl a (by simp)
      subst ha
      simp only [List.foldl_cons, lt_irrefl, if_false, max_self]
      exact ih (fun b hb => hl b (by simp [hb]))
  apply this
  intro a ha
  obtain ⟨i, hi, rfl⟩ := List.getElem_of_mem ha
  have := h i hi
  rwa [List.getD_eq_getElem?_getD, List.getElem?_eq_getElem hi] at this

theorem vdot_pos (v : List K) (i : Nat) (hi : i < v.length) (h : v.getD i 0 ≠ 0) : 0 < vdot v v := by
  rw [vdot_eq v v v.length rfl rfl]
  exact Finset.sum_pos' (fun i _ => mul_self_nonneg _) ⟨i, Finset.mem_range.2 hi, mul_self_pos.2 h⟩

theorem not_tiny (env : Env K) (ht : 0 < env.tinyTol) (v : List K) (h : ¬ amax v < env.tinyTol) : 0 < vdot v v := by
  by_contra hc
  apply h
  rw [amax_zero v ?_]; exact ht
  intro i hi
  by_contra hne
  exact hc (vdot_pos v i hi hne)

theorem sqrt_pos (env : Env K) (hq : SqrtOK env) (a : K) (ha : 0 < a) : 0 < env.sqrt a := by
  obtain ⟨h1, h2⟩ := hq a ha.le
  rcases lt_or_eq_of_le h1 with h | h
  · exact h
  · rw [← h] at h2; simp at h2; rw [← h2] at ha; exact absurd ha (lt_irrefl _)

/-- σ of the SR1 update is positive. -/
theorem sr1Sigma_pos (cfg : Cfg K) (env : Env K) (hq : SqrtOK env) (hreg : cfg.regular = true) (hin : 0 < cfg.initVal) (hms : 0 < env.minSty)
    (p : Pair K) (d : Data K) (hs : 0 < vdot p.s p.s)
    (hy : cfg.init = .scalar1 ∨ cfg.init = .scalar3 ∨ cfg.init = .constant ∨ 0 < vdot p.y p.y) :
    0 < (sr1Sigma cfg env p d).sigma := by
  unfold sr1Sigma
  rw [if_pos hreg]
  split
  · exact hin
  · simp only
    set t := max env.minSty (if vdot p.s p.y < 0 then -vdot p.s p.y else vdot p.s p.y) with ht
    have htp : 0 < t := lt_of_lt_of_le hms (le_max_left _ _)
    have hs2 : 0 < nrm2 env p.s * nrm2 env p.s := by have := sqrt_pos env hq _ hs; exact mul_pos this this
    have hy2 : 0 ≤ nrm2 env p.y * nrm2 env p.y := mul_self_nonneg _
    have hy2' : 0 < vdot p.y p.y → 0 < nrm2 env p.y * nrm2 env p.y := fun h => by
      have := sqrt_pos env hq _ h; exact mul_pos this this
    unfold sigmaFormula
    cases hi : cfg.init with
    | scalar1 => exact div_pos htp hs2
    | scalar2 =>
      simp only [hi, reduceCtorEq, false_or] at hy
      exact div_pos (hy2' hy) htp
    | scalar3 => exact div_pos (add_pos_of_pos_of_nonneg (div_pos htp hs2) (div_nonneg hy2 htp.le)) two_pos
    | scalar4 =>
      simp only [hi, reduceCtorEq, false_or] at hy
      exact sqrt_pos env hq _ (div_pos (mul_pos (div_pos htp hs2) (hy2' hy)) htp)
    | constant => exact hin

theorem sr1Step_accept (cfg : Cfg K) (env : Env K) (hs : cfg.sr1 = true) (hre : cfg.resto = false) (hm : 0 < cfg.maxHist) (eta regu : K) (p : Pair K)
    (d b : Data K) (base : List (Pair K)) (hr : Rep cfg env (if decide (regu > 0) = true then b else d) base) (d' b' : Data K) (u : Bool)
    (he : sr1Step cfg env eta regu p d b = .ok (d', b', .accept u)) :
    ∃ d1 D L A Q E Qm Qp, d'.D = some D ∧ d'.L = some L ∧ d'.SdotS = some A ∧ Core cfg d' (lastN cfg.maxHist (base ++ [p])) ∧
      env.eig (specialAdd D L (addMat (-d'.sigma) A 0 (DM.build A.n (fun _ _ => env.junk)))) = some (Q, E) ∧
      splitEig env Q E = some (Qm, Qp) ∧ d'.sigma = (sr1Sigma cfg env p d1).sigma ∧
      d'.U = Qm.map (fun q => rightMult0 env.hom p.s.length 1 (List.zipWith (fun y t => List.zipWith (fun a b => a - d'.sigma * b) y t)
        ((lastN cfg.maxHist (base ++ [p])).map (fun p => p.y)) ((lastN cfg.maxHist (base ++ [p])).map (fun p => p.s))) q) ∧
      d'.V = Qp.map (fun q => rightMult0 env.hom p.s.length 1 (List.zipWith (fun y t => List.zipWith (fun a b => a - d'.sigma * b) y t)
        ((lastN cfg.maxHist (base ++ [p])).map (fun p => p.y)) ((lastN cfg.maxHist (base ++ [p])).map (fun p => p.s))) q) := by
  have hreg : cfg.regular = true := by simp [Cfg.regular, hre]
  have hm0 : cfg.maxHist ≠ 0 := by omega
  unfold sr1Step at he
  simp only [bind, Except.bind] at he
  generalize hd0 : (if decide (regu > 0) = true then b else d) = d0 at he hr
  obtain ⟨d1, e1, c1, -⟩ := updateInternal_ok cfg env eta p d0 _ hm (lastN_le _ base) hr.core
  simp only [e1, hm0, if_false] at he
  have c2 := core_sr1Sigma (env := env) (p := p) c1
  rw [← lastN_push _ hm] at c2
  set h := lastN cfg.maxHist (base ++ [p]) with hh
  have hne : h ≠ [] := by rw [hh, lastN_push _ hm]; exact push_ne _ _ _
  have hS : (sr1Sigma cfg env p d1).S = some (h.map (fun p => p.s)) := by rw [c2.S, opt_ne _ (by simpa using hne)]
  have hY : (sr1Sigma cfg env p d1).Y = some (h.map (fun p => p.y)) := by rw [c2.Y0 hre, opt_ne _ (by simpa using hne)]
  cases hx : sr1Matrices cfg env eta p (sr1Sigma cfg env p d1) with
  | error e => rw [hx] at he; cases he
  | ok r =>
    rw [hx] at he
    cases r with
    | none => cases he
    | some r =>
      cases he
      unfold sr1Matrices at hx
      split at hx
      · next D L hD hL =>
        simp only [bind, Except.bind] at hx
        unfold sr1Z at hx
        simp only [hreg, if_true] at hx
        cases hA : (sr1Sigma cfg env p d1).SdotS with
        | none => rw [hA] at hx; cases hx
        | some A =>
          rw [hA] at hx
          simp only at hx
          cases hQ : env.eig (specialAdd D L (addMat (-(sr1Sigma cfg env p d1).sigma) A 0 (DM.build A.n (fun _ _ => env.junk)))) with
          | none => rw [hQ] at hx; cases hx
          | some QE =>
            obtain ⟨Q, E⟩ := QE
            rw [hQ] at hx
            simp only at hx
            cases hsp : splitEig env Q E with
            | none => rw [hsp] at hx; cases hx
            | some qq =>
              obtain ⟨Qm, Qp⟩ := qq
              rw [hsp] at hx
              simp only [sr1Vt, hY, hreg, if_true, hS] at hx
              cases hx
              refine ⟨d1, D, L, A, Q, E, Qm, Qp, hD, hL, rfl, ?_, hQ, hsp, rfl, rfl, rfl⟩
              rw [← hS, ← hY, ← hA]
              exact core_set c2 _ _ _
      · cases hx

/-- assumptions on the numerical environment for SR1. -/
structure Env1OK (env : Env K) : Prop where
  hom : HomOK env.hom
  sqrt : SqrtOK env
  eig : EigOK env
  eigTol : 0 < env.eigTol
  tinyTol : 0 < env.tinyTol
  minSty : 0 < env.minSty

/-- an accepted SR1 update in a run, with nonempty memory. -/
theorem sr1_run_accept (cfg : Cfg K) (env : Env K) (ho : Env1OK env) (hs : cfg.sr1 = true) (hre : cfg.resto = false) (hm : 0 < cfg.maxHist)
    (hin : 0 < cfg.initVal) (n mc md : Nat) (hP : ProjOK cfg.P n) (st0 : St K) (hst : st0.last = none)
    (cs : List (Call K)) (l c : Call K) (hl : cs.getLast? = some l) (hcs : ∀ c' ∈ cs ++ [c], CallOK n mc md c') (st1 st : St K) (ks : List Kind)
    (u : Bool) (h1 : run cfg env st0 cs = .ok (st1, ks)) (h2 : step cfg env st1 c = .ok (st, .accept u)) (hu : UndoOK (ks ++ [.accept u]))
    (hy : cfg.init = .scalar1 ∨ cfg.init = .scalar3 ∨ cfg.init = .constant ∨ ∃ y ∈ (newPair cfg env l c).y, y ≠ 0) :
    st.W = some (setW cfg c st.data) ∧ 0 < st.data.sigma ∧
      Secant (lmDim cfg.P n) (Bof st.data.sigma st.data.V st.data.U) (newPair cfg env l c) := by
  have hreg : cfg.regular = true := by simp [Cfg.regular, hre]
  have hne : cs ≠ [] := by intro h; rw [h] at hl; cases hl
  have hi := sr1_run_inv cfg env hs st0 hst cs hne st1 ks h1 (undoOK_prefix _ _ hu)
  have hcl : CallOK n mc md c := hcs c (by simp)
  have hll : CallOK n mc md l := hcs l (List.mem_append_left _ (List.mem_of_mem_getLast? hl))
  unfold step at h2
  simp only [hi.last, hl, hs, if_true] at h2
  split at h2
  · cases h2
  · split at h2
    · cases h2
    · next ht =>
      cases hx : sr1Step cfg env c.eta c.regu (newPair cfg env l c) st1.data st1.backup with
      | error e => rw [hx] at h2; cases h2
      | ok r =>
        obtain ⟨d, b, k⟩ := r
        rw [hx] at h2
        simp only [Except.ok.injEq, Prod.mk.injEq] at h2
        obtain ⟨h2, rfl⟩ := h2
        subst h2
        -- the history that is extended
        have hur : c.regu > 0 → ∃ o, (sr1Hist (log cfg env cs ks)).2 = some o := by
          intro hr
          have hsome : u = true := by
            have hs1 := hx
            unfold sr1Step at hs1
            simp only [bind, Except.bind] at hs1
            split at hs1
            · cases hs1
            · split at hs1
              · cases hs1; simpa using hr
              · split at hs1
                · cases hs1
                · split at hs1
                  · cases hs1
                  · cases hs1; simpa using hr
          subst hsome
          exact Option.isSome_iff_exists.1 (undo_some cfg env cs ks (run_len _ _ _ _ _ _ h1) hi.head _ hu rfl)
        obtain ⟨base, hbase, hmem⟩ : ∃ base, Rep cfg env (if decide (c.regu > 0) = true then st1.backup else st1.data) base ∧
            ∀ p ∈ base, ∃ k, (k, p) ∈ log cfg env cs ks := by
          by_cases hr : c.regu > 0
          · obtain ⟨o, ho⟩ := hur hr
            refine ⟨o, ?_, (sr1Hist_mem _).2 o ho⟩
            simp only [hr, decide_true, if_true]; exact hi.old o ho
          · refine ⟨_, ?_, (sr1Hist_mem _).1⟩
            simp only [hr, decide_false, Bool.false_eq_true, if_false]; exact hi.rep
        obtain ⟨d1, D, L, A, Q, E, Qm, Qp, a1, a2, a3, a4, a5, a6, a7, a8, a9⟩ :=
          sr1Step_accept cfg env hs hre hm c.eta c.regu (newPair cfg env l c) st1.data st1.backup base hbase d b u hx
        set p := newPair cfg env l c with hp
        obtain ⟨hps, hpy⟩ := newPair_len cfg hre env ho.hom n mc md hP l c hll hcl
        rw [← hp] at hps hpy
        have hss : 0 < vdot p.s p.s := not_tiny env ho.tinyTol _ ht
        have hσ : 0 < d.sigma := by
          rw [a7]
          refine sr1Sigma_pos cfg env ho.sqrt hreg hin ho.minSty p d1 hss ?_
          rcases hy with h | h | h | ⟨y, hy, hy0⟩
          · exact Or.inl h
          · exact Or.inr (Or.inl h)
          · exact Or.inr (Or.inr (Or.inl h))
          · obtain ⟨i, hi, rfl⟩ := List.getElem_of_mem hy
            refine Or.inr (Or.inr (Or.inr (vdot_pos p.y i hi ?_)))
            rw [List.getD_eq_getElem?_getD, List.getElem?_eq_getElem hi]; exact hy0
        have hfin : (finish cfg st1 c d b (.accept u)).data = d := rfl
        rw [hfin]
        refine ⟨rfl, hσ, ?_⟩
        obtain ⟨h0, hh0⟩ := lastN_snoc_getLast cfg.maxHist hm base p
        set h := lastN cfg.maxHist (base ++ [p]) with hh
        have hhl : h.length = h0.length + 1 := by rw [hh0]; simp
        have hne' : h ≠ [] := by rw [hh0]; simp
        have hlen : ∀ q ∈ h, q.s.length = lmDim cfg.P n ∧ q.y.length = lmDim cfg.P n := by
          intro q hq
          rcases List.mem_append.1 (mem_lastN _ _ _ hq) with hq | hq
          · obtain ⟨k, hk⟩ := hmem q hq
            exact log_len cfg env ho.hom hre n mc md hP cs (fun c' h => hcs c' (List.mem_append_left _ h)) ks _ hk
          · simp only [List.mem_singleton] at hq; subst hq; exact ⟨hps, hpy⟩
        have hS : d.S = some (h.map (fun p => p.s)) := by rw [a4.S, opt_ne _ (by simpa using hne')]
        have hY : d.Y = some (h.map (fun p => p.y)) := by rw [a4.Y0 hre, opt_ne _ (by simpa using hne')]
        obtain ⟨D', hD', hDl, hDv⟩ := a4.D
        obtain ⟨hLn, hLv⟩ := a4.L
        obtain ⟨hAn, hAv⟩ := a4.SS hreg
        have hDD : D' = D := by
          have := congrArg (fun o => o.getD []) hD'
          simp only [opt_getD, a1, Option.getD_some] at this
          exact this.symm
        subst hDD
        rw [hS, hY] at hDv hLv
        rw [hS] at hAv
        simp only [col_some] at hDv hLv hAv
        rw [a2] at hLn hLv
        rw [a3] at hAn hAv
        simp only [oat, odim] at hLn hLv hAn hAv
        intro i hi'
        have key := sr1_secant_ent env ho.hom ho.sqrt ho.eig ho.eigTol (lmDim cfg.P n) h.length (by omega) d.sigma hσ.ne'
          (h.map (fun p => p.s)) (h.map (fun p => p.y)) (List.length_map ..) (List.length_map ..)
          (by intro v hv; obtain ⟨q, hq', rfl⟩ := List.mem_map.1 hv; exact (hlen q hq').1)
          (by intro v hv; obtain ⟨q, hq', rfl⟩ := List.mem_map.1 hv; exact (hlen q hq').2)
          D' hDv L hLv A hAn hAv Q E a5 Qm Qp a6 i hi'
        simp only at key
        have hlast : h.length - 1 = h0.length := by omega
        have hl2 : h0.length < h.length := by omega
        have hpl : h[h0.length] = p := by simp [hh0]
        unfold ce at key
        rw [hlast] at key
        simp only [col_map_get _ _ _ hl2, hpl] at key
        rw [a8, a9, hps]
        exact key

end
end Verif.QuasiNewton
