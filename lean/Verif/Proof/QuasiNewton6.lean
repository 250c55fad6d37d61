import Verif.Proof.QuasiNewton5

/-! # The BFGS approximation after an accepted update -/

namespace Verif.QuasiNewton
open Finset Verif.Matrix

set_option linter.unusedSectionVars false
set_option linter.unusedVariables false
set_option linter.unusedSimpArgs false

section
variable {K : Type} [Field K] [LinearOrder K]

theorem bfgsStep_accept (cfg : Cfg K) (env : Env K) (hs : cfg.sr1 = false) (hre : cfg.resto = false) (hm : 0 < cfg.maxHist) (eta : K) (p : Pair K)
    (d b : Data K) (all : List (Pair K)) (hr : Rep cfg env d all) (d' b' : Data K)
    (he : bfgsStep cfg env eta p d b = .ok (d', b', .accept false)) :
    ∃ D L A J, d'.D = some D ∧ d'.L = some L ∧ d'.SdotS = some A ∧
      env.chol (addMat d'.sigma A 1 (syrk env.junk (ltilde env D L))) = some J ∧
      d'.V = some ((lastN cfg.maxHist (all ++ [p])).map (vOf env)) ∧
      d'.U = some (rightMult1 env.hom 1 ((lastN cfg.maxHist (all ++ [p])).map (vOf env)) (mulT (ltilde env D L) (env.back J)).cols
        (rightMult0 env.hom p.s.length d'.sigma ((lastN cfg.maxHist (all ++ [p])).map (fun p => p.s)) (env.back J).cols)) ∧
      Core cfg d' (lastN cfg.maxHist (all ++ [p])) ∧ d'.sigma = safeguard cfg (sigmaFormula cfg env (vdot p.s p.y) p) := by
  have hreg : cfg.regular = true := by simp [Cfg.regular, hre]
  have hm0 : cfg.maxHist ≠ 0 := by omega
  obtain ⟨d1, e1, c1, v1, -, -, -⟩ := updateInternal_ok cfg env eta p d _ hm (lastN_le _ all) hr.core
  unfold bfgsStep at he
  simp only [e1, bind, Except.bind, dminBad, hre, Bool.false_eq_true, if_false, hm0] at he
  obtain ⟨d2, k, e2, hk, c2, v2, sg, hS, hY, hD, hL, hSS, -, -, hacc⟩ :=
    bfgsMatrices_ok cfg env eta p (bfgsSigma cfg env p d1) (lastN cfg.maxHist all) hm (lastN_le _ all)
      (core_sigma c1) (by rw [bfgsSigma_V, v1, hr.V hs])
  rw [e2] at he
  simp only [Except.ok.injEq, Prod.mk.injEq] at he
  obtain ⟨rfl, -, rfl⟩ := he
  obtain ⟨D, L, M, J, U, a1, a2, a3, a4, a5, a6⟩ := hacc rfl
  rw [← lastN_push _ hm] at a6 v2 c2
  have hne : lastN cfg.maxHist (all ++ [p]) ≠ [] := by rw [lastN_push _ hm]; exact push_ne _ _ _
  rw [opt_ne _ (by simpa using hne)] at v2
  have hS' := c2.S
  rw [opt_ne _ (by simpa using hne)] at hS'
  rw [hS] at hS'
  unfold bfgsM at a3
  simp only [hreg, if_true] at a3
  cases hA : (bfgsSigma cfg env p d1).SdotS with
  | none => rw [hA] at a3; cases a3
  | some A =>
    rw [hA] at a3
    cases a3
    unfold bfgsU at a6
    rw [hS'] at a6
    simp only [hreg, if_true] at a6
    cases a6
    refine ⟨D, L, A, J, by rw [hD, a1], by rw [hL, a2], by rw [hSS, hA], by rw [sg]; exact a4, v2, by rw [sg]; exact a5, c2, ?_⟩
    rw [sg]; simp [bfgsSigma, hreg]

theorem col_map_get (f : Pair K → List K) (h : List (Pair K)) (j : Nat) (hj : j < h.length) : (h.map f).getD j [] = f h[j] := by
  simp [List.getD_eq_getElem?_getD, hj]

end

section
variable {K : Type} [Field K] [LinearOrder K] [IsStrictOrderedRing K]

theorem vdot_self_nonneg (v : List K) : 0 ≤ vdot v v := by
  rw [vdot_eq v v v.length rfl rfl]; exact Finset.sum_nonneg (fun i _ => mul_self_nonneg _)

/-- pairs passing the curvature test have positive curvature. -/
theorem curv_pos (env : Env K) (hq : SqrtOK env) (ht : 0 ≤ env.curvTol) (p : Pair K) (h : checkSkipping env p = false) : 0 < vdot p.s p.y := by
  unfold checkSkipping at h
  simp only [decide_eq_false_iff_not, not_le] at h
  have h1 := (hq _ (vdot_self_nonneg p.s)).1
  have h2 := (hq _ (vdot_self_nonneg p.y)).1
  exact lt_of_le_of_lt (mul_nonneg (mul_nonneg ht h1) h2) h

theorem safeguard_ok (cfg : Cfg K) (h : cfg.sigMin ≤ cfg.sigMax) (σ : K) : cfg.sigMin ≤ safeguard cfg σ ∧ safeguard cfg σ ≤ cfg.sigMax := by
  unfold safeguard
  split
  · exact ⟨le_max_right _ _, max_le (min_le_left _ _) h⟩
  · next hn => push Not at hn; exact hn

/-- the structure of the BFGS matrix after an accepted update. -/
theorem bfgs_accept_struct (cfg : Cfg K) (env : Env K) (hh : HomOK env.hom) (hq : SqrtOK env) (hch : CholOK env) (hbk : BackOK env)
    (hre : cfg.resto = false) (n : Nat) (h : List (Pair K)) (d : Data K) (p : Pair K)
    (hlen : ∀ q ∈ h, q.s.length = n ∧ q.y.length = n) (hp : p.s.length = n) (hpos : ∀ q ∈ h, 0 < vdot q.s q.y) (hc : Core cfg d h) (hne : h ≠ [])
    (D : List K) (L A J : DM K) (hD : d.D = some D) (hL : d.L = some L) (hA : d.SdotS = some A)
    (hJ : env.chol (addMat d.sigma A 1 (syrk env.junk (ltilde env D L))) = some J) :
    let U := rightMult1 env.hom 1 (h.map (vOf env)) (mulT (ltilde env D L) (env.back J)).cols
        (rightMult0 env.hom p.s.length d.sigma (h.map (fun p => p.s)) (env.back J).cols)
    U.length = h.length ∧ (∀ v ∈ U, v.length = n) ∧
    BFGS n h.length d.sigma (Mx n h.length (ce (h.map (fun p => p.s)))) (Mx n h.length (ce (h.map (fun p => p.y)))) (fun j => D.getD j 0)
      (fun j => 1 / env.sqrt (D.getD j 0)) (Mx h.length h.length L.at) (Mx h.length h.length (ltilde env D L).at)
      (Mx h.length h.length (env.back J).at) (Mx n h.length (ce (h.map (vOf env)))) (Mx n h.length (ce U)) := by
  have hreg : cfg.regular = true := by simp [Cfg.regular, hre]
  rw [hp]
  have hS : d.S = some (h.map (fun p => p.s)) := by rw [hc.S, opt_ne _ (by simpa using hne)]
  have hY : d.Y = some (h.map (fun p => p.y)) := by rw [hc.Y0 hre, opt_ne _ (by simpa using hne)]
  obtain ⟨D', hD', hDl, hDv⟩ := hc.D
  obtain ⟨hLn, hLv⟩ := hc.L
  obtain ⟨hAn, hAv⟩ := hc.SS hreg
  have hDD : D' = D := by
    have := congrArg (fun o => o.getD []) hD'
    simp only [opt_getD, hD, Option.getD_some] at this
    exact this.symm
  subst hDD
  rw [hS, hY] at hDv hLv
  rw [hS] at hAv
  simp only [col_some] at hDv hLv hAv
  rw [hL] at hLn hLv
  rw [hA] at hAn hAv
  have hDp : ∀ j (hj : j < h.length), D'.getD j 0 = vdot h[j].s h[j].y := by
    intro j hj
    rw [hDv j hj, col_map_get _ _ _ hj, col_map_get _ _ _ hj]
  simp only [oat, odim] at hLn hLv hAn hAv
  refine bfgs_struct env hh hch hbk n h.length d.sigma (h.map (fun p => p.s)) (h.map (fun p => p.y)) (h.map (vOf env)) (List.length_map ..) (List.length_map ..) (List.length_map ..)
    ?_ ?_ ?_ D' hDl hDv ?_ ?_ L hLn hLv A hAn hAv J hJ
  · intro v hv; obtain ⟨q, hq', rfl⟩ := List.mem_map.1 hv; exact (hlen q hq').1
  · intro v hv; obtain ⟨q, hq', rfl⟩ := List.mem_map.1 hv; exact (hlen q hq').2
  · intro v hv; obtain ⟨q, hq', rfl⟩ := List.mem_map.1 hv; simp only [vOf, List.length_map]; exact (hlen q hq').2
  · intro j hj
    rw [hDp j hj]
    have hpz := hpos h[j] (List.getElem_mem hj)
    obtain ⟨q1, q2⟩ := hq _ hpz.le
    have hne : env.sqrt (vdot h[j].s h[j].y) ≠ 0 := by
      intro h0; rw [h0] at q2; simp at q2; rw [← q2] at hpz; exact lt_irrefl _ hpz
    have e : 1 / env.sqrt (vdot h[j].s h[j].y) * (1 / env.sqrt (vdot h[j].s h[j].y)) * vdot h[j].s h[j].y =
        (env.sqrt (vdot h[j].s h[j].y) * env.sqrt (vdot h[j].s h[j].y))⁻¹ * vdot h[j].s h[j].y := by rw [mul_inv, one_div]
    rw [e, q2, inv_mul_cancel₀ hpz.ne']
  · intro i j hi hj
    unfold ce
    rw [col_map_get _ _ _ hj, col_map_get _ _ _ hj, hDp j hj]
    unfold vOf
    have hyl := (hlen h[j] (List.getElem_mem hj)).2
    rw [getD_map' _ _ _ 0 (by rw [hyl]; exact hi), mul_comm]

/-- transfer to the entries. -/
theorem bfgs_secant_ent (n m : Nat) (σ : K) (S Y V U : List (List K)) (hV : V.length = m) (hU : U.length = m) (d r : Fin m → K)
    (L Lt C : _root_.Matrix (Fin m) (Fin m) K) (hB : BFGS n m σ (Mx n m (ce S)) (Mx n m (ce Y)) d r L Lt C (Mx n m (ce V)) (Mx n m (ce U)))
    (k : Fin m) (hk : ∀ j, j ≤ k) (i : Nat) (hi : i < n) :
    ∑ j ∈ range n, Bof σ (some V) (some U) i j * ce S j k = ce Y i k := by
  have := congrFun (hB.secant k hk) ⟨i, hi⟩
  simp only [_root_.Matrix.mulVec, dotProduct] at this
  rw [Finset.sum_range]
  have e : ∀ j : Fin n, Bof σ (some V) (some U) i j * ce S j k = _ * Mx n m (ce S) j k := fun j =>
    congrArg (· * _) (Bof_mx n m σ V U hV hU ⟨i, hi⟩ j)
  rw [Finset.sum_congr rfl (fun j _ => e j)]
  exact this

theorem bfgs_posdef_ent (n m : Nat) (σ : K) (hσ : 0 < σ) (S Y V U : List (List K)) (hV : V.length = m) (hU : U.length = m) (d r : Fin m → K)
    (L Lt C : _root_.Matrix (Fin m) (Fin m) K) (hB : BFGS n m σ (Mx n m (ce S)) (Mx n m (ce Y)) d r L Lt C (Mx n m (ce V)) (Mx n m (ce U))) :
    PosDef n (Bof σ (some V) (some U)) := by
  refine ⟨fun i j _ _ => Bof_symm _ _ _ _ _, fun x hx => ?_⟩
  obtain ⟨i0, hi0, hx0⟩ := hx
  have := hB.posdef hσ (fun i => x i) (fun h => hx0 (congrFun h ⟨i0, hi0⟩))
  simp only [_root_.Matrix.mulVec, dotProduct] at this
  have e : ∑ i ∈ range n, ∑ j ∈ range n, x i * Bof σ (some V) (some U) i j * x j =
      ∑ i : Fin n, x i * ∑ j : Fin n, (σ • (1 : _root_.Matrix (Fin n) (Fin n) K) + Mx n m (ce V) * (Mx n m (ce V)).transpose -
        Mx n m (ce U) * (Mx n m (ce U)).transpose) i j * x j := by
    rw [Finset.sum_range]
    refine Finset.sum_congr rfl (fun i _ => ?_)
    rw [Finset.sum_range, Finset.mul_sum]
    refine Finset.sum_congr rfl (fun j _ => ?_)
    rw [Bof_mx n m σ V U hV hU i j]; ring
  rw [e]; exact this

/-- σ I is positive definite. -/
theorem posdef_diag (n : Nat) (σ : K) (hσ : 0 < σ) : PosDef n (Bof σ none none) := by
  refine ⟨fun i j _ _ => Bof_symm _ _ _ _ _, fun x hx => ?_⟩
  have e : ∑ i ∈ range n, ∑ j ∈ range n, x i * Bof σ none none i j * x j = ∑ i ∈ range n, σ * (x i * x i) := by
    refine Finset.sum_congr rfl (fun i hi => ?_)
    rw [Finset.sum_eq_single i]
    · simp [Bof, gram]; ring
    · intro j _ hj; simp [Bof, gram, hj.symm]
    · intro h; exact absurd hi h
  rw [e]
  obtain ⟨i0, hi0, hx0⟩ := hx
  refine Finset.sum_pos' (fun i _ => mul_nonneg hσ.le (mul_self_nonneg _)) ⟨i0, Finset.mem_range.2 hi0, mul_pos hσ (mul_self_pos.2 hx0)⟩

end
end Verif.QuasiNewton
