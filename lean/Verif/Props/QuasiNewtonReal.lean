import Verif.Props.QuasiNewton
import Mathlib.Data.Real.Sqrt
import Mathlib.LinearAlgebra.Matrix.Block
import Mathlib.Tactic.NormNum

/-! # C31, C54, C55: the assumptions on LAPACK and `sqrt` are met by exact real arithmetic, and updates are accepted there -/

namespace Verif.QuasiNewton
open Finset Verif.Matrix

set_option linter.unusedSimpArgs false

noncomputable section
open Classical in
/-- exact real arithmetic: each factorization succeeds iff there is one. -/
def envR : Env ℝ where
  hom := fun _ => none
  sqrt := Real.sqrt
  tinyTol := 1 / 1000
  curvTol := 1 / 1000
  eigTol := 1 / 1000
  minSty := 1 / 1000
  junk := 0
  chol := fun M => if h : ∃ J : DM ℝ, J.n = M.n ∧
      (∀ i j, i < M.n → j < M.n → i < j → J.at i j = 0) ∧ (∀ i, i < M.n → J.at i i ≠ 0) ∧
      ∀ i j, j ≤ i → i < M.n → ∑ k ∈ range M.n, J.at i k * J.at j k = M.at i j then some h.choose else none
  back := fun J => if h : ∃ C : DM ℝ, C.n = J.n ∧
      ∀ i j, i < J.n → j < J.n → ∑ k ∈ range J.n, J.at k i * C.at k j = if i = j then 1 else 0 then h.choose else J
  eig := fun M => if h : ∃ QE : DM ℝ × List ℝ, QE.1.n = M.n ∧ QE.2.length = M.n ∧
      (∀ i j, i < j → j < M.n → QE.2.getD i 0 ≤ QE.2.getD j 0) ∧
      (∀ i j, i < M.n → j < M.n → ∑ k ∈ range M.n, QE.1.at i k * QE.1.at j k = if i = j then 1 else 0) ∧
      ∀ i j, j ≤ i → i < M.n → ∑ k ∈ range M.n, QE.1.at i k * QE.2.getD k 0 * QE.1.at j k = M.at i j then some h.choose else none

theorem envR_hom : HomOK envR.hom := by intro l s h; cases h
theorem envR_sqrt : SqrtOK envR := fun a ha => ⟨Real.sqrt_nonneg a, Real.mul_self_sqrt ha⟩

theorem envR_chol : CholOK envR := by
  intro M J h
  unfold envR at h
  simp only at h
  split at h
  · next hx => cases h; exact hx.choose_spec
  · cases h

theorem envR_eig : EigOK envR := by
  intro M Q E h
  unfold envR at h
  simp only at h
  split at h
  · next hx =>
    have := hx.choose_spec
    rw [Option.some.inj h] at this
    exact this
  · cases h

/-- a triangular matrix with nonzero diagonal is invertible. -/
theorem tri_inv (J : DM ℝ) (hd : ∀ i, i < J.n → J.at i i ≠ 0) (ht : ∀ i j, i < J.n → j < J.n → i < j → J.at i j = 0) :
    ∃ C : DM ℝ, C.n = J.n ∧ ∀ i j, i < J.n → j < J.n → ∑ k ∈ range J.n, J.at k i * C.at k j = if i = j then 1 else 0 := by
  let A : _root_.Matrix (Fin J.n) (Fin J.n) ℝ := fun i j => J.at i j
  have hdet : A.det ≠ 0 := by
    rw [_root_.Matrix.det_of_lowerTriangular A (fun i j h => ht i j i.2 j.2 (by simpa using h))]
    exact Finset.prod_ne_zero_iff.2 (fun i _ => hd i i.2)
  have hu : IsUnit A.transpose.det := by rw [_root_.Matrix.det_transpose]; exact isUnit_iff_ne_zero.2 hdet
  have hm := _root_.Matrix.mul_nonsing_inv _ hu
  refine ⟨DM.build J.n (fun i j => if h : i < J.n ∧ j < J.n then A.transpose⁻¹ ⟨i, h.1⟩ ⟨j, h.2⟩ else 0), rfl, fun i j hi hj => ?_⟩
  have := congrFun (congrFun hm ⟨i, hi⟩) ⟨j, hj⟩
  rw [_root_.Matrix.mul_apply, _root_.Matrix.one_apply] at this
  simp only [Fin.mk.injEq] at this
  rw [← this, Finset.sum_range]
  refine Finset.sum_congr rfl (fun k _ => ?_)
  rw [at_build _ _ _ _ k.2 hj]
  rw [dif_pos ⟨k.2, hj⟩]
  rfl

theorem envR_back : BackOK envR := by
  intro J hd ht
  have hx := tri_inv J hd ht
  have e : envR.back J = hx.choose := by
    unfold envR
    simp only
    exact dif_pos hx
  rw [e]
  exact hx.choose_spec

/-- the assumptions of C54 and C55 are met. -/
theorem envR_ok : EnvOK envR := ⟨envR_hom, envR_sqrt, envR_chol, envR_back, by unfold envR; norm_num⟩
theorem envR_ok1 : Env1OK envR :=
  ⟨envR_hom, envR_sqrt, envR_eig, by unfold envR; norm_num, by unfold envR; norm_num, by unfold envR; norm_num⟩

/-- a call for an unconstrained problem in one variable. -/
def call1 (x g : ℝ) : Call ℝ := ⟨[x], [g], .zero 0 1, .zero 0 1, [], [], 0, [], 0⟩

theorem call1_ok (x g : ℝ) : CallOK 1 0 0 (call1 x g) := ⟨rfl, rfl, ⟨trivial, rfl⟩, ⟨trivial, rfl⟩, rfl, rfl⟩

/-- default options. -/
def cfgR (sr1 : Bool) : Cfg ℝ := ⟨6, 2, sr1, .scalar1, 1, 1 / 100000000, 100000000, false, false, none⟩

theorem pair1 (sr1 : Bool) (x g x' g' : ℝ) : newPair (cfgR sr1) envR (call1 x g) (call1 x' g') = ⟨[x' - x], [g' - g], [], []⟩ := by
  simp [newPair, cfgR, reduce, yFull, call1, Mat.transMult, betaPart]

/-- a positive number has a Cholesky factor. -/
theorem chol1 (M : DM ℝ) (hn : M.n = 1) (hp : 0 < M.at 0 0) : ∃ J, envR.chol M = some J := by
  have : ∃ J : DM ℝ, J.n = M.n ∧
      (∀ i j, i < M.n → j < M.n → i < j → J.at i j = 0) ∧ (∀ i, i < M.n → J.at i i ≠ 0) ∧
      ∀ i j, j ≤ i → i < M.n → ∑ k ∈ range M.n, J.at i k * J.at j k = M.at i j := by
    have h0 : (⟨1, [Real.sqrt (M.at 0 0)]⟩ : DM ℝ).at 0 0 = Real.sqrt (M.at 0 0) := rfl
    refine ⟨⟨1, [Real.sqrt (M.at 0 0)]⟩, hn.symm, ?_, ?_, ?_⟩
    · intro i j hi hj hij; omega
    · intro i hi
      have : i = 0 := by omega
      subst this
      rw [h0]; exact (Real.sqrt_pos.2 hp).ne'
    · intro i j hij hi
      have h1 : i = 0 := by omega
      have h2 : j = 0 := by omega
      subst h1; subst h2
      rw [hn, Finset.sum_range_one, h0, Real.mul_self_sqrt hp.le]
  refine ⟨this.choose, ?_⟩
  unfold envR
  simp only
  exact dif_pos this

/-- a number is its own eigenvalue. -/
theorem eig1 (M : DM ℝ) (hn : M.n = 1) : ∃ Q E, envR.eig M = some (Q, E) ∧ E = [M.at 0 0] := by
  have : ∃ QE : DM ℝ × List ℝ, QE.1.n = M.n ∧ QE.2.length = M.n ∧
      (∀ i j, i < j → j < M.n → QE.2.getD i 0 ≤ QE.2.getD j 0) ∧
      (∀ i j, i < M.n → j < M.n → ∑ k ∈ range M.n, QE.1.at i k * QE.1.at j k = if i = j then 1 else 0) ∧
      ∀ i j, j ≤ i → i < M.n → ∑ k ∈ range M.n, QE.1.at i k * QE.2.getD k 0 * QE.1.at j k = M.at i j := by
    have h0 : (⟨1, [1]⟩ : DM ℝ).at 0 0 = 1 := rfl
    refine ⟨(⟨1, [1]⟩, [M.at 0 0]), hn.symm, hn.symm, ?_, ?_, ?_⟩
    · intro i j hij hj; omega
    · intro i j hi hj
      have h1 : i = 0 := by omega
      have h2 : j = 0 := by omega
      subst h1; subst h2
      rw [hn, Finset.sum_range_one, h0]; simp
    · intro i j hij hi
      have h1 : i = 0 := by omega
      have h2 : j = 0 := by omega
      subst h1; subst h2
      rw [hn, Finset.sum_range_one, h0]; simp
  have e : envR.eig M = some this.choose := by
    unfold envR
    simp only
    exact dif_pos this
  refine ⟨this.choose.1, this.choose.2, e, ?_⟩
  have hs := this.choose_spec
  generalize this.choose = QE at hs
  obtain ⟨-, h2, -, h4, h5⟩ := hs
  have h5' := h5 0 0 le_rfl (by omega)
  have h4' := h4 0 0 (by omega) (by omega)
  rw [hn, Finset.sum_range_one] at h5' h4'
  rw [if_pos rfl] at h4'
  obtain ⟨Q, E⟩ := QE
  match E, (h2.trans hn) with
  | [e], _ =>
    simp only [List.getD_cons_zero] at h5'
    simp only at h4'
    have : e = M.at 0 0 := by rw [← h5']; linear_combination (-e) * h4'
    rw [this]

/-- f(x) = x²: from x = 0 to x = 1 with ∇f = 0 and 2 the BFGS update is accepted, so W = 2. -/
theorem bfgs_real_run : ∃ st, run (cfgR false) envR (St.init 0 0 false) [call1 0 0, call1 1 2] = .ok (st, [.start, .accept false]) := by
  have hM : ∃ J, envR.chol (addMat (2 : ℝ) ⟨1, [1]⟩ 1 (syrk 0 ⟨1, [0]⟩)) = some J := by
    refine chol1 _ (by simp [addMat, syrk, DM.build]) ?_
    simp [addMat, syrk, DM.build, DM.at, sumTo]
  obtain ⟨J, hJ⟩ := hM
  have h4 : (4 : ℝ).sqrt = 2 := by rw [show (4 : ℝ) = 2 ^ 2 by norm_num]; exact Real.sqrt_sq (by norm_num)
  have e1 : envR.sqrt = Real.sqrt := rfl
  have e2 : envR.tinyTol = 1 / 1000 := rfl
  have e3 : envR.curvTol = 1 / 1000 := rfl
  have e4 : envR.junk = 0 := rfl
  have hp : newPair (cfgR false) envR (call1 0 0) (call1 1 2) = ⟨[1], [2], [], []⟩ := by rw [pair1]; norm_num
  have hs1 : step (cfgR false) envR (St.init 0 0 false) (call1 0 0) =
      .ok (⟨clear (cfgR false), (St.init 0 0 false).backup, some (call1 0 0), 0, some (setW (cfgR false) (call1 0 0) (clear (cfgR false)))⟩, .start) := rfl
  have hu : updateInternal (cfgR false) envR 0 ⟨[1], [2], [], []⟩ (clear (cfgR false)) =
      .ok ({ clear (cfgR false) with
        mem := 1, S := some [[1]], Y := some [[2]], D := some [2], L := some ⟨1, [0]⟩, SdotS := some ⟨1, [1]⟩, uptodate := true }, true) := by
    simp [updateInternal, cfgR, clear, augMV, augVec, augL, augST, odim, DM.build, col, vdot]
  have hb : ∃ d b, bfgsStep (cfgR false) envR 0 ⟨[1], [2], [], []⟩ (clear (cfgR false)) (St.init 0 0 false).backup = .ok (d, b, .accept false) := by
    have hsg : safeguard (cfgR false) 2 = 2 := by
      unfold safeguard cfgR; rw [if_neg]; norm_num
    have hsf : sigmaFormula (cfgR false) envR (vdot [1] [2]) ⟨[1], [2], [], []⟩ = 2 := by
      simp [sigmaFormula, cfgR, nrm2, e1, vdot]
    have hlt : ltilde envR [2] ⟨1, [0]⟩ = ⟨1, [0]⟩ := by
      simp [ltilde, scaleCols, DM.build, DM.at]
    unfold bfgsStep
    rw [hu]
    simp only [bind, Except.bind, show (cfgR false).resto = false from rfl, dminBad, if_false, Bool.false_eq_true]
    rw [if_neg (by simp [cfgR])]
    unfold bfgsMatrices
    simp only [bfgsSigma, show (cfgR false).regular = true from rfl, if_true, hsf, hsg, extendMV, bind, Except.bind, hlt, bfgsM, e4, hJ, bfgsU]
    exact ⟨_, _, rfl⟩
  obtain ⟨d, b, hb⟩ := hb
  have h2 : ∃ st, step (cfgR false) envR ⟨clear (cfgR false), (St.init 0 0 false).backup, some (call1 0 0), 0,
      some (setW (cfgR false) (call1 0 0) (clear (cfgR false)))⟩ (call1 1 2) = .ok (st, .accept false) := by
    unfold step
    simp only [hp]
    rw [if_neg (by simp [cfgR]), if_neg (by simp [amax, e2]; norm_num), if_neg (by simp [cfgR]),
      if_neg (by simp [checkSkipping, nrm2, e1, e3, vdot, h4]; norm_num), show (call1 1 2).eta = 0 from rfl, hb]
    exact ⟨_, rfl⟩
  obtain ⟨st, h2⟩ := h2
  refine ⟨st, ?_⟩
  simp only [run, hs1, h2]

/-- the hypotheses of C54 and C55 are met by this run: W (1 − 0) = 2 − 0, and W is positive definite. -/
example : ∃ st W, run (cfgR false) envR (St.init 0 0 false) [call1 0 0, call1 1 2] = .ok (st, [.start, .accept false]) ∧ st.W = some W ∧
    ent W 0 0 = 2 := by
  obtain ⟨st, h⟩ := bfgs_real_run
  obtain ⟨W, h1, h2⟩ := bfgs_secant_full_space (cfgR false) envR envR_ok rfl rfl (by decide) rfl (by unfold cfgR; norm_num)
    (by unfold cfgR; norm_num) 1 0 0 0 0 false [] (call1 0 0) (call1 1 2)
    (by intro c hc; simp at hc; obtain rfl | rfl := hc <;> exact call1_ok _ _) st [.start] h
  have := h2 0 (by decide)
  refine ⟨st, W, h, h1, ?_⟩
  simpa [lagGrad, call1] using this

example : ∃ st ks, run (cfgR false) envR (St.init 0 0 false) [call1 0 0, call1 1 2] = .ok (st, ks) ∧
    ∃ W B, st.W = some W ∧ IsApprox none 1 W B ∧ PosDef 1 B :=
  bfgs_positive_definite (cfgR false) envR envR_ok rfl rfl (by unfold cfgR; norm_num) (by unfold cfgR; norm_num) (by unfold cfgR; norm_num)
    1 0 0 trivial 0 0 false _ (by simp) (by intro c hc; simp at hc; obtain rfl | rfl := hc <;> exact call1_ok _ _)

/-- the same for SR1. -/
theorem sr1_real_run : ∃ st, run (cfgR true) envR (St.init 0 0 false) [call1 0 0, call1 1 2] = .ok (st, [.start, .accept false]) := by
  have e1 : envR.sqrt = Real.sqrt := rfl
  have e2 : envR.tinyTol = 1 / 1000 := rfl
  have e4 : envR.junk = 0 := rfl
  have e5 : envR.eigTol = 1 / 1000 := rfl
  have hp : newPair (cfgR true) envR (call1 0 0) (call1 1 2) = ⟨[1], [2], [], []⟩ := by rw [pair1]; norm_num
  have hs1 : step (cfgR true) envR (St.init 0 0 false) (call1 0 0) =
      .ok (⟨clear (cfgR true), (St.init 0 0 false).backup, some (call1 0 0), 0, some (setW (cfgR true) (call1 0 0) (clear (cfgR true)))⟩, .start) := rfl
  have hu : updateInternal (cfgR true) envR 0 ⟨[1], [2], [], []⟩ (clear (cfgR true)) =
      .ok ({ clear (cfgR true) with
        mem := 1, S := some [[1]], Y := some [[2]], D := some [2], L := some ⟨1, [0]⟩, SdotS := some ⟨1, [1]⟩, uptodate := true }, true) := by
    simp [updateInternal, cfgR, clear, augMV, augVec, augL, augST, odim, DM.build, col, vdot]
  have hZ : specialAdd [2] ⟨1, [0]⟩ (addMat (-1 : ℝ) ⟨1, [1]⟩ 0 (DM.build 1 (fun _ _ => 0))) = ⟨1, [1]⟩ := by
    simp [specialAdd, addMat, DM.build, DM.at]; norm_num
  obtain ⟨Q, E, hQ, hE⟩ := eig1 ⟨1, [1]⟩ rfl
  have hE' : E = [1] := hE
  have hb : ∃ d b, sr1Step (cfgR true) envR 0 0 ⟨[1], [2], [], []⟩ (clear (cfgR true)) (St.init 0 0 false).backup = .ok (d, b, .accept false) := by
    have hsp : ∃ q, splitEig envR Q E = some q := by
      rw [hE']
      have : splitEig envR Q [1] ≠ none := by
        unfold splitEig
        have h10 : ¬ ((1 : ℝ) < 0) := by norm_num
        have h11 : ¬ ((1 : ℝ) < 1 / 1000) := by norm_num
        simp [nabs, e5, h10]
        norm_num
      exact Option.ne_none_iff_exists'.1 this
    obtain ⟨⟨q1, q2⟩, hsp⟩ := hsp
    unfold sr1Step
    simp only [gt_iff_lt, lt_self_iff_false, decide_false, if_false, Bool.false_eq_true]
    rw [hu]
    simp only [bind, Except.bind]
    rw [if_neg (by simp [cfgR])]
    unfold sr1Matrices
    simp only [sr1Sigma, show (cfgR true).regular = true from rfl, if_true, bind, Except.bind, sr1Z, e4, show (cfgR true).initVal = 1 from rfl, hZ, hQ, hsp, sr1Vt]
    exact ⟨_, _, rfl⟩
  obtain ⟨d, b, hb⟩ := hb
  have h2 : ∃ st, step (cfgR true) envR ⟨clear (cfgR true), (St.init 0 0 false).backup, some (call1 0 0), 0,
      some (setW (cfgR true) (call1 0 0) (clear (cfgR true)))⟩ (call1 1 2) = .ok (st, .accept false) := by
    unfold step
    simp only [hp]
    rw [if_neg (by simp [cfgR]), if_neg (by simp [amax, e2]; norm_num), if_pos (by simp [cfgR]), show (call1 1 2).eta = 0 from rfl,
      show (call1 1 2).regu = 0 from rfl, hb]
    exact ⟨_, rfl⟩
  obtain ⟨st, h2⟩ := h2
  refine ⟨st, ?_⟩
  simp only [run, hs1, h2]

example : ∃ st W B p, run (cfgR true) envR (St.init 0 0 false) [call1 0 0, call1 1 2] = .ok (st, [.start, .accept false]) ∧
    st.W = some W ∧ IsApprox none 1 W B ∧ IsPair none 1 0 0 (call1 0 0) (call1 1 2) p ∧ Secant 1 B p := by
  obtain ⟨st, h⟩ := sr1_real_run
  obtain ⟨W, B, p, h1, h2, h3, h4⟩ := sr1_secant_equation_partial (cfgR true) envR envR_ok1 rfl rfl (by decide) (by unfold cfgR; norm_num)
    1 0 0 trivial 0 0 false [] (call1 0 0) (call1 1 2)
    (by intro c hc; simp at hc; obtain rfl | rfl := hc <;> exact call1_ok _ _) st [.start] false h
    (by
      intro a k b hab hk
      have : k ∈ [Kind.start] ++ [.accept false] := by rw [hab]; simp
      simp at this
      obtain rfl | rfl := this <;> cases hk) (Or.inl rfl)
  exact ⟨st, W, B, p, h, h1, h2, h3, h4⟩

end
end Verif.QuasiNewton
