import Verif.Props.KktErr

/-! # C83, continued: what "Optimal Solution Found" says about the user's problem -/

namespace Verif.KktErr
open Verif Verif.Matrix Verif.Scaling Finset
set_option linter.unusedSectionVars false
set_option linter.unusedSimpArgs false
set_option linter.unusedVariables false

/-- All residuals of the user's optimality conditions are within the three tolerances. -/
def Kkt (p : Prob ℚ) (ub : Bnd ℚ) (u : It ℚ) (target dualTol violTol complTol : ℚ) : Prop :=
  (∀ j, j < p.nx → |lagX p u j| ≤ dualTol) ∧ (∀ j, j < p.nd → |lagS p u j| ≤ dualTol) ∧ (∀ k, k < p.nc → |(p.c u.pt.x).getD k 0| ≤ violTol) ∧
  (∀ k, k < p.posDL.length → ub.dL.getD k 0 - violTol ≤ (p.d u.pt.x).getD (p.posDL.getD k 0) 0) ∧
  (∀ k, k < p.posDU.length → (p.d u.pt.x).getD (p.posDU.getD k 0) 0 ≤ ub.dU.getD k 0 + violTol) ∧
  ∀ a ∈ products p ub u target, |a| ≤ complTol

section
variable {p : Prob ℚ} {of df : ℚ} {dx dc dd : Option (List ℚ)} {hom : List ℚ → Option ℚ} {sqrt : ℚ → ℚ} {i u : It ℚ} {b ub : Bnd ℚ}

theorem kkt_of_le (hO : Ok p (df * of) dx dc dd hom) (hC : Corr p (df * of) dx dc dd i u) (hB : BndCorr p dx dd b ub) {muTarget dualTol violTol complTol : ℚ}
    (h1 : unscaledDualInf p (determine of df dx dc dd) hom sqrt i .max ≤ dualTol) (h2 : unscaledViolation p (determine of df dx dc dd) hom sqrt b i .max ≤ violTol)
    (h3 : unscaledComplementarity p (determine of df dx dc dd) hom sqrt b i muTarget .max ≤ complTol) : Kkt p ub u (muTarget / (df * of)) dualTol violTol complTol := by
  have n1 := (dual_norm (sqrt := sqrt) hO hC (noTwo sqrt)).1
  have n2 := (viol_norm (sqrt := sqrt) hO hC hB (noTwo sqrt)).1
  have n3 := (compl_norm (sqrt := sqrt) hO hC hB muTarget (noTwo sqrt)).1
  refine ⟨fun j hj => le_trans (n1 _ (List.mem_append_left _ (List.mem_map.2 ⟨j, List.mem_range.2 hj, rfl⟩))) h1,
    fun j hj => le_trans (n1 _ (List.mem_append_right _ (List.mem_map.2 ⟨j, List.mem_range.2 hj, rfl⟩))) h1,
    fun k hk => le_trans (n2 _ (List.mem_append_left _ (List.mem_append_left _ (List.mem_map.2 ⟨k, List.mem_range.2 hk, rfl⟩)))) h2,
    fun k hk => ?_, fun k hk => ?_, fun a ha => le_trans (n3 a ha) h3⟩
  · have := le_trans (le_trans (le_max_left _ _) (le_abs_self _)) (le_trans (n2 _ (List.mem_append_left _ (List.mem_append_right _ (List.mem_map.2 ⟨k, List.mem_range.2 hk, rfl⟩)))) h2)
    linarith
  · have := le_trans (le_trans (le_max_left _ _) (le_abs_self _)) (le_trans (n2 _ (List.mem_append_right _ (List.mem_map.2 ⟨k, List.mem_range.2 hk, rfl⟩))) h2)
    linarith

theorem check_converged {cfg : Alg.CCfg} {cb : Bool} {st st' : Alg.CSt} {o : Alg.Obs} (h : Alg.check cfg cb st o = (some .converged, st')) (hd : o.dim ≠ 0) :
    o.err ≤ cfg.tol ∧ o.dual ≤ cfg.dualTol ∧ o.viol ≤ cfg.violTol ∧ o.compl ≤ cfg.complTol := by
  by_contra hn
  have hl : ∀ x, Alg.limits cfg x ≠ .converged := by
    intro x; unfold Alg.limits; split_ifs <;> simp
  unfold Alg.check at h
  rw [if_neg hn, if_neg hd] at h
  dsimp only at h
  generalize Alg.isAcceptable cfg st o = r at h
  split_ifs at h
  all_goals first
    | (simp at h; done)
    | (simp only [Prod.mk.injEq, Option.some.injEq] at h; exact hl _ h.1)

theorem check_acceptable {cfg : Alg.CCfg} {cb : Bool} {st st' : Alg.CSt} {o : Alg.Obs} (h : Alg.check cfg cb st o = (some .acceptable, st')) :
    (Alg.isAcceptable cfg st o).1 = true := by
  by_contra hn
  have hl : ∀ x, Alg.limits cfg x ≠ .acceptable := by
    intro x; unfold Alg.limits; split_ifs <;> simp
  unfold Alg.check at h
  dsimp only at h
  rw [if_neg hn] at h
  split_ifs at h
  all_goals first
    | (simp at h; done)
    | (simp only [Prod.mk.injEq, Option.some.injEq] at h; exact hl _ h.1)

/-- If the convergence check says "converged" for a problem with variables, the delivered point and multipliers satisfy the optimality conditions of the user's problem
within `dual_inf_tol`, `constr_viol_tol`, `compl_inf_tol`, and the overall error is at most `tol`. -/
theorem converged_kkt (hO : Ok p (df * of) dx dc dd hom) (hC : Corr p (df * of) dx dc dd i u) (hB : BndCorr p dx dd b ub) {sMax muTarget tol dualTol violTol complTol : ℚ}
    {cfg : Alg.CCfg} (c1 : cfg.tol = .fin tol) (c2 : cfg.dualTol = .fin dualTol) (c3 : cfg.violTol = .fin violTol) (c4 : cfg.complTol = .fin complTol)
    (hx : 0 < p.nx) {cb : Bool} {st st' : Alg.CSt} {o : Alg.Obs}
    (h : Alg.check cfg cb st (observe p (determine of df dx dc dd) hom sqrt b i sMax muTarget o) = (some .converged, st')) :
    Kkt p ub u (muTarget / (df * of)) dualTol violTol complTol ∧ nlpError p (determine of df dx dc dd) hom sqrt b i sMax muTarget ≤ tol := by
  have key := check_converged h (by show p.nx ≠ 0; omega)
  simp only [observe, c1, c2, c3, c4, Num.fin_le_fin] at key
  exact ⟨kkt_of_le hO hC hB key.2.1 key.2.2.1 key.2.2.2, key.1⟩

/-- Likewise for "acceptable" with the acceptable tolerances. -/
theorem acceptable_kkt (hO : Ok p (df * of) dx dc dd hom) (hC : Corr p (df * of) dx dc dd i u) (hB : BndCorr p dx dd b ub) {sMax muTarget tol dualTol violTol complTol : ℚ}
    {cfg : Alg.CCfg} (c1 : cfg.accTol = .fin tol) (c2 : cfg.accDualTol = .fin dualTol) (c3 : cfg.accViolTol = .fin violTol) (c4 : cfg.accComplTol = .fin complTol)
    {cb : Bool} {st st' : Alg.CSt} {o : Alg.Obs}
    (h : Alg.check cfg cb st (observe p (determine of df dx dc dd) hom sqrt b i sMax muTarget o) = (some .acceptable, st')) :
    Kkt p ub u (muTarget / (df * of)) dualTol violTol complTol ∧ nlpError p (determine of df dx dc dd) hom sqrt b i sMax muTarget ≤ tol := by
  have key := check_acceptable h
  unfold Alg.isAcceptable at key
  simp only [observe, c1, c2, c3, c4, Num.fin_le_fin, Bool.and_eq_true, decide_eq_true_eq] at key
  exact ⟨kkt_of_le hO hC hB key.1.1.1.2 key.1.1.2 key.1.2, key.1.1.1.1⟩

/-- Hence the delivered multipliers of the inequality constraints have the right signs up to the tolerance: no upper bound: at most `dual_inf_tol`, no lower bound: at
least `-dual_inf_tol` (the multipliers of the slacks' bounds are nonnegative). -/
theorem multiplier_signs {target dualTol violTol complTol : ℚ} (h : Kkt p ub u target dualTol violTol complTol) (hL : ∀ v ∈ u.vL, 0 ≤ v) (hU : ∀ v ∈ u.vU, 0 ≤ v) {j : Nat} (hj : j < p.nd) :
    (j ∉ p.posDU → u.pt.yd.getD j 0 ≤ dualTol) ∧ (j ∉ p.posDL → -dualTol ≤ u.pt.yd.getD j 0) := by
  have hr := abs_le.1 (h.2.1 j hj)
  unfold lagS at hr
  have nn : ∀ (pos : List Nat) (v : List ℚ), (∀ a ∈ v, 0 ≤ a) → 0 ≤ attached pos v j := by
    intro pos v hv
    apply Finset.sum_nonneg
    intro k hk
    split
    · by_cases hl : k < v.length
      · rw [List.getD_eq_getElem?_getD, List.getElem?_eq_getElem hl]; exact hv _ (List.getElem_mem _)
      · rw [List.getD_eq_getElem?_getD, List.getElem?_eq_none (by omega)]; exact le_refl _
    · exact le_refl _
  have nl := nn p.posDL u.vL hL
  have nu := nn p.posDU u.vU hU
  refine ⟨fun hn => ?_, fun hn => ?_⟩
  · have : attached p.posDU u.vU j = 0 := sum_none hn (fun k => u.vU.getD k 0)
    rw [this] at hr
    linarith [hr.1]
  · have : attached p.posDL u.vL j = 0 := sum_none hn (fun k => u.vL.getD k 0)
    rw [this] at hr
    linarith [hr.2]
end

/-! ### The hypotheses are met -/

namespace Ex

/-- minimize `x₀ + x₁` subject to `x₀ - x₁ = 1`, `x₀ + x₁ ≥ 2`, `x₁ ≥ 0`. -/
def P : Prob ℚ where
  nx := 2
  nc := 1
  nd := 1
  f := fun x => x.getD 0 0 + x.getD 1 0
  gradF := fun _ => [1, 1]
  c := fun x => [x.getD 0 0 - x.getD 1 0 - 1]
  d := fun x => [x.getD 0 0 + x.getD 1 0]
  jacC := fun _ => .genT 1 2 [⟨1, 1, 1⟩, ⟨1, 2, -1⟩]
  jacD := fun _ => .genT 1 2 [⟨1, 1, 1⟩, ⟨1, 2, 1⟩]
  hess := fun _ _ _ _ => .zeroSym 2
  posXL := [1]
  posXU := []
  posDL := [0]
  posDU := []

/-- point and multipliers of the user, close to the solution. -/
def U : It ℚ := ⟨⟨[3/2, 1/2], [0], [-1], [1/1000], []⟩, [2 + 1/1000], [1], []⟩
@[inherit_doc U] def UB : Bnd ℚ := ⟨[0], [], [2], [], none⟩
/-- the same, scaled: objective factor 4, variables 2 and 5, constraints 10 and 3. -/
def I : It ℚ := ⟨⟨[3, 5/2], [0], [-4/3], [4/5000], []⟩, [6 + 3/1000], [4/3], []⟩
@[inherit_doc I] def B : Bnd ℚ := ⟨[0], [], [6], [], none⟩

theorem ok : Ok P (4 * 1) (some [2, 5]) (some [10]) (some [3]) (fun _ => none) := by
  refine ⟨⟨fun _ => rfl, fun _ => rfl, fun _ => rfl, fun _ => rfl, fun _ => rfl, by decide, by decide, by decide, by decide, by decide, by decide, by decide, by decide⟩, ?_, ?_, ?_, by norm_num, ?_, ?_, ?_⟩
  · intro x; simp [P, WF]
  · intro x; simp [P, WF]
  · intro x s h; cases h
  · intro v hv; simp only [Option.some.injEq] at hv; subst hv; decide +kernel
  · intro v hv; simp only [Option.some.injEq] at hv; subst hv; decide +kernel
  · intro v hv; simp only [Option.some.injEq] at hv; subst hv; decide +kernel

theorem corr : Corr P (4 * 1) (some [2, 5]) (some [10]) (some [3]) I U := by
  refine ⟨⟨rfl, rfl, ?_⟩, ⟨rfl, rfl, ?_⟩, ⟨rfl, rfl, ?_⟩, ⟨rfl, rfl, ?_⟩, ⟨rfl, rfl, ?_⟩, ⟨rfl, rfl, ?_⟩, ⟨rfl, rfl, ?_⟩, ⟨rfl, rfl, ?_⟩⟩ <;> decide +kernel

theorem bcorr : BndCorr P (some [2, 5]) (some [3]) B UB := by
  refine ⟨⟨rfl, rfl, ?_⟩, ⟨rfl, rfl, ?_⟩, ⟨rfl, rfl, ?_⟩, ⟨rfl, rfl, ?_⟩⟩ <;> decide +kernel

def cfg : Alg.CCfg := ⟨.fin (1/100), .fin (1/100), .fin (1/100), .fin (1/100), 3, .fin (1/10), .fin (1/10), .fin (1/10), .fin (1/10), .pinf, .pinf, 10, .pinf, .pinf⟩
def obs : Alg.Obs := ⟨true, 0, 0, .nan, .nan, .nan, .nan, .fin 8, .fin 3, .fin 0, .fin 0⟩

/-- the check is passed, with nonzero errors. -/
theorem converged : (Alg.check cfg true Alg.CSt.init (observe P (determine 1 4 (some [2, 5]) (some [10]) (some [3])) (fun _ => none) id B I 100 0 obs)).1 = some .converged ∧
    unscaledDualInf P (determine 1 4 (some [2, 5]) (some [10]) (some [3])) (fun _ => none) id I .max = 1/1000 ∧
    unscaledComplementarity P (determine 1 4 (some [2, 5]) (some [10]) (some [3])) (fun _ => none) id B I 0 .max = 1/1000 := by decide +kernel

/-! ### Where the code deviates: the slack of an inequality constraint is not compared with the constraint -/

/-- minimize `x` subject to `x ≥ 0`, given as an inequality constraint. -/
def P1 : Prob ℚ where
  nx := 1
  nc := 0
  nd := 1
  f := fun x => x.getD 0 0
  gradF := fun _ => [1]
  c := fun _ => []
  d := fun x => [x.getD 0 0]
  jacC := fun _ => .genT 0 1 []
  jacD := fun _ => .genT 1 1 [⟨1, 1, 1⟩]
  hess := fun _ _ _ _ => .zeroSym 1
  posXL := []
  posXU := []
  posDL := [0]
  posDU := []

/-- At `x = 5`, slack `1/10^9`, multiplier `-1` the check says "converged", all reported errors are at most `10^-8`, but multiplier times distance to the bound is 5 and
the solution of the problem is `x = 0`. -/
theorem slack_not_compared :
    let it : It ℚ := ⟨⟨[5], [], [-1], [], []⟩, [1/1000000000], [1], []⟩
    let bb : Bnd ℚ := ⟨[], [], [0], [], none⟩
    (Alg.check { cfg with tol := .fin (1/100000000) } true Alg.CSt.init (observe P1 (determine 1 1 none none none) (fun _ => none) id bb it 100 0 obs)).1 = some .converged ∧
    unscaledNlpError P1 (determine 1 1 none none none) (fun _ => none) id bb it 0 ≤ 1/100000000 ∧
    (P1.d it.pt.x).getD 0 0 * it.pt.yd.getD 0 0 = -5 := by decide +kernel

end Ex
end Verif.KktErr
