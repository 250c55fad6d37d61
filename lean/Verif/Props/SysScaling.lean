import Verif.Proof.SysScaling
import Verif.Props.AugSolve

/-! # C87: scaling of the linear systems

`linear_system_scaling` with values `slack-based` and `mc19`: the factors are never zero, so that the system that is solved is the one that
was asked for. -/

namespace Verif.SysScaling
open Finset Verif.Matrix
open Verif.AugSolve (Contract Env Known Reach Hist Args Quad State SolvesQuad TSym scaleVec)

set_option linter.unusedSectionVars false
set_option linter.unusedSimpArgs false
set_option linter.unusedVariables false

section
variable {K : Type} [Field K] [LinearOrder K] [IsStrictOrderedRing K]

/-- C87: the slack based factors: 1 for variables and multipliers; for an inequality the sum of the slacks to its bounds, at most 1. -/
theorem slack_factors {hom : List K → Option K} (hh : HomOK hom) (junk old : Nat → K) {it : Iter K} (h : it.OK) :
    (∀ i, i < it.nx → slackFactors hom junk it old i = 1) ∧
    (∀ j l u, j < it.ns → IsSlack it.posL it.slackL j l → IsSlack it.posU it.slackU j u →
      slackFactors hom junk it old (it.nx + j) = min (l.getD 0 + u.getD 0) 1) ∧
    (∀ j, j < it.nc + it.nd → slackFactors hom junk it old (it.nx + it.ns + j) = 1) ∧
    ∀ j, slackFactors hom junk it old (it.nx + it.ns + it.nc + it.nd + j) = old (it.nx + it.ns + it.nc + it.nd + j) := by
  refine ⟨fun i hi => ?_, fun j l u hj hl hu => ?_, fun j hj => ?_, fun j => ?_⟩
  · simp [slackFactors, hi]
  · unfold slackFactors
    rw [if_neg (by omega), if_pos (by omega), show it.nx + j - it.nx = j by omega, slackTmp_get hh junk h hj hl hu]
  · unfold slackFactors
    rw [if_neg (by omega), if_neg (by omega), if_pos (by omega)]
  · unfold slackFactors
    rw [if_neg (by omega), if_neg (by omega), if_neg (by omega)]

/-- C87: if every inequality has a bound, all factors are in (0, 1]. -/
theorem slack_range {hom : List K → Option K} (hh : HomOK hom) (junk old : Nat → K) {it : Iter K} (h : it.OK)
    (hb : ∀ j, j < it.ns → j ∈ it.posL ∨ j ∈ it.posU) {i : Nat} (hi : i < it.nx + it.ns + it.nc + it.nd) :
    0 < slackFactors hom junk it old i ∧ slackFactors hom junk it old i ≤ 1 := by
  obtain ⟨a, b, c, _⟩ := slack_factors hh junk old h
  by_cases h1 : i < it.nx
  · rw [a i h1]; exact ⟨one_pos, le_refl _⟩
  by_cases h2 : i < it.nx + it.ns
  · obtain ⟨l, hl⟩ := isSlack_total it.posL it.slackL h.lenL (i - it.nx)
    obtain ⟨u, hu⟩ := isSlack_total it.posU it.slackU h.lenU (i - it.nx)
    have e := b (i - it.nx) l u (by omega) hl hu
    rw [show it.nx + (i - it.nx) = i by omega] at e
    rw [e]
    refine ⟨lt_min ?_ one_pos, min_le_right _ _⟩
    have hl0 : 0 ≤ l.getD 0 := by
      cases l with
      | none => exact le_refl _
      | some v => exact (h.posSlackL v (isSlack_mem hl)).le
    have hu0 : 0 ≤ u.getD 0 := by
      cases u with
      | none => exact le_refl _
      | some v => exact (h.posSlackU v (isSlack_mem hu)).le
    rcases hb (i - it.nx) (by omega) with m | m
    · obtain ⟨v, rfl⟩ := isSlack_some hl m
      have := h.posSlackL v (isSlack_mem hl)
      exact add_pos_of_pos_of_nonneg this hu0
    · obtain ⟨v, rfl⟩ := isSlack_some hu m
      have := h.posSlackU v (isSlack_mem hu)
      exact add_pos_of_nonneg_of_pos hl0 this
  · have e := c (i - (it.nx + it.ns)) (by omega)
    rw [show it.nx + it.ns + (i - (it.nx + it.ns)) = i by omega] at e
    rw [e]; exact ⟨one_pos, le_refl _⟩

/-- C87: with slack based scaling, on top of any sparse solver that keeps its contract, a successful solve of the augmented system solves
the system that was asked for, in every history, provided every inequality constraint has a bound.  Missing: inequalities without a bound,
for which it is false (`slack_free_row_partial`). -/
theorem slack_solution_partial {B : Type} {E : Env K B} {Rep : B → Known K → Prop} (C : Contract E Rep) {hom : List K → Option K}
    (hh : HomOK hom) (junk : Nat → K) (cur : B → Iter K) (hc : ∀ b k, Rep b k → (cur b).OK ∧ ∀ j, j < (cur b).ns → j ∈ (cur b).posL ∨ j ∈ (cur b).posU)
    {matOf : Nat → Mat K} {vecOf : Nat → List K} {s : State K B} {h : Hist K} (R : Reach (withSlack hom junk cur E) Rep matOf vecOf s h)
    {a : Args K} {rhs sol : List (Quad K)} (A : h.Allows matOf vecOf a rhs sol) (fuel : Nat) (chk : Bool) (neg : Nat) {out : List (Quad K)}
    {s' : State K B} (hcall : s.multiSolve (withSlack hom junk cur E) matOf vecOf fuel a rhs sol chk neg = (.ret .success, out, s')) :
    out.length = sol.length ∧ ∀ i (h1 : i < rhs.length) (h2 : i < out.length),
      (out[i]).Dim (a.contents matOf vecOf) ∧ SolvesQuad (a.contents matOf vecOf) out[i] rhs[i] := by
  refine AugSolve.multiSolve_success_solves (E := withSlack hom junk cur E) (Rep := Rep) ?_ R A fuel chk neg hcall
  exact {
    init := C.init
    initScaling := fun b k r => r
    struct := C.struct
    store := C.store
    quality := C.quality
    scale := fun b k d n ir jc a r => ⟨r, fun f hf i hi => by
      have hf' : some (slackFactors hom junk (cur b) fun _ => 1) = some f := hf
      cases hf'
      by_cases hi2 : i < (cur b).nx + (cur b).ns + (cur b).nc + (cur b).nd
      · exact (slack_range hh junk _ (hc b k r).1 (hc b k r).2 hi2).1.ne'
      · unfold slackFactors
        rw [if_neg (by omega), if_neg (by omega), if_neg hi2]
        exact one_ne_zero⟩
    solveOK := C.solveOK
    solveAgain := C.solveAgain
    solveFail := C.solveFail
    sort := C.sort }

/-- C87: an inequality without bounds gets the factor 0: whatever the matrix and its perturbations, the scaled matrix is singular, and
whatever the sparse solver returns, its component of the solution is 0. -/
theorem slack_free_row_partial {hom : List K → Option K} (hh : HomOK hom) (junk old : Nat → K) {it : Iter K} (h : it.OK) {j : Nat} (hj : j < it.ns)
    (hl : j ∉ it.posL) (hu : j ∉ it.posU) :
    slackFactors hom junk it old (it.nx + j) = 0 ∧
    (∀ (n : Nat) (A : Nat → Nat → K), it.nx + j < n → ∃ v : Nat → K, (∃ c, c < n ∧ v c ≠ 0) ∧ ∀ r, r < n →
      ∑ c ∈ range n, slackFactors hom junk it old r * A r c * slackFactors hom junk it old c * v c = 0) ∧
    ∀ (st : TSym K) (i : Nat) (arr : Nat → K), st.useScaling = true → st.factors = slackFactors hom junk it old → it.nx + j < st.dim →
      scaleVec st i arr (i * st.dim + (it.nx + j)) = 0 := by
  have e0 : slackFactors hom junk it old (it.nx + j) = 0 := by
    have := (slack_factors hh junk old h).2.1 j none none hj hl hu
    rw [this]; simp
  refine ⟨e0, fun n A hn => ?_, fun st i arr h1 h2 h3 => ?_⟩
  · refine ⟨fun c => if c = it.nx + j then 1 else 0, ⟨_, hn, by simp⟩, fun r hr => ?_⟩
    apply sum_eq_zero
    intro c hc
    by_cases e : c = it.nx + j
    · rw [e, e0]; simp
    · simp [e]
  · unfold scaleVec
    rw [if_pos h1, h2]
    rw [AugSolve.loopMod_apply, if_pos ⟨Nat.le_add_right _ _, by omega⟩, show i * st.dim + (it.nx + j) - i * st.dim = it.nx + j by omega, e0, mul_zero]

end

/-- C87: `mc19a` gets the matrix of the linear system, and the arrays made for it are long enough. -/
theorem mc19_matrix {K : Type} [Field K] (nnz : Nat) (airn ajcn : Nat → Nat) (a : Nat → K) :
    (∀ r c, genElem (general airn ajcn a nnz) r c = Triplet.symElem nnz airn ajcn a r c) ∧ (general airn ajcn a nnz).length ≤ 2 * nnz :=
  ⟨fun r c => general_elem airn ajcn a nnz r c, general_length airn ajcn a nnz⟩

/-- C87: whatever `mc19a` returns, if the exponential function returns a positive number, infinity or NaN, then all factors are finite,
positive, and at most 1e40.  If its results are finite and at most 1e40 they are the factors. -/
theorem mc19_range {K : Type} (mc19 : Nat → List (Nat × Nat × K) → Nat → Num × Num) (expMean : Num → Num → Num)
    (hexp : ∀ r c q, expMean r c = .fin q → 0 < q) (n nnz : Nat) (airn ajcn : Nat → Nat) (a : Nat → K) :
    (∀ i, i < n → PosLe (mc19Factors mc19 expMean n nnz airn ajcn a i) (10 ^ 40)) ∧
    ((∀ i, i < n → ∃ q, expMean (mc19 n (general airn ajcn a nnz) i).1 (mc19 n (general airn ajcn a nnz) i).2 = .fin q ∧ q ≤ 10 ^ 40) →
      ∀ i, mc19Factors mc19 expMean n nnz airn ajcn a i = expMean (mc19 n (general airn ajcn a nnz) i).1 (mc19 n (general airn ajcn a nnz) i).2) ∧
    ((∃ i, i < n ∧ ¬ ∃ q, expMean (mc19 n (general airn ajcn a nnz) i).1 (mc19 n (general airn ajcn a nnz) i).2 = .fin q ∧ q ≤ 10 ^ 40) →
      ∀ i, mc19Factors mc19 expMean n nnz airn ajcn a i = .fin 1) := by
  unfold mc19Factors
  set f : Nat → Num := fun i => expMean (mc19 n (general airn ajcn a nnz) i).1 (mc19 n (general airn ajcn a nnz) i).2 with hf
  have one : PosLe (.fin 1) (10 ^ 40) := ⟨1, rfl, one_pos, by norm_num⟩
  by_cases hs : ∃ q, (sumMax f n).1 = .fin q
  · obtain ⟨q, hq⟩ := hs
    obtain ⟨h1, m, h2, h3⟩ := sumMax_spec f n hq
    have e1 : (sumMax f n).1.isFinite = true := by rw [hq]; rfl
    by_cases hm : (10 : ℚ) ^ 40 < m
    · have e2 : decide (Num.fin (10 ^ 40) < (sumMax f n).2) = true := by rw [h2]; simpa using hm
      rw [if_pos (by rw [e2]; simp)]
      refine ⟨fun i hi => one, fun hall => ?_, fun _ i => rfl⟩
      obtain ⟨m', hm', hb⟩ := sumMax_max f n (10 ^ 40) (by norm_num) hall
      rw [h2] at hm'
      cases hm'
      exact absurd hm (not_lt.2 hb)
    · have e2 : decide (Num.fin (10 ^ 40) < (sumMax f n).2) = false := by rw [h2]; simpa using hm
      rw [if_neg (by rw [e1, e2]; simp)]
      refine ⟨fun i hi => ?_, fun _ i => rfl, fun ⟨i, hi, hn⟩ => ?_⟩
      · obtain ⟨x, hx⟩ := h1 i hi
        exact ⟨x, hx, hexp _ _ _ hx, (h3 i x hi hx).trans (not_lt.1 hm)⟩
      · obtain ⟨x, hx⟩ := h1 i hi
        exact absurd ⟨x, hx, (h3 i x hi hx).trans (not_lt.1 hm)⟩ hn
  · have e1 : (sumMax f n).1.isFinite = false := by
      cases h : (sumMax f n).1 with
      | fin q => exact absurd ⟨q, h⟩ hs
      | _ => rfl
    rw [if_pos (by rw [e1]; simp)]
    refine ⟨fun i hi => one, fun hall => ?_, fun _ i => rfl⟩
    exact absurd (sum_finite f n fun i hi => let ⟨q, h, _⟩ := hall i hi; ⟨q, h⟩) hs

/-- C87: with MC19, on top of any sparse solver that keeps its contract, a successful solve of the augmented system solves the system that
was asked for, in every history, whatever `mc19a` returns, provided the exponential function does not underflow to 0. -/
theorem mc19_solution {B : Type} {E : Env ℚ B} {Rep : B → Known ℚ → Prop} (C : Contract E Rep)
    (mc19 : Nat → List (Nat × Nat × ℚ) → Nat → Num × Num) (expMean : Num → Num → Num) (hexp : ∀ r c q, expMean r c = .fin q → 0 < q)
    {matOf : Nat → Mat ℚ} {vecOf : Nat → List ℚ} {s : State ℚ B} {h : Hist ℚ} (R : Reach (withMc19 mc19 expMean E) Rep matOf vecOf s h)
    {a : Args ℚ} {rhs sol : List (Quad ℚ)} (A : h.Allows matOf vecOf a rhs sol) (fuel : Nat) (chk : Bool) (neg : Nat) {out : List (Quad ℚ)}
    {s' : State ℚ B} (hcall : s.multiSolve (withMc19 mc19 expMean E) matOf vecOf fuel a rhs sol chk neg = (.ret .success, out, s')) :
    out.length = sol.length ∧ ∀ i (h1 : i < rhs.length) (h2 : i < out.length),
      (out[i]).Dim (a.contents matOf vecOf) ∧ SolvesQuad (a.contents matOf vecOf) out[i] rhs[i] := by
  refine AugSolve.multiSolve_success_solves (E := withMc19 mc19 expMean E) (Rep := Rep) ?_ R A fuel chk neg hcall
  exact {
    init := C.init
    initScaling := fun b k r => r
    struct := C.struct
    store := C.store
    quality := C.quality
    scale := fun b k d n ir jc a r => ⟨r, fun f hf i hi => by
      have hf' : some (fun i => toQ (mc19Factors mc19 expMean d n ir jc a i)) = some f := hf
      cases hf'
      obtain ⟨q, hq, h0, _⟩ := (mc19_range mc19 expMean hexp d n ir jc a).1 i hi
      show toQ (mc19Factors mc19 expMean d n ir jc a i) ≠ 0
      rw [hq]
      exact h0.ne'⟩
    solveOK := C.solveOK
    solveAgain := C.solveAgain
    solveFail := C.solveFail
    sort := C.sort }

/-! ## Concrete cases -/

/-- two variables, four inequalities (lower bound; both bounds; upper bound; none), one equality. -/
def demoIter : Iter ℚ := ⟨2, 4, 1, 4, [0, 1], [2, 1], [1 / 2, 1 / 3], [7, 1 / 4]⟩

theorem demo_slack : (List.range 12).map (slackFactors (fun _ => none) (fun _ => 77) demoIter fun _ => 5) =
    [1, 1, 1 / 2, 7 / 12, 1, 0, 1, 1, 1, 1, 1, 5] := by decide +kernel

theorem demo_ok : demoIter.OK := by
  constructor <;> decide +kernel

/-- the exponential function, on three values: of an ordinary one, of a very large one (overflow to infinity), of a very small one. -/
def demoExp (r _ : Num) : Num := if r = .fin 0 then .fin 3 else if r = .fin 5 then .pinf else if r = .fin (-5) then .fin 0 else .nan

/-- MC19 factors: used as they are; replaced by 1 if one is infinite or NaN; but a factor 0 (underflow of `exp`) is kept. -/
theorem demo_mc19 :
    (List.range 2).map (mc19Factors (K := ℚ) (fun _ _ _ => (.fin 0, .fin 0)) demoExp 2 1 (fun _ => 1) (fun _ => 2) (fun _ => 1)) = [.fin 3, .fin 3] ∧
    (List.range 2).map (mc19Factors (K := ℚ) (fun _ _ i => (if i = 0 then .fin 0 else .fin 5, .fin 0)) demoExp 2 1 (fun _ => 1) (fun _ => 2)
      (fun _ => 1)) = [.fin 1, .fin 1] ∧
    (List.range 2).map (mc19Factors (K := ℚ) (fun _ _ i => (if i = 0 then .fin 0 else .nan, .fin 0)) demoExp 2 1 (fun _ => 1) (fun _ => 2)
      (fun _ => 1)) = [.fin 1, .fin 1] ∧
    (List.range 2).map (mc19Factors (K := ℚ) (fun _ _ i => (if i = 0 then .fin 0 else .fin (-5), .fin 0)) demoExp 2 1 (fun _ => 1) (fun _ => 2)
      (fun _ => 1)) = [.fin 3, .fin 0] := by decide +kernel

/-! ### The whole stack: the system of the example of C60 -/

open Verif.AugSolve (demoEnv demoMat demoDiag demoArgs demoRhs demoSol startF initF solveF demoRep demo_allows demo_contract Quad.all)

/-- the iterate of the example: the inequality has a lower bound with slack 1/2. -/
def iter1 : Iter ℚ := ⟨2, 1, 1, 1, [0], [], [1 / 2], []⟩
/-- the same without bound. -/
def iter0 : Iter ℚ := ⟨2, 1, 1, 1, [], [], [], []⟩
/-- the sparse solver knows the solutions of the two scaled systems. -/
def answers : List (Nat → ℚ) := [fun i => [1, 2, 6, 4, 5].getD i 0, fun i => [-1 / 2, 7 / 2, 0, 4, 8].getD i 0]
/-- the environment. -/
abbrev E1 (it : Iter ℚ) : Env ℚ (Known ℚ) := withSlack (fun _ => none) (fun _ => 9) (fun _ => it) (demoEnv (.csr 1) answers)
/-- after initialization. -/
def st1 (it : Iter ℚ) : State ℚ (Known ℚ) := (initF (E1 it) false false (startF (E1 it) Known.fresh)).2

theorem demo_values : (initF (E1 iter1) false false (startF (E1 iter1) Known.fresh)).1 = some true ∧
    (solveF (E1 iter1) demoMat demoDiag 5 demoArgs [demoRhs] [demoSol] true 2 (st1 iter1)).1 = .ret .success ∧
    (solveF (E1 iter1) demoMat demoDiag 5 demoArgs [demoRhs] [demoSol] true 2 (st1 iter1)).2.1.map Quad.all = [[1, 2, 3, 4, 5]] := by
  decide +kernel

/-- the hypotheses of `slack_solution_partial` are met. -/
theorem demo_reach : Contract (demoEnv (.csr 1) answers) demoRep ∧ HomOK (fun _ : List ℚ => none) ∧ iter1.OK ∧
    (∀ j, j < iter1.ns → j ∈ iter1.posL ∨ j ∈ iter1.posU) ∧ Reach (E1 iter1) demoRep demoMat demoDiag (st1 iter1) ⟨true, none, none⟩ ∧
    (⟨true, none, none⟩ : Hist ℚ).Allows demoMat demoDiag demoArgs [demoRhs] [demoSol] := by
  refine ⟨demo_contract _ _, fun l s e => by simp at e, by constructor <;> decide +kernel, by decide, ?_, demo_allows⟩
  have r0 : Reach (E1 iter1) demoRep demoMat demoDiag (startF (E1 iter1) Known.fresh) ⟨false, none, none⟩ :=
    .start _ ⟨fun S e => e, rfl, fun v e => e, rfl⟩
  have := Reach.init false false r0
  have v := demo_values.1
  unfold initF at v
  rw [v] at this
  exact this

/-- An inequality without bounds: the sparse solver keeps its contract (it finds a solution of the singular scaled system), success is
reported, and the result, with 0 for the slack, is not the solution (which is 1, …, 5). -/
theorem slack_free_row_wrong :
    (solveF (E1 iter0) demoMat demoDiag 5 demoArgs [demoRhs] [demoSol] true 2 (st1 iter0)).1 = .ret .success ∧
    (solveF (E1 iter0) demoMat demoDiag 5 demoArgs [demoRhs] [demoSol] true 2 (st1 iter0)).2.1.map Quad.all = [[-1 / 2, 7 / 2, 0, 4, 8]] := by
  decide +kernel

end Verif.SysScaling
