import Verif.Proof.AugSolveDemo

/-! # C60: a successful solve of the augmented system is a solution of the system of this call

`MultiSolve` of the augmented system solver, on top of the linear solver with matrix format conversion and scaling, over any history of
calls: (re-)initializations, requests for higher quality, solves with changing or unchanged matrices, failures. -/

namespace Verif.AugSolve
open Verif.Matrix Finset
open Verif.Triplet
open Verif.PDSystem (AugArgs kkt Aug mv mtv)

set_option linter.unusedSectionVars false
set_option linter.unusedSimpArgs false
set_option linter.unusedVariables false

section
variable {K B : Type} [Field K] [DecidableEq K]
variable {E : Env K B} {Rep : B → Known K → Prop} {matOf : Nat → Mat K} {vecOf : Nat → List K}

/-- C60: after any history of calls, if `MultiSolve` reports success then every solution returned has the right dimensions and solves the
augmented system with the matrices, diagonals and perturbations of this call and its right-hand side.  For every sparse solver and scaling
method that keep their contracts, every matrix format, any number of right-hand sides. -/
theorem multiSolve_success_solves (C : Contract E Rep) {s : State K B} {h : Hist K} (R : Reach E Rep matOf vecOf s h) {a : Args K}
    {rhs sol : List (Quad K)} (A : h.Allows matOf vecOf a rhs sol) (fuel : Nat) (chk : Bool) (neg : Nat) {out : List (Quad K)}
    {s' : State K B} (hcall : s.multiSolve E matOf vecOf fuel a rhs sol chk neg = (.ret .success, out, s')) :
    out.length = sol.length ∧ ∀ i (h1 : i < rhs.length) (h2 : i < out.length),
      (out[i]).Dim (a.contents matOf vecOf) ∧ SolvesQuad (a.contents matOf vecOf) out[i] rhs[i] := by
  obtain ⟨e, o, s2, h1, _, _, h2⟩ := multiSolve_correct C (reach_inv C R) A fuel chk neg
  rw [hcall] at h1
  cases h1
  exact h2 rfl

/-- C60: otherwise (singular, wrong inertia, fatal error, exception) the solution vectors are untouched. -/
theorem multiSolve_failure_keeps (C : Contract E Rep) {s : State K B} {h : Hist K} (R : Reach E Rep matOf vecOf s h) {a : Args K}
    {rhs sol : List (Quad K)} (A : h.Allows matOf vecOf a rhs sol) (fuel : Nat) (chk : Bool) (neg : Nat)
    (hcall : (s.multiSolve E matOf vecOf fuel a rhs sol chk neg).1 ≠ .ret .success) :
    (s.multiSolve E matOf vecOf fuel a rhs sol chk neg).2.1 = sol := by
  obtain ⟨e, o, s2, h1, _, h2, _⟩ := multiSolve_correct C (reach_inv C R) A fuel chk neg
  rw [h1] at hcall ⊢
  exact h2 hcall

/-- the calls, over a field. -/
abbrev startF (E : Env K B) (b : B) : State K B := State.start E b
@[inherit_doc startF] abbrev initF (E : Env K B) (warm demand : Bool) (s : State K B) : Option Bool × State K B := s.init E warm demand
@[inherit_doc startF] abbrev qualityF (E : Env K B) (s : State K B) : Bool × State K B := s.quality E
@[inherit_doc startF] abbrev solveF (E : Env K B) (matOf : Nat → Mat K) (vecOf : Nat → List K) (fuel : Nat) (a : Args K)
    (rhs sol : List (Quad K)) (chk : Bool) (neg : Nat) (s : State K B) : End × List (Quad K) × State K B :=
  s.multiSolve E matOf vecOf fuel a rhs sol chk neg

theorem reach_solve {s s' : State K B} {h h' : Hist K} (fuel a rhs sol chk neg) (R : Reach E Rep matOf vecOf s h)
    (A : h.Allows matOf vecOf a rhs sol) {e : End} (he : (s.multiSolve E matOf vecOf fuel a rhs sol chk neg).1 = e)
    (hh : h.afterSolve a e = h') (hs : s' = (s.multiSolve E matOf vecOf fuel a rhs sol chk neg).2.2) : Reach E Rep matOf vecOf s' h' := by
  subst he hh hs
  exact .solve fuel a rhs sol chk neg R A

theorem reach_quality {s s' : State K B} {h h' : Hist K} (R : Reach E Rep matOf vecOf s h) {e : Bool} (he : (s.quality E).1 = e)
    (hh : h.afterQuality e = h') (hs : s' = (s.quality E).2) : Reach E Rep matOf vecOf s' h' := by
  subst he hh hs
  exact .quality R

end

/-! ## A concrete history -/

/-- the objects with tags 1 (Hessian), 2 (Jc), 3 (Jd), 6 (another Hessian). -/
def demoMat : Nat → Mat ℚ
  | 1 => .symT 2 [⟨1, 1, 2⟩, ⟨2, 1, 1⟩, ⟨2, 2, 3⟩]
  | 2 => .genT 1 2 [⟨1, 1, 1⟩, ⟨1, 2, 1⟩]
  | 3 => .genT 1 2 [⟨1, 1, 1⟩, ⟨1, 2, -1⟩]
  | _ => .symT 2 [⟨1, 1, 3⟩, ⟨2, 1, 1⟩, ⟨2, 2, 4⟩]
/-- the diagonals with tags 4, 5. -/
def demoDiag : Nat → List ℚ
  | 4 => [1, 0]
  | _ => [4]

/-- arguments of the first call, … -/
def demoArgs : Args ℚ := ⟨some 1, 1, some 4, 0, some 5, 0, 2, none, 0, 3, none, 0⟩
/-- … and of a later call: other Hessian, no diagonal for x, perturbation. -/
def demoArgs2 : Args ℚ := ⟨some 6, 1, none, 1, some 5, 0, 2, none, 0, 3, none, 0⟩

/-- right-hand side 1. -/
def demoRhs : Quad ℚ := ⟨.dense [14, 6], .dense [7], .dense [3], .dense [-4]⟩
/-- right-hand side 2. -/
def demoRhs2 : Quad ℚ := ⟨.dense [15, 10], .dense [7], .dense [3], .dense [-4]⟩
/-- vectors for the solution. -/
def demoSol : Quad ℚ := ⟨.hom 2 0, .dense [0], .hom 1 0, .dense [0]⟩

/-- candidates of the solver: (1, …, 5), half of it, a quarter of it. -/
def demoAns : List (Nat → ℚ) := [fun i => i + 1, fun i => (i + 1) / 2, fun i => (i + 1) / 4]

/-- upper triangle by rows. -/
abbrev demoE : Env ℚ (Known ℚ) := demoEnv (.csr 1) demoAns

/-- after initialization with scaling on demand, … -/
def demo1 : State ℚ (Known ℚ) := (initF demoE false true (startF demoE Known.fresh)).2
/-- … a solve, … -/
def demo2 : State ℚ (Known ℚ) := (solveF demoE demoMat demoDiag 5 demoArgs [demoRhs] [demoSol] true 2 demo1).2.2
/-- … a request for higher quality (scaling is switched on), … -/
def demo3 : State ℚ (Known ℚ) := (qualityF demoE demo2).2
/-- … the same system again, … -/
def demo4 : State ℚ (Known ℚ) := (solveF demoE demoMat demoDiag 5 demoArgs [demoRhs] [demoSol] true 2 demo3).2.2

theorem demo_argsOK : ArgsOK (demoArgs.contents demoMat demoDiag) := by
  refine ⟨?_, ?_, ?_, rfl, ?_, ?_, ?_, ?_, by decide⟩
  · intro W hW
    simp [Args.contents, demoArgs] at hW
    subst hW
    simp [demoMat, WF, isSym, Supported, TriangleOK, Mat.dims, Args.contents, demoArgs]
  · simp [demoMat, WF, Supported, NoTriangle, Args.contents, demoArgs]
  · simp [demoMat, WF, Supported, NoTriangle, Args.contents, demoArgs]
  · simp [demoMat, demoDiag, Mat.dims, Args.contents, demoArgs]
  · simp [demoMat, demoDiag, Mat.dims, Args.contents, demoArgs]
  · simp [demoMat, demoDiag, Mat.dims, Args.contents, demoArgs]
  · simp [demoMat, demoDiag, Mat.dims, Args.contents, demoArgs]

theorem demo_argsOK2 : ArgsOK (demoArgs2.contents demoMat demoDiag) := by
  refine ⟨?_, ?_, ?_, rfl, ?_, ?_, ?_, ?_, by decide⟩
  · intro W hW
    simp [Args.contents, demoArgs2] at hW
    subst hW
    simp [demoMat, WF, isSym, Supported, TriangleOK, Mat.dims, Args.contents, demoArgs2]
  · simp [demoMat, WF, Supported, NoTriangle, Args.contents, demoArgs2]
  · simp [demoMat, WF, Supported, NoTriangle, Args.contents, demoArgs2]
  · simp [demoMat, demoDiag, Mat.dims, Args.contents, demoArgs2]
  · simp [demoMat, demoDiag, Mat.dims, Args.contents, demoArgs2]
  · simp [demoMat, demoDiag, Mat.dims, Args.contents, demoArgs2]
  · simp [demoMat, demoDiag, Mat.dims, Args.contents, demoArgs2]

theorem demo_dims : demoRhs.Dim (demoArgs.contents demoMat demoDiag) ∧ demoSol.Dim (demoArgs.contents demoMat demoDiag) ∧
    demoRhs2.Dim (demoArgs2.contents demoMat demoDiag) ∧ demoSol.Dim (demoArgs2.contents demoMat demoDiag) := by
  refine ⟨⟨?_, ?_, ?_, ?_⟩, ⟨?_, ?_, ?_, ?_⟩, ⟨?_, ?_, ?_, ?_⟩, ⟨?_, ?_, ?_, ?_⟩⟩ <;>
    simp [demoRhs, demoRhs2, demoSol, Vec.known, Vec.dim, Args.contents, demoArgs, demoArgs2, demoMat, Mat.dims]

/-- the elements of the four vectors. -/
def Quad.all (q : Quad ℚ) : List ℚ := q.vec.elems

theorem demo_values : (initF demoE false true (startF demoE Known.fresh)).1 = some true ∧
    (solveF demoE demoMat demoDiag 5 demoArgs [demoRhs] [demoSol] true 2 demo1).1 = .ret .success ∧
    (solveF demoE demoMat demoDiag 5 demoArgs [demoRhs] [demoSol] true 2 demo1).2.1.map Quad.all = [[1, 2, 3, 4, 5]] ∧
    (qualityF demoE demo2).1 = true ∧
    (solveF demoE demoMat demoDiag 5 demoArgs [demoRhs] [demoSol] true 2 demo3).1 = .ret .success ∧
    (solveF demoE demoMat demoDiag 5 demoArgs [demoRhs] [demoSol] true 2 demo3).2.1.map Quad.all = [[1, 2, 3, 4, 5]] ∧
    (solveF demoE demoMat demoDiag 5 demoArgs2 [demoRhs2] [demoSol] true 2 demo4).1 = .ret .success ∧
    (solveF demoE demoMat demoDiag 5 demoArgs2 [demoRhs2] [demoSol] true 2 demo4).2.1.map Quad.all = [[1, 2, 3, 4, 5]] := by
  decide +kernel

/-- the history of the four calls. -/
def demoHist : Hist ℚ := ⟨true, some demoArgs, some (demoArgs, .yes)⟩

theorem demo_allows : (⟨true, none, none⟩ : Hist ℚ).Allows demoMat demoDiag demoArgs [demoRhs] [demoSol] := by
  refine ⟨rfl, by decide, demo_argsOK, fun _ => by decide, fun f hf => by simp at hf, fun r hr => by simp at hr, rfl, ?_, ?_⟩
  · intro q hq; simp at hq; subst hq; exact demo_dims.1
  · intro q hq; simp at hq; subst hq; exact demo_dims.2.1

theorem demo_allows' : demoHist.Allows demoMat demoDiag demoArgs [demoRhs] [demoSol] := by
  refine ⟨rfl, by decide, demo_argsOK, fun h => by simp [demoHist] at h, fun f hf => ?_, fun r hr => ?_, rfl, ?_, ?_⟩
  · simp [demoHist] at hf; subst hf; exact like_refl demo_argsOK
  · simp [demoHist] at hr; exact hr.symm
  · intro q hq; simp at hq; subst hq; exact demo_dims.1
  · intro q hq; simp at hq; subst hq; exact demo_dims.2.1

/-- the hypotheses of C60 are met by a later call with another matrix, after a successful call, a request for quality that switched on the
scaling, and a repeated call. -/
theorem demo_reach : Reach demoE demoRep demoMat demoDiag demo2 demoHist ∧ Reach demoE demoRep demoMat demoDiag demo4 demoHist ∧
    demoHist.Allows demoMat demoDiag demoArgs2 [demoRhs2] [demoSol] := by
  obtain ⟨v1, v2, _, v3, v4, _, _, _⟩ := demo_values
  have r0 : Reach demoE demoRep demoMat demoDiag (startF demoE Known.fresh) ⟨false, none, none⟩ :=
    .start _ ⟨fun S e => e, rfl, fun v e => e, rfl⟩
  have r1 : Reach demoE demoRep demoMat demoDiag demo1 ⟨true, none, none⟩ := by
    have := Reach.init false true r0
    rw [v1] at this
    exact this
  have h2 : Hist.afterSolve (⟨true, none, none⟩ : Hist ℚ) demoArgs (.ret .success) = demoHist := by simp [Hist.afterSolve, demoHist]
  have h3 : Hist.afterQuality demoHist true = demoHist := by simp [Hist.afterQuality, demoHist]
  have h4 : Hist.afterSolve demoHist demoArgs (.ret .success) = demoHist := by simp [Hist.afterSolve, demoHist]
  have r2 : Reach demoE demoRep demoMat demoDiag demo2 demoHist :=
    reach_solve 5 demoArgs [demoRhs] [demoSol] true 2 r1 demo_allows v2 h2 rfl
  have r3 : Reach demoE demoRep demoMat demoDiag demo3 demoHist := reach_quality r2 v3 h3 rfl
  have r4 : Reach demoE demoRep demoMat demoDiag demo4 demoHist :=
    reach_solve 5 demoArgs [demoRhs] [demoSol] true 2 r3 demo_allows' v4 h4 rfl
  refine ⟨r2, r4, rfl, by decide, demo_argsOK2, fun h => by simp [demoHist] at h, fun f hf => ?_, fun r hr => ?_, rfl, ?_, ?_⟩
  · simp [demoHist] at hf
    subst hf
    refine ⟨fun W hW => ⟨demoMat 1, rfl, ?_⟩, ?_, ?_⟩
    · simp [Args.contents, demoArgs2] at hW
      subst hW
      exact .symT _ _ _ rfl
    · exact .genT _ _ _ _ rfl
    · exact .genT _ _ _ _ rfl
  · simp [demoHist, demoArgs, demoArgs2] at hr
  · intro q hq; simp at hq; subst hq; exact demo_dims.2.2.1
  · intro q hq; simp at hq; subst hq; exact demo_dims.2.2.2

/-- … after re-initialization with `warm_start_same_structure`. -/
def demo5 : State ℚ (Known ℚ) := (initF demoE true true demo4).2

/-- Why a call may not repeat its arguments after a warm re-initialization: the linear solver forgets that the factorization it holds is
of the scaled matrix (`use_scaling_` is reset, IpTSymLinearSolver.cpp:140-146) but not which matrix was factorized (`atag_`), so the
right-hand side is not scaled any more and a wrong solution is reported as success. -/
theorem warm_start_same_arguments_wrong : (initF demoE true true demo4).1 = some true ∧
    (solveF demoE demoMat demoDiag 5 demoArgs [demoRhs] [demoSol] true 2 demo5).1 = .ret .success ∧
    (solveF demoE demoMat demoDiag 5 demoArgs [demoRhs] [demoSol] true 2 demo5).2.1.map Quad.all = [[1/4, 1/2, 3/4, 1, 5/4]] ∧
    ¬ SolvesQuad (demoArgs.contents demoMat demoDiag) ⟨.dense [1/4, 1/2], .dense [3/4], .dense [1], .dense [5/4]⟩ demoRhs := by
  refine ⟨by decide +kernel, by decide +kernel, by decide +kernel, fun h => ?_⟩
  have := h.c 0 (by decide)
  revert this
  decide +kernel

end Verif.AugSolve
