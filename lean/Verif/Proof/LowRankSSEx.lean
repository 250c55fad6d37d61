import Mathlib.Data.Rat.Defs
import Mathlib.Algebra.Order.Ring.Rat
import Verif.Proof.LowRankSS2

/-! # A concrete solver inside the extended one, for the examples: one variable, rank 1 -/

set_option linter.unusedSectionVars false
set_option linter.unusedVariables false

namespace Verif.LowRank.SS
open _root_.Matrix Finset
open Verif.AugSolve (Status)

/-- the elements of the matrix of a system with one variable and one row. -/
def exA (a : Sys ℚ (Fin 1) (Fin 0 ⊕ Fin 1) (Fin 0)) : ℚ := a.Wfac * a.W 0 0 + (val a.Dx 0 + a.δx)
def exJ (a : Sys ℚ (Fin 1) (Fin 0 ⊕ Fin 1) (Fin 0)) : ℚ := a.Jc (.inr 0) 0
def exD (a : Sys ℚ (Fin 1) (Fin 0 ⊕ Fin 1) (Fin 0)) : ℚ := val a.Dc (.inr 0) - a.δc
def exDet (a : Sys ℚ (Fin 1) (Fin 0 ⊕ Fin 1) (Fin 0)) : ℚ := exA a * exD a - exJ a * exJ a

theorem ex_symm (a : Sys ℚ (Fin 1) (Fin 0 ⊕ Fin 1) (Fin 0)) : (kmat a).IsSymm :=
  kmat_symm a fun i j => by rw [Subsingleton.elim i j]

/-- Cramer's rule; the state is the number of negative eigenvalues of the last matrix. -/
noncomputable def exEnv : Env ℚ (Fin 1) (Fin 0 ⊕ Fin 1) (Fin 0) Int where
  inertia := true
  solve := fun a n rhs chk neg b =>
    if exDet a = 0 then (.singular, rhs, b)
    else (.success, fun i => ⟨fun _ => ((rhs i).x 0 * exD a - exJ a * (rhs i).c (.inr 0)) / exDet a, fun k => k.elim0,
      Sum.elim (fun k => k.elim0) (fun _ => (exA a * (rhs i).c (.inr 0) - exJ a * (rhs i).x 0) / exDet a), fun k => k.elim0⟩,
      ((exists_negIdx (ex_symm a)).choose : Nat))
  negEvals := fun b => b
  quality := fun b => (false, b)
  init := fun b => (true, b)
  potrf := fun n M => (false, M)
  potrs := fun _ _ v => v
  junk := fun _ => 0

theorem exEnv_exact : Exact exEnv := by
  intro a n rhs chk neg b h i hi
  simp only [exEnv] at h ⊢
  split_ifs at h ⊢ with h1
  have h1' : exA a * exD a - exJ a * exJ a ≠ 0 := h1
  refine ⟨fun j => ?_, fun k => k.elim0, fun k => ?_, fun k => k.elim0⟩
  · have : j = 0 := Subsingleton.elim _ _
    subst this
    simp only [Finset.univ_unique, Fin.default_eq_zero, Fin.isValue, Finset.sum_singleton, Finset.univ_eq_empty, Finset.sum_empty, add_zero,
      Fintype.sum_sum_type, Sum.elim_inr, zero_add]
    calc _ = exA a * (((rhs i).x 0 * exD a - exJ a * (rhs i).c (.inr 0)) / exDet a) +
          exJ a * ((exA a * (rhs i).c (.inr 0) - exJ a * (rhs i).x 0) / exDet a) := by unfold exA exJ; ring
      _ = (rhs i).x 0 * exDet a / exDet a := by unfold exDet; ring
      _ = (rhs i).x 0 := mul_div_cancel_right₀ _ h1
  · rcases k with k | k
    · exact k.elim0
    · have : k = 0 := Subsingleton.elim _ _
      subst this
      simp only [Finset.univ_unique, Fin.default_eq_zero, Fin.isValue, Finset.sum_singleton, Sum.elim_inr]
      calc _ = exJ a * (((rhs i).x 0 * exD a - exJ a * (rhs i).c (.inr 0)) / exDet a) +
            exD a * ((exA a * (rhs i).c (.inr 0) - exJ a * (rhs i).x 0) / exDet a) := by unfold exD exJ; ring
        _ = (rhs i).c (.inr 0) * exDet a / exDet a := by unfold exDet; ring
        _ = (rhs i).c (.inr 0) := mul_div_cancel_right₀ _ h1

theorem exEnv_counts : CountsNeg exEnv := by
  refine ⟨rfl, fun a rhs chk neg b h => ?_⟩
  simp only [exEnv] at h ⊢
  split_ifs at h ⊢ with h1
  exact ⟨_, (exists_negIdx (ex_symm a)).choose_spec, rfl⟩

/-- tag 2: `1 - u uᵀ` with `u = 2`; all others: `1 + v vᵀ` with `v = 1`. -/
def exHeap : Heap ℚ (Fin 1) (Fin 0) (Fin 0) (Fin 1) where
  lrw := fun t =>
    if t = 2 then .plain (some fun _ => 1) none (some ⟨1, fun _ _ => 2⟩)
    else .plain (some fun _ => 1) (some ⟨1, fun _ _ => 1⟩) none
  vx := fun _ _ => 0
  vs := fun _ k => k.elim0
  vc := fun _ k => k.elim0
  vd := fun _ k => k.elim0
  jc := fun _ k => k.elim0
  jd := fun _ k => k.elim0

theorem exHeap_one : OneSpace exHeap := by
  intro t t'
  simp only [exHeap]
  split_ifs <;> rfl

/-- a call with Hessian `t` and perturbation `δc`. -/
def exCall (t : Nat) (δ : ℚ) : Call ℚ := ⟨t, 1, none, 0, none, 0, 1, none, δ, 1, none, 0⟩

theorem exCall_ok (t δ) : (exCall t δ).OK := ⟨by simp [exCall], by simp [exCall], by simp [exCall], by simp [exCall]⟩

/-- a vector with the one element `v`. -/
def exQuad (v : ℚ) : Quad ℚ (Fin 1) (Fin 0) (Fin 0) := ⟨fun _ => v, fun k => k.elim0, fun k => k.elim0, fun k => k.elim0⟩

/-- the state after construction and initialisation. -/
noncomputable def exStart : SSt ℚ (Fin 1) (Fin 0) (Fin 1) 1 := ((SSt.start false 0 0).init exEnv 0).2.1
end Verif.LowRank.SS
