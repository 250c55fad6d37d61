import Mathlib.Data.Rat.Defs
import Mathlib.Algebra.Order.Ring.Rat
import Mathlib.LinearAlgebra.Matrix.NonsingularInverse
import Verif.Proof.LowRank4

/-! # A concrete solver inside, for the examples: one variable, no constraints -/

set_option linter.unusedSectionVars false
set_option linter.unusedVariables false

namespace Verif.LowRank
open _root_.Matrix Finset
open Verif.AugSolve (Status)

/-- `J Jᵀ x = v` has a solution. -/
theorem exists_potrs {n : Nat} {J : Nat → Nat → ℚ} (hJ : Lower n J) (v : Nat → ℚ) :
    ∃ x : Nat → ℚ, ∀ i, i < n → ∑ j ∈ range n, (∑ k ∈ range n, J i k * J j k) * x j = v i := by
  let M : Matrix (Fin n) (Fin n) ℚ := fun i j => ∑ k ∈ range n, J i k * J j k
  have hinj : Function.Injective M.mulVec := by
    intro x y hxy
    by_contra hne
    have h1 : x - y ≠ 0 := sub_ne_zero.2 hne
    have h2 := lower_pos hJ (M := M) (fun _ _ => rfl) _ h1
    have h3 : M *ᵥ (x - y) = 0 := by rw [mulVec_sub]; exact sub_eq_zero.2 hxy
    rw [h3, dotProduct_zero] at h2
    exact lt_irrefl _ h2
  have hu := Matrix.mulVec_injective_iff_isUnit.1 hinj
  obtain ⟨x, hx⟩ := Matrix.mulVec_surjective_iff_isUnit.2 hu (fun i : Fin n => v i)
  refine ⟨fun j => if h : j < n then x ⟨j, h⟩ else 0, fun i hi => ?_⟩
  have := congrFun hx ⟨i, hi⟩
  rw [Finset.sum_range]
  simp only [Fin.is_lt, dite_true, Fin.eta]
  exact this

open Classical in
/-- solve with the factor: formula for dimension 1, choice otherwise. -/
noncomputable def exPotrs (n : Nat) (J : Nat → Nat → ℚ) (v : Nat → ℚ) : Nat → ℚ :=
  if n = 1 then fun _ => v 0 / (J 0 0 * J 0 0)
  else if h : Lower n J then (exists_potrs h v).choose else v

/-- the one equation of a system with one variable. -/
def exCoef (a : Sys ℚ (Fin 1) (Fin 0) (Fin 0)) : ℚ := a.Wfac * a.W 0 0 + (val a.Dx 0 + a.δx)

/-- a solver for one variable, with the right inertia only if the coefficient is positive; Cholesky factors of 1, 25/16 and 16/25 only;
a matrix that is not positive is left as it is (as LAPACK does). -/
noncomputable def exEnv : Env ℚ (Fin 1) (Fin 0) (Fin 0) Int where
  inertia := true
  solve := fun a n rhs chk neg b =>
    if exCoef a = 0 then (.singular, rhs, b)
    else if chk = true ∧ exCoef a < 0 then (.wrongInertia, rhs, b)
    else (.success, fun i => ⟨fun _ => (rhs i).x 0 / exCoef a, fun k => k.elim0, fun k => k.elim0, fun k => k.elim0⟩, if exCoef a < 0 then 1 else 0)
  negEvals := fun b => b
  quality := fun b => (false, b)
  init := fun b => (true, b)
  potrf := fun n M =>
    if n = 1 then
      if M 0 0 = 1 then (true, fun _ _ => 1) else if M 0 0 = 25 / 16 then (true, fun _ _ => 5 / 4)
      else if M 0 0 = 16 / 25 then (true, fun _ _ => 4 / 5) else (false, M)
    else (false, M)
  potrs := exPotrs
  junk := fun _ => 0

theorem exEnv_contract : Contract exEnv where
  solve := by
    intro a n rhs chk neg b h i hi
    simp only [exEnv] at h ⊢
    split_ifs at h ⊢ with h1 h2 <;>
    refine ⟨fun j => ?_, fun k => k.elim0, fun k => k.elim0, fun k => k.elim0⟩
    all_goals
    have : j = 0 := Subsingleton.elim _ _
    subst this
    simp only [Finset.univ_unique, Fin.default_eq_zero, Fin.isValue, Finset.sum_singleton, Finset.univ_eq_empty, Finset.sum_empty, add_zero]
    have : exCoef a ≠ 0 := h1
    calc a.Wfac * (a.W 0 0 * ((rhs i).x 0 / exCoef a)) + (val a.Dx 0 + a.δx) * ((rhs i).x 0 / exCoef a)
        = exCoef a * ((rhs i).x 0 / exCoef a) := by unfold exCoef; ring
      _ = (rhs i).x 0 := mul_div_cancel₀ _ this
  potrf := by
    intro n M h
    simp only [exEnv] at h ⊢
    split_ifs at h ⊢ with h1 h2 h3 h4 <;> subst h1 <;> refine ⟨⟨fun i j hi hj hij => by omega, fun i hi => by norm_num⟩, fun i j hi hj => ?_⟩ <;>
    · have e1 : i = 0 := by omega
      have e2 : j = 0 := by omega
      subst e1; subst e2
      simp only [Finset.range_one, Finset.sum_singleton]
      first
        | rw [h2]; norm_num
        | rw [h3]; norm_num
        | rw [h4]; norm_num
  potrs := by
    intro n J v hJ i hi
    simp only [exEnv, exPotrs]
    by_cases h : n = 1
    · subst h
      have e1 : i = 0 := by omega
      subst e1
      simp only [if_true, Finset.range_one, Finset.sum_singleton]
      exact mul_div_cancel₀ _ (mul_ne_zero (hJ.2 0 hi) (hJ.2 0 hi))
    · rw [if_neg h, dif_pos hJ]
      exact (exists_potrs hJ v).choose_spec i hi

theorem exEnv_certifies : Certifies exEnv 0 := by
  refine ⟨rfl, fun a rhs b h => ?_⟩
  have h1 : 0 < exCoef a := by
    simp only [exEnv] at h
    split_ifs at h with h1 h2
    all_goals
    have := fun hlt => h2 ⟨trivial, hlt⟩
    exact lt_of_le_of_ne (not_lt.1 this) (Ne.symm h1)
  intro v _ _ h3
  have hx : v.x 0 ≠ 0 := by
    rcases h3 with h3 | h3
    · intro h0; exact h3 (funext fun i => by rw [Subsingleton.elim i 0, h0]; rfl)
    · exact absurd (funext fun k => k.elim0) h3
  simp only [Finset.univ_unique, Fin.default_eq_zero, Fin.isValue, Finset.sum_singleton, Finset.univ_eq_empty, Finset.sum_empty, add_zero, sub_zero]
  have : a.Wfac * (v.x 0 * a.W 0 0 * v.x 0) + (val a.Dx 0 + a.δx) * (v.x 0 * v.x 0) = exCoef a * (v.x 0 * v.x 0) := by
    unfold exCoef; ring
  rw [this]
  exact mul_pos h1 (mul_self_pos.2 hx)

theorem exEnv_counts : CountsNeg exEnv := by
  refine ⟨rfl, fun a rhs chk neg b h => ?_⟩
  have hq : ∀ v : Ix (Fin 1) (Fin 0) (Fin 0) → ℚ, qf (kmat a) v = exCoef a * (v (.inl (.inl 0)) * v (.inl (.inl 0))) := by
    intro v
    unfold qf exCoef
    simp [Matrix.mulVec, dotProduct, Fintype.sum_sum_type, kmat]
    ring
  have hv : ∀ v : Ix (Fin 1) (Fin 0) (Fin 0) → ℚ, v ≠ 0 → 0 < v (.inl (.inl 0)) * v (.inl (.inl 0)) := by
    intro v hne
    refine mul_self_pos.2 fun h0 => hne (funext fun i => ?_)
    rcases i with (i | i) | (i | i)
    · rw [Subsingleton.elim i 0, h0]; rfl
    all_goals exact i.elim0
  simp only [exEnv] at h ⊢
  split_ifs at h ⊢ with h1 h2 h3
  · refine ⟨1, ?_, rfl⟩
    have := negIdx_neg (D := kmat a) (fun w hw => by rw [hq]; exact mul_neg_of_neg_of_pos h3 (hv w hw))
    exact this
  · refine ⟨0, ?_, rfl⟩
    exact negIdx_pos (D := kmat a) (fun w hw => by rw [hq]; exact mul_pos (lt_of_le_of_ne (not_lt.1 h3) (Ne.symm h1)) (hv w hw))

/-- tag 1: `1 + v vᵀ - u uᵀ` with `v = u = 3/4`; tag 2: `1/4 - u uᵀ` with `u = 1`, not positive; tag 3: `1`. -/
def exHeap : Heap ℚ (Fin 1) (Fin 0) (Fin 0) (Fin 1) where
  lrw := fun t =>
    if t = 1 then .plain (some fun _ => 1) (some ⟨1, fun _ _ => 3 / 4⟩) (some ⟨1, fun _ _ => 3 / 4⟩)
    else if t = 2 then .plain (some fun _ => 1 / 4) none (some ⟨1, fun _ _ => 1⟩)
    else if t = 4 then .projected (fun _ _ => 1) none none none
    else .plain (some fun _ => 1) none none
  vx := fun _ _ => 0
  vs := fun _ k => k.elim0
  vc := fun _ k => k.elim0
  vd := fun _ k => k.elim0
  jc := fun _ k => k.elim0
  jd := fun _ k => k.elim0

/-- a call with the Hessian with tag `t`, factor `f` and perturbation `δ`. -/
def exCall (t : Nat) (f δ : ℚ) : Call ℚ := ⟨t, f, none, δ, none, 0, 1, none, 0, 1, none, 0⟩

theorem exCall_ok (t f δ) : (exCall t f δ).OK := ⟨by simp [exCall], by simp [exCall], by simp [exCall], by simp [exCall]⟩

/-- a vector with the one element `v`. -/
def exQuad (v : ℚ) : Quad ℚ (Fin 1) (Fin 0) (Fin 0) := ⟨fun _ => v, fun k => k.elim0, fun k => k.elim0, fun k => k.elim0⟩

/-- the state after construction and initialisation. -/
noncomputable def exStart : St ℚ (Fin 1) (Fin 0) (Fin 0) := ((St.start false 0).init exEnv 0).2.1
end Verif.LowRank
